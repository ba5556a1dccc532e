import Verif.Proof.Json
import Verif.Spec.TokenJson

/-! The JSON texts of tokens. -/

namespace Kagome

open Spec (Json ValidUtf8 dataJson textJson textsJson isWs readJson)

theorem reads_strings (short : Bool) (l : Option (List Bytes)) : Reads (textsJson l) (jsonStrings short l) := by
  cases l with
  | none => exact reads_null
  | some l =>
    have h := reads_arr (wo := []) (ws := []) (wc := []) (by simp) (by simp) (by simp)
      (l.map (fun s => (textJson s, jsonString short s))) (by
        intro x hx
        obtain ⟨s, _, rfl⟩ := List.mem_map.mp hx
        exact reads_str short s)
    unfold textsJson jsonStrings
    rw [show str "[" = [0x5B] from by decide, show str "]" = [0x5D] from by decide, str_comma]
    simpa [Function.comp_def] using h

theorem plain_name : ∀ n ∈ [str "id", str "start", str "end", str "surface", str "class", str "pos", str "base_form", str "reading",
    str "pronunciation", str "features", str "status", str "tokens"], ∀ b ∈ n, b ≠ 0x22 ∧ b ≠ 0x5C ∧ ¬ b < 0x20 := by decide +kernel

theorem reads_data (short : Bool) (t : TokenData) : Reads (dataJson t) (jsonTokenData short t) := by
  have h := reads_obj [
    ⟨str "id", .num t.id, itoa t.id⟩, ⟨str "start", .num t.start, itoa t.start⟩, ⟨str "end", .num t.stop, itoa t.stop⟩,
    ⟨str "surface", textJson t.surface, jsonString short t.surface⟩, ⟨str "class", textJson t.cls, jsonString short t.cls⟩,
    ⟨str "pos", textsJson t.pos, jsonStrings short t.pos⟩, ⟨str "base_form", textJson t.baseForm, jsonString short t.baseForm⟩,
    ⟨str "reading", textJson t.reading, jsonString short t.reading⟩,
    ⟨str "pronunciation", textJson t.pronunciation, jsonString short t.pronunciation⟩,
    ⟨str "features", textsJson t.features, jsonStrings short t.features⟩] (by
      intro x hx
      simp only [List.mem_cons, List.not_mem_nil, or_false] at hx
      rcases hx with rfl | rfl | rfl | rfl | rfl | rfl | rfl | rfl | rfl | rfl
      all_goals refine ⟨plain_name _ (by simp), ?_⟩
      all_goals first | exact reads_num _ | exact reads_str short _ | exact reads_strings short _)
  exact h

theorem reads_tokens (short : Bool) (l : List TokenData) : Reads (.arr (l.map dataJson)) (jsonTokens short (some l)) := by
  have h := reads_arr (wo := []) (ws := []) (wc := []) (by simp) (by simp) (by simp)
    (l.map (fun s => (dataJson s, jsonTokenData short s))) (by
      intro x hx
      obtain ⟨s, _, rfl⟩ := List.mem_map.mp hx
      exact reads_data short s)
  unfold jsonTokens
  rw [show str "[" = [0x5B] from by decide, show str "]" = [0x5D] from by decide, str_comma]
  simpa [Function.comp_def] using h

/-! ### Valid UTF-8 -/

theorem valid_str (s : String) : ValidUtf8 (str s) := ⟨s.toList, rfl⟩

theorem valid_ascii {b : UInt8} (h : b.toNat < 0x80) : ValidUtf8 [b] := by
  refine ⟨[Char.ofNat b.toNat], ?_⟩
  have hv : (Char.ofNat b.toNat).val.toNat = b.toNat := by
    have : b.toNat.isValidChar := Or.inl (by omega)
    rw [Char.ofNat, dif_pos this]
    rfl
  simp only [List.flatMap_cons, List.flatMap_nil, List.append_nil]
  rw [encode_ascii (by omega), hv, UInt8.ofNat_toNat]

theorem valid_join {sep : Bytes} (hs : ValidUtf8 sep) : ∀ {l : List Bytes}, (∀ x ∈ l, ValidUtf8 x) → ValidUtf8 (join sep l)
  | [], _ => valid_nil
  | [x], h => h x (by simp)
  | x :: y :: l, h => by
    rw [join_cons_cons]
    exact valid_append (valid_append (h x (by simp)) hs) (valid_join hs (fun z hz => h z (List.mem_cons_of_mem _ hz)))

theorem hexByte_ascii : ∀ n, n < 16 → (hexByte n).toNat < 0x80 := by decide

theorem valid_pair {a b : UInt8} (ha : a.toNat < 0x80) (hb : b.toNat < 0x80) : ValidUtf8 [a, b] :=
  valid_append (valid_ascii ha) (valid_ascii hb)

theorem valid_jsonRune (short : Bool) {r : Nat × Nat} {c : Char} (hr : r.1 = c.val.toNat) : ValidUtf8 (jsonRune short r) := by
  have hb : ∀ n, n < 0x80 → (UInt8.ofNat n).toNat < 0x80 := by intro n hn; rw [UInt8.toNat_ofNat']; omega
  unfold jsonRune
  split
  · rename_i h
    split
    · exact valid_ascii (hb _ h)
    split
    · exact valid_pair (by decide) (hb _ h)
    split
    · exact valid_str _
    split
    · exact valid_str _
    split
    · exact valid_str _
    split
    · exact valid_str _
    split
    · exact valid_str _
    · exact valid_append (valid_str _) (valid_pair (hexByte_ascii _ (by omega)) (hexByte_ascii _ (by omega)))
  · split
    · exact valid_str _
    split
    · exact valid_append (valid_str _) (valid_ascii (hexByte_ascii _ (by omega)))
    · rw [hr, encodeRune_char]; exact valid_encode c

theorem valid_flatMap {α : Type} (l : List α) (f : α → Bytes) (h : ∀ x ∈ l, ValidUtf8 (f x)) : ValidUtf8 (l.flatMap f) := by
  induction l with
  | nil => exact valid_nil
  | cons x l ih => rw [List.flatMap_cons]; exact valid_append (h x (by simp)) (ih (fun x hx => h x (by simp [hx])))

theorem valid_jsonString (short : Bool) (s : Bytes) : ValidUtf8 (jsonString short s) := by
  unfold jsonString
  refine valid_append (valid_append (valid_str _) (valid_flatMap _ _ ?_)) (valid_str _)
  intro r hr
  obtain ⟨c, hc⟩ := rune_char hr
  exact valid_jsonRune short hc

theorem valid_jsonStrings (short : Bool) (l : Option (List Bytes)) : ValidUtf8 (jsonStrings short l) := by
  cases l with
  | none => exact valid_str _
  | some l =>
    refine valid_append (valid_append (valid_str _) (valid_join (valid_str _) ?_)) (valid_str _)
    intro x hx
    obtain ⟨s, _, rfl⟩ := List.mem_map.mp hx
    exact valid_jsonString short s

theorem valid_field {name value : Bytes} (hn : ValidUtf8 name) (hv : ValidUtf8 value) : ValidUtf8 (jsonField name value) :=
  valid_append (valid_append (valid_append (valid_str _) hn) (valid_str _)) hv

theorem valid_data (short : Bool) (t : TokenData) : ValidUtf8 (jsonTokenData short t) := by
  refine valid_append (valid_append (valid_str _) (valid_join (valid_str _) ?_)) (valid_str _)
  intro x hx
  simp only [List.mem_cons, List.not_mem_nil, or_false] at hx
  rcases hx with rfl | rfl | rfl | rfl | rfl | rfl | rfl | rfl | rfl | rfl
  all_goals refine valid_field (valid_str _) ?_
  all_goals first | exact valid_str _ | exact valid_jsonString short _ | exact valid_jsonStrings short _

theorem valid_tokens (short : Bool) (l : List TokenData) : ValidUtf8 (jsonTokens short (some l)) := by
  refine valid_append (valid_append (valid_str _) (valid_join (valid_str _) ?_)) (valid_str _)
  intro x hx
  obtain ⟨s, _, rfl⟩ := List.mem_map.mp hx
  exact valid_data short s

end Kagome
