import Verif.Go.Json
import Verif.Spec.Json
import Verif.Spec.Tokens
import Verif.Proof.Utf8

/-! What `json.Marshal` writes reads back. -/

namespace Kagome

open Spec (Json readChar readChars readString readNat readInt readDigits readValue readItems readMembers readJson skipWs isWs hexVal hexChar repaired ValidUtf8)

theorem rune_char {s : Bytes} {r : Nat × Nat} (h : r ∈ runes s) : ∃ c : Char, r.1 = c.val.toNat := by
  revert r
  refine runes_induction (P := fun s => ∀ {r : Nat × Nat}, r ∈ runes s → ∃ c : Char, r.1 = c.val.toNat) (by simp) ?_ s
  intro s hs ih r h
  rw [runes_cons hs] at h
  rcases List.mem_cons.mp h with rfl | h
  · cases hd : decodeValid s with
    | none => rw [decodeRune_of_none hs hd]; exact ⟨Char.ofNat 0xFFFD, rfl⟩
    | some d =>
      obtain ⟨x, w⟩ := d
      obtain ⟨c, h1, _, _⟩ := decodeValid_some hd
      rw [decodeRune_of_valid hd]
      exact ⟨c, h1.symm⟩
  · exact ih h

theorem readChar_shorter {s t : Bytes} {c : Option Bytes} (h : readChar s = some (c, t)) : t.length < s.length := by
  unfold readChar at h
  split at h
  · cases h
  · split at h
    · cases h; simp
    · split at h
      · split at h
        · cases h
        · split at h
          · split at h
            · simp only [Option.map_eq_some_iff] at h
              obtain ⟨_, _, h⟩ := h
              cases h; simp; omega
            · cases h
          · simp only [Option.map_eq_some_iff] at h
            obtain ⟨_, _, h⟩ := h
            cases h; simp; omega
      · split at h
        · cases h
        · cases h; simp

theorem readChars_fuel : ∀ (f g : Nat) (s : Bytes), s.length ≤ f → s.length ≤ g → readChars f s = readChars g s := by
  intro f
  induction f with
  | zero =>
    intro g s hf _
    have : s = [] := List.length_eq_zero_iff.mp (by omega)
    subst this
    cases g <;> rfl
  | succ f ih =>
    intro g s hf hg
    cases g with
    | zero =>
      have : s = [] := List.length_eq_zero_iff.mp (by omega)
      subst this; rfl
    | succ g =>
      unfold readChars
      cases h : readChar s with
      | none => rfl
      | some x =>
        obtain ⟨c, t⟩ := x
        have := readChar_shorter h
        cases c with
        | none => rfl
        | some c =>
          dsimp only
          rw [ih g t (by omega) (by omega)]

theorem readString_close (t : Bytes) : readString (0x22 :: t) = some ([], t) := rfl

theorem readString_step {s c t : Bytes} (h : readChar s = some (some c, t)) :
    readString s = (readString t).map (fun r => (c ++ r.1, r.2)) := by
  have hl := readChar_shorter h
  unfold readString
  obtain ⟨n, hn⟩ : ∃ n, s.length = n + 1 := ⟨s.length - 1, by omega⟩
  rw [hn, readChars, h]
  dsimp only
  rw [readChars_fuel n t.length t (by omega) (Nat.le_refl _)]

theorem readString_cons {b : UInt8} (h1 : b ≠ 0x22) (h2 : b ≠ 0x5C) (h3 : ¬ b < 0x20) (t : Bytes) :
    readString (b :: t) = (readString t).map (fun r => (b :: r.1, r.2)) := by
  apply readString_step (c := [b])
  unfold readChar
  dsimp only
  rw [if_neg h1, if_neg h2, if_neg h3]

theorem readString_high (bs : Bytes) (h : ∀ b ∈ bs, 0x80 ≤ b.toNat) (t : Bytes) :
    readString (bs ++ t) = (readString t).map (fun r => (bs ++ r.1, r.2)) := by
  induction bs with
  | nil => simp only [List.nil_append]; cases readString t <;> rfl
  | cons b bs ih =>
    have hb := h b (by simp)
    rw [List.cons_append, readString_cons, ih (fun b hb => h b (by simp [hb]))]
    · cases readString t <;> simp
    · intro e; rw [e] at hb; revert hb; decide
    · intro e; rw [e] at hb; revert hb; decide
    · intro e
      rw [UInt8.lt_iff_toNat_lt] at e
      have : (0x20 : UInt8).toNat = 32 := rfl
      omega

theorem encode_ascii {c : Char} (h : c.val.toNat < 0x80) : String.utf8EncodeChar c = [UInt8.ofNat c.val.toNat] := by
  rw [← encodeRune_char]
  unfold encodeRune
  rw [if_pos h]

theorem encode_high {c : Char} (h : ¬ c.val.toNat < 0x80) : ∀ b ∈ String.utf8EncodeChar c, 0x80 ≤ b.toNat := by
  have hv : c.val.toNat < 0xd800 ∨ (0xdfff < c.val.toNat ∧ c.val.toNat < 0x110000) := c.valid
  rw [← encodeRune_char]
  unfold encodeRune
  generalize c.val.toNat = v at *
  (repeat' split)
  · omega
  all_goals
    simp only [List.mem_cons, List.not_mem_nil, or_false]
    intro b hb
    (repeat' rcases hb with rfl | hb) <;> try subst hb
    all_goals first | decide | (simp only [UInt8.toNat_ofNat']; omega)

theorem hexVal_hexByte : ∀ n, n < 16 → hexVal (hexByte n) = some n := by decide

theorem readString_short {e c : UInt8} (he : e ≠ 0x75) (hc : Spec.escape e = some c) (t : Bytes) :
    readString (0x5C :: e :: t) = (readString t).map (fun r => (c :: r.1, r.2)) := by
  apply readString_step (c := [c])
  unfold readChar
  dsimp only
  rw [if_neg (by decide), if_pos rfl, if_neg he, hc]; rfl

theorem readString_hex {a b c d : UInt8} {ch : Char} (hc : hexChar a b c d = some ch) (t : Bytes) :
    readString (0x5C :: 0x75 :: a :: b :: c :: d :: t) = (readString t).map (fun r => (String.utf8EncodeChar ch ++ r.1, r.2)) := by
  apply readString_step
  unfold readChar
  dsimp only
  rw [if_neg (by decide), if_pos rfl, if_pos rfl, hc]; rfl

theorem hexChar_ascii : ∀ n, n < 128 → hexChar 0x30 0x30 (hexByte (n / 16)) (hexByte (n % 16)) = some (Char.ofNat n) := by
  decide +kernel

theorem str_n : str "\\n" = [0x5C, 0x6E] := by decide
theorem str_r : str "\\r" = [0x5C, 0x72] := by decide
theorem str_t : str "\\t" = [0x5C, 0x74] := by decide
theorem str_b : str "\\b" = [0x5C, 0x62] := by decide
theorem str_f : str "\\f" = [0x5C, 0x66] := by decide
theorem str_u00 : str "\\u00" = [0x5C, 0x75, 0x30, 0x30] := by decide
theorem str_u202 : str "\\u202" = [0x5C, 0x75, 0x32, 0x30, 0x32] := by decide
theorem str_ufffd : str "\\ufffd" = [0x5C, 0x75, 0x66, 0x66, 0x66, 0x64] := by decide
theorem str_quote : str "\"" = [0x22] := by decide

theorem readString_ascii (short : Bool) {c : Char} (h : c.val.toNat < 0x80) (w : Nat) (t : Bytes) :
    readString (jsonRune short (c.val.toNat, w) ++ t) = (readString t).map (fun r => (String.utf8EncodeChar c ++ r.1, r.2)) := by
  rw [encode_ascii h]
  have hcc : Char.ofNat c.val.toNat = c := Char.ofNat_toNat c
  have hex := hexChar_ascii c.val.toNat h
  rw [hcc] at hex
  unfold jsonRune
  rw [if_pos h]
  dsimp only
  by_cases hs : htmlSafe c.val.toNat = true
  · rw [if_pos hs]
    simp only [htmlSafe, Bool.and_eq_true, decide_eq_true_eq] at hs
    obtain ⟨⟨⟨⟨⟨h1, h2⟩, -⟩, -⟩, -⟩, h6⟩ := hs
    have hn : (UInt8.ofNat c.val.toNat).toNat = c.val.toNat := by rw [UInt8.toNat_ofNat']; omega
    rw [List.singleton_append, readString_cons]
    · rfl
    · intro e; rw [e] at hn; exact h2 hn.symm
    · intro e; rw [e] at hn; exact h6 hn.symm
    · intro e
      rw [UInt8.lt_iff_toNat_lt, hn] at e
      have : (0x20 : UInt8).toNat = 32 := rfl
      omega
  · rw [if_neg hs]
    by_cases h1 : c.val.toNat = 0x5C ∨ c.val.toNat = 0x22
    · rw [if_pos h1]
      have : UInt8.ofNat c.val.toNat ≠ 0x75 ∧ Spec.escape (UInt8.ofNat c.val.toNat) = some (UInt8.ofNat c.val.toNat) := by
        rcases h1 with h1 | h1 <;> rw [h1] <;> decide
      exact readString_short this.1 this.2 t
    · rw [if_neg h1]
      by_cases h2 : (short && decide (c.val.toNat = 0x08)) = true
      · rw [if_pos h2, str_b]
        simp only [Bool.and_eq_true, decide_eq_true_eq] at h2
        rw [h2.2]
        exact readString_short (by decide) (by decide) t
      · rw [if_neg h2]
        by_cases h3 : (short && decide (c.val.toNat = 0x0C)) = true
        · rw [if_pos h3, str_f]
          simp only [Bool.and_eq_true, decide_eq_true_eq] at h3
          rw [h3.2]
          exact readString_short (by decide) (by decide) t
        · rw [if_neg h3]
          by_cases h4 : c.val.toNat = 0x0A
          · rw [if_pos h4, str_n, h4]
            exact readString_short (by decide) (by decide) t
          · rw [if_neg h4]
            by_cases h5 : c.val.toNat = 0x0D
            · rw [if_pos h5, str_r, h5]
              exact readString_short (by decide) (by decide) t
            · rw [if_neg h5]
              by_cases h6 : c.val.toNat = 0x09
              · rw [if_pos h6, str_t, h6]
                exact readString_short (by decide) (by decide) t
              · rw [if_neg h6, str_u00]
                rw [← encode_ascii h]
                exact readString_hex hex t

/-- One character. -/
theorem readString_rune (short : Bool) {r : Nat × Nat} {c : Char} (hr : r.1 = c.val.toNat) (t : Bytes) :
    readString (jsonRune short r ++ t) = (readString t).map (fun x => (String.utf8EncodeChar c ++ x.1, x.2)) := by
  obtain ⟨n, w⟩ := r
  simp only at hr
  subst hr
  by_cases h : c.val.toNat < 0x80
  · exact readString_ascii short h w t
  · unfold jsonRune
    dsimp only
    rw [if_neg h]
    by_cases h1 : (c.val.toNat, w) = (runeError, 1)
    · rw [if_pos h1, str_ufffd]
      have e : c.val.toNat = 0xFFFD := (Prod.mk.inj h1).1
      have hc : c = Char.ofNat 0xFFFD := by rw [← e]; exact (Char.ofNat_toNat c).symm
      rw [hc]
      exact readString_hex (by decide +kernel) t
    · rw [if_neg h1]
      by_cases h2 : c.val.toNat = 0x2028 ∨ c.val.toNat = 0x2029
      · rw [if_pos h2, str_u202]
        have hc : Char.ofNat c.val.toNat = c := Char.ofNat_toNat c
        rw [← hc]
        rcases h2 with h2 | h2 <;> rw [h2] <;> exact readString_hex (by decide +kernel) t
      · rw [if_neg h2, encodeRune_char]
        exact readString_high _ (encode_high h) t

/-- A string reads back, with broken bytes replaced. -/
theorem readString_runes (short : Bool) : ∀ (rs : List (Nat × Nat)), (∀ r ∈ rs, ∃ c : Char, r.1 = c.val.toNat) → ∀ t : Bytes,
    readString (rs.flatMap (jsonRune short) ++ 0x22 :: t) = some (rs.flatMap (fun r => encodeRune r.1), t) := by
  intro rs
  induction rs with
  | nil =>
    intro _ t
    simp only [List.flatMap_nil, List.nil_append]
    exact readString_close t
  | cons r rs ih =>
    intro h t
    obtain ⟨c, hc⟩ := h r (by simp)
    rw [List.flatMap_cons, List.append_assoc, readString_rune short hc, ih (fun r hr => h r (by simp [hr]))]
    simp only [Option.map_some, List.flatMap_cons, hc, encodeRune_char]

theorem jsonString_reads (short : Bool) (s t : Bytes) :
    jsonString short s ++ t = 0x22 :: ((runes s).flatMap (jsonRune short) ++ 0x22 :: t) ∧
    readString ((runes s).flatMap (jsonRune short) ++ 0x22 :: t) = some (repaired s, t) := by
  refine ⟨?_, readString_runes short (runes s) (fun r hr => rune_char hr) t⟩
  unfold jsonString
  rw [str_quote]
  simp

/-! ### Numbers -/

theorem itoa_nat (n : Nat) : itoa (n : Int) = (Nat.toDigits 10 n).flatMap String.utf8EncodeChar := by
  unfold itoa str
  rw [show toString (n : Int) = n.repr from rfl, Nat.toList_repr]

/-- What can follow a number. -/
def NumEnd (t : Bytes) : Prop := ∀ c, t.head? = some c → Spec.isDigit c = false ∧ c ≠ 0x2E ∧ c ≠ 0x45 ∧ c ≠ 0x65

theorem digit_byte : ∀ d, d < 10 → String.utf8EncodeChar (Nat.digitChar d) = [UInt8.ofNat (48 + d)] ∧
    Spec.isDigit (UInt8.ofNat (48 + d)) = true ∧ (UInt8.ofNat (48 + d)).toNat - 48 = d ∧ (UInt8.ofNat (48 + d) = 0x30 → d = 0) := by
  decide

theorem readDigits_all (ds : Bytes) : ∀ (acc : Nat) (t : Bytes), (∀ b ∈ ds, Spec.isDigit b = true) → NumEnd t →
    readDigits acc (ds ++ t) = (ds.foldl (fun a b => 10 * a + (b.toNat - 48)) acc, t) := by
  induction ds with
  | nil =>
    intro acc t _ ht
    cases t with
    | nil => rfl
    | cons c t =>
      have := (ht c rfl).1
      simp [readDigits, this]
  | cons b ds ih =>
    intro acc t hd ht
    simp only [List.cons_append, readDigits]
    rw [if_pos (hd b (by simp)), ih _ t (fun b hb => hd b (by simp [hb])) ht]
    rfl

theorem digits_shape (n : Nat) : ∃ d ds, (Nat.toDigits 10 n).flatMap String.utf8EncodeChar = d :: ds ∧ Spec.isDigit d = true ∧
    (∀ b ∈ ds, Spec.isDigit b = true) ∧ (d = 0x30 → n = 0 ∧ ds = []) ∧
    ds.foldl (fun a b => 10 * a + (b.toNat - 48)) (d.toNat - 48) = n := by
  induction n using Nat.strongRecOn with
  | ind n ih =>
    by_cases h : n < 10
    · obtain ⟨h1, h2, h3, h4⟩ := digit_byte n h
      rw [Nat.toDigits_of_lt_base h]
      refine ⟨UInt8.ofNat (48 + n), [], by simp [h1], h2, by simp, fun e => ⟨h4 e, rfl⟩, by simpa using h3⟩
    · have hm : n % 10 < 10 := Nat.mod_lt _ (by decide)
      obtain ⟨h1, h2, h3, -⟩ := digit_byte (n % 10) hm
      obtain ⟨d, ds, k1, k2, k3, k4, k5⟩ := ih (n / 10) (by omega)
      rw [Nat.toDigits_of_base_le (by decide) (by omega), List.flatMap_append, k1]
      refine ⟨d, ds ++ [UInt8.ofNat (48 + n % 10)], by simp [h1], k2, ?_, ?_, ?_⟩
      · intro b hb
        rcases List.mem_append.mp hb with hb | hb
        · exact k3 b hb
        · rw [List.mem_singleton.mp hb]; exact h2
      · intro e
        have := (k4 e).1
        omega
      · rw [List.foldl_append, k5]
        simp only [List.foldl_cons, List.foldl_nil, h3]
        omega

theorem readNat_itoa (n : Nat) {t : Bytes} (ht : NumEnd t) : readNat (itoa (n : Int) ++ t) = some (n, t) := by
  obtain ⟨d, ds, h1, h2, h3, h4, h5⟩ := digits_shape n
  rw [itoa_nat, h1]
  have key : (if d = 0x30 then (0, ds ++ t) else readDigits (d.toNat - 48) (ds ++ t)) = (n, t) := by
    by_cases hd : d = 0x30
    · obtain ⟨rfl, rfl⟩ := h4 hd
      rw [if_pos hd]; rfl
    · rw [if_neg hd, readDigits_all ds _ t h3 ht, h5]
  unfold readNat
  rw [List.cons_append]
  dsimp only
  rw [if_pos h2, key]
  dsimp only
  cases t with
  | nil => rfl
  | cons c t =>
    obtain ⟨k1, k2, k3, k4⟩ := ht c rfl
    dsimp only
    rw [if_neg]
    simp [k1, k2, k3, k4]

theorem itoa_neg (n : Nat) : itoa (Int.negSucc n) = 0x2D :: itoa ((n + 1 : Nat) : Int) := by
  unfold itoa str
  rw [show toString (Int.negSucc n) = "-" ++ (n + 1).repr from rfl, show toString ((n + 1 : Nat) : Int) = (n + 1).repr from rfl]
  rw [String.toList_append, List.flatMap_append]
  rfl

theorem readInt_itoa (x : Int) {t : Bytes} (ht : NumEnd t) : readInt (itoa x ++ t) = some (x, t) := by
  cases x with
  | ofNat n =>
    have := readNat_itoa n ht
    obtain ⟨d, ds, h1, h2, -⟩ := digits_shape n
    rw [show Int.ofNat n = (n : Int) from rfl]
    rw [itoa_nat, h1, List.cons_append] at this ⊢
    unfold readInt
    dsimp only
    rw [if_neg (by intro e; rw [e] at h2; revert h2; decide), this]
    rfl
  | negSucc n =>
    rw [itoa_neg, List.cons_append]
    unfold readInt
    dsimp only
    rw [if_pos rfl, readNat_itoa (n + 1) ht]
    rfl

/-! ### Values -/

/-- `e` is a text of the value `v`, wherever it stands. -/
def Reads (v : Json) (e : Bytes) : Prop :=
  (∃ b t, e = b :: t ∧ isWs b = false) ∧
  ∀ (fuel : Nat) (t : Bytes), e.length < fuel → NumEnd t → readValue fuel (e ++ t) = some (v, t)

theorem skipWs_cons {b : UInt8} (h : isWs b = false) (t : Bytes) : skipWs (b :: t) = b :: t := by
  simp [skipWs, h]

theorem reads_str (short : Bool) (s : Bytes) : Reads (.str (repaired s)) (jsonString short s) := by
  constructor
  · have := (jsonString_reads short s []).1
    rw [List.append_nil] at this
    exact ⟨0x22, _, this, by decide⟩
  · intro fuel t hf _
    obtain ⟨h1, h2⟩ := jsonString_reads short s t
    obtain ⟨f, rfl⟩ : ∃ f, fuel = f + 1 := ⟨fuel - 1, by omega⟩
    rw [h1]
    unfold readValue
    rw [skipWs_cons (by decide)]
    dsimp only
    rw [if_pos rfl, h2]
    rfl

theorem digit_not_ws : ∀ b : UInt8, Spec.isDigit b = true → isWs b = false ∧ b ≠ 0x22 ∧ b ≠ 0x5B ∧ b ≠ 0x7B ∧ b ≠ 0x6E ∧ b ≠ 0x74 ∧ b ≠ 0x66 := by
  have h : ∀ n, n < 256 → Spec.isDigit (UInt8.ofNat n) = true → isWs (UInt8.ofNat n) = false ∧ UInt8.ofNat n ≠ 0x22 ∧ UInt8.ofNat n ≠ 0x5B ∧
      UInt8.ofNat n ≠ 0x7B ∧ UInt8.ofNat n ≠ 0x6E ∧ UInt8.ofNat n ≠ 0x74 ∧ UInt8.ofNat n ≠ 0x66 := by decide +kernel
  intro b
  have := h b.toNat b.toNat_lt
  rwa [UInt8.ofNat_toNat] at this

theorem reads_num (x : Int) : Reads (.num x) (itoa x) := by
  have hshape : ∃ b ds, itoa x = b :: ds ∧ isWs b = false ∧ b ≠ 0x22 ∧ b ≠ 0x5B ∧ b ≠ 0x7B ∧ b ≠ 0x6E ∧ b ≠ 0x74 ∧ b ≠ 0x66 := by
    cases x with
    | ofNat n =>
      obtain ⟨d, ds, h1, h2, -⟩ := digits_shape n
      exact ⟨d, ds, by rw [show Int.ofNat n = (n : Int) from rfl, itoa_nat, h1], digit_not_ws d h2⟩
    | negSucc n => exact ⟨0x2D, _, itoa_neg n, by decide⟩
  obtain ⟨b, ds, h1, h2, h3, h4, h5, h6, h7, h8⟩ := hshape
  refine ⟨⟨b, ds, h1, h2⟩, ?_⟩
  intro fuel t hf ht
  obtain ⟨f, rfl⟩ : ∃ f, fuel = f + 1 := ⟨fuel - 1, by omega⟩
  have hr := readInt_itoa x ht
  rw [h1, List.cons_append] at hr ⊢
  unfold readValue
  rw [skipWs_cons h2]
  dsimp only
  have hn : ∀ (c : UInt8) (s u : Bytes), b ≠ c → ¬ (c :: s) <+: (b :: u) := by
    intro c s u hbc hp
    exact hbc (List.cons_prefix_cons.mp hp).1.symm
  have e1 : str "null" = 0x6E :: str "ull" := by decide
  have e2 : str "true" = 0x74 :: str "rue" := by decide
  have e3 : str "false" = 0x66 :: str "alse" := by decide
  rw [if_neg h3, if_neg h4, if_neg h5, e1, if_neg (hn 0x6E _ _ h6), e2, if_neg (hn 0x74 _ _ h7), e3, if_neg (hn 0x66 _ _ h8), hr]
  rfl

theorem reads_null : Reads .null (str "null") := by
  refine ⟨⟨0x6E, str "ull", by decide, by decide⟩, ?_⟩
  intro fuel t hf _
  obtain ⟨f, rfl⟩ : ∃ f, fuel = f + 1 := ⟨fuel - 1, by omega⟩
  rfl

theorem reads_true : Reads (.bool true) (str "true") := by
  refine ⟨⟨0x74, str "rue", by decide, by decide⟩, ?_⟩
  intro fuel t hf _
  obtain ⟨f, rfl⟩ : ∃ f, fuel = f + 1 := ⟨fuel - 1, by omega⟩
  rfl

theorem skipWs_ws {ws : Bytes} (h : ∀ b ∈ ws, isWs b = true) (s : Bytes) : skipWs (ws ++ s) = skipWs s := by
  induction ws with
  | nil => rfl
  | cons b ws ih =>
    simp only [List.cons_append, skipWs]
    rw [if_pos (h b (by simp)), ih (fun b hb => h b (by simp [hb]))]

theorem readValue_ws {ws : Bytes} (h : ∀ b ∈ ws, isWs b = true) (fuel : Nat) (s : Bytes) :
    readValue fuel (ws ++ s) = readValue fuel s := by
  cases fuel with
  | zero => rfl
  | succ f => unfold readValue; rw [skipWs_ws h]

theorem numEnd_ws : ∀ b : UInt8, isWs b = true → Spec.isDigit b = false ∧ b ≠ 0x2E ∧ b ≠ 0x45 ∧ b ≠ 0x65 := by
  intro b h
  simp only [isWs, Bool.or_eq_true, beq_iff_eq] at h
  rcases h with ((rfl | rfl) | rfl) | rfl <;> decide

theorem numEnd_append {ws : Bytes} (h : ∀ b ∈ ws, isWs b = true) {s : Bytes} (hs : NumEnd s) : NumEnd (ws ++ s) := by
  cases ws with
  | nil => exact hs
  | cons b ws =>
    intro c hc
    simp only [List.cons_append, List.head?_cons, Option.some.injEq] at hc
    subst hc
    exact numEnd_ws _ (h _ (by simp))

theorem numEnd_cons {b : UInt8} (h : Spec.isDigit b = false ∧ b ≠ 0x2E ∧ b ≠ 0x45 ∧ b ≠ 0x65) (t : Bytes) : NumEnd (b :: t) := by
  intro c hc
  simp only [List.head?_cons, Option.some.injEq] at hc
  subst hc
  exact h

theorem join_cons_cons (sep a b : Bytes) (l : List Bytes) : join sep (a :: b :: l) = a ++ sep ++ join sep (b :: l) := rfl

/-- The values of an array, with white space behind the commas and in front of the closing bracket. -/
theorem readItems_join {ws wc : Bytes} (hw : ∀ b ∈ ws, isWs b = true) (hc : ∀ b ∈ wc, isWs b = true) :
    ∀ (l : List (Json × Bytes)), l ≠ [] → (∀ x ∈ l, Reads x.1 x.2) → ∀ (fuel : Nat) (t : Bytes),
      (join (0x2C :: ws) (l.map Prod.snd)).length + 1 < fuel →
      readItems fuel (join (0x2C :: ws) (l.map Prod.snd) ++ (wc ++ 0x5D :: t)) = some (l.map Prod.fst, t) := by
  intro l
  induction l with
  | nil => intro h; exact absurd rfl h
  | cons x l ih =>
    intro _ hl fuel t hf
    obtain ⟨f, rfl⟩ : ∃ f, fuel = f + 1 := ⟨fuel - 1, by omega⟩
    obtain ⟨hsh, hrd⟩ := hl x (by simp)
    have hpos : 0 < x.2.length := by obtain ⟨b, t, e, _⟩ := hsh; rw [e]; simp
    cases l with
    | nil =>
      simp only [List.map_cons, List.map_nil, join] at hf ⊢
      unfold readItems
      rw [hrd f _ (by omega) (numEnd_append hc (numEnd_cons (by decide) t))]
      dsimp only
      rw [skipWs_ws hc, skipWs_cons (by decide)]
      dsimp only
      rw [if_pos rfl]
    | cons y l =>
      have ih' := ih (by simp) (fun x hx => hl x (by simp [hx]))
      simp only [List.map_cons, join_cons_cons, List.length_append, List.length_cons] at hf ih' ⊢
      unfold readItems
      rw [List.append_assoc, List.append_assoc, hrd f _ (by omega) (by rw [List.cons_append]; exact numEnd_cons (by decide) _)]
      dsimp only
      rw [List.cons_append, skipWs_cons (by decide)]
      dsimp only
      rw [if_neg (by decide), if_pos rfl]
      have hgo : ∀ s, readItems f (ws ++ s) = readItems f s := by
        intro s
        cases f with
        | zero => rfl
        | succ g => unfold readItems; rw [readValue_ws hw]
      rw [hgo, ih' f t (by omega)]
      rfl

theorem not_close {v : Json} {e : Bytes} (h : Reads v e) : ∃ b t, e = b :: t ∧ isWs b = false ∧ b ≠ 0x5D := by
  obtain ⟨⟨b, t, e1, e2⟩, hr⟩ := h
  refine ⟨b, t, e1, e2, ?_⟩
  rintro rfl
  have := hr (e.length + 1) [] (by omega) (by intro c hc; cases hc)
  rw [e1, List.append_nil] at this
  unfold readValue at this
  rw [skipWs_cons e2] at this
  have hn : ∀ (c : UInt8) (s u : Bytes), 0x5D ≠ c → ¬ (c :: s) <+: (0x5D :: u) := by
    intro c s u hbc hp
    exact hbc (List.cons_prefix_cons.mp hp).1.symm
  have e1 : str "null" = 0x6E :: str "ull" := by decide
  have e2 : str "true" = 0x74 :: str "rue" := by decide
  have e3 : str "false" = 0x66 :: str "alse" := by decide
  dsimp only at this
  rw [if_neg (by decide), if_neg (by decide), if_neg (by decide), e1, if_neg (hn _ _ _ (by decide)), e2, if_neg (hn _ _ _ (by decide)),
    e3, if_neg (hn _ _ _ (by decide))] at this
  simp [readInt, readNat, Spec.isDigit] at this

theorem join_head {v : Json} {e sep : Bytes} {es : List Bytes} (h : Reads v e) :
    ∃ b t, join sep (e :: es) = b :: t ∧ isWs b = false ∧ b ≠ 0x5D := by
  obtain ⟨b, t, h1, h2, h3⟩ := not_close h
  cases es with
  | nil => exact ⟨b, t, h1, h2, h3⟩
  | cons a es => exact ⟨b, t ++ sep ++ join sep (a :: es), by rw [join_cons_cons, h1]; simp, h2, h3⟩

/-- An array with white space behind the opening bracket, behind the commas and in front of the closing bracket. -/
theorem reads_arr {wo ws wc : Bytes} (ho : ∀ b ∈ wo, isWs b = true) (hw : ∀ b ∈ ws, isWs b = true) (hc : ∀ b ∈ wc, isWs b = true)
    (l : List (Json × Bytes)) (hl : ∀ x ∈ l, Reads x.1 x.2) :
    Reads (.arr (l.map Prod.fst)) (0x5B :: (wo ++ join (0x2C :: ws) (l.map Prod.snd) ++ wc ++ [0x5D])) := by
  refine ⟨⟨0x5B, _, rfl, by decide⟩, ?_⟩
  intro fuel t hf _
  obtain ⟨f, rfl⟩ : ∃ f, fuel = f + 1 := ⟨fuel - 1, by omega⟩
  simp only [List.length_cons, List.length_append] at hf
  unfold readValue
  rw [List.cons_append, skipWs_cons (by decide)]
  dsimp only
  rw [if_neg (by decide), if_pos rfl]
  have hsh : wo ++ join (0x2C :: ws) (l.map Prod.snd) ++ wc ++ [0x5D] ++ t =
      wo ++ (join (0x2C :: ws) (l.map Prod.snd) ++ (wc ++ 0x5D :: t)) := by simp
  rw [hsh, skipWs_ws ho]
  cases l with
  | nil =>
    simp only [List.map_nil, join, List.nil_append]
    rw [skipWs_ws hc, skipWs_cons (by decide)]
    dsimp only
    rw [if_pos rfl]
  | cons x l =>
    obtain ⟨b, u, h1, h2, h3⟩ := join_head (sep := 0x2C :: ws) (es := l.map Prod.snd) (hl x (by simp))
    have hit := readItems_join hw hc (x :: l) (by simp) hl f t (by omega)
    rw [List.map_cons, h1, List.cons_append] at hit ⊢
    rw [skipWs_cons h2]
    dsimp only
    rw [if_neg h3, hit]
    rfl

/-! ### Objects -/

theorem readString_plain (name : Bytes) (h : ∀ b ∈ name, b ≠ 0x22 ∧ b ≠ 0x5C ∧ ¬ b < 0x20) (t : Bytes) :
    readString (name ++ 0x22 :: t) = some (name, t) := by
  induction name with
  | nil => exact readString_close t
  | cons b name ih =>
    obtain ⟨h1, h2, h3⟩ := h b (by simp)
    rw [List.cons_append, readString_cons h1 h2 h3, ih (fun b hb => h b (by simp [hb]))]
    rfl

/-- A member: its name, its value, and the text of the value. -/
structure Member where
  name : Bytes
  value : Json
  text : Bytes

structure Member.Ok (m : Member) : Prop where
  plain : ∀ b ∈ m.name, b ≠ 0x22 ∧ b ≠ 0x5C ∧ ¬ b < 0x20
  reads : Reads m.value m.text

theorem jsonField_eq (name value : Bytes) : jsonField name value = 0x22 :: (name ++ 0x22 :: 0x3A :: value) := by
  unfold jsonField
  rw [str_quote, show str "\":" = [0x22, 0x3A] from by decide]
  simp

theorem str_comma : str "," = [0x2C] := by decide

theorem readMembers_join : ∀ (l : List Member), l ≠ [] → (∀ x ∈ l, x.Ok) → ∀ (fuel : Nat) (t : Bytes),
      (join [0x2C] (l.map (fun m => jsonField m.name m.text))).length < fuel →
      readMembers fuel (join [0x2C] (l.map (fun m => jsonField m.name m.text)) ++ 0x7D :: t) =
        some (l.map (fun m => (m.name, m.value)), t) := by
  intro l
  induction l with
  | nil => intro h; exact absurd rfl h
  | cons x l ih =>
    intro _ hl fuel t hf
    obtain ⟨f, rfl⟩ : ∃ f, fuel = f + 1 := ⟨fuel - 1, by omega⟩
    obtain ⟨hpl, -, hrd⟩ := hl x (by simp)
    cases l with
    | nil =>
      simp only [List.map_cons, List.map_nil, join, jsonField_eq, List.length_cons, List.length_append] at hf ⊢
      unfold readMembers
      rw [List.cons_append, List.append_assoc, List.cons_append, List.cons_append, skipWs_cons (by decide)]
      dsimp only
      rw [if_pos rfl, readString_plain x.name hpl]
      dsimp only
      rw [skipWs_cons (by decide)]
      dsimp only
      rw [if_pos rfl, hrd f _ (by omega) (numEnd_cons (by decide) t)]
      dsimp only
      rw [skipWs_cons (by decide)]
      dsimp only
      rw [if_pos rfl]
    | cons y l =>
      have ih' := ih (by simp) (fun x hx => hl x (by simp [hx]))
      rw [List.map_cons, List.map_cons, join_cons_cons] at hf ⊢
      rw [List.map_cons] at ih'
      simp only [jsonField_eq x.name, List.length_append, List.length_cons, List.length_nil] at hf ⊢
      unfold readMembers
      rw [List.append_assoc, List.append_assoc, List.cons_append, List.append_assoc, List.cons_append, List.cons_append, skipWs_cons (by decide)]
      dsimp only
      rw [if_pos rfl, readString_plain x.name hpl]
      dsimp only
      rw [skipWs_cons (by decide)]
      dsimp only
      rw [List.singleton_append, if_pos rfl, hrd f _ (by omega) (numEnd_cons (by decide) _)]
      dsimp only
      rw [skipWs_cons (by decide)]
      dsimp only
      rw [if_neg (by decide), if_pos rfl, ih' f t (by omega)]
      rfl

/-- An object. -/
theorem reads_obj (l : List Member) (hl : ∀ x ∈ l, x.Ok) :
    Reads (.obj (l.map (fun m => (m.name, m.value)))) (str "{" ++ join (str ",") (l.map (fun m => jsonField m.name m.text)) ++ str "}") := by
  rw [str_comma, show str "{" = [0x7B] from by decide, show str "}" = [0x7D] from by decide]
  refine ⟨⟨0x7B, _, rfl, by decide⟩, ?_⟩
  intro fuel t hf _
  obtain ⟨f, rfl⟩ : ∃ f, fuel = f + 1 := ⟨fuel - 1, by omega⟩
  simp only [List.length_cons, List.length_append, List.length_nil] at hf
  unfold readValue
  rw [List.append_assoc, List.append_assoc, List.singleton_append, List.singleton_append, skipWs_cons (by decide)]
  dsimp only
  rw [if_neg (by decide), if_neg (by decide), if_pos rfl]
  cases l with
  | nil =>
    simp only [List.map_nil, join, List.nil_append]
    rw [skipWs_cons (by decide)]
    dsimp only
    rw [if_pos rfl]
  | cons x l =>
    have hit := readMembers_join (x :: l) (by simp) hl f t (by omega)
    obtain ⟨u, hu⟩ : ∃ u, join [0x2C] ((x :: l).map (fun m => jsonField m.name m.text)) = 0x22 :: u := by
      cases l with
      | nil => exact ⟨_, by simp only [List.map_cons, List.map_nil, join]; exact jsonField_eq _ _⟩
      | cons y l => exact ⟨_, by rw [List.map_cons, List.map_cons, join_cons_cons, jsonField_eq]; rfl⟩
    rw [hu, List.cons_append] at hit ⊢
    rw [skipWs_cons (by decide)]
    dsimp only
    rw [if_neg (by decide), hit]
    rfl

/-- A whole text: a value, with white space behind it. -/
theorem readJson_of {v : Json} {e ws : Bytes} (h : Reads v e) (hw : ∀ b ∈ ws, isWs b = true) : readJson (e ++ ws) = some v := by
  unfold readJson
  rw [h.2 ((e ++ ws).length + 1) ws (by simp; omega) (by
    have := numEnd_append hw (s := []) (by intro c hc; cases hc)
    rwa [List.append_nil] at this)]
  dsimp only
  have : skipWs ws = [] := by
    have := skipWs_ws hw []
    rw [List.append_nil] at this
    rw [this]; rfl
  rw [if_pos this]

end Kagome
