import Verif.Proof.JsonText

/-! The scanner of encoding/json accepts every text of the grammar, and comes to an end on every input. -/

namespace Kagome

open Spec (StringText ValueText ItemsText MembersText IsDigits IsInteger IsFraction IsExponent IsNumber)

theorem scanValue_congr {s s' : Bytes} (h : dropSpace s = dropSpace s') (fuel room : Nat) : scanValue fuel room s = scanValue fuel room s' := by
  cases fuel with
  | zero => rw [scanValue, scanValue]
  | succ fuel => rw [scanValue, scanValue, h]

theorem str_null : str "null" = [0x6E, 0x75, 0x6C, 0x6C] := by decide
theorem str_true : str "true" = [0x74, 0x72, 0x75, 0x65] := by decide
theorem str_false : str "false" = [0x66, 0x61, 0x6C, 0x73, 0x65] := by decide
theorem str_ull : str "ull" = [0x75, 0x6C, 0x6C] := by decide
theorem str_rue : str "rue" = [0x72, 0x75, 0x65] := by decide
theorem str_alse : str "alse" = [0x61, 0x6C, 0x73, 0x65] := by decide

theorem digit_table : ∀ n, n < 256 → jsonDigit (UInt8.ofNat n) = true →
    jsonSpace (UInt8.ofNat n) = false ∧ UInt8.ofNat n ≠ 0x22 ∧ UInt8.ofNat n ≠ 0x5B ∧ UInt8.ofNat n ≠ 0x5D ∧ UInt8.ofNat n ≠ 0x7B ∧ UInt8.ofNat n ≠ 0x2D := by
  decide +kernel

theorem digit_facts {b : UInt8} (h : jsonDigit b = true) : jsonSpace b = false ∧ b ≠ 0x22 ∧ b ≠ 0x5B ∧ b ≠ 0x5D ∧ b ≠ 0x7B ∧ b ≠ 0x2D := by
  have := digit_table b.toNat (UInt8.toNat_lt b)
  rw [UInt8.ofNat_toNat] at this
  exact this h

/-- The first byte of a value. -/
theorem valueText_head {n : Nat} {v : JTree} {text : Bytes} (h : ValueText n v text) : ∃ b t, text = b :: t ∧ jsonSpace b = false ∧ b ≠ 0x5D := by
  cases h with
  | null => exact ⟨_, _, str_null, by decide, by decide⟩
  | true => exact ⟨_, _, str_true, by decide, by decide⟩
  | false => exact ⟨_, _, str_false, by decide, by decide⟩
  | num _ _ h =>
    obtain ⟨sign, int, frac, exp, rfl, hs, hi, hf, he⟩ := h
    obtain ⟨d, ds, rfl, hd, -⟩ := scanDigits_all (rest := []) hi hf he (by intro c hc; cases hc)
    rcases hs with rfl | rfl
    · exact ⟨d, ds ++ frac ++ exp, rfl, (digit_facts hd).1, (digit_facts hd).2.2.2.1⟩
    · exact ⟨0x2D, d :: ds ++ frac ++ exp, by rw [str_minus]; rfl, by decide, by decide⟩
  | str => exact ⟨_, _, rfl, by decide, by decide⟩
  | noItems => exact ⟨_, _, rfl, by decide, by decide⟩
  | arr => exact ⟨_, _, rfl, by decide, by decide⟩
  | noMembers => exact ⟨_, _, rfl, by decide, by decide⟩
  | obj => exact ⟨_, _, rfl, by decide, by decide⟩

theorem numEnd_space {ws t : Bytes} (h : Spec.IsSpace ws) (ht : NumEnd t) : NumEnd (ws ++ t) := by
  apply numEnd_append _ ht
  intro b hb
  rcases h b hb with rfl | rfl | rfl | rfl <;> decide

theorem numEnd_byte {b : UInt8} (h : b = 0x2C ∨ b = 0x5D ∨ b = 0x7D) (t : Bytes) : NumEnd (b :: t) := by
  apply numEnd_cons
  rcases h with rfl | rfl | rfl <;> decide

theorem items_head {n : Nat} {l : List JTree} {text rest : Bytes} (h : ItemsText n l text) :
    ∃ b t, dropSpace (text ++ rest) = b :: t ∧ b ≠ 0x5D := by
  cases h with
  | last _ v ws text ws' h1 h2 h3 =>
    obtain ⟨b, t, rfl, hb, hn⟩ := valueText_head h2
    rw [List.append_assoc, List.append_assoc, dropSpace_ws h1, List.cons_append, dropSpace_cons hb]
    exact ⟨_, _, rfl, hn⟩
  | more _ v l ws text ws' rest h1 h2 h3 h4 =>
    obtain ⟨b, t, rfl, hb, hn⟩ := valueText_head h2
    rw [List.append_assoc, List.append_assoc, List.append_assoc, dropSpace_ws h1, List.cons_append, dropSpace_cons hb]
    exact ⟨_, _, rfl, hn⟩

theorem members_head {n : Nat} {l : List (Bytes × JTree)} {text rest : Bytes} (h : MembersText n l text) :
    ∃ t, dropSpace (text ++ rest) = 0x22 :: t := by
  cases h with
  | last _ k v ws raw ws1 ws2 text ws' h1 =>
    simp only [List.append_assoc, List.cons_append]
    rw [dropSpace_ws h1, dropSpace_cons (by decide)]
    exact ⟨_, rfl⟩
  | more _ k v l ws raw ws1 ws2 text ws' rest h1 =>
    simp only [List.append_assoc, List.cons_append]
    rw [dropSpace_ws h1, dropSpace_cons (by decide)]
    exact ⟨_, rfl⟩

/-- The key, the colon and the value of a member. -/
theorem scanMember {fuel n : Nat} {s ws raw k ws1 ws2 text t : Bytes} {v : JTree} (hs : dropSpace s = dropSpace (ws ++ 0x22 :: raw ++ 0x22 :: ws1 ++ 0x3A :: ws2 ++ text ++ t))
    (h1 : Spec.IsSpace ws) (h2 : StringText raw k) (h3 : Spec.IsSpace ws1)
    (hv : scanValue fuel n (ws2 ++ (text ++ t)) = .ok (v, t)) :
    scanMembers (fuel + 1) n s =
      match dropSpace t with
      | [] => .error .short
      | c :: u =>
        if c = 0x2C then (scanMembers fuel n u).map (fun r => ((k, v) :: r.1, r.2))
        else if c = 0x7D then .ok ([(k, v)], u)
        else .error (.bad c (str "after object key:value pair")) := by
  have ht : scanText (raw ++ 0x22 :: (ws1 ++ 0x3A :: (ws2 ++ (text ++ t)))) = .ok (k, ws1 ++ 0x3A :: (ws2 ++ (text ++ t))) := scanText_iff.mpr ⟨raw, rfl, h2⟩
  rw [scanMembers, hs]
  simp only [List.append_assoc, List.cons_append]
  rw [dropSpace_ws h1, dropSpace_cons (by decide)]
  simp only [if_true, ht]
  rw [dropSpace_ws h3, dropSpace_cons (by decide)]
  simp only [if_true, hv]
  cases dropSpace t <;> rfl

theorem scan_complete {n : Nat} {v : JTree} {text : Bytes} (h : ValueText n v text) :
    ∀ (rest : Bytes) (fuel : Nat) (s : Bytes), (∀ t, v = .num t → NumEnd rest) → 2 * text.length + 1 ≤ fuel → dropSpace s = dropSpace (text ++ rest) →
      scanValue fuel n s = .ok (v, rest) := by
  refine ValueText.rec
    (motive_1 := fun n v text _ => ∀ (rest : Bytes) (fuel : Nat) (s : Bytes), (∀ t, v = .num t → NumEnd rest) → 2 * text.length + 1 ≤ fuel →
      dropSpace s = dropSpace (text ++ rest) → scanValue fuel n s = .ok (v, rest))
    (motive_2 := fun n l text _ => ∀ (rest : Bytes) (fuel : Nat) (s : Bytes), 2 * text.length + 2 ≤ fuel →
      dropSpace s = dropSpace (text ++ 0x5D :: rest) → scanItems fuel n s = .ok (l, rest))
    (motive_3 := fun n l text _ => ∀ (rest : Bytes) (fuel : Nat) (s : Bytes), 2 * text.length + 2 ≤ fuel →
      dropSpace s = dropSpace (text ++ 0x7D :: rest) → scanMembers fuel n s = .ok (l, rest))
    ?null ?true ?false ?num ?str ?noItems ?arr ?noMembers ?obj ?ilast ?imore ?mlast ?mmore h
  case null =>
    intro n rest fuel s _ hf hs
    obtain ⟨fuel, rfl⟩ : ∃ f, fuel = f + 1 := ⟨fuel - 1, by omega⟩
    rw [str_null] at hs
    rw [scanValue, hs, List.cons_append, dropSpace_cons (by decide)]
    simp only [show ¬ (0x6E : UInt8) = 0x7B by decide, show ¬ (0x6E : UInt8) = 0x5B by decide, show ¬ (0x6E : UInt8) = 0x22 by decide,
      show ¬ (0x6E : UInt8) = 0x2D by decide, show ¬ jsonDigit 0x6E = true by decide, show ¬ (0x6E : UInt8) = 0x74 by decide,
      show ¬ (0x6E : UInt8) = 0x66 by decide, if_true, if_false, Bool.false_eq_true]
    have := letters_all (str "null") (str "ull") rest
    rw [str_ull] at this ⊢
    rw [this]; rfl
  case true =>
    intro n rest fuel s _ hf hs
    obtain ⟨fuel, rfl⟩ : ∃ f, fuel = f + 1 := ⟨fuel - 1, by omega⟩
    rw [str_true] at hs
    rw [scanValue, hs, List.cons_append, dropSpace_cons (by decide)]
    simp only [show ¬ (0x74 : UInt8) = 0x7B by decide, show ¬ (0x74 : UInt8) = 0x5B by decide, show ¬ (0x74 : UInt8) = 0x22 by decide,
      show ¬ (0x74 : UInt8) = 0x2D by decide, show ¬ jsonDigit 0x74 = true by decide, if_true, if_false, Bool.false_eq_true]
    have := letters_all (str "true") (str "rue") rest
    rw [str_rue] at this ⊢
    rw [this]; rfl
  case false =>
    intro n rest fuel s _ hf hs
    obtain ⟨fuel, rfl⟩ : ∃ f, fuel = f + 1 := ⟨fuel - 1, by omega⟩
    rw [str_false] at hs
    rw [scanValue, hs, List.cons_append, dropSpace_cons (by decide)]
    simp only [show ¬ (0x66 : UInt8) = 0x7B by decide, show ¬ (0x66 : UInt8) = 0x5B by decide, show ¬ (0x66 : UInt8) = 0x22 by decide,
      show ¬ (0x66 : UInt8) = 0x2D by decide, show ¬ jsonDigit 0x66 = true by decide, show ¬ (0x66 : UInt8) = 0x74 by decide,
      if_true, if_false, Bool.false_eq_true]
    have := letters_all (str "false") (str "alse") rest
    rw [str_alse] at this ⊢
    rw [this]; rfl
  case num =>
    intro n text hn rest fuel s hr hf hs
    obtain ⟨fuel, rfl⟩ : ∃ f, fuel = f + 1 := ⟨fuel - 1, by omega⟩
    obtain ⟨sign, int, frac, exp, rfl, hsg, hi, hfr, he⟩ := hn
    obtain ⟨d, ds, rfl, hd, hk⟩ := scanDigits_all hi hfr he (hr _ rfl)
    obtain ⟨f1, f2, f3, f4, f5, f6⟩ := digit_facts hd
    rcases hsg with rfl | rfl
    · rw [scanValue, hs]
      have e : ([] ++ (d :: ds) ++ frac ++ exp ++ rest) = d :: (ds ++ frac ++ exp ++ rest) := by simp
      rw [e, dropSpace_cons f1]
      simp only [f2, f3, f5, f6, hd, if_false, if_true, hk]
      have er : readOf (d :: (ds ++ frac ++ exp ++ rest)) rest = [] ++ d :: ds ++ frac ++ exp := readOf_eq (by simp)
      rw [← er]; rfl
    · rw [scanValue, hs]
      have e : (str "-" ++ (d :: ds) ++ frac ++ exp ++ rest) = 0x2D :: d :: (ds ++ frac ++ exp ++ rest) := by rw [str_minus]; simp
      rw [e, dropSpace_cons (by decide)]
      simp only [show ¬ (0x2D : UInt8) = 0x7B by decide, show ¬ (0x2D : UInt8) = 0x5B by decide, show ¬ (0x2D : UInt8) = 0x22 by decide,
        if_false, if_true, scanNeg, hd, hk]
      have er : readOf (0x2D :: d :: (ds ++ frac ++ exp ++ rest)) rest = str "-" ++ (d :: ds) ++ frac ++ exp := readOf_eq (by rw [str_minus]; simp)
      rw [← er]; rfl
  case str =>
    intro n raw x hx rest fuel s _ hf hs
    obtain ⟨fuel, rfl⟩ : ∃ f, fuel = f + 1 := ⟨fuel - 1, by omega⟩
    rw [scanValue, hs]
    simp only [List.append_assoc, List.cons_append, List.nil_append]
    rw [dropSpace_cons (by decide)]
    simp only [show ¬ (0x22 : UInt8) = 0x7B by decide, show ¬ (0x22 : UInt8) = 0x5B by decide, if_false, if_true]
    rw [scanText_iff.mpr ⟨raw, rfl, hx⟩]
    rfl
  case noItems =>
    intro n ws hw rest fuel s _ hf hs
    obtain ⟨fuel, rfl⟩ : ∃ f, fuel = f + 1 := ⟨fuel - 1, by omega⟩
    rw [scanValue, hs]
    simp only [List.append_assoc, List.cons_append, List.nil_append]
    rw [dropSpace_cons (by decide)]
    simp only [show ¬ (0x5B : UInt8) = 0x7B by decide, if_false, if_true]
    rw [dropSpace_ws hw, dropSpace_cons (by decide)]
    simp only [if_true]
  case arr =>
    intro n l text hi ih rest fuel s _ hf hs
    obtain ⟨fuel, rfl⟩ : ∃ f, fuel = f + 1 := ⟨fuel - 1, by omega⟩
    rw [scanValue, hs]
    simp only [List.append_assoc, List.cons_append, List.nil_append]
    rw [dropSpace_cons (by decide)]
    simp only [show ¬ (0x5B : UInt8) = 0x7B by decide, if_false, if_true]
    obtain ⟨b, t, hb, hn⟩ := items_head (rest := 0x5D :: rest) hi
    rw [hb]
    simp only [hn, if_false]
    rw [ih rest fuel (b :: t) (by simp at hf; omega) (by rw [← hb, dropSpace_idem])]
    rfl
  case noMembers =>
    intro n ws hw rest fuel s _ hf hs
    obtain ⟨fuel, rfl⟩ : ∃ f, fuel = f + 1 := ⟨fuel - 1, by omega⟩
    rw [scanValue, hs]
    simp only [List.append_assoc, List.cons_append, List.nil_append]
    rw [dropSpace_cons (by decide)]
    simp only [if_true]
    rw [dropSpace_ws hw, dropSpace_cons (by decide)]
    simp only [if_true]
  case obj =>
    intro n l text hi ih rest fuel s _ hf hs
    obtain ⟨fuel, rfl⟩ : ∃ f, fuel = f + 1 := ⟨fuel - 1, by omega⟩
    rw [scanValue, hs]
    simp only [List.append_assoc, List.cons_append, List.nil_append]
    rw [dropSpace_cons (by decide)]
    simp only [if_true]
    obtain ⟨t, hb⟩ := members_head (rest := 0x7D :: rest) hi
    rw [hb]
    simp only [show ¬ (0x22 : UInt8) = 0x7D by decide, if_false]
    rw [ih rest fuel (0x22 :: t) (by simp at hf; omega) (by rw [← hb, dropSpace_idem])]
    rfl
  case ilast =>
    intro n v ws text ws' h1 hv h2 ih rest fuel s hf hs
    obtain ⟨fuel, rfl⟩ : ∃ f, fuel = f + 1 := ⟨fuel - 1, by omega⟩
    rw [List.append_assoc, List.append_assoc, dropSpace_ws h1] at hs
    rw [scanItems, ih (ws' ++ 0x5D :: rest) fuel s (fun _ _ => numEnd_space h2 (numEnd_byte (by simp) _)) (by simp at hf; omega) hs]
    simp only
    rw [dropSpace_ws h2, dropSpace_cons (by decide)]
    simp only [show ¬ (0x5D : UInt8) = 0x2C by decide, if_false, if_true]
  case imore =>
    intro n v l ws text ws' more h1 hv h2 hm ih ih2 rest fuel s hf hs
    obtain ⟨fuel, rfl⟩ : ∃ f, fuel = f + 1 := ⟨fuel - 1, by omega⟩
    simp only [List.append_assoc, List.cons_append] at hs
    rw [dropSpace_ws h1] at hs
    rw [scanItems, ih (ws' ++ 0x2C :: (more ++ 0x5D :: rest)) fuel s (fun _ _ => numEnd_space h2 (numEnd_byte (by simp) _)) (by simp at hf; omega) hs]
    simp only
    rw [dropSpace_ws h2, dropSpace_cons (by decide)]
    simp only [if_true]
    rw [ih2 rest fuel _ (by simp at hf; omega) rfl]
    rfl
  case mlast =>
    intro n k v ws raw ws1 ws2 text ws' h1 h2 h3 h4 hv h5 ih rest fuel s hf hs
    obtain ⟨fuel, rfl⟩ : ∃ f, fuel = f + 1 := ⟨fuel - 1, by omega⟩
    rw [List.append_assoc] at hs
    rw [scanMember hs h1 h2 h3 (ih _ fuel _ (fun _ _ => numEnd_space h5 (numEnd_byte (by simp) _)) (by simp at hf; omega) (dropSpace_ws h4 _)),
      dropSpace_ws h5, dropSpace_cons (by decide)]
    simp only [show ¬ (0x7D : UInt8) = 0x2C by decide, if_false, if_true]
  case mmore =>
    intro n k v l ws raw ws1 ws2 text ws' more h1 h2 h3 h4 hv h5 hm ih ih2 rest fuel s hf hs
    obtain ⟨fuel, rfl⟩ : ∃ f, fuel = f + 1 := ⟨fuel - 1, by omega⟩
    rw [List.append_assoc, List.append_assoc, List.cons_append] at hs
    rw [scanMember hs h1 h2 h3 (ih _ fuel _ (fun _ _ => numEnd_space h5 (numEnd_byte (by simp) _)) (by simp at hf; omega) (dropSpace_ws h4 _)),
      dropSpace_ws h5, dropSpace_cons (by decide)]
    simp only [if_true]
    rw [ih2 rest fuel _ (by simp at hf; omega) rfl]
    rfl

/-! ### Errors -/

/-- An error of the input, not of the scanner. -/
def JErr.Proper (e : JErr) : Prop := e = .short ∨ ∃ b c, e = .bad b c

theorem except_map_error {α β : Type} {f : α → β} {x : Except JErr α} {e : JErr} (h : x.map f = .error e) : x = .error e := by
  cases x with
  | error e' => cases h; rfl
  | ok a => cases h

theorem scanExpDigits_error {s : Bytes} {e : JErr} (h : scanExpDigits s = .error e) : e.Proper := by
  cases s with
  | nil => cases h; exact .inl rfl
  | cons b s => rw [scanExpDigits] at h; split at h <;> cases h; exact .inr ⟨_, _, rfl⟩

theorem scanTail_error {s : Bytes} {e : JErr} (h : scanTail s = .error e) : e.Proper := by
  cases s with
  | nil => cases h
  | cons b s =>
    rw [scanTail] at h
    split at h
    · cases s with
      | nil => cases h; exact .inl rfl
      | cons c s => rw [scanExp] at h; split at h <;> exact scanExpDigits_error h
    · cases h

theorem scanFrac_error {s : Bytes} {e : JErr} (h : scanFrac s = .error e) : e.Proper := by
  cases s with
  | nil => cases h
  | cons b s =>
    rw [scanFrac] at h
    split at h
    · cases s with
      | nil => cases h; exact .inl rfl
      | cons c s =>
        rw [scanDot] at h
        split at h
        · exact scanTail_error h
        · cases h; exact .inr ⟨_, _, rfl⟩
    · exact scanTail_error h

theorem scanDigits_error {b : UInt8} {s : Bytes} {e : JErr} (h : scanDigits b s = .error e) : e.Proper := by
  rw [scanDigits] at h
  split at h <;> exact scanFrac_error h

theorem scanNeg_error {s : Bytes} {e : JErr} (h : scanNeg s = .error e) : e.Proper := by
  cases s with
  | nil => cases h; exact .inl rfl
  | cons b s =>
    rw [scanNeg] at h
    split at h
    · exact scanDigits_error h
    · cases h; exact .inr ⟨_, _, rfl⟩

theorem letters_error {name want s : Bytes} {e : JErr} (h : scanLetters name want s = .error e) : e.Proper := by
  induction want generalizing s with
  | nil => cases h
  | cons x want ih =>
    cases s with
    | nil => cases h; exact .inl rfl
    | cons b s =>
      rw [scanLetters] at h
      split at h
      · exact ih h
      · cases h; exact .inr ⟨_, _, rfl⟩

theorem dropSpace_length (s : Bytes) : (dropSpace s).length ≤ s.length := by
  obtain ⟨ws, e, -⟩ := dropSpace_spec s
  have := congrArg List.length e
  rw [List.length_append] at this
  omega

theorem scan_error : ∀ (fuel room : Nat) (s : Bytes) (e : JErr),
    (2 * s.length + 1 ≤ fuel → scanValue fuel room s = .error e → e.Proper) ∧
    (2 * s.length + 2 ≤ fuel → scanItems fuel room s = .error e → e.Proper) ∧
    (2 * s.length + 2 ≤ fuel → scanMembers fuel room s = .error e → e.Proper) := by
  intro fuel
  induction fuel with
  | zero => intro room s e; refine ⟨fun h => ?_, fun h => ?_, fun h => ?_⟩ <;> omega
  | succ fuel ih =>
    intro room s e
    have hlen : ∀ {t : Bytes} {v : JTree} {s : Bytes}, scanValue fuel room s = .ok (v, t) → t.length < s.length := by
      intro t v s h
      obtain ⟨ws, text, es, -, hv⟩ := (scan_sound fuel room s).1 v t h
      have := valueText_ne hv
      have hp := List.length_pos_iff.mpr this
      rw [es]; simp; omega
    refine ⟨fun hf h => ?_, fun hf h => ?_, fun hf h => ?_⟩
    · rw [scanValue] at h
      have hl := dropSpace_length s
      cases hs : dropSpace s with
      | nil => rw [hs] at h; cases h; exact .inl rfl
      | cons b t =>
        rw [hs] at h hl
        simp only [List.length_cons] at hl
        simp only at h
        have hlt := dropSpace_length t
        split at h
        · cases room with
          | zero => cases h; exact .inr ⟨_, _, rfl⟩
          | succ room =>
            simp only at h
            cases ht : dropSpace t with
            | nil => rw [ht] at h; cases h; exact .inl rfl
            | cons c u =>
              rw [ht] at h hlt
              simp only at h
              split at h
              · cases h
              · exact (ih room (c :: u) e).2.2 (by omega) (except_map_error h)
        · split at h
          · cases room with
            | zero => cases h; exact .inr ⟨_, _, rfl⟩
            | succ room =>
              simp only at h
              cases ht : dropSpace t with
              | nil => rw [ht] at h; cases h; exact .inl rfl
              | cons c u =>
                rw [ht] at h hlt
                simp only at h
                split at h
                · cases h
                · exact (ih room (c :: u) e).2.1 (by omega) (except_map_error h)
          · (repeat' split at h)
            · exact scanText_error (except_map_error h)
            · exact scanNeg_error (except_map_error h)
            · exact scanDigits_error (except_map_error h)
            · exact letters_error (except_map_error h)
            · exact letters_error (except_map_error h)
            · exact letters_error (except_map_error h)
            · cases h; exact .inr ⟨_, _, rfl⟩
    · rw [scanItems] at h
      split at h
      · rename_i e' he; cases h; exact (ih room s e).1 (by omega) he
      · rename_i v t hv
        have h1 := hlen hv
        have h2 := dropSpace_length t
        cases ht : dropSpace t with
        | nil => rw [ht] at h; cases h; exact .inl rfl
        | cons c u =>
          rw [ht] at h h2
          simp only [List.length_cons] at h2
          simp only at h
          split at h
          · exact (ih room u e).2.1 (by omega) (except_map_error h)
          · split at h <;> cases h
            exact .inr ⟨_, _, rfl⟩
    · rw [scanMembers] at h
      have hl := dropSpace_length s
      cases hs : dropSpace s with
      | nil => rw [hs] at h; cases h; exact .inl rfl
      | cons q s' =>
        rw [hs] at h hl
        simp only [List.length_cons] at hl
        simp only at h
        split at h
        · split at h
          · rename_i e' he; cases h; exact scanText_error he
          · rename_i k t hk
            obtain ⟨raw, ek, -⟩ := scanText_iff.mp hk
            have e1 : t.length < s'.length := by rw [ek]; simp; omega
            have e2 := dropSpace_length t
            cases ht : dropSpace t with
            | nil => rw [ht] at h; cases h; exact .inl rfl
            | cons colon t' =>
              rw [ht] at h e2
              simp only [List.length_cons] at e2
              simp only at h
              split at h
              · split at h
                · rename_i e' he; cases h; exact (ih room t' e).1 (by omega) he
                · rename_i v t2 hv
                  have e3 := hlen hv
                  have e4 := dropSpace_length t2
                  cases ht2 : dropSpace t2 with
                  | nil => rw [ht2] at h; cases h; exact .inl rfl
                  | cons c u =>
                    rw [ht2] at h e4
                    simp only [List.length_cons] at e4
                    simp only at h
                    split at h
                    · exact (ih room u e).2.2 (by omega) (except_map_error h)
                    · split at h <;> cases h
                      exact .inr ⟨_, _, rfl⟩
              · cases h; exact .inr ⟨_, _, rfl⟩
        · cases h; exact .inr ⟨_, _, rfl⟩

end Kagome
