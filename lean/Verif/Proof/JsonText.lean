import Verif.Proof.JsonString

/-! The scanner of encoding/json accepts the texts of the grammar, no others, and always comes to an end. -/

namespace Kagome

open Spec (StringText ValueText ItemsText MembersText IsDigits IsInteger IsFraction IsExponent IsNumber)

/-! ### White space -/

theorem jsonSpace_iff (b : UInt8) : jsonSpace b = true ↔ b = 0x20 ∨ b = 0x09 ∨ b = 0x0A ∨ b = 0x0D := by
  simp only [jsonSpace, Bool.or_eq_true, beq_iff_eq]
  constructor
  · rintro (((h | h) | h) | h) <;> simp [h]
  · rintro (h | h | h | h) <;> simp [h]

theorem isSpace_append {a b : Bytes} (ha : Spec.IsSpace a) (hb : Spec.IsSpace b) : Spec.IsSpace (a ++ b) := by
  intro x hx
  rcases List.mem_append.mp hx with hx | hx
  · exact ha x hx
  · exact hb x hx

theorem dropSpace_spec (s : Bytes) : ∃ ws, s = ws ++ dropSpace s ∧ Spec.IsSpace ws := by
  induction s with
  | nil => exact ⟨[], rfl, by intro b hb; cases hb⟩
  | cons b s ih =>
    rw [dropSpace]
    split
    · rename_i hb
      obtain ⟨ws, e, hw⟩ := ih
      refine ⟨b :: ws, by rw [List.cons_append, ← e], ?_⟩
      intro x hx
      rcases List.mem_cons.mp hx with rfl | hx
      · exact (jsonSpace_iff x).mp hb
      · exact hw x hx
    · exact ⟨[], rfl, by intro b hb; cases hb⟩

theorem dropSpace_head {s t : Bytes} {b : UInt8} (h : dropSpace s = b :: t) : jsonSpace b = false := by
  induction s with
  | nil => cases h
  | cons x s ih =>
    rw [dropSpace] at h
    split at h
    · exact ih h
    · rename_i hx; cases h; simpa using hx

theorem dropSpace_cons {b : UInt8} (h : jsonSpace b = false) (t : Bytes) : dropSpace (b :: t) = b :: t := by
  rw [dropSpace, if_neg (by simp [h])]

theorem dropSpace_ws {ws : Bytes} (h : Spec.IsSpace ws) (t : Bytes) : dropSpace (ws ++ t) = dropSpace t := by
  induction ws with
  | nil => rfl
  | cons b ws ih =>
    rw [List.cons_append, dropSpace, if_pos ((jsonSpace_iff b).mpr (h b (by simp))), ih (fun x hx => h x (by simp [hx]))]

theorem dropSpace_idem (s : Bytes) : dropSpace (dropSpace s) = dropSpace s := by
  cases h : dropSpace s with
  | nil => rfl
  | cons b t => exact dropSpace_cons (dropSpace_head h) t

theorem dropSpace_nil {s : Bytes} : dropSpace s = [] ↔ Spec.IsSpace s := by
  constructor
  · intro h
    obtain ⟨ws, e, hw⟩ := dropSpace_spec s
    rw [h, List.append_nil] at e
    rw [e]; exact hw
  · intro h
    have := dropSpace_ws h []
    rw [List.append_nil] at this
    rw [this]; rfl

/-! ### Numbers -/

theorem jsonDigit_iff (b : UInt8) : jsonDigit b = true ↔ 0x30 ≤ b ∧ b ≤ 0x39 := by simp [jsonDigit]

theorem dropDigits_spec (s : Bytes) : ∃ ds, s = ds ++ dropDigits s ∧ IsDigits ds := by
  induction s with
  | nil => exact ⟨[], rfl, by intro b hb; cases hb⟩
  | cons b s ih =>
    rw [dropDigits]
    split
    · rename_i hb
      obtain ⟨ws, e, hw⟩ := ih
      refine ⟨b :: ws, by rw [List.cons_append, ← e], ?_⟩
      intro x hx
      rcases List.mem_cons.mp hx with rfl | hx
      · exact (jsonDigit_iff x).mp hb
      · exact hw x hx
    · exact ⟨[], rfl, by intro b hb; cases hb⟩

theorem dropDigits_all {ds : Bytes} (h : IsDigits ds) (t : Bytes) : dropDigits (ds ++ t) = dropDigits t := by
  induction ds with
  | nil => rfl
  | cons b ds ih =>
    rw [List.cons_append, dropDigits, if_pos ((jsonDigit_iff b).mpr (h b (by simp))), ih (fun x hx => h x (by simp [hx]))]

theorem dropDigits_stop {t : Bytes} (h : ∀ b, t.head? = some b → jsonDigit b = false) : dropDigits t = t := by
  cases t with
  | nil => rfl
  | cons b t => rw [dropDigits, if_neg (by simp [h b rfl])]

theorem scanExpDigits_ok {s rest : Bytes} (h : scanExpDigits s = .ok rest) : ∃ ds, s = ds ++ rest ∧ ds ≠ [] ∧ IsDigits ds := by
  cases s with
  | nil => cases h
  | cons b s =>
    rw [scanExpDigits] at h
    split at h
    · rename_i hb
      cases h
      obtain ⟨ds, e, hd⟩ := dropDigits_spec s
      refine ⟨b :: ds, by rw [List.cons_append, ← e], by simp, ?_⟩
      intro x hx
      rcases List.mem_cons.mp hx with rfl | hx
      · exact (jsonDigit_iff x).mp hb
      · exact hd x hx
    · cases h

theorem str_minus : str "-" = [0x2D] := by decide
theorem str_plus : str "+" = [0x2B] := by decide
theorem str_dot : str "." = [0x2E] := by decide
theorem str_e : str "e" = [0x65] := by decide
theorem str_E : str "E" = [0x45] := by decide
theorem str_zero : str "0" = [0x30] := by decide

theorem scanExp_ok {s rest : Bytes} (h : scanExp s = .ok rest) :
    ∃ sg ds, s = sg ++ ds ++ rest ∧ (sg = [] ∨ sg = str "+" ∨ sg = str "-") ∧ ds ≠ [] ∧ IsDigits ds := by
  cases s with
  | nil => cases h
  | cons b s =>
    rw [scanExp] at h
    split at h
    · rename_i hb
      obtain ⟨ds, e, h1, h2⟩ := scanExpDigits_ok h
      refine ⟨[b], ds, by rw [e]; simp, ?_, h1, h2⟩
      rw [str_plus, str_minus]
      rcases hb with rfl | rfl <;> simp
    · obtain ⟨ds, e, h1, h2⟩ := scanExpDigits_ok h
      exact ⟨[], ds, by rw [e]; simp, .inl rfl, h1, h2⟩

theorem scanTail_ok {s rest : Bytes} (h : scanTail s = .ok rest) : ∃ exp, s = exp ++ rest ∧ IsExponent exp := by
  cases s with
  | nil => cases h; exact ⟨[], rfl, .inl rfl⟩
  | cons b s =>
    rw [scanTail] at h
    split at h
    · rename_i hb
      obtain ⟨sg, ds, e, h1, h2, h3⟩ := scanExp_ok h
      refine ⟨[b] ++ sg ++ ds, by rw [e]; simp, .inr ⟨[b], sg, ds, rfl, ?_, h1, h2, h3⟩⟩
      rw [str_e, str_E]
      rcases hb with rfl | rfl <;> simp
    · cases h; exact ⟨[], rfl, .inl rfl⟩

theorem scanFrac_ok {s rest : Bytes} (h : scanFrac s = .ok rest) : ∃ frac exp, s = frac ++ exp ++ rest ∧ IsFraction frac ∧ IsExponent exp := by
  cases s with
  | nil => cases h; exact ⟨[], [], rfl, .inl rfl, .inl rfl⟩
  | cons b s =>
    rw [scanFrac] at h
    split at h
    · rename_i hb
      cases s with
      | nil => cases h
      | cons c s =>
        rw [scanDot] at h
        split at h
        · rename_i hc
          obtain ⟨exp, e, he⟩ := scanTail_ok h
          obtain ⟨ds, e2, hd⟩ := dropDigits_spec s
          refine ⟨str "." ++ (c :: ds), exp, ?_, .inr ⟨c :: ds, rfl, by simp, ?_⟩, he⟩
          · rw [str_dot, hb, e2, e]; simp
          · intro x hx
            rcases List.mem_cons.mp hx with rfl | hx
            · exact (jsonDigit_iff x).mp hc
            · exact hd x hx
        · cases h
    · obtain ⟨exp, e, he⟩ := scanTail_ok h
      exact ⟨[], exp, by rw [e]; rfl, .inl rfl, he⟩

theorem scanDigits_ok {b : UInt8} {s rest : Bytes} (hb : jsonDigit b = true) (h : scanDigits b s = .ok rest) :
    ∃ int frac exp, b :: s = int ++ frac ++ exp ++ rest ∧ IsInteger int ∧ IsFraction frac ∧ IsExponent exp := by
  rw [scanDigits] at h
  split at h
  · rename_i h0
    obtain ⟨frac, exp, e, h1, h2⟩ := scanFrac_ok h
    exact ⟨[b], frac, exp, by rw [e]; simp, .inl (by rw [str_zero, h0]), h1, h2⟩
  · rename_i h0
    obtain ⟨frac, exp, e, h1, h2⟩ := scanFrac_ok h
    obtain ⟨ds, e2, hd⟩ := dropDigits_spec s
    refine ⟨b :: ds, frac, exp, by rw [e2, e]; simp, .inr ⟨b, ds, rfl, ?_, ((jsonDigit_iff b).mp hb).2, hd⟩, h1, h2⟩
    have := ((jsonDigit_iff b).mp hb).1
    rw [UInt8.le_iff_toNat_le] at this ⊢
    have hne : b.toNat ≠ 0x30 := fun he => h0 (UInt8.toNat_inj.mp he)
    have e1 : (0x30 : UInt8).toNat = 48 := rfl
    have e2 : (0x31 : UInt8).toNat = 49 := rfl
    omega

theorem readOf_eq {s text rest : Bytes} (h : s = text ++ rest) : readOf s rest = text := by
  rw [readOf, h]; simp

theorem number_plain {b : UInt8} {s rest : Bytes} (hb : jsonDigit b = true) (h : scanDigits b s = .ok rest) :
    b :: s = readOf (b :: s) rest ++ rest ∧ IsNumber (readOf (b :: s) rest) := by
  obtain ⟨int, frac, exp, e, h1, h2, h3⟩ := scanDigits_ok hb h
  rw [readOf_eq e]
  exact ⟨e, [], int, frac, exp, rfl, .inl rfl, h1, h2, h3⟩

theorem number_neg {s rest : Bytes} (h : scanNeg s = .ok rest) :
    0x2D :: s = readOf (0x2D :: s) rest ++ rest ∧ IsNumber (readOf (0x2D :: s) rest) := by
  cases s with
  | nil => cases h
  | cons b s =>
    rw [scanNeg] at h
    split at h
    · rename_i hb
      obtain ⟨int, frac, exp, e, h1, h2, h3⟩ := scanDigits_ok hb h
      have e' : 0x2D :: b :: s = (str "-" ++ int ++ frac ++ exp) ++ rest := by rw [e, str_minus]; simp
      rw [readOf_eq e']
      exact ⟨e', _, int, frac, exp, rfl, .inr rfl, h1, h2, h3⟩
    · cases h

/-- What may stand behind a number. -/
theorem numEnd_head {t : Bytes} (h : NumEnd t) : ∀ b, t.head? = some b → jsonDigit b = false := fun b hb => (h b hb).1

theorem scanExpDigits_all {ds rest : Bytes} (hne : ds ≠ []) (hd : IsDigits ds) (hr : NumEnd rest) : scanExpDigits (ds ++ rest) = .ok rest := by
  cases ds with
  | nil => exact absurd rfl hne
  | cons d ds =>
    rw [List.cons_append, scanExpDigits, if_pos ((jsonDigit_iff d).mpr (hd d (by simp))), dropDigits_all (fun x hx => hd x (by simp [hx])),
      dropDigits_stop (numEnd_head hr)]

theorem digit_no_sign : ∀ n, n < 256 → jsonDigit (UInt8.ofNat n) = true →
    UInt8.ofNat n ≠ 0x2B ∧ UInt8.ofNat n ≠ 0x2D ∧ UInt8.ofNat n ≠ 0x2E ∧ UInt8.ofNat n ≠ 0x65 ∧ UInt8.ofNat n ≠ 0x45 := by decide +kernel

theorem scanTail_all {exp rest : Bytes} (he : IsExponent exp) (hr : NumEnd rest) : scanTail (exp ++ rest) = .ok rest := by
  rcases he with rfl | ⟨e, sg, ds, rfl, h1, h2, h3, h4⟩
  · rw [List.nil_append]
    cases rest with
    | nil => rfl
    | cons b t =>
      have := hr b rfl
      rw [scanTail, if_neg (by rintro (h | h) <;> simp_all)]
  · have hdig := scanExpDigits_all h3 h4 hr
    have hexp : scanExp (sg ++ ds ++ rest) = .ok rest := by
      rw [str_plus, str_minus] at h2
      rcases h2 with rfl | rfl | rfl
      · cases ds with
        | nil => exact absurd rfl h3
        | cons d ds =>
          have hd := digit_no_sign d.toNat (UInt8.toNat_lt d) (by rw [UInt8.ofNat_toNat]; exact (jsonDigit_iff d).mpr (h4 d (by simp)))
          rw [UInt8.ofNat_toNat] at hd
          rw [List.nil_append, List.cons_append, scanExp, if_neg (fun h => h.elim hd.1 hd.2.1)]
          exact hdig
      · rw [List.append_assoc, List.cons_append, List.nil_append, scanExp, if_pos (.inl rfl)]; exact hdig
      · rw [List.append_assoc, List.cons_append, List.nil_append, scanExp, if_pos (.inr rfl)]; exact hdig
    rw [str_e, str_E] at h1
    rcases h1 with rfl | rfl
    · rw [List.append_assoc, List.append_assoc, List.cons_append, List.nil_append, scanTail, if_pos (.inl rfl), ← List.append_assoc]; exact hexp
    · rw [List.append_assoc, List.append_assoc, List.cons_append, List.nil_append, scanTail, if_pos (.inr rfl), ← List.append_assoc]; exact hexp

/-- The first byte of a fraction, an exponent, or what is behind a number. -/
theorem exp_head {exp rest : Bytes} (he : IsExponent exp) (hr : NumEnd rest) : ∀ b, (exp ++ rest).head? = some b → jsonDigit b = false ∧ b ≠ 0x2E := by
  rcases he with rfl | ⟨e, sg, ds, rfl, h1, -⟩
  · intro b hb; exact ⟨(hr b hb).1, (hr b hb).2.1⟩
  · rw [str_e, str_E] at h1
    intro b hb
    rcases h1 with rfl | rfl
    · simp only [List.cons_append, List.head?_cons, Option.some.injEq] at hb; subst hb; decide
    · simp only [List.cons_append, List.head?_cons, Option.some.injEq] at hb; subst hb; decide

theorem scanFrac_all {frac exp rest : Bytes} (hf : IsFraction frac) (he : IsExponent exp) (hr : NumEnd rest) :
    scanFrac (frac ++ exp ++ rest) = .ok rest := by
  rcases hf with rfl | ⟨ds, rfl, h1, h2⟩
  · rw [List.nil_append]
    have := exp_head he hr
    have ht := scanTail_all he hr
    cases hx : exp ++ rest with
    | nil => rw [hx] at ht; exact ht
    | cons b t =>
      rw [hx] at this ht
      rw [scanFrac, if_neg (this b rfl).2]; exact ht
  · cases ds with
    | nil => exact absurd rfl h1
    | cons d ds =>
      rw [str_dot]
      simp only [List.cons_append, List.nil_append]
      rw [scanFrac, if_pos rfl, scanDot, if_pos ((jsonDigit_iff d).mpr (h2 d (by simp))), List.append_assoc, dropDigits_all (fun x hx => h2 x (by simp [hx])),
        dropDigits_stop (fun b hb => (exp_head he hr b hb).1)]
      exact scanTail_all he hr

theorem frac_head {frac exp rest : Bytes} (hf : IsFraction frac) (he : IsExponent exp) (hr : NumEnd rest) :
    ∀ b, (frac ++ exp ++ rest).head? = some b → jsonDigit b = false := by
  rcases hf with rfl | ⟨ds, rfl, -⟩
  · intro b hb; exact (exp_head he hr b (by simpa using hb)).1
  · rw [str_dot]; intro b hb
    simp only [List.cons_append, List.head?_cons, Option.some.injEq] at hb
    subst hb; decide

theorem scanDigits_all {int frac exp rest : Bytes} (hi : IsInteger int) (hf : IsFraction frac) (he : IsExponent exp) (hr : NumEnd rest) :
    ∃ d ds, int = d :: ds ∧ jsonDigit d = true ∧ scanDigits d (ds ++ frac ++ exp ++ rest) = .ok rest := by
  rcases hi with rfl | ⟨d, ds, rfl, h1, h2, h3⟩
  · rw [str_zero]
    refine ⟨0x30, [], rfl, by decide, ?_⟩
    rw [scanDigits, if_pos rfl]
    exact scanFrac_all hf he hr
  · rw [UInt8.le_iff_toNat_le] at h1
    have e2 : (0x31 : UInt8).toNat = 49 := rfl
    refine ⟨d, ds, rfl, (jsonDigit_iff d).mpr ⟨?_, h2⟩, ?_⟩
    · rw [UInt8.le_iff_toNat_le, show (0x30 : UInt8).toNat = 48 from rfl]; omega
    · rw [scanDigits, if_neg (by rintro rfl; simp at h1), List.append_assoc, List.append_assoc, dropDigits_all h3, ← List.append_assoc,
        dropDigits_stop (frac_head hf he hr)]
      exact scanFrac_all hf he hr

/-! ### Soundness -/

theorem letters_ok {name want s rest : Bytes} (h : scanLetters name want s = .ok rest) : s = want ++ rest := by
  induction want generalizing s with
  | nil => cases h; rfl
  | cons e want ih =>
    cases s with
    | nil => cases h
    | cons b s =>
      rw [scanLetters] at h
      split at h
      · rename_i hb; rw [ih h, hb]; rfl
      · cases h

theorem letters_all (name want rest : Bytes) : scanLetters name want (want ++ rest) = .ok rest := by
  induction want with
  | nil => cases rest <;> rfl
  | cons e want ih => rw [List.cons_append, scanLetters, if_pos rfl, ih]

theorem valueText_ne {n : Nat} {v : JTree} {text : Bytes} (h : ValueText n v text) : text ≠ [] := by
  cases h with
  | null => decide
  | true => decide
  | false => decide
  | num _ _ h =>
    obtain ⟨sign, int, frac, exp, rfl, -, hi, -⟩ := h
    rcases hi with rfl | ⟨d, ds, rfl, -⟩ <;> simp [str_zero]
  | str => simp
  | noItems => simp
  | arr => simp
  | noMembers => simp
  | obj => simp

theorem scan_sound : ∀ (fuel room : Nat) (s : Bytes),
    (∀ v rest, scanValue fuel room s = .ok (v, rest) → ∃ ws text, s = ws ++ text ++ rest ∧ Spec.IsSpace ws ∧ ValueText room v text) ∧
    (∀ l rest, scanItems fuel room s = .ok (l, rest) → ∃ text, s = text ++ 0x5D :: rest ∧ ItemsText room l text) ∧
    (∀ l rest, scanMembers fuel room s = .ok (l, rest) → ∃ text, s = text ++ 0x7D :: rest ∧ MembersText room l text) := by
  intro fuel
  induction fuel with
  | zero =>
    intro room s
    refine ⟨fun v rest h => ?_, fun v rest h => ?_, fun v rest h => ?_⟩
    · rw [scanValue] at h; cases h
    · rw [scanItems] at h; cases h
    · rw [scanMembers] at h; cases h
  | succ fuel ih =>
    intro room s
    refine ⟨fun v rest h => ?_, fun l rest h => ?_, fun l rest h => ?_⟩
    · obtain ⟨ws, es, hws⟩ := dropSpace_spec s
      rw [scanValue] at h
      cases hs : dropSpace s with
      | nil => rw [hs] at h; cases h
      | cons b t =>
        rw [hs] at h es
        suffices hk : ∃ text, b :: t = text ++ rest ∧ ValueText room v text by
          obtain ⟨text, e, hv⟩ := hk
          exact ⟨ws, text, by rw [es, e, List.append_assoc], hws, hv⟩
        simp only at h
        split at h
        · rename_i hb
          subst hb
          cases room with
          | zero => cases h
          | succ room =>
            simp only at h
            obtain ⟨wt, et, hwt⟩ := dropSpace_spec t
            cases ht : dropSpace t with
            | nil => rw [ht] at h; cases h
            | cons c u =>
              rw [ht] at h et
              simp only at h
              split at h
              · rename_i hc
                cases h
                exact ⟨0x7B :: wt ++ [0x7D], by rw [et, hc]; simp, .noMembers room wt hwt⟩
              · obtain ⟨⟨l, r⟩, h1, h2⟩ := except_map_ok h
                cases h2
                obtain ⟨text, e, hm⟩ := (ih room (c :: u)).2.2 l r h1
                refine ⟨0x7B :: (wt ++ text) ++ [0x7D], by rw [et, e]; simp, .obj room l _ ?_⟩
                cases hm with
                | last _ k v ws raw ws1 ws2 text ws' a1 a2 a3 a4 a5 a6 =>
                  have := MembersText.last room k v (wt ++ ws) raw ws1 ws2 text ws' (isSpace_append hwt a1) a2 a3 a4 a5 a6
                  simpa using this
                | more _ k v l ws raw ws1 ws2 text ws' rest a1 a2 a3 a4 a5 a6 a7 =>
                  have := MembersText.more room k v l (wt ++ ws) raw ws1 ws2 text ws' rest (isSpace_append hwt a1) a2 a3 a4 a5 a6 a7
                  simpa using this
        · split at h
          · rename_i hb
            subst hb
            cases room with
            | zero => cases h
            | succ room =>
              simp only at h
              obtain ⟨wt, et, hwt⟩ := dropSpace_spec t
              cases ht : dropSpace t with
              | nil => rw [ht] at h; cases h
              | cons c u =>
                rw [ht] at h et
                simp only at h
                split at h
                · rename_i hc
                  cases h
                  exact ⟨0x5B :: wt ++ [0x5D], by rw [et, hc]; simp, .noItems room wt hwt⟩
                · obtain ⟨⟨l, r⟩, h1, h2⟩ := except_map_ok h
                  cases h2
                  obtain ⟨text, e, hm⟩ := (ih room (c :: u)).2.1 l r h1
                  refine ⟨0x5B :: (wt ++ text) ++ [0x5D], by rw [et, e]; simp, .arr room l _ ?_⟩
                  cases hm with
                  | last _ v ws text ws' a1 a2 a3 =>
                    have := ItemsText.last room v (wt ++ ws) text ws' (isSpace_append hwt a1) a2 a3
                    simpa using this
                  | more _ v l ws text ws' rest a1 a2 a3 a4 =>
                    have := ItemsText.more room v l (wt ++ ws) text ws' rest (isSpace_append hwt a1) a2 a3 a4
                    simpa using this
          · split at h
            · rename_i hb
              obtain ⟨⟨x, r⟩, h1, h2⟩ := except_map_ok h
              cases h2
              obtain ⟨raw, e, hr⟩ := scanText_iff.mp h1
              exact ⟨0x22 :: raw ++ [0x22], by rw [e, hb]; simp, .str room raw x hr⟩
            · split at h
              · rename_i hb
                subst hb
                obtain ⟨r, h1, h2⟩ := except_map_ok h
                cases h2
                obtain ⟨e, hn⟩ := number_neg h1
                exact ⟨_, e, .num room _ hn⟩
              · split at h
                · rename_i hb
                  obtain ⟨r, h1, h2⟩ := except_map_ok h
                  cases h2
                  obtain ⟨e, hn⟩ := number_plain hb h1
                  exact ⟨_, e, .num room _ hn⟩
                · split at h
                  · rename_i hb
                    obtain ⟨r, h1, h2⟩ := except_map_ok h
                    cases h2
                    exact ⟨str "true", by rw [hb, letters_ok h1]; rfl, .true room⟩
                  · split at h
                    · rename_i hb
                      obtain ⟨r, h1, h2⟩ := except_map_ok h
                      cases h2
                      exact ⟨str "false", by rw [hb, letters_ok h1]; rfl, .false room⟩
                    · split at h
                      · rename_i hb
                        obtain ⟨r, h1, h2⟩ := except_map_ok h
                        cases h2
                        exact ⟨str "null", by rw [hb, letters_ok h1]; rfl, .null room⟩
                      · cases h
    · rw [scanItems] at h
      split at h
      · cases h
      · rename_i v t hv
        obtain ⟨ws, text, e, hws, hvt⟩ := (ih room s).1 v t hv
        obtain ⟨wt, et, hwt⟩ := dropSpace_spec t
        cases ht : dropSpace t with
        | nil => rw [ht] at h; cases h
        | cons c u =>
          rw [ht] at h et
          simp only at h
          split at h
          · rename_i hc
            obtain ⟨⟨l, r⟩, h1, h2⟩ := except_map_ok h
            cases h2
            obtain ⟨text', e', hi⟩ := (ih room u).2.1 l r h1
            exact ⟨_, by rw [e, et, hc, e']; simp, .more room v l ws text wt text' hws hvt hwt hi⟩
          · split at h
            · rename_i hc
              cases h
              exact ⟨_, by rw [e, et, hc]; simp, .last room v ws text wt hws hvt hwt⟩
            · cases h
    · rw [scanMembers] at h
      obtain ⟨ws, es, hws⟩ := dropSpace_spec s
      cases hs : dropSpace s with
      | nil => rw [hs] at h; cases h
      | cons q s' =>
        rw [hs] at h es
        simp only at h
        split at h
        · rename_i hq
          split at h
          · cases h
          · rename_i k t hk
            obtain ⟨raw, ek, hraw⟩ := scanText_iff.mp hk
            obtain ⟨w1, e1, hw1⟩ := dropSpace_spec t
            cases ht : dropSpace t with
            | nil => rw [ht] at h; cases h
            | cons colon t' =>
              rw [ht] at h e1
              simp only at h
              split at h
              · rename_i hcol
                split at h
                · cases h
                · rename_i v t2 hv
                  obtain ⟨w2, text, ev, hw2, hvt⟩ := (ih room t').1 v t2 hv
                  obtain ⟨w3, e3, hw3⟩ := dropSpace_spec t2
                  cases ht2 : dropSpace t2 with
                  | nil => rw [ht2] at h; cases h
                  | cons c u =>
                    rw [ht2] at h e3
                    simp only at h
                    split at h
                    · rename_i hc
                      obtain ⟨⟨l, r⟩, h1, h2⟩ := except_map_ok h
                      cases h2
                      obtain ⟨text', e', hi⟩ := (ih room u).2.2 l r h1
                      exact ⟨_, by rw [es, hq, ek, e1, hcol, ev, e3, hc, e']; simp,
                        .more room k v l ws raw w1 w2 text w3 text' hws hraw hw1 hw2 hvt hw3 hi⟩
                    · split at h
                      · rename_i hc
                        cases h
                        exact ⟨_, by rw [es, hq, ek, e1, hcol, ev, e3, hc]; simp, .last room k v ws raw w1 w2 text w3 hws hraw hw1 hw2 hvt hw3⟩
                      · cases h
              · cases h
        · cases h

end Kagome
