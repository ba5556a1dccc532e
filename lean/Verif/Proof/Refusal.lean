import Verif.Spec.Refusal
import Verif.Proof.Flag

/-! `flag.FlagSet.Parse` fails exactly with the first fault of the command line. -/

namespace Kagome

open Spec

theorem flagForm_bad (s : Bytes) : flagForm s = .bad ↔ s = [] ∨ s.head? = some 0x2D ∨ s.head? = some 0x3D := by
  cases s with
  | nil => simp [flagForm]
  | cons b t =>
    simp only [flagForm, List.head?_cons, Option.some.injEq]
    split
    · rename_i h; simp [h]
    · rename_i h; simp [h]

theorem argForm_bad (s : Bytes) : argForm s = .bad ↔ str "---" <+: s ∨ str "-=" <+: s ∨ str "--=" <+: s := by
  have e1 : str "---" = [0x2D, 0x2D, 0x2D] := by decide
  have e2 : str "-=" = [0x2D, 0x3D] := by decide
  have e3 : str "--=" = [0x2D, 0x2D, 0x3D] := by decide
  rw [e1, e2, e3]
  unfold argForm
  match s with
  | [] => simp
  | [a] => simp
  | [a, b] =>
    simp only
    by_cases ha : a = 0x2D
    · by_cases hb : b = 0x2D
      · simp [ha, hb]
      · by_cases hb' : b = 0x3D
        · simp [ha, hb', flagForm_bad]
        · simp [ha, hb, hb', flagForm_bad]
          intro h; exact absurd h.symm hb'
    · simp only [ha, ne_eq, not_false_eq_true, if_true, reduceCtorEq, false_iff, List.cons_prefix_cons, not_or]
      exact ⟨fun h => ha h.1.symm, fun h => ha h.1.symm, fun h => ha h.1.symm⟩
  | a :: b :: c :: t =>
    simp only
    by_cases ha : a = 0x2D
    · subst ha
      by_cases hb : b = 0x2D
      · subst hb
        rw [if_neg (by simp), if_pos rfl, if_neg (by simp), flagForm_bad]
        simp [eq_comm]
      · rw [if_neg (by simp), if_neg hb, flagForm_bad]
        simp only [List.cons_ne_nil, List.head?_cons, Option.some.injEq, hb, false_or, List.cons_prefix_cons, true_and, List.nil_prefix, and_true]
        constructor
        · intro h; exact Or.inr (Or.inl h.symm)
        · rintro (h | h | h)
          · exact absurd h.1.symm hb
          · exact h.symm
          · exact absurd h.1.symm hb
    · simp only [ha, ne_eq, not_false_eq_true, if_true, reduceCtorEq, false_iff, List.cons_prefix_cons, not_or]
      exact ⟨fun h => ha h.1.symm, fun h => ha h.1.symm, fun h => ha h.1.symm⟩

theorem cutEq_fst (t : Bytes) : (0x3D : UInt8) ∉ (cutEq t).1 := (cutEq_inv t).1

/-- What is read as a flag has a possible name. -/
theorem argForm_name {s n : Bytes} {v : Option Bytes} (h : argForm s = .flag n v) : FlagName n := by
  have key : ∀ {s : Bytes}, flagForm s = .flag n v → FlagName n := by
    intro s h
    obtain ⟨h1, h2, _⟩ := flagForm_inv h
    refine ⟨h1, h2, ?_⟩
    cases s with
    | nil => cases h
    | cons b t =>
      simp only [flagForm] at h
      split at h
      · cases h
      · rename_i hb
        simp only [ArgForm.flag.injEq] at h
        obtain ⟨rfl, rfl⟩ := h
        simp only [List.mem_cons, not_or]
        exact ⟨fun e => hb (Or.inr e.symm), cutEq_fst t⟩
  unfold argForm at h
  match s, h with
  | [], h => cases h
  | [a], h => cases h
  | a :: b :: t, h =>
    simp only at h
    split at h
    · cases h
    · split at h
      · split at h
        · cases h
        · exact key h
      · exact key h

theorem lookup_none (formal : List (Bytes × Bool)) (n : Bytes) : formalKind formal n = none ↔ n ∉ formal.map Prod.fst := by
  unfold formalKind
  induction formal with
  | nil => simp
  | cons f fs ih =>
    obtain ⟨a, k⟩ := f
    rw [List.lookup_cons]
    by_cases e : n = a
    · subst e; simp
    · rw [show (n == a) = false from by simpa using e]
      simp only [List.map_cons, List.mem_cons, not_or, e, not_false_eq_true, true_and]
      exact ih

theorem parseBool_none (v : Bytes) : parseBool v = none ↔ v ∉ trueWords ∧ v ∉ falseWords := by
  obtain ⟨h1, h2⟩ := parseBool_iff v
  rw [← h1, ← h2]
  cases parseBool v with
  | none => simp
  | some b => cases b <;> simp

theorem eqTail_iff (v : Option Bytes) : eqTail v = [] ∨ str "=" <+: eqTail v := by
  cases v with
  | none => exact Or.inl rfl
  | some v => right; rw [str_eq]; exact ⟨v, rfl⟩

theorem parseFlags_fault {formal : List (Bytes × Bool)} (hf : GoodNames formal) : ∀ (k : Nat) (args : List Bytes), args.length ≤ k →
    ∀ {e}, parseFlags formal args = .error e → FlagFault formal args e := by
  intro k
  induction k with
  | zero =>
    intro args hk e h
    have : args = [] := List.length_eq_zero_iff.mp (by omega)
    subst this
    cases h
  | succ k ih =>
    intro args hk e h
    cases args with
    | nil => cases h
    | cons s as =>
      simp only [List.length_cons] at hk
      unfold parseFlags at h
      split at h
      · cases h
      · cases h
      · rename_i hp
        cases h
        exact FlagFault.form s as ((argForm_bad s).mp hp)
      · rename_i name value hp
        obtain ⟨d, hd, hs⟩ := argForm_inv hp
        have hmap : ∀ {as : List Bytes} {x : Bytes × FlagVal}, as.length ≤ k →
            (parseFlags formal as).map (fun r => (x :: r.1, r.2)) = .error e → FlagFault formal as e := by
          intro as x hk h
          cases hr : parseFlags formal as with
          | error e' => rw [hr] at h; cases h; exact ih as hk hr
          | ok r => rw [hr] at h; cases h
        split at h
        · rename_i hk1
          have hno := (lookup_none formal name).mp hk1
          split at h
          · rename_i hh
            cases h
            rw [hs]
            exact FlagFault.help d name (eqTail value) as hd hh.symm hno (eqTail_iff value)
          · rename_i hh
            cases h
            rw [hs]
            exact FlagFault.unknown d name (eqTail value) as hd (argForm_name hp) (fun e => hh (Or.inr e)) (fun e => hh (Or.inl e)) hno
              (eqTail_iff value)
        · rename_i hk1
          have hmem := (lookup_iff hf.once name true).mp hk1
          cases value with
          | none =>
            have hb' : parseBool (str "true") = some true := by decide
            simp only [Option.getD_none, hb'] at h
            simp only [eqTail, List.append_nil] at hs
            rw [hs]
            exact FlagFault.later [d ++ name] name _ as e (FlagArg.on d name hd hmem) (hmap (by omega) h)
          | some v =>
            simp only [Option.getD_some] at h
            simp only [eqTail] at hs
            have e' : d ++ name ++ (0x3D :: v) = d ++ name ++ str "=" ++ v := by rw [str_eq]; simp
            rw [hs, e']
            split at h
            · rename_i hb
              cases h
              have := (parseBool_none v).mp hb
              exact FlagFault.notBool d name v as hd hmem this.1 this.2
            · rename_i b hb
              have hr := hmap (by omega) h
              cases b with
              | true => exact FlagFault.later [_] name _ as e (FlagArg.yes d name v hd hmem ((parseBool_iff v).1.mp hb)) hr
              | false => exact FlagFault.later [_] name _ as e (FlagArg.no d name v hd hmem ((parseBool_iff v).2.mp hb)) hr
        · rename_i hk1
          have hmem := (lookup_iff hf.once name false).mp hk1
          split at h
          · rename_i as' v
            simp only [eqTail] at hs
            have e' : d ++ name ++ (0x3D :: v) = d ++ name ++ str "=" ++ v := by rw [str_eq]; simp
            rw [hs, e']
            exact FlagFault.later [_] name _ _ e (FlagArg.value d name v hd hmem) (hmap (by omega) h)
          · cases h
            simp only [eqTail, List.append_nil] at hs
            rw [hs]
            exact FlagFault.missing d name hd hmem
          · rename_i v as'
            simp only [eqTail, List.append_nil] at hs
            rw [hs]
            exact FlagFault.later [_, _] name _ _ e (FlagArg.next d name v hd hmem)
              (hmap (by simp only [List.length_cons] at hk; omega) h)

theorem argForm_tail {d n tail : Bytes} (hd : d ∈ dashes) (hn : FlagName n) (ht : tail = [] ∨ str "=" <+: tail) :
    ∃ v, argForm (d ++ n ++ tail) = .flag n v := by
  obtain ⟨f1, f2⟩ := argForm_flag hd hn.ne hn.dash hn.eq
  rcases ht with rfl | ⟨v, rfl⟩
  · exact ⟨none, by rw [List.append_nil]; exact f1⟩
  · exact ⟨some v, by rw [← List.append_assoc]; exact f2 v⟩

theorem parseFlags_of_fault {formal : List (Bytes × Bool)} (hf : GoodNames formal) {args : List Bytes} {e}
    (h : FlagFault formal args e) : parseFlags formal args = .error e := by
  have key : ∀ {n k d}, (n, k) ∈ formal → d ∈ dashes → formalKind formal n = some k ∧ argForm (d ++ n) = .flag n none ∧
      ∀ v, argForm (d ++ n ++ str "=" ++ v) = .flag n (some v) := by
    intro n k d hm hd
    have := argForm_flag hd (hf.ne _ hm) (hf.dash _ hm) (hf.eq _ hm)
    exact ⟨(lookup_iff hf.once n k).mpr hm, this⟩
  induction h with
  | form a as h => unfold parseFlags; rw [(argForm_bad a).mpr h]
  | help d n tail as hd hn hno ht =>
    have hname : FlagName n := by
      rcases hn with rfl | rfl <;> constructor <;> decide
    obtain ⟨v, hv⟩ := argForm_tail hd hname ht
    unfold parseFlags
    simp only [hv, (lookup_none formal n).mpr hno]
    rw [if_pos hn.symm]
  | unknown d n tail as hd hn h1 h2 hno ht =>
    obtain ⟨v, hv⟩ := argForm_tail hd hn ht
    unfold parseFlags
    simp only [hv, (lookup_none formal n).mpr hno]
    rw [if_neg (by rintro (e | e) <;> contradiction)]
  | notBool d n v as hd hm h1 h2 =>
    obtain ⟨k1, _, k3⟩ := key hm hd
    unfold parseFlags
    simp only [k3, k1, Option.getD_some, (parseBool_none v).mpr ⟨h1, h2⟩]
  | missing d n hd hm =>
    obtain ⟨k1, k2, _⟩ := key hm hd
    unfold parseFlags
    simp only [k2, k1]
  | later pre n v as e hpre _ ih =>
    cases hpre with
    | value d _ v hd hm =>
      obtain ⟨k1, _, k3⟩ := key hm hd
      simp only [List.cons_append, List.nil_append]
      unfold parseFlags
      simp only [k3, k1, ih, Except.map]
    | next d _ v hd hm =>
      obtain ⟨k1, k2, _⟩ := key hm hd
      simp only [List.cons_append, List.nil_append]
      unfold parseFlags
      simp only [k2, k1, ih, Except.map]
    | on d _ hd hm =>
      obtain ⟨k1, k2, _⟩ := key hm hd
      simp only [List.cons_append, List.nil_append]
      unfold parseFlags
      simp only [k2, k1, ih, Except.map, Option.getD_none]
      rw [show parseBool (str "true") = some true from by decide]
    | yes d _ v hd hm hv =>
      obtain ⟨k1, _, k3⟩ := key hm hd
      simp only [List.cons_append, List.nil_append]
      unfold parseFlags
      simp only [k3, k1, ih, Except.map, Option.getD_some, (parseBool_iff v).1.mpr hv]
    | no d _ v hd hm hv =>
      obtain ⟨k1, _, k3⟩ := key hm hd
      simp only [List.cons_append, List.nil_append]
      unfold parseFlags
      simp only [k3, k1, ih, Except.map, Option.getD_some, (parseBool_iff v).2.mpr hv]

theorem parseFlags_error_iff {formal : List (Bytes × Bool)} (hf : GoodNames formal) (args : List Bytes) (e : FlagError) :
    parseFlags formal args = .error e ↔ FlagFault formal args e :=
  ⟨fun h => parseFlags_fault hf _ args (Nat.le_refl _) h, parseFlags_of_fault hf⟩

end Kagome
