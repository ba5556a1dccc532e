import Verif.Spec.CommandLine

/-! `parseFlags` accepts exactly the command lines of the grammar. -/

namespace Kagome

open Spec (dashes trueWords falseWords FlagArg NoFlag CommandLine Value)

theorem cutEq_plain {n : Bytes} (h : (0x3D : UInt8) ∉ n) : cutEq n = (n, none) := by
  induction n with
  | nil => rfl
  | cons b t ih =>
    simp only [List.mem_cons, not_or] at h
    simp only [cutEq]
    rw [if_neg (fun e => h.1 e.symm), ih h.2]

theorem cutEq_value {n : Bytes} (h : (0x3D : UInt8) ∉ n) (v : Bytes) : cutEq (n ++ 0x3D :: v) = (n, some v) := by
  induction n with
  | nil => simp [cutEq]
  | cons b t ih =>
    simp only [List.mem_cons, not_or] at h
    simp only [List.cons_append, cutEq]
    rw [if_neg (fun e => h.1 e.symm), ih h.2]

/-- The `=` and what is behind it. -/
def eqTail : Option Bytes → Bytes
  | none => []
  | some v => 0x3D :: v

theorem cutEq_inv (t : Bytes) : (0x3D : UInt8) ∉ (cutEq t).1 ∧
    t = (cutEq t).1 ++ eqTail (cutEq t).2 := by
  induction t with
  | nil => simp [cutEq, eqTail]
  | cons b t ih =>
    simp only [cutEq]
    split
    · rename_i h; simp [h, eqTail]
    · rename_i h
      refine ⟨?_, ?_⟩
      · simp only [List.mem_cons, not_or]
        exact ⟨fun e => h e.symm, ih.1⟩
      · simp only [List.cons_append, List.cons.injEq, true_and]
        exact ih.2

/-- The names `flag` can work with: not empty, without `=`, not beginning with a minus sign, and no name twice. -/
structure GoodNames (formal : List (Bytes × Bool)) : Prop where
  ne : ∀ f ∈ formal, f.1 ≠ []
  dash : ∀ f ∈ formal, f.1.head? ≠ some 0x2D
  eq : ∀ f ∈ formal, (0x3D : UInt8) ∉ f.1
  once : (formal.map Prod.fst).Nodup

theorem lookup_iff {formal : List (Bytes × Bool)} (h : (formal.map Prod.fst).Nodup) (n : Bytes) (k : Bool) :
    formalKind formal n = some k ↔ (n, k) ∈ formal := by
  unfold formalKind
  induction formal with
  | nil => simp
  | cons f fs ih =>
    obtain ⟨a, b⟩ := f
    simp only [List.map_cons, List.nodup_cons] at h
    rw [List.lookup_cons]
    by_cases e : n = a
    · subst e
      simp only [beq_self_eq_true, Option.some.injEq, List.mem_cons, Prod.mk.injEq, true_and]
      constructor
      · intro hk; exact Or.inl hk.symm
      · rintro (hk | hk)
        · exact hk.symm
        · exact absurd (List.mem_map_of_mem (f := Prod.fst) hk) h.1
    · rw [show (n == a) = false from by simpa using e]
      simp only [List.mem_cons, Prod.mk.injEq, e, false_and, false_or]
      exact ih h.2

theorem flagForm_flag {n : Bytes} (h1 : n ≠ []) (h2 : n.head? ≠ some 0x2D) (h3 : (0x3D : UInt8) ∉ n) :
    flagForm n = .flag n none ∧ ∀ v, flagForm (n ++ 0x3D :: v) = .flag n (some v) := by
  cases n with
  | nil => exact absurd rfl h1
  | cons b t =>
    simp only [List.mem_cons, not_or] at h3
    have hb : ¬ (b = 0x2D ∨ b = 0x3D) := by
      rintro (e | e)
      · subst e; simp at h2
      · exact h3.1 e.symm
    constructor
    · simp only [flagForm]; rw [if_neg hb, cutEq_plain h3.2]
    · intro v; simp only [List.cons_append, flagForm]; rw [if_neg hb, cutEq_value h3.2]

theorem flagForm_inv {s n : Bytes} {v : Option Bytes} (h : flagForm s = .flag n v) :
    n ≠ [] ∧ n.head? ≠ some 0x2D ∧ s = n ++ eqTail v := by
  cases s with
  | nil => cases h
  | cons b t =>
    simp only [flagForm] at h
    split at h
    · cases h
    · rename_i hb
      simp only [ArgForm.flag.injEq] at h
      obtain ⟨rfl, rfl⟩ := h
      refine ⟨by simp, ?_, ?_⟩
      · simp only [List.head?_cons]; intro e; simp only [Option.some.injEq] at e; exact hb (Or.inl e)
      · simp only [List.cons_append, List.cons.injEq, true_and]; exact (cutEq_inv t).2

theorem str_dash : str "-" = [0x2D] := by decide
theorem str_dashdash : str "--" = [0x2D, 0x2D] := by decide
theorem str_eq : str "=" = [0x3D] := by decide

theorem flagForm_not (s : Bytes) : flagForm s ≠ .plain ∧ flagForm s ≠ .terminator := by
  cases s with
  | nil => simp [flagForm]
  | cons b t => simp only [flagForm]; split <;> simp

theorem argForm_plain (s : Bytes) : argForm s = .plain ↔ NoFlag s := by
  unfold argForm NoFlag
  rw [str_dash]
  match s with
  | [] => simp
  | [a] => simp; exact Decidable.em _
  | a :: b :: t =>
    simp only
    split
    · rename_i h; simp [h]
    · rename_i h
      simp only [Decidable.not_not] at h
      simp only [h, List.cons.injEq, List.head?_cons, ne_eq, not_true_eq_false, or_false, true_and, reduceCtorEq, iff_false]
      split
      · split
        · simp
        · exact (flagForm_not _).1
      · exact (flagForm_not _).1

theorem argForm_term (s : Bytes) : argForm s = .terminator ↔ s = str "--" := by
  unfold argForm
  rw [str_dashdash]
  match s with
  | [] => simp
  | [a] => simp
  | a :: b :: t =>
    simp only
    split
    · rename_i h; simp [h]
    · rename_i h
      simp only [Decidable.not_not] at h
      split
      · rename_i hb
        split
        · rename_i ht; simp [h, hb, ht]
        · rename_i ht; simp only [List.cons.injEq, ht, and_false, iff_false]; exact (flagForm_not _).2
      · rename_i hb; simp only [List.cons.injEq, hb, false_and, and_false, iff_false]; exact (flagForm_not _).2

theorem argForm_flag {d n : Bytes} (hd : d ∈ dashes) (h1 : n ≠ []) (h2 : n.head? ≠ some 0x2D) (h3 : (0x3D : UInt8) ∉ n) :
    argForm (d ++ n) = .flag n none ∧ ∀ v, argForm (d ++ n ++ str "=" ++ v) = .flag n (some v) := by
  obtain ⟨f1, f2⟩ := flagForm_flag h1 h2 h3
  unfold dashes at hd
  rw [str_dash, str_dashdash] at hd
  rw [str_eq]
  simp only [List.mem_cons, List.not_mem_nil, or_false] at hd
  obtain ⟨b, t, rfl⟩ := List.exists_cons_of_ne_nil h1
  have hb : b ≠ 0x2D := by intro e; subst e; simp at h2
  rcases hd with rfl | rfl
  · constructor
    · simp only [List.cons_append, List.nil_append, argForm]
      rw [if_neg (by simp), if_neg hb]; exact f1
    · intro v
      simp only [List.cons_append, List.nil_append, argForm]
      rw [if_neg (by simp), if_neg hb]
      have := f2 v; simp only [List.cons_append] at this
      simpa using this
  · constructor
    · simp only [List.cons_append, List.nil_append, argForm]
      rw [if_neg (by simp), if_pos trivial, if_neg (by simp)]; exact f1
    · intro v
      simp only [List.cons_append, List.nil_append, argForm]
      rw [if_neg (by simp), if_pos trivial, if_neg (by simp)]
      have := f2 v; simp only [List.cons_append] at this
      simpa using this

theorem argForm_inv {s n : Bytes} {v : Option Bytes} (h : argForm s = .flag n v) :
    ∃ d ∈ dashes, s = d ++ n ++ eqTail v := by
  unfold argForm at h
  unfold dashes
  rw [str_dash, str_dashdash]
  match s, h with
  | [], h => cases h
  | [a], h => cases h
  | a :: b :: t, h =>
    simp only at h
    split at h
    · cases h
    · rename_i ha
      simp only [Decidable.not_not] at ha
      subst ha
      split at h
      · rename_i hb
        subst hb
        split at h
        · cases h
        · obtain ⟨_, _, e⟩ := flagForm_inv h
          exact ⟨[0x2D, 0x2D], by simp, by rw [e]; simp⟩
      · obtain ⟨_, _, e⟩ := flagForm_inv h
        exact ⟨[0x2D], by simp, by rw [e]; simp⟩

theorem parseBool_iff (v : Bytes) : (parseBool v = some true ↔ v ∈ trueWords) ∧ (parseBool v = some false ↔ v ∈ falseWords) := by
  unfold parseBool trueWords falseWords
  simp only [List.mem_cons, List.not_mem_nil, or_false]
  constructor
  · split
    · rename_i h; simp [h]
    · rename_i h
      simp only [h, iff_false]
      split <;> simp
  · split
    · rename_i h
      simp only [Option.some.injEq, Bool.true_eq_false, false_iff]
      rcases h with rfl | rfl | rfl | rfl | rfl | rfl <;> decide
    · rename_i h
      split
      · rename_i h2; simp [h2]
      · rename_i h2; simp [h2]

theorem parseFlags_sound {formal : List (Bytes × Bool)} (hf : GoodNames formal) : ∀ (k : Nat) (args : List Bytes), args.length ≤ k →
    ∀ {sets rest}, parseFlags formal args = .ok (sets, rest) → CommandLine formal args sets rest := by
  intro k
  induction k with
  | zero =>
    intro args hk sets rest h
    have : args = [] := List.length_eq_zero_iff.mp (by omega)
    subst this
    simp only [parseFlags, Except.ok.injEq, Prod.mk.injEq] at h
    obtain ⟨rfl, rfl⟩ := h
    exact CommandLine.empty
  | succ k ih =>
    intro args hk sets rest h
    cases args with
    | nil =>
      simp only [parseFlags, Except.ok.injEq, Prod.mk.injEq] at h
      obtain ⟨rfl, rfl⟩ := h
      exact CommandLine.empty
    | cons s as =>
      simp only [List.length_cons] at hk
      unfold parseFlags at h
      split at h
      · rename_i hp
        simp only [Except.ok.injEq, Prod.mk.injEq] at h
        obtain ⟨rfl, rfl⟩ := h
        exact CommandLine.rest s as ((argForm_plain s).mp hp)
      · rename_i hp
        simp only [Except.ok.injEq, Prod.mk.injEq] at h
        obtain ⟨rfl, rfl⟩ := h
        rw [(argForm_term s).mp hp]
        exact CommandLine.stop as
      · cases h
      · rename_i name value hp
        obtain ⟨d, hd, hs⟩ := argForm_inv hp
        have hmap : ∀ {as : List Bytes} {x : Bytes × FlagVal}, as.length ≤ k →
            (parseFlags formal as).map (fun r => (x :: r.1, r.2)) = .ok (sets, rest) →
            ∃ sets', sets = x :: sets' ∧ CommandLine formal as sets' rest := by
          intro as x hk h
          cases hr : parseFlags formal as with
          | error e => rw [hr] at h; cases h
          | ok r =>
            rw [hr] at h
            simp only [Except.map, Except.ok.injEq, Prod.mk.injEq] at h
            obtain ⟨h1, h2⟩ := h
            exact ⟨r.1, h1.symm, ih as hk (by rw [hr, ← h2])⟩
        split at h
        · split at h <;> cases h
        · rename_i hk1
          have hmem := (lookup_iff hf.once name true).mp hk1
          split at h
          · cases h
          · rename_i b hb
            obtain ⟨sets', rfl, hcl⟩ := hmap (by omega) h
            cases value with
            | none =>
              simp only [Option.getD_none] at hb
              have : b = true := by
                have hb' : parseBool (str "true") = some true := by decide
                rw [hb'] at hb
                simpa using hb.symm
              subst this
              simp only [eqTail, List.append_nil] at hs
              rw [hs]
              exact CommandLine.flag [d ++ name] name _ as _ _ (FlagArg.on d name hd hmem) hcl
            | some v =>
              simp only [Option.getD_some] at hb
              simp only [eqTail] at hs
              rw [hs]
              have e : d ++ name ++ (0x3D :: v) = d ++ name ++ str "=" ++ v := by rw [str_eq]; simp
              rw [e]
              cases b with
              | true => exact CommandLine.flag [_] name _ as _ _ (FlagArg.yes d name v hd hmem ((parseBool_iff v).1.mp hb)) hcl
              | false => exact CommandLine.flag [_] name _ as _ _ (FlagArg.no d name v hd hmem ((parseBool_iff v).2.mp hb)) hcl
        · rename_i hk1
          have hmem := (lookup_iff hf.once name false).mp hk1
          split at h
          · rename_i as' v
            obtain ⟨sets', rfl, hcl⟩ := hmap (by omega) h
            simp only [eqTail] at hs
            rw [hs]
            have e : d ++ name ++ (0x3D :: v) = d ++ name ++ str "=" ++ v := by rw [str_eq]; simp
            rw [e]
            exact CommandLine.flag [_] name _ _ _ _ (FlagArg.value d name v hd hmem) hcl
          · cases h
          · rename_i v as'
            obtain ⟨sets', rfl, hcl⟩ := hmap (by simp only [List.length_cons] at hk; omega) h
            simp only [eqTail, List.append_nil] at hs
            rw [hs]
            exact CommandLine.flag [_, _] name _ _ _ _ (FlagArg.next d name v hd hmem) hcl

theorem parseFlags_complete {formal : List (Bytes × Bool)} (hf : GoodNames formal) {args : List Bytes} {sets rest}
    (h : CommandLine formal args sets rest) : parseFlags formal args = .ok (sets, rest) := by
  induction h with
  | empty => rfl
  | rest a as ha => unfold parseFlags; rw [(argForm_plain a).mpr ha]
  | stop as => unfold parseFlags; rw [(argForm_term _).mpr rfl]
  | flag pre n v as sets rest hpre hcl ih =>
    have key : ∀ k d, (n, k) ∈ formal → d ∈ dashes → formalKind formal n = some k ∧ argForm (d ++ n) = .flag n none ∧
        ∀ v, argForm (d ++ n ++ str "=" ++ v) = .flag n (some v) := by
      intro k d hm hd
      have := argForm_flag hd (hf.ne _ hm) (hf.dash _ hm) (hf.eq _ hm)
      exact ⟨(lookup_iff hf.once n k).mpr hm, this⟩
    cases hpre with
    | value d _ v hd hm =>
      obtain ⟨k1, _, k3⟩ := key _ d hm hd
      simp only [List.cons_append, List.nil_append]
      unfold parseFlags
      simp only [k3, k1, ih, Except.map]
    | next d _ v hd hm =>
      obtain ⟨k1, k2, _⟩ := key _ d hm hd
      simp only [List.cons_append, List.nil_append]
      unfold parseFlags
      simp only [k2, k1, ih, Except.map]
    | on d _ hd hm =>
      obtain ⟨k1, k2, _⟩ := key _ d hm hd
      simp only [List.cons_append, List.nil_append]
      unfold parseFlags
      simp only [k2, k1, ih, Except.map, Option.getD_none]
      rw [show parseBool (str "true") = some true from by decide]
    | yes d _ v hd hm hv =>
      obtain ⟨k1, _, k3⟩ := key _ d hm hd
      simp only [List.cons_append, List.nil_append]
      unfold parseFlags
      simp only [k3, k1, ih, Except.map, Option.getD_some, (parseBool_iff v).1.mpr hv]
    | no d _ v hd hm hv =>
      obtain ⟨k1, _, k3⟩ := key _ d hm hd
      simp only [List.cons_append, List.nil_append]
      unfold parseFlags
      simp only [k3, k1, ih, Except.map, Option.getD_some, (parseBool_iff v).2.mpr hv]

theorem parseFlags_iff {formal : List (Bytes × Bool)} (hf : GoodNames formal) (args : List Bytes) (sets rest) :
    parseFlags formal args = .ok (sets, rest) ↔ CommandLine formal args sets rest :=
  ⟨fun h => parseFlags_sound hf _ args (Nat.le_refl _) h, parseFlags_complete hf⟩

/-- The kinds of the values fit the flags. -/
theorem sets_kind {formal : List (Bytes × Bool)} {args : List Bytes} {sets rest} (h : CommandLine formal args sets rest) :
    ∀ s ∈ sets, match s.2 with | .str _ => (s.1, false) ∈ formal | .bool _ => (s.1, true) ∈ formal := by
  induction h with
  | empty => simp
  | rest => simp
  | stop => simp
  | flag pre n v as sets rest hpre _ ih =>
    intro s hs
    rcases List.mem_cons.mp hs with rfl | hs
    · cases hpre <;> assumption
    · exact ih s hs

theorem strFlag_value {formal : List (Bytes × Bool)} (hf : (formal.map Prod.fst).Nodup) {n : Bytes} (hn : (n, false) ∈ formal)
    (dflt : Bytes) : ∀ {sets : List (Bytes × FlagVal)}
    (_ : ∀ s ∈ sets, match s.2 with | .str _ => (s.1, false) ∈ formal | .bool _ => (s.1, true) ∈ formal) (v : Bytes),
    Value sets n (.str dflt) (.str v) ↔ strFlag n dflt sets = v := by
  intro sets
  unfold strFlag
  induction sets generalizing dflt with
  | nil =>
    intro _ v
    unfold Value
    simp only [List.foldl_nil]
    constructor
    · rintro (⟨a, b, h, _⟩ | ⟨_, h⟩)
      · simp at h
      · simpa using h.symm
    · intro h; right; exact ⟨by simp, by rw [h]⟩
  | cons s sets ih =>
    intro hk v
    have hk' := fun x hx => hk x (List.mem_cons_of_mem s hx)
    rw [List.foldl_cons]
    obtain ⟨a, x⟩ := s
    by_cases e : a = n
    · subst e
      have hx : ∃ y, x = .str y := by
        have := hk _ (List.mem_cons_self)
        cases x with
        | str y => exact ⟨y, rfl⟩
        | bool y =>
          simp only at this
          have h1 := (lookup_iff hf a true).mpr this
          have h2 := (lookup_iff hf a false).mpr hn
          rw [h1] at h2; cases h2
      obtain ⟨y, rfl⟩ := hx
      have hset : setStr a dflt (a, .str y) = y := by simp [setStr]
      rw [hset]
      rw [← ih y hk' v]
      unfold Value
      constructor
      · rintro (⟨b, c, h, h2⟩ | ⟨h, _⟩)
        · cases b with
          | nil =>
            simp only [List.nil_append, List.cons.injEq, Prod.mk.injEq, true_and, FlagVal.str.injEq] at h
            obtain ⟨rfl, rfl⟩ := h
            exact Or.inr ⟨h2, rfl⟩
          | cons z b =>
            simp only [List.cons_append, List.cons.injEq] at h
            exact Or.inl ⟨b, c, h.2, h2⟩
        · exact absurd rfl (h _ (List.mem_cons_self))
      · rintro (⟨b, c, h, h2⟩ | ⟨h, h2⟩)
        · exact Or.inl ⟨(a, .str y) :: b, c, by rw [h]; rfl, h2⟩
        · exact Or.inl ⟨[], sets, by rw [h2]; rfl, h⟩
    · have hstep : setStr n dflt (a, x) = dflt := by
        cases x with
        | str z => simp [setStr, e]
        | bool z => rfl
      simp only [hstep]
      rw [← ih dflt hk' v]
      unfold Value
      constructor
      · rintro (⟨b, c, h, h2⟩ | ⟨h, h2⟩)
        · cases b with
          | nil =>
            simp only [List.nil_append, List.cons.injEq, Prod.mk.injEq] at h
            exact absurd h.1.1 e
          | cons z b =>
            simp only [List.cons_append, List.cons.injEq] at h
            exact Or.inl ⟨b, c, h.2, h2⟩
        · exact Or.inr ⟨fun s hs => h s (by simp [hs]), h2⟩
      · rintro (⟨b, c, h, h2⟩ | ⟨h, h2⟩)
        · exact Or.inl ⟨(a, x) :: b, c, by rw [h]; rfl, h2⟩
        · refine Or.inr ⟨?_, h2⟩
          intro s hs
          rcases List.mem_cons.mp hs with rfl | hs
          · exact e
          · exact h s hs

theorem boolFlag_value {formal : List (Bytes × Bool)} (hf : (formal.map Prod.fst).Nodup) {n : Bytes} (hn : (n, true) ∈ formal)
    (dflt : Bool) : ∀ {sets : List (Bytes × FlagVal)}
    (_ : ∀ s ∈ sets, match s.2 with | .str _ => (s.1, false) ∈ formal | .bool _ => (s.1, true) ∈ formal) (v : Bool),
    Value sets n (.bool dflt) (.bool v) ↔ boolFlag n dflt sets = v := by
  intro sets
  unfold boolFlag
  induction sets generalizing dflt with
  | nil =>
    intro _ v
    unfold Value
    simp only [List.foldl_nil]
    constructor
    · rintro (⟨a, b, h, _⟩ | ⟨_, h⟩)
      · simp at h
      · simpa using h.symm
    · intro h; right; exact ⟨by simp, by rw [h]⟩
  | cons s sets ih =>
    intro hk v
    have hk' := fun x hx => hk x (List.mem_cons_of_mem s hx)
    rw [List.foldl_cons]
    obtain ⟨a, x⟩ := s
    by_cases e : a = n
    · subst e
      have hx : ∃ y, x = .bool y := by
        have := hk _ (List.mem_cons_self)
        cases x with
        | bool y => exact ⟨y, rfl⟩
        | str y =>
          simp only at this
          have h1 := (lookup_iff hf a false).mpr this
          have h2 := (lookup_iff hf a true).mpr hn
          rw [h1] at h2; cases h2
      obtain ⟨y, rfl⟩ := hx
      have hset : setBool a dflt (a, .bool y) = y := by simp [setBool]
      rw [hset]
      rw [← ih y hk' v]
      unfold Value
      constructor
      · rintro (⟨b, c, h, h2⟩ | ⟨h, _⟩)
        · cases b with
          | nil =>
            simp only [List.nil_append, List.cons.injEq, Prod.mk.injEq, true_and, FlagVal.bool.injEq] at h
            obtain ⟨rfl, rfl⟩ := h
            exact Or.inr ⟨h2, rfl⟩
          | cons z b =>
            simp only [List.cons_append, List.cons.injEq] at h
            exact Or.inl ⟨b, c, h.2, h2⟩
        · exact absurd rfl (h _ (List.mem_cons_self))
      · rintro (⟨b, c, h, h2⟩ | ⟨h, h2⟩)
        · exact Or.inl ⟨(a, .bool y) :: b, c, by rw [h]; rfl, h2⟩
        · exact Or.inl ⟨[], sets, by rw [h2]; rfl, h⟩
    · have hstep : setBool n dflt (a, x) = dflt := by
        cases x with
        | bool z => simp [setBool, e]
        | str z => rfl
      simp only [hstep]
      rw [← ih dflt hk' v]
      unfold Value
      constructor
      · rintro (⟨b, c, h, h2⟩ | ⟨h, h2⟩)
        · cases b with
          | nil =>
            simp only [List.nil_append, List.cons.injEq, Prod.mk.injEq] at h
            exact absurd h.1.1 e
          | cons z b =>
            simp only [List.cons_append, List.cons.injEq] at h
            exact Or.inl ⟨b, c, h.2, h2⟩
        · exact Or.inr ⟨fun s hs => h s (by simp [hs]), h2⟩
      · rintro (⟨b, c, h, h2⟩ | ⟨h, h2⟩)
        · exact Or.inl ⟨(a, x) :: b, c, by rw [h]; rfl, h2⟩
        · refine Or.inr ⟨?_, h2⟩
          intro s hs
          rcases List.mem_cons.mp hs with rfl | hs
          · exact e
          · exact h s hs

end Kagome
