import Verif.Proof.Lat

/-! `forward` solves the lattice column by column. -/

namespace Kagome

theorem getNode_setNode_same {cols : Cols} {i j : Nat} {t n : Node} (h : getNode cols i j = some t) :
    getNode (setNode cols i j n) i j = some n := by
  unfold getNode setNode at *
  rw [List.getElem?_modify_eq]
  cases hc : cols[i]? with
  | none => simp [hc] at h
  | some col =>
    simp only [hc, Option.bind_some] at h
    have hl := (List.getElem?_eq_some_iff.mp h).1
    simp [hl]

theorem setNode_setNode (cols : Cols) (i j : Nat) (a b : Node) :
    setNode (setNode cols i j a) i j b = setNode cols i j b := by
  unfold setNode
  apply List.ext_getElem?
  intro p
  simp only [List.getElem?_modify]
  by_cases h : i = p
  · subst h
    cases cols[i]? <;> simp
  · simp [h]

theorem setNode_same {cols : Cols} {i j : Nat} {t : Node} (h : getNode cols i j = some t) : setNode cols i j t = cols := by
  unfold getNode setNode at *
  apply List.ext_getElem?
  intro p
  simp only [List.getElem?_modify]
  by_cases hp : i = p
  · subst hp
    cases hc : cols[i]? with
    | none => simp
    | some col =>
      simp only [hc, Option.bind_some] at h
      obtain ⟨hl, rfl⟩ := List.getElem?_eq_some_iff.mp h
      simp
  · simp [hp]

theorem setNode_other {cols : Cols} {i j p : Nat} {n : Node} (h : p ≠ i) : (setNode cols i j n)[p]? = cols[p]? := by
  unfold setNode
  rw [List.getElem?_modify]
  have : ¬ i = p := fun e => h e.symm
  simp [this]

@[simp] theorem setNode_length (cols : Cols) (i j : Nat) (n : Node) : (setNode cols i j n).length = cols.length := by
  simp [setNode]

/-- The cost of reaching `t` through `n` as stored. -/
def candCost (d : Dict) (ideo : Nat → Bool) (m : LMode) (n t : Node) : Int :=
  int32 (totalCost ideo m ((connCost d n t).getD 0) n t)

/-- One step of the inner loop on the target alone. -/
def relaxStep (d : Dict) (ideo : Nat → Bool) (m : LMode) (P : List Node) (t : Node) (j : Nat) : Node :=
  match P[j]? with
  | none => t
  | some n =>
    if j = 0 ∨ candCost d ideo m n t < t.cost then { t with cost := candCost d ideo m n t, prev := some (t.start, j) }
    else t

/-- The solved target. -/
def solve1 (d : Dict) (ideo : Nat → Bool) (m : LMode) (cols : Cols) (t : Node) : Node :=
  match cols[t.start]? with
  | none => t
  | some P =>
    if P.length = 0 then { t with cost := maximumCost }
    else (List.range P.length).foldl (relaxStep d ideo m P) t

/-- A node without its cost and predecessor. -/
def skel (n : Node) : Node := { n with cost := 0, prev := none }

theorem skel_relaxStep (d : Dict) (ideo : Nat → Bool) (m : LMode) (P : List Node) (t : Node) (j : Nat) :
    skel (relaxStep d ideo m P t j) = skel t := by
  unfold relaxStep
  split
  · rfl
  · split <;> rfl

theorem skel_foldl (d : Dict) (ideo : Nat → Bool) (m : LMode) (P : List Node) (t : Node) (js : List Nat) :
    skel (js.foldl (relaxStep d ideo m P) t) = skel t := by
  induction js generalizing t with
  | nil => rfl
  | cons j js ih => rw [List.foldl_cons, ih, skel_relaxStep]

theorem skel_solve1 (d : Dict) (ideo : Nat → Bool) (m : LMode) (cc : Cols) (t : Node) :
    skel (solve1 d ideo m cc t) = skel t := by
  unfold solve1
  split
  · rfl
  · split
    · rfl
    · exact skel_foldl ..

theorem start_of_skel {a b : Node} (h : skel a = skel b) : a.start = b.start := by
  have := congrArg Node.start h; exact this

theorem candCost_skel {d : Dict} {ideo : Nat → Bool} {m : LMode} {n t t' : Node} (h : skel t = skel t') :
    candCost d ideo m n t = candCost d ideo m n t' := by
  have h1 : t.cls = t'.cls := by have := congrArg Node.cls h; exact this
  have h2 : t.left = t'.left := by have := congrArg Node.left h; exact this
  have h3 : t.weight = t'.weight := by have := congrArg Node.weight h; exact this
  simp [candCost, totalCost, connCost, h1, h2, h3]

theorem connCost_skel {d : Dict} {n t t' : Node} (h : skel t = skel t') : connCost d n t = connCost d n t' := by
  have h1 : t.cls = t'.cls := by have := congrArg Node.cls h; exact this
  have h2 : t.left = t'.left := by have := congrArg Node.left h; exact this
  simp [connCost, h1, h2]

theorem relax_eq {d : Dict} {ideo : Nat → Bool} {m : LMode} {i idx : Nat} {P : List Node} (js : List Nat) {cols : Cols}
    {t : Node} (ht : getNode cols i idx = some t) (hst : t.start < i) (hP : cols[t.start]? = some P)
    (hjs : ∀ j ∈ js, j < P.length) (hc : ∀ n ∈ P, (connCost d n t).isSome) :
    relax d ideo m i idx js cols = some (setNode cols i idx (js.foldl (relaxStep d ideo m P) t)) := by
  induction js generalizing cols t with
  | nil => simp [relax, setNode_same ht]
  | cons j js ih =>
    have hj : j < P.length := hjs j (by simp)
    have hn : getNode cols t.start j = some P[j] := by
      unfold getNode; rw [hP]; simp [hj]
    obtain ⟨c, hcc⟩ := Option.isSome_iff_exists.mp (hc P[j] (List.getElem_mem hj))
    unfold relax
    simp only [ht, hn, hcc]
    have hcand : int32 (totalCost ideo m c P[j] t) = candCost d ideo m P[j] t := by
      simp [candCost, hcc]
    rw [hcand]
    simp only [List.foldl_cons]
    have hget : P[j]? = some P[j] := List.getElem?_eq_getElem hj
    split
    · rename_i hcond
      have hstep : relaxStep d ideo m P t j =
          { t with cost := candCost d ideo m P[j] t, prev := some (t.start, j) } := by
        unfold relaxStep; rw [hget]; simp only; rw [if_pos hcond]
      rw [hstep]
      rw [ih (t := { t with cost := candCost d ideo m P[j] t, prev := some (t.start, j) }) (getNode_setNode_same ht) hst
        (by rw [setNode_other (by simp only; omega)]; exact hP) (fun j hj => hjs j (by simp [hj]))
        (fun n hn => hc n hn)]
      rw [setNode_setNode]
    · rename_i hcond
      have hstep : relaxStep d ideo m P t j = t := by
        unfold relaxStep; rw [hget]; simp only; rw [if_neg hcond]
      rw [hstep]
      exact ih ht hst hP (fun j hj => hjs j (by simp [hj])) hc

theorem forwardNode_eq {d : Dict} {ideo : Nat → Bool} {m : LMode} {i idx : Nat} {cols : Cols} {t : Node}
    (ht : getNode cols i idx = some t) (hst : t.start < i) (hlen : i < cols.length)
    (hc : ∀ P, cols[t.start]? = some P → ∀ n ∈ P, (connCost d n t).isSome) :
    forwardNode d ideo m i idx cols = some (setNode cols i idx (solve1 d ideo m cols t)) := by
  have hP : cols[t.start]? = some cols[t.start] := List.getElem?_eq_getElem (by omega)
  unfold forwardNode solve1
  rw [ht]
  simp only [hP]
  split
  · rfl
  · exact relax_eq _ ht hst hP (fun j hj => List.mem_range.mp hj) (hc _ hP)

theorem solve1_congr {d : Dict} {ideo : Nat → Bool} {m : LMode} {cols cols' : Cols} {t : Node}
    (h : cols[t.start]? = cols'[t.start]?) : solve1 d ideo m cols t = solve1 d ideo m cols' t := by
  unfold solve1; rw [h]

theorem getNode_set {cols : Cols} {i : Nat} (hi : i < cols.length) (col : List Node) (j : Nat) :
    getNode (cols.set i col) i j = col[j]? := by
  unfold getNode
  simp [hi]

theorem setNode_set {cols : Cols} {i : Nat} (hi : i < cols.length) (col : List Node) (j : Nat) (n : Node) :
    setNode (cols.set i col) i j n = cols.set i (col.set j n) := by
  unfold setNode
  apply List.ext_getElem?
  intro p
  simp only [List.getElem?_modify, List.getElem?_set]
  by_cases h : i = p
  · subst h; simp [hi]
  · simp [h]

/-- One column. -/
theorem forwardCol_eq {d : Dict} {ideo : Nat → Bool} {m : LMode} {i : Nat} {cols : Cols} (hi : i < cols.length)
    (B A : List Node) (hst : ∀ t ∈ B, t.start < i)
    (hc : ∀ t ∈ B, ∀ P, cols[t.start]? = some P → ∀ n ∈ P, (connCost d n t).isSome) :
    forwardCol d ideo m i (List.range' A.length B.length) (cols.set i (A ++ B)) =
      some (cols.set i (A ++ B.map (solve1 d ideo m cols))) := by
  induction B generalizing A with
  | nil => simp [forwardCol]
  | cons t B ih =>
    simp only [List.length_cons, List.range'_succ, forwardCol]
    have h1 : getNode (cols.set i (A ++ t :: B)) i A.length = some t := by
      rw [getNode_set hi]; simp
    have hs : t.start < i := hst t (by simp)
    have hne : (cols.set i (A ++ t :: B))[t.start]? = cols[t.start]? := by
      rw [List.getElem?_set_ne (by omega)]
    rw [forwardNode_eq h1 hs (by simp [hi]) (by rw [hne]; exact hc t (by simp))]
    simp only
    rw [setNode_set hi, solve1_congr hne]
    have hset : (A ++ t :: B).set A.length (solve1 d ideo m cols t) = (A ++ [solve1 d ideo m cols t]) ++ B := by
      rw [List.set_append_right _ _ (Nat.le_refl _)]
      simp
    rw [hset]
    have := ih (A ++ [solve1 d ideo m cols t]) (fun t ht => hst t (by simp [ht])) (fun t ht => hc t (by simp [ht]))
    simp only [List.length_append, List.length_cons, List.length_nil] at this
    rw [this]
    simp

/-- All columns from `i` on. -/
theorem forwardLoop_eq {d : Dict} {ideo : Nat → Bool} {m : LMode} (n i : Nat) (cols : Cols) (hn : i + n = cols.length)
    (hst : ∀ p, i ≤ p → ∀ col, cols[p]? = some col → ∀ t ∈ col, t.start < p)
    (hc : ∀ p, i ≤ p → ∀ col, cols[p]? = some col → ∀ t ∈ col, ∀ (q : Nat) P, cols[q]? = some P → ∀ n ∈ P,
      ∀ n', skel n' = skel n → (connCost d n' t).isSome) :
    ∃ cols', forwardLoop d ideo m (List.range' i n) cols = some cols' ∧ cols'.length = cols.length ∧
      (∀ p, p < i → cols'[p]? = cols[p]?) ∧
      (∀ p, i ≤ p → ∀ col, cols[p]? = some col → cols'[p]? = some (col.map (solve1 d ideo m cols'))) := by
  induction n generalizing i cols with
  | zero =>
    refine ⟨cols, by simp [forwardLoop], rfl, fun _ _ => rfl, ?_⟩
    intro p hp col hcol
    have := (List.getElem?_eq_some_iff.mp hcol).1
    omega
  | succ n ih =>
    have hi : i < cols.length := by omega
    have hcol : cols[i]? = some cols[i] := List.getElem?_eq_getElem hi
    have hskel := skel_solve1 d ideo m
    have h1 := forwardCol_eq (d := d) (ideo := ideo) (m := m) hi cols[i] [] (hst i (by omega) _ hcol)
      (fun t ht P hP n hn => hc i (by omega) _ hcol t ht _ P hP n hn n rfl)
    simp only [List.nil_append, List.length_nil, List.set_getElem_self] at h1
    have hrange : List.range cols[i].length = List.range' 0 cols[i].length := List.range_eq_range'
    obtain ⟨cols', e1, e2, e3, e4⟩ := ih (i + 1) (cols.set i (cols[i].map (solve1 d ideo m cols))) (by simp; omega)
      (by
        intro p hp col hcol t ht
        rw [List.getElem?_set_ne (by omega)] at hcol
        exact hst p (by omega) col hcol t ht)
      (by
        intro p hp col hcol' t ht q P hP n hn n' hn'
        rw [List.getElem?_set_ne (by omega)] at hcol'
        by_cases hq : q = i
        · subst hq
          rw [List.getElem?_set_self hi] at hP
          simp only [Option.some.injEq] at hP
          subst hP
          obtain ⟨n0, hn0, rfl⟩ := List.mem_map.mp hn
          exact hc p (by omega) col hcol' t ht q _ hcol n0 hn0 n' (by rw [hn', hskel])
        · rw [List.getElem?_set_ne (fun h => hq h.symm)] at hP
          exact hc p (by omega) col hcol' t ht q P hP n hn n' hn')
    refine ⟨cols', ?_, by simpa using e2, ?_, ?_⟩
    · rw [List.range'_succ]
      unfold forwardLoop
      rw [hcol]
      simp only
      rw [hrange, h1]
      exact e1
    · intro p hp
      rw [e3 p (by omega), List.getElem?_set_ne (by omega)]
    · intro p hp col hcolp
      by_cases hpi : p = i
      · subst hpi
        rw [e3 p (by omega), List.getElem?_set_self hi]
        rw [hcol] at hcolp
        simp only [Option.some.injEq] at hcolp ⊢
        subst hcolp
        apply List.map_congr_left
        intro t ht
        apply solve1_congr
        have := hst p (by omega) _ hcol t ht
        rw [e3 _ (by omega), List.getElem?_set_ne (by omega)]
      · exact e4 p (by omega) col (by rw [List.getElem?_set_ne (by omega)]; exact hcolp)

/-- The inner loop picks a cheapest predecessor. -/
theorem relax_best {d : Dict} {ideo : Nat → Bool} {m : LMode} {P : List Node} (k : Nat) (hk : k + 1 ≤ P.length) (t : Node) :
    ∃ j n, j ≤ k ∧ P[j]? = some n ∧
      ((List.range (k + 1)).foldl (relaxStep d ideo m P) t).prev = some (t.start, j) ∧
      ((List.range (k + 1)).foldl (relaxStep d ideo m P) t).cost = candCost d ideo m n t ∧
      ∀ j' n', j' ≤ k → P[j']? = some n' →
        ((List.range (k + 1)).foldl (relaxStep d ideo m P) t).cost ≤ candCost d ideo m n' t := by
  induction k with
  | zero =>
    have hget : P[0]? = some P[0] := List.getElem?_eq_getElem (by omega)
    refine ⟨0, P[0], Nat.le_refl _, hget, ?_, ?_, ?_⟩
    · simp [relaxStep, List.range_succ, hget]
    · simp [relaxStep, List.range_succ, hget]
    · intro j' n' hj' hn'
      have : j' = 0 := by omega
      subst this
      rw [hget] at hn'
      simp only [Option.some.injEq] at hn'
      subst hn'
      simp [relaxStep, List.range_succ, hget]
  | succ k ih =>
    obtain ⟨j, n, hj, hn, h1, h2, h3⟩ := ih (by omega)
    have hsk : skel ((List.range (k + 1)).foldl (relaxStep d ideo m P) t) = skel t := skel_foldl ..
    rw [List.range_succ, List.foldl_append]
    simp only [List.foldl_cons, List.foldl_nil]
    generalize (List.range (k + 1)).foldl (relaxStep d ideo m P) t = r at *
    have hget : P[k + 1]? = some P[k + 1] := List.getElem?_eq_getElem (by omega)
    unfold relaxStep
    rw [hget]
    simp only [candCost_skel hsk, start_of_skel hsk]
    split
    · rename_i hcond
      refine ⟨k + 1, P[k + 1], Nat.le_refl _, hget, rfl, rfl, ?_⟩
      intro j' n' hj' hn'
      simp only
      by_cases hjk : j' = k + 1
      · subst hjk
        rw [hget] at hn'
        simp only [Option.some.injEq] at hn'
        subst hn'
        exact Int.le_refl _
      · have := h3 j' n' (by omega) hn'
        rcases hcond with hcond | hcond
        · omega
        · omega
    · rename_i hcond
      refine ⟨j, n, by omega, hn, h1, h2, ?_⟩
      intro j' n' hj' hn'
      by_cases hjk : j' = k + 1
      · subst hjk
        rw [hget] at hn'
        simp only [Option.some.injEq] at hn'
        subst hn'
        omega
      · exact h3 j' n' (by omega) hn'

end Kagome
