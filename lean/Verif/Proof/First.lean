import Verif.Proof.Optimal

/-! The predecessor that `Forward` keeps is the first of the cheapest ones. -/

namespace Kagome

open Spec

/-- The predecessor that is kept is the first of the cheapest ones. -/
theorem relax_first {d : Dict} {ideo : Nat → Bool} {m : LMode} {P : List Node} (k : Nat) (hk : k + 1 ≤ P.length) (t : Node) :
    ∃ j n, j ≤ k ∧ P[j]? = some n ∧
      ((List.range (k + 1)).foldl (relaxStep d ideo m P) t).prev = some (t.start, j) ∧
      ((List.range (k + 1)).foldl (relaxStep d ideo m P) t).cost = candCost d ideo m n t ∧
      (∀ j' n', j' ≤ k → P[j']? = some n' → candCost d ideo m n t ≤ candCost d ideo m n' t) ∧
      ∀ j' n', j' < j → P[j']? = some n' → candCost d ideo m n t < candCost d ideo m n' t := by
  induction k with
  | zero =>
    have hget : P[0]? = some P[0] := List.getElem?_eq_getElem (by omega)
    refine ⟨0, P[0], Nat.le_refl _, hget, ?_, ?_, ?_, ?_⟩
    · simp [relaxStep, List.range_succ, hget]
    · simp [relaxStep, List.range_succ, hget]
    · intro j' n' hj' hn'
      have : j' = 0 := by omega
      subst this
      rw [hget] at hn'
      simp only [Option.some.injEq] at hn'
      subst hn'
      exact Int.le_refl _
    · intro j' n' hj'
      omega
  | succ k ih =>
    obtain ⟨j, n, hj, hn, h1, h2, h3, h4⟩ := ih (by omega)
    have hsk : skel ((List.range (k + 1)).foldl (relaxStep d ideo m P) t) = skel t := skel_foldl ..
    rw [List.range_succ, List.foldl_append]
    simp only [List.foldl_cons, List.foldl_nil]
    generalize (List.range (k + 1)).foldl (relaxStep d ideo m P) t = r at *
    have hget : P[k + 1]? = some P[k + 1] := List.getElem?_eq_getElem (by omega)
    unfold relaxStep
    rw [hget]
    simp only [candCost_skel hsk, start_of_skel hsk]
    split
    · rename_i hcond
      have hlt : candCost d ideo m P[k + 1] t < candCost d ideo m n t := by
        rcases hcond with h | h
        · omega
        · rw [h2] at h; exact h
      have hall : ∀ j' n', j' ≤ k → P[j']? = some n' → candCost d ideo m P[k + 1] t < candCost d ideo m n' t :=
        fun j' n' hj' hn' => Int.lt_of_lt_of_le hlt (h3 j' n' hj' hn')
      refine ⟨k + 1, P[k + 1], Nat.le_refl _, hget, rfl, rfl, ?_, ?_⟩
      · intro j' n' hj' hn'
        by_cases hjk : j' = k + 1
        · subst hjk
          rw [hget] at hn'
          simp only [Option.some.injEq] at hn'
          subst hn'
          exact Int.le_refl _
        · exact Int.le_of_lt (hall j' n' (by omega) hn')
      · intro j' n' hj' hn'
        exact hall j' n' (by omega) hn'
    · rename_i hcond
      have hge : candCost d ideo m n t ≤ candCost d ideo m P[k + 1] t := by
        rw [h2] at hcond
        omega
      refine ⟨j, n, by omega, hn, h1, h2, ?_, h4⟩
      intro j' n' hj' hn'
      by_cases hjk : j' = k + 1
      · subst hjk
        rw [hget] at hn'
        simp only [Option.some.injEq] at hn'
        subst hn'
        exact hge
      · exact h3 j' n' (by omega) hn'

section
variable {d : Dict} {u : Option UserDict} {ideo : Nat → Bool} {m : LMode} {inp : Bytes} {cols0 cols : Cols}

/-- `Solved.eqn` with the first of the cheapest predecessors. -/
theorem Solved.first (wf : WellFormed d u) (h : Solved d u ideo m inp cols0 cols) {i j : Nat} {n : Node} (hi : 1 ≤ i)
    (hn : getNode cols i j = some n) :
    n.start < i ∧
    ((cols[n.start]? = some [] ∧ n.prev = none ∧ n.cost = maximumCost) ∨
     (∃ j' p, getNode cols n.start j' = some p ∧ n.prev = some (n.start, j') ∧ n.cost = candCost d ideo m p n ∧
       (∀ j'' q, getNode cols n.start j'' = some q → n.cost ≤ candCost d ideo m q n) ∧
       ∀ j'' q, j'' < j' → getNode cols n.start j'' = some q → n.cost < candCost d ideo m q n)) := by
  obtain ⟨c, t, hc, ht, rfl⟩ := h.node hi hn
  obtain ⟨hst, htab, hsk⟩ := lat_node wf h.lat hi hc (List.mem_of_getElem? ht)
  have hlt := (List.getElem?_eq_some_iff.mp hc).1
  have hlen := h.len
  have hlen0 := h.lat.len
  have hP : cols[t.start]? = some cols[t.start] := List.getElem?_eq_getElem (by omega)
  have hskn := skel_solve1 d ideo m cols t
  have hstn := start_of_skel hskn
  rw [hstn]
  refine ⟨hst, ?_⟩
  simp only [candCost_skel hskn]
  have htp : t.prev = none := by rw [← hsk]; rfl
  unfold solve1
  simp only [hP]
  by_cases hz : cols[t.start].length = 0
  · left
    rw [if_pos hz]
    exact ⟨by rw [List.length_eq_zero_iff.mp hz], htp, rfl⟩
  · right
    rw [if_neg hz]
    obtain ⟨k, hk⟩ : ∃ k, cols[t.start].length = k + 1 := ⟨cols[t.start].length - 1, by omega⟩
    rw [hk]
    obtain ⟨j', p, hj', hp, e1, e2, e3, e4⟩ := relax_first (d := d) (ideo := ideo) (m := m) (P := cols[t.start]) k (by omega) t
    refine ⟨j', p, ?_, e1, e2, ?_, ?_⟩
    · unfold getNode; rw [hP]; exact hp
    · intro j'' q hq
      unfold getNode at hq
      rw [hP] at hq
      simp only [Option.bind_some] at hq
      have := (List.getElem?_eq_some_iff.mp hq).1
      rw [e2]
      exact e3 j'' q (by omega) hq
    · intro j'' q hlt' hq
      unfold getNode at hq
      rw [hP] at hq
      simp only [Option.bind_some] at hq
      rw [e2]
      exact e4 j'' q hlt' hq

/-- While the costs fit, nothing wraps around. -/
theorem cand_exact (wf : WellFormed d u) (hfits : Fits d (runeCount inp)) (h : Solved d u ideo m inp cols0 cols) {i j j' : Nat} {n p : Node} (hi : 1 ≤ i)
    (hn : getNode cols i j = some n) (hp : getNode cols n.start j' = some p) :
    candCost d ideo m p n = min maximumCost (p.cost + stepCost d ideo m (wordOf p) (wordOf n)) := by
  obtain ⟨lo, hi', hlo, hhi, hb, hfit⟩ := hfits
  have hst := (h.eqn wf hi hn).1
  have hiN : i ≤ runeCount inp + 1 := by
    have h1 := h.len
    unfold getNode at hn
    cases hc : cols[i]? with
    | none => simp [hc] at hn
    | some c =>
      have := (List.getElem?_eq_some_iff.mp hc).1
      omega
  have hbest := best wf h hlo hhi hb hfit n.start j' p hp
  have h1 := step_bounds hb (wordOf p) (wordOf n)
  have h2 := (penalty_bounds ideo (wordOf p)).1
  rw [totalCost_eq wf (h.table wf hp) (h.table wf hn)]
  have hs : -lo ≤ stepCost d ideo m (wordOf p) (wordOf n) := by unfold stepCost; split <;> omega
  generalize stepCost d ideo m (wordOf p) (wordOf n) = v at *
  have f1 : lo * ((n.start : Int) + 1) ≤ lo * ((runeCount inp : Int) + 1) := Int.mul_le_mul_of_nonneg_left (by omega) hlo
  have f2 : 0 ≤ hi' * ((runeCount inp : Int) + 1) := Int.mul_nonneg hhi (by omega)
  have f3 : 0 ≤ lo * (n.start : Int) := Int.mul_nonneg hlo (by omega)
  rw [Int.mul_comm ((runeCount inp : Int) + 1)] at hfit
  simp only [Int.mul_add, Int.add_mul, Int.mul_one] at f1 f2 f3 hfit
  have hlow : -(lo * n.start) ≤ p.cost := by
    rcases Classical.em (Reach cols n.start j') with hr | hr
    · exact (hbest.1 hr).lower
    · have := (hbest.2 hr).1
      omega
  apply int32_id
  · unfold maximumCost; omega
  · unfold maximumCost; omega

end

end Kagome
