import Verif.Proof.Effort
import Verif.Proof.Drawn

/-! The number of lines `Dot` writes. -/

namespace Kagome

open Spec

variable {d : Dict} {u : Option UserDict} {bests : List Ptr} {cols : Cols}

theorem edgesFrom_length (dst : Ptr) (start : Nat) (ns : List Node) : ∀ j, (edgesFrom bests dst start j ns).length ≤ ns.length := by
  induction ns with
  | nil => intro j; exact Nat.le_refl _
  | cons n ns ih =>
    intro j
    unfold edgesFrom
    have := ih (j + 1)
    split
    · simp only [List.length_cons]; omega
    · simp only [List.length_cons]; omega

theorem edgesCol_length (i : Nat) (ns : List Node) : ∀ (j : Nat) (es : List (Ptr × Ptr)), edgesCol bests cols i j ns = some es →
    es.length ≤ (ns.map (preds cols)).sum := by
  induction ns with
  | nil => intro j es h; cases h; exact Nat.le_refl _
  | cons n ns ih =>
    intro j es h
    unfold edgesCol at h
    rw [List.map_cons, List.sum_cons]
    split at h
    · have := ih _ _ h; omega
    · cases hp : cols[n.start]? with
      | none => rw [hp] at h; cases h
      | some prevs =>
        rw [hp] at h
        obtain ⟨es', h1, rfl⟩ := Option.map_eq_some_iff.mp h
        have h2 := ih _ _ h1
        have h3 : preds cols n = prevs.length := by unfold preds; rw [hp]; rfl
        have h4 := edgesFrom_length (bests := bests) (i, j) n.start prevs 0
        rw [List.length_append]
        omega

theorem edgesCols_length (l : List (List Node)) : ∀ (i : Nat) (es : List (Ptr × Ptr)), edgesCols bests cols i l = some es →
    es.length ≤ (l.map (fun c => (c.map (preds cols)).sum)).sum := by
  induction l with
  | nil => intro i es h; cases h; exact Nat.le_refl _
  | cons c l ih =>
    intro i es h
    unfold edgesCols at h
    rw [List.map_cons, List.sum_cons]
    cases hc : edgesCol bests cols i 0 c with
    | none => rw [hc] at h; cases h
    | some es1 =>
      rw [hc] at h
      obtain ⟨es', h1, rfl⟩ := Option.map_eq_some_iff.mp h
      have h2 := ih _ _ h1
      have h3 := edgesCol_length _ _ _ _ hc
      rw [List.length_append]
      omega

theorem nodesCol_length (i : Nat) (ns : List Node) : ∀ (j : Nat) (gs : List GNode), nodesCol d u bests i j ns = some gs → gs.length ≤ ns.length := by
  induction ns with
  | nil => intro j gs h; cases h; exact Nat.le_refl _
  | cons n ns ih =>
    intro j gs h
    unfold nodesCol at h
    rw [List.length_cons]
    split at h
    · have := ih _ _ h; omega
    · cases hp : posFeature d u n with
      | none => rw [hp] at h; cases h
      | some pos =>
        rw [hp] at h
        simp only at h
        split at h
        · obtain ⟨gs', h1, rfl⟩ := Option.map_eq_some_iff.mp h
          have := ih _ _ h1
          rw [List.length_cons]; omega
        · split at h
          · obtain ⟨gs', h1, rfl⟩ := Option.map_eq_some_iff.mp h
            have := ih _ _ h1
            rw [List.length_cons]; omega
          · have := ih _ _ h; omega

theorem nodesCols_length (l : List (List Node)) : ∀ (i : Nat) (gs : List GNode), nodesCols d u bests i l = some gs → gs.length ≤ l.flatten.length := by
  induction l with
  | nil => intro i gs h; cases h; exact Nat.le_refl _
  | cons c l ih =>
    intro i gs h
    unfold nodesCols at h
    cases hc : nodesCol d u bests i 0 c with
    | none => rw [hc] at h; cases h
    | some gs1 =>
      rw [hc] at h
      obtain ⟨gs', h1, rfl⟩ := Option.map_eq_some_iff.mp h
      have h2 := ih _ _ h1
      have h3 := nodesCol_length _ _ _ _ hc
      rw [List.flatten_cons, List.length_append, List.length_append]
      omega

theorem dotEdges_length (es : List (Ptr × Ptr)) : ∀ gs, dotEdges d bests cols es = some gs → gs.length = es.length := by
  induction es with
  | nil => intro gs h; cases h; rfl
  | cons e es ih =>
    intro gs h
    unfold dotEdges at h
    cases he : dotEdge d bests cols e with
    | none => rw [he] at h; cases h
    | some g =>
      rw [he] at h
      obtain ⟨gs', h1, rfl⟩ := Option.map_eq_some_iff.mp h
      rw [List.length_cons, List.length_cons, ih _ h1]

/-- The lines of any graph drawn of a lattice as `Build` leaves it. -/
theorem dotGraph_size {out : List (Option Ptr)} {g : Graph} (h : dotGraph d u cols out = some g) :
    g.nodes.length ≤ nodeCount cols ∧ g.edges.length ≤ (cols.flatten.map (preds cols)).sum := by
  unfold dotGraph at h
  simp only at h
  cases he : edgesCols (out.filterMap id) cols 1 (cols.drop 1) with
  | none => rw [he] at h; cases h
  | some es =>
    rw [he] at h
    simp only at h
    cases hn : nodesCols d u (out.filterMap id) 0 cols with
    | none => rw [hn] at h; cases h
    | some ns =>
      rw [hn] at h
      obtain ⟨gs, h1, rfl⟩ := Option.map_eq_some_iff.mp h
      refine ⟨?_, ?_⟩
      · rw [nodeCount_flatten]
        exact nodesCols_length _ _ _ hn
      · have h2 := edgesCols_length _ _ _ he
        rw [flatten_sum]
        simp only [dotEdges_length _ _ h1]
        refine Nat.le_trans h2 ?_
        cases cols with
        | nil => exact Nat.le_refl _
        | cons c l =>
          rw [List.drop_succ_cons, List.drop_zero, List.map_cons, List.sum_cons]
          omega

end Kagome
