import Verif.Proof.LatticeApi

/-!
A lattice after `Build` and any calls of `Forward` and `Backward`, also when no `Forward` came first.
-/

namespace Kagome

open Spec

/-- The state after `Build` and any calls of `Forward` and `Backward`; `E` are the nodes in `Output` but for cost and predecessor. -/
structure InUse (d : Dict) (u : Option UserDict) (cols0 : Cols) (E : List Node) (o : Lattice) : Prop where
  dict : o.dict = d
  udict : o.udict = u
  len : o.len = cols0.length
  store : ∃ cols rest, o.store = cols ++ rest ∧ (∀ c ∈ rest, c = []) ∧ SameSkel cols cols0 ∧ (o.output.mapM (OutRef.deref cols)).map (List.map skel) = some E

theorem SameSkel.length {a b : Cols} (h : SameSkel a b) : a.length = b.length := by
  have := congrArg List.length h
  simpa using this

section
variable {d : Dict} {u : Option UserDict} {ideo : Nat → Bool} {cols0 : Cols} {E : List Node} {o : Lattice} {inp : Bytes}

theorem Live.inUse {cur : LMode} (wf : WellFormed d u) (hl : Safe d u inp cols0) (h : Live d u ideo cols0 cur E o) : InUse d u cols0 E o := by
  obtain ⟨cols, rest, h1, h2, h3, h4⟩ := h.store
  obtain ⟨c1, e1, s1⟩ := forward_solved wf hl ideo cur
  rw [h3] at e1
  obtain rfl := Option.some.inj e1
  exact ⟨h.dict, h.udict, h.len, cols, rest, h1, h2, solved_skel s1, h4⟩

theorem InUse.nodes (h : InUse d u cols0 E o) : o.nodes.map (List.map skel) = some E := by
  obtain ⟨cols, rest, h1, h2, h3, h4⟩ := h.store
  cases hm : o.output.mapM (OutRef.deref cols) with
  | none => rw [hm] at h4; cases h4
  | some x =>
    rw [hm] at h4
    unfold Lattice.nodes
    rw [h1, mapM_deref_more hm]
    exact h4

theorem InUse.free (h : InUse d u cols0 E o) : o.free.Clean := by
  obtain ⟨cols, rest, h1, h2, h3, h4⟩ := h.store
  have hlen : o.len = cols.length := by rw [h.len, h3.length]
  refine ⟨rfl, rfl, ?_⟩
  intro c hc
  simp only [Lattice.free, h1, hlen, List.take_left, List.drop_left] at hc
  rcases List.mem_append.1 hc with hc | hc
  · obtain ⟨_, _, rfl⟩ := List.mem_map.1 hc
    rfl
  · exact h2 c hc

/-- The state after `Build` before the first `Forward`. -/
structure Unsolved (d : Dict) (u : Option UserDict) (cols0 : Cols) (E : List Node) (o : Lattice) : Prop where
  dict : o.dict = d
  udict : o.udict = u
  len : o.len = cols0.length
  store : ∃ rest, o.store = cols0 ++ rest ∧ (∀ c ∈ rest, c = []) ∧ (o.output.mapM (OutRef.deref cols0)).map (List.map skel) = some E

theorem Unsolved.inUse (h : Unsolved d u cols0 E o) : InUse d u cols0 E o := by
  obtain ⟨rest, h1, h2, h3⟩ := h.store
  exact ⟨h.dict, h.udict, h.len, cols0, rest, h1, h2, rfl, h3⟩

theorem Unsolved.forward (wf : WellFormed d u) (hl : Safe d u inp cols0) (h : Unsolved d u cols0 E o) (m : LMode) :
    ∃ o', o.forward ideo m = some o' ∧ Live d u ideo cols0 m E o' := by
  obtain ⟨rest, h1, h2, h4⟩ := h.store
  obtain ⟨c2, e2, s2⟩ := forward_solved wf hl ideo m
  refine ⟨{ o with store := c2 ++ rest }, ?_, h.dict, h.udict, h.len, c2, rest, rfl, h2, e2, ?_⟩
  · unfold Lattice.forward
    rw [h1, h.len, List.take_left, List.drop_left, h.dict, e2]
    rfl
  · rw [← h4]
    exact mapM_skel (solved_skel s2) _

theorem Unsolved.backward (hl : Safe d u inp cols0) (h : Unsolved d u cols0 E o) (m : LMode) :
    ∃ o', o.backward m = some o' ∧ Unsolved d u cols0 (E ++ [skel (eosNode inp)]) o' := by
  obtain ⟨rest, h1, h2, h4⟩ := h.store
  have hlen := hl.len
  have hg : getNode cols0 (cols0.length - 1) 0 = some (eosNode inp) := by
    unfold getNode
    rw [hlen, show runeCount inp + 2 - 1 = runeCount inp + 1 by omega, hl.eos]
    rfl
  have hw : walkRef m cols0 (cols0.length + 1) (some (cols0.length - 1, 0)) = some [.at (cols0.length - 1, 0)] := by
    rw [walkRef, hg]
    simp only []
    rw [show (eosNode inp).prev = none from rfl, show ∀ k, walkRef m cols0 k none = some [] by intro k; cases k <;> rfl]
    unfold emitRef
    rw [if_pos (Or.inr (show (eosNode inp).cls ≠ .unknown by intro h; cases h))]
    rfl
  refine ⟨{ o with output := o.output ++ [.at (cols0.length - 1, 0)] }, ?_, h.dict, h.udict, h.len, rest, h1, h2, ?_⟩
  · unfold Lattice.backward
    rw [h1, h.len, List.take_left, if_neg (by omega), hw]
    rfl
  · cases hm : o.output.mapM (OutRef.deref cols0) with
    | none => rw [hm] at h4; cases h4
    | some x =>
      rw [hm] at h4
      simp only [Option.map_some, Option.some.injEq] at h4
      rw [mapM_append_some hm (show [OutRef.at (cols0.length - 1, 0)].mapM (OutRef.deref cols0) = some [eosNode inp] by
        rw [List.mapM_cons, show OutRef.deref cols0 (.at (cols0.length - 1, 0)) = some (eosNode inp) from hg]; rfl), Option.map_some, List.map_append, h4]
      rfl

theorem fresh_calls (wf : WellFormed d u) (hb : build d u inp = some cols0) (hl : Safe d u inp cols0) (ideo : Nat → Bool) :
    ∀ (ops : List LatOp) (E : List Node) (o : Lattice), (∀ s, LatOp.build s ∉ ops) → Unsolved d u cols0 E o →
      ∃ o' E' a, o.calls ideo ops = some o' ∧ InUse d u cols0 E' o' ∧ answersNew d u ideo inp ops = some a ∧ E'.map nodeView = E.map nodeView ++ a := by
  intro ops
  induction ops with
  | nil => intro E o _ h; exact ⟨o, E, [], rfl, h.inUse, rfl, by simp⟩
  | cons op ops ih =>
    intro E o hops h
    have hops' : ∀ s, LatOp.build s ∉ ops := fun s hs => hops s (by simp [hs])
    cases op with
    | build s => exact absurd (by simp) (hops s)
    | forward m =>
      obtain ⟨o1, h1, h2⟩ := h.forward (ideo := ideo) wf hl m
      obtain ⟨o', cur', E', a, g1, g2, g3, g4⟩ := session_calls wf hb hl ideo ops m E o1 hops' h2
      exact ⟨o', E', a, by rw [Lattice.calls, Lattice.call, h1, Option.bind_some, g1], g2.inUse wf hl, g3, g4⟩
    | backward m =>
      obtain ⟨o1, h1, h2⟩ := h.backward hl m
      obtain ⟨o', E', a, g1, g2, g3, g4⟩ := ih _ o1 hops' h2
      refine ⟨o', E', endView inp :: a, by rw [Lattice.calls, Lattice.call, h1, Option.bind_some, g1], g2, by rw [answersNew, g3]; rfl, ?_⟩
      rw [g4, List.map_append, List.append_assoc]
      rfl

/-- `Build` and any calls of `Forward` and `Backward` on a clean object. -/
theorem session_any (h : o.Clean) (wf : WellFormed o.dict o.udict) (ideo : Nat → Bool) (inp : Bytes) (ops : List LatOp) (hops : ∀ s, LatOp.build s ∉ ops) :
    ∃ cols0 o' E' a, o.calls ideo (.build inp :: ops) = some o' ∧ build o.dict o.udict inp = some cols0 ∧ Safe o.dict o.udict inp cols0 ∧
      InUse o.dict o.udict cols0 E' o' ∧ answersNew o.dict o.udict ideo inp ops = some a ∧ E'.map nodeView = a := by
  obtain ⟨cols0, o1, h1, h2, h3, h4, h5, h6, h7, rest, h8, h9⟩ := build_clean h wf inp
  obtain ⟨o', E', a, g1, g2, g3, g4⟩ := fresh_calls wf h2 h3 ideo ops [] o1 hops ⟨h4, h5, h7, rest, h8, h9, by rw [h6]; rfl⟩
  exact ⟨cols0, o', E', a, by rw [Lattice.calls, Lattice.call, h1, Option.bind_some, g1], h2, h3, g2, g3, by simpa using g4⟩

end

end Kagome
