import Verif.Proof.Kept
import Verif.Proof.InUse

/-! A second `Build` that needs more columns than there is room for. -/

namespace Kagome

open Spec

/-- `Build` with too little room starts over: nothing of the old columns is left, and what is in `Output` stays. -/
theorem build_longer {o : Lattice} {out : List Node} (wf : WellFormed o.dict o.udict) (hn : o.nodes = some out) {inp : Bytes}
    (h : o.store.length < runeCount inp + 2) :
    ∃ cols0 o', o.build inp = some o' ∧ build o.dict o.udict inp = some cols0 ∧ Safe o.dict o.udict inp cols0 ∧
      Unsolved o.dict o.udict cols0 (out.map skel) o' ∧ o'.store.length = runeCount inp + 2 := by
  obtain ⟨cols0, b1, b2⟩ := build_safe wf inp
  have hb : buildOn o.dict o.udict inp (List.replicate (runeCount inp + 2) []) = some cols0 := b1
  have hr : o.reserve (runeCount inp + 2) =
      { o with store := List.replicate (runeCount inp + 2) [], output := o.output.map (OutRef.detach o.store) } := by
    unfold Lattice.reserve
    rw [if_pos h]
  refine ⟨cols0, { o with store := cols0, output := o.output.map (OutRef.detach o.store), input := inp, len := runeCount inp + 2 }, ?_, b1, b2, ?_, b2.len⟩
  · unfold Lattice.build
    simp only [hr]
    rw [List.take_of_length_le (by simp), List.drop_of_length_le (by simp), hb]
    simp
  · refine ⟨rfl, rfl, b2.len.symm, [], by simp, by simp, ?_⟩
    rw [detach_output hn]
    rfl

/-- `Forward` and `Backward` leave the room as it is. -/
theorem calls_store {ideo : Nat → Bool} : ∀ (ops : List LatOp) {o o' : Lattice}, (∀ s, LatOp.build s ∉ ops) → o.calls ideo ops = some o' →
    o'.store.length = o.store.length := by
  intro ops
  induction ops with
  | nil => intro o o' _ h; cases h; rfl
  | cons op ops ih =>
    intro o o' hops h
    have hops' : ∀ s, LatOp.build s ∉ ops := fun s hs => hops s (by simp [hs])
    rw [Lattice.calls] at h
    cases h1 : o.call ideo op with
    | none => rw [h1] at h; cases h
    | some o1 =>
      rw [h1, Option.bind_some] at h
      rw [ih hops' h]
      cases op with
      | build s => exact absurd (by simp) (hops s)
      | forward m =>
        rw [Lattice.call] at h1
        unfold Lattice.forward at h1
        simp only [Option.map_eq_some_iff] at h1
        obtain ⟨cols, h2, rfl⟩ := h1
        have hk := (keeps_forwardLoop _ h2).1
        simp only [List.length_append, ← hk]
        rw [← List.length_append, List.take_append_drop]
      | backward m =>
        rw [Lattice.call] at h1
        unfold Lattice.backward at h1
        split at h1
        · cases h1; rfl
        · simp only [Option.map_eq_some_iff] at h1
          obtain ⟨refs, _, rfl⟩ := h1
          rfl

end Kagome
