import Verif.Proof.Growing
import Verif.Props.LatticeApi

/-!
C54: texts that get longer. `C54_build_twice` shows that a second `Build` without `Free` is not safe; it is when the text has more characters than any that the
object was used for.
-/

namespace Kagome

open Spec

/-- C54: whatever an object was used for, a `Build` for which it has no room starts over. The calls after it append to `Output` what they append on a new
object, what was there stays, and `Free` leaves the object clean. -/
theorem C54_longer {o : Lattice} {out : List Node} (wf : WellFormed o.dict o.udict) (hn : o.nodes = some out) (ideo : Nat → Bool) {inp : Bytes}
    (h : o.store.length < runeCount inp + 2) (ops : List LatOp) (hops : ∀ s, LatOp.build s ∉ ops) :
    ∃ o' out' a, o.calls ideo (.build inp :: ops) = some o' ∧ o'.nodes = some out' ∧ answersNew o.dict o.udict ideo inp ops = some a ∧
      out'.map nodeView = out.map nodeView ++ a ∧ o'.free.Clean ∧ o'.dict = o.dict ∧ o'.udict = o.udict ∧ o'.store.length = runeCount inp + 2 := by
  obtain ⟨cols0, o1, h1, h2, h3, h4, h5⟩ := build_longer wf hn h
  obtain ⟨o', E', a, g1, g2, g3, g4⟩ := fresh_calls wf h2 h3 ideo ops _ o1 hops h4
  have hv := g2.nodes
  cases hx : o'.nodes with
  | none => rw [hx] at hv; cases hv
  | some out' =>
    rw [hx] at hv
    simp only [Option.map_some, Option.some.injEq] at hv
    refine ⟨o', out', a, ?_, hx, g3, ?_, g2.free, g2.dict, g2.udict, (calls_store ops hops g1).trans h5⟩
    · rw [Lattice.calls, Lattice.call, h1, Option.bind_some, g1]
    · rw [← hv] at g4
      simpa [List.map_map, Function.comp_def, nodeView_skel] using g4

/-- Texts, each with the calls that follow its `Build`, as one list of calls. -/
def oneAfterAnother (us : List (Bytes × List LatOp)) : List LatOp := us.flatMap fun x => .build x.1 :: x.2

/-- C54: one object, never freed, for texts each of which has more characters than the one before: every call goes through, and `Output` gets, for each text in
turn, what it gets on a new object. -/
theorem C54_growing (d : Dict) (u : Option UserDict) (wf : WellFormed d u) (ideo : Nat → Bool) (us : List (Bytes × List LatOp))
    (hops : ∀ x ∈ us, ∀ s, LatOp.build s ∉ x.2) (hgrow : us.Pairwise (fun a b => runeCount a.1 < runeCount b.1)) :
    ∃ o' out as, (newLattice d u).calls ideo (oneAfterAnother us) = some o' ∧ o'.nodes = some out ∧ us.mapM (fun x => answersNew d u ideo x.1 x.2) = some as ∧
      out.map nodeView = as.flatten ∧ o'.free.Clean := by
  suffices H : ∀ (us : List (Bytes × List LatOp)) (o : Lattice) (out : List Node), (∀ x ∈ us, ∀ s, LatOp.build s ∉ x.2) →
      us.Pairwise (fun a b => runeCount a.1 < runeCount b.1) → (∀ x ∈ us, o.store.length < runeCount x.1 + 2) → o.dict = d → o.udict = u →
      o.nodes = some out → o.free.Clean →
      ∃ o' out' as, o.calls ideo (oneAfterAnother us) = some o' ∧ o'.nodes = some out' ∧ us.mapM (fun x => answersNew d u ideo x.1 x.2) = some as ∧
        out'.map nodeView = out.map nodeView ++ as.flatten ∧ o'.free.Clean by
    obtain ⟨o', out, as, h1, h2, h3, h4, h5⟩ := H us (newLattice d u) [] hops hgrow (fun x _ => by simp [newLattice]) rfl rfl rfl
      ⟨rfl, rfl, fun c hc => by simp [Lattice.free, newLattice] at hc⟩
    exact ⟨o', out, as, h1, h2, h3, by simpa using h4, h5⟩
  intro us
  induction us with
  | nil => intro o out _ _ _ _ _ hn hf; exact ⟨o, out, [], rfl, hn, rfl, by simp, hf⟩
  | cons x us ih =>
    intro o out ho hg hs hd hu hn _
    obtain ⟨inp, ops⟩ := x
    rw [List.pairwise_cons] at hg
    obtain ⟨o1, out1, a, g1, g2, g3, g4, g5, g6, g7, g8⟩ := C54_longer (o := o) (by rw [hd, hu]; exact wf) hn ideo (hs (inp, ops) (by simp)) ops
      (ho (inp, ops) (by simp))
    obtain ⟨o', out', as, k1, k2, k3, k4, k5⟩ := ih o1 out1 (fun y hy => ho y (by simp [hy])) hg.2
      (fun y hy => by have := hg.1 y hy; dsimp only at this g8; omega) (g6.trans hd) (g7.trans hu) g2 g5
    refine ⟨o', out', a :: as, ?_, k2, ?_, ?_, k5⟩
    · have : oneAfterAnother ((inp, ops) :: us) = (.build inp :: ops) ++ oneAfterAnother us := rfl
      rw [this, calls_append, g1, Option.bind_some, k1]
    · rw [hd, hu] at g3
      rw [List.mapM_cons, g3, k3]
      rfl
    · rw [k4, g4, List.flatten_cons, List.append_assoc]

/-- For instance here. -/
example : [(str "も", [LatOp.forward .normal, .backward .normal]), (str "すもも", [.forward .normal, .backward .normal])].Pairwise
      (fun a b => runeCount a.1 < runeCount b.1) ∧
    (((newLattice Toy.dict none).calls Toy.ideo (oneAfterAnother [(str "も", [.forward .normal, .backward .normal]),
      (str "すもも", [.forward .normal, .backward .normal])])).bind Lattice.nodes).map surfaces = some [[], str "も", [], [], str "すもも", []] := by
  constructor <;> decide +kernel

/-- C54: texts of the same length are not enough: the words of the first are in the way of the second. -/
theorem C54_same_length : runeCount (str "も") = runeCount (str "a") ∧
    (((newLattice Toy.dict none).calls Toy.ideo [.build (str "も"), .build (str "a"), .forward .normal, .backward .normal]).bind Lattice.nodes).map surfaces ≠
      (((newLattice Toy.dict none).calls Toy.ideo [.build (str "a"), .forward .normal, .backward .normal]).bind Lattice.nodes).map surfaces := by
  constructor <;> decide +kernel

end Kagome
