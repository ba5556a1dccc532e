import Verif.Proof.GraphSize
import Verif.Props.Effort
import Verif.Props.Drawn

/-! C57: the graph of a text grows in proportion to its length. -/

namespace Kagome

open Spec

/-- C57: `AnalyzeGraph` writes at most this many nodes and edges, in every mode. -/
theorem C57_graph {t : Tokenizer} {hits entries : Nat} (wf : WellFormed t.dict t.userDict) (h : Answers t.dict t.userDict hits entries)
    {ideo : Nat → Bool} {inp : Bytes} {mode : Int} {g : Graph} (hg : exportGraph t ideo inp mode = some g) :
    g.nodes.length ≤ 2 + (hits + 2 * entries) * runeCount inp ∧
      g.edges.length ≤ (hits + 2 * entries + 2) * (2 + (hits + 2 * entries) * runeCount inp) := by
  obtain ⟨cols0, cols, L, hsol, hb, hf, hL, hs⟩ := solve_weak wf ideo inp (latticeMode mode)
  unfold exportGraph at hg
  rw [hs] at hg
  simp only at hg
  cases hp : backwardPtr (latticeMode mode) cols with
  | none => rw [hp] at hg; cases hg
  | some out =>
    rw [hp] at hg
    simp only at hg
    rw [dotGraph_skel (solved_skel hsol)] at hg
    obtain ⟨h1, h2⟩ := dotGraph_size hg
    have h3 := (build_count wf h hb).2.1
    rw [Nat.mul_comm] at h3
    refine ⟨by omega, Nat.le_trans h2 (Nat.le_trans (pairs_le wf h hb) ?_)⟩
    rw [Nat.mul_comm]
    exact Nat.mul_le_mul_left _ h3

/-- C57: and so does `Dot` on a lattice used directly, after any calls of `Forward` and `Backward`. -/
theorem C57_drawn {o o' : Lattice} {hits entries : Nat} (ho : o.Clean) (wf : WellFormed o.dict o.udict) (h : Answers o.dict o.udict hits entries)
    {ideo : Nat → Bool} {inp : Bytes} {ops : List LatOp} (hops : ∀ s, LatOp.build s ∉ ops) {g : Graph}
    (hc : o.calls ideo (.build inp :: ops) = some o') (hg : o'.dot = some g) :
    g.nodes.length ≤ 2 + (hits + 2 * entries) * runeCount inp ∧
      g.edges.length ≤ (hits + 2 * entries + 2) * (2 + (hits + 2 * entries) * runeCount inp) := by
  obtain ⟨cols0, o1, E', a, h1, hb, h3, h4, _⟩ := session_any ho wf ideo inp ops hops
  rw [hc] at h1
  obtain rfl := Option.some.inj h1
  obtain ⟨cols, hsol, hd, _⟩ := h4.dot (ideo := ideo) wf h3
  rw [hd, dotGraph_skel (solved_skel hsol)] at hg
  obtain ⟨h1, h2⟩ := dotGraph_size hg
  have h3 := (build_count wf h hb).2.1
  rw [Nat.mul_comm] at h3
  refine ⟨by omega, Nat.le_trans h2 (Nat.le_trans (pairs_le wf h hb) ?_)⟩
  rw [Nat.mul_comm]
  exact Nat.mul_le_mul_left _ h3

namespace Toy

/-- A graph with edges: the hypotheses of `C57_graph` with `C57_toy`. -/
theorem C57_graph_toy : (exportGraph tokUser ideo (str "すももabcの東京") modeNormal).map (fun g => (g.nodes.length, g.edges.length)) = some (11, 12) := by
  decide +kernel

/-- The same of `C57_drawn`: the lattice is drawn without `Forward`. -/
theorem C57_drawn_toy : (newLattice tokUser.dict tokUser.userDict).Clean ∧
    (((newLattice tokUser.dict tokUser.userDict).calls ideo [.build (str "すももabcの東京"), .backward .normal]).bind Lattice.dot).map
      (fun g => (g.nodes.length, g.edges.length)) = some (10, 8) :=
  ⟨newLattice_clean _ _, by decide +kernel⟩

end Toy

end Kagome
