import Verif.Proof.LatticeApi
import Verif.Proof.PoolLattice
import Verif.Proof.InUse
import Verif.Proof.Graph

/-!
`Dot` on a lattice that a client uses directly: the graph is written and shows the words; what is marked.
-/

namespace Kagome

open Spec

section
variable {d : Dict} {u : Option UserDict} {ideo : Nat → Bool} {m : LMode} {inp : Bytes} {cols0 cols : Cols}

/-- The parts of the graph, whatever is in `Output`. -/
theorem dotGraph_parts (wf : WellFormed d u) (pt : PosTables d u) (hsol : Solved d u ideo m inp cols0 cols) (out : List (Option Ptr)) :
    ∃ es ns gs, dotGraph d u cols out = some ⟨ns, gs⟩ ∧ edgesCols (out.filterMap id) cols 1 (cols.drop 1) = some es ∧
      nodesCols d u (out.filterMap id) 0 cols = some ns ∧ dotEdges d (out.filterMap id) cols es = some gs := by
  have hlen := hsol.len
  have hcol : ∀ (i : Nat) c, cols[i]? = some c → ∀ n ∈ c, ∃ j, getNode cols i j = some n := by
    intro i c hc n hn
    obtain ⟨j, hj⟩ := List.mem_iff_getElem?.mp hn
    exact ⟨j, by rw [getNode_iff]; exact ⟨c, hc, hj⟩⟩
  generalize hbests : out.filterMap id = bests
  obtain ⟨es, hes⟩ := Option.isSome_iff_exists.mp (edgesCols_some (bests := bests) (cols := cols) (cols.drop 1) (by
    intro c hc n hn
    obtain ⟨i, hi⟩ := List.mem_iff_getElem?.mp hc
    rw [List.getElem?_drop] at hi
    obtain ⟨j, hj⟩ := hcol _ _ hi n hn
    have h1 := (hsol.eqn wf (by omega) hj).1
    have h2 := (List.getElem?_eq_some_iff.mp hi).1
    omega) 1)
  obtain ⟨ns, hns⟩ := Option.isSome_iff_exists.mp (nodesCols_some (d := d) (u := u) (bests := bests) cols (by
    intro c hc n hn
    obtain ⟨i, hi⟩ := List.mem_iff_getElem?.mp hc
    obtain ⟨j, hj⟩ := hcol _ _ hi n hn
    exact posFeature_some wf pt (hsol.kind wf (q := (i, j)) hj)) 0)
  obtain ⟨gs, hgs⟩ := Option.isSome_iff_exists.mp (dotEdges_some (d := d) (bests := bests) (cols := cols) es (by
    intro e he
    obtain ⟨_, a, b, ha, hb, _⟩ := (mem_edges hes e).mp he
    exact ⟨a, b, ha.1, hb.1, by rw [connCost_eq wf (hsol.table wf ha.1) (hsol.table wf hb.1)]; rfl⟩))
  refine ⟨es, ns, gs, ?_, hes, hns, hgs⟩
  simp only [dotGraph, hbests, hes, hns, hgs, Option.map_some]

theorem mem_places (rs : List OutRef) (q : Ptr) : q ∈ (rs.map OutRef.place).filterMap id ↔ .at q ∈ rs := by
  simp only [List.mem_filterMap, List.mem_map, id_eq, exists_eq_right]
  constructor
  · rintro ⟨r, hr, he⟩
    cases r with
    | «at» q' => cases he; exact hr
    | own n => cases he
  · intro h; exact ⟨_, h, rfl⟩

/-- Each pointer in `Output` leads somewhere. -/
theorem mapM_each {α β : Type} {f : α → Option β} {l : List α} : ∀ {out : List β}, l.mapM f = some out → ∀ a ∈ l, ∃ b, f a = some b := by
  induction l with
  | nil => intro out _ a ha; cases ha
  | cons x l ih =>
    intro out h a ha
    rw [List.mapM_cons] at h
    cases h1 : f x with
    | none => rw [h1] at h; cases h
    | some y =>
      cases h2 : l.mapM f with
      | none => rw [h1, h2] at h; cases h
      | some ys =>
        rcases List.mem_cons.mp ha with rfl | ha
        · exact ⟨y, h1⟩
        · exact ih h2 a ha

theorem emitRef_place (m : LMode) (q : Ptr) (p : Node) : (emitRef m q p).map OutRef.place = emitPtr m q p := by
  unfold emitRef emitPtr
  split
  · rfl
  · rw [List.map_map, show (OutRef.place ∘ OutRef.own) = (fun _ => none) from rfl, List.map_const', List.map_const', List.length_reverse, explode_len]

theorem walkRef_place (m : LMode) (cols : Cols) (fuel : Nat) : ∀ q, (walkRef m cols fuel q).map (List.map OutRef.place) = walkPtr m cols fuel q := by
  induction fuel with
  | zero => intro q; cases q <;> rfl
  | succ fuel ih =>
    intro q
    cases q with
    | none => rfl
    | some q =>
      obtain ⟨i, j⟩ := q
      rw [walkPtr, walkRef]
      cases getNode cols i j with
      | none => rfl
      | some p =>
        simp only []
        rw [← ih p.prev, Option.map_map, Option.map_map]
        congr 1
        funext rs
        simp only [Function.comp_apply, List.map_append, emitRef_place]

/-! ### Costs and predecessors do not matter -/

theorem edgesFrom_skel (bests : List Ptr) (dst : Ptr) (start : Nat) (ns : List Node) : ∀ j,
    edgesFrom bests dst start j (ns.map skel) = edgesFrom bests dst start j ns := by
  induction ns with
  | nil => intro j; rfl
  | cons n ns ih => intro j; rw [List.map_cons, edgesFrom, edgesFrom, ih]; rfl

theorem edgesCol_skel (bests : List Ptr) (cols : Cols) (i : Nat) (ns : List Node) : ∀ j,
    edgesCol bests (cols.map (List.map skel)) i j (ns.map skel) = edgesCol bests cols i j ns := by
  induction ns with
  | nil => intro j; rfl
  | cons n ns ih =>
    intro j
    rw [List.map_cons, edgesCol, edgesCol, ih, show hidden bests (i, j) (skel n) = hidden bests (i, j) n from rfl, show (skel n).start = n.start from rfl,
      List.getElem?_map]
    cases cols[n.start]? with
    | none => rfl
    | some prevs => simp only [Option.map_some, edgesFrom_skel]

theorem edgesCols_skel (bests : List Ptr) (cols : Cols) (l : List (List Node)) : ∀ i,
    edgesCols bests (cols.map (List.map skel)) i (l.map (List.map skel)) = edgesCols bests cols i l := by
  induction l with
  | nil => intro i; rfl
  | cons c l ih => intro i; rw [List.map_cons, edgesCols, edgesCols, ih, edgesCol_skel]

theorem nodesCol_skel (d : Dict) (u : Option UserDict) (bests : List Ptr) (i : Nat) (ns : List Node) : ∀ j,
    nodesCol d u bests i j (ns.map skel) = nodesCol d u bests i j ns := by
  induction ns with
  | nil => intro j; rfl
  | cons n ns ih => intro j; rw [List.map_cons, nodesCol, nodesCol, ih]; rfl

theorem nodesCols_skel (d : Dict) (u : Option UserDict) (bests : List Ptr) (l : List (List Node)) : ∀ i,
    nodesCols d u bests i (l.map (List.map skel)) = nodesCols d u bests i l := by
  induction l with
  | nil => intro i; rfl
  | cons c l ih => intro i; rw [List.map_cons, nodesCols, nodesCols, ih, nodesCol_skel]

theorem dotEdges_skel (d : Dict) (bests : List Ptr) (cols : Cols) (es : List (Ptr × Ptr)) :
    dotEdges d bests (cols.map (List.map skel)) es = dotEdges d bests cols es := by
  have hg : ∀ i j, getNode (cols.map (List.map skel)) i j = (getNode cols i j).map skel := by
    intro i j
    unfold getNode
    rw [List.getElem?_map]
    cases cols[i]? with
    | none => rfl
    | some c => simp
  induction es with
  | nil => rfl
  | cons e es ih =>
    rw [dotEdges, dotEdges, ih]
    congr 1
    unfold dotEdge
    rw [hg, hg]
    cases getNode cols e.1.1 e.1.2 <;> cases getNode cols e.2.1 e.2.2 <;> rfl

theorem dotGraph_skel {a b : Cols} (h : SameSkel a b) (d : Dict) (u : Option UserDict) (out : List (Option Ptr)) :
    dotGraph d u a out = dotGraph d u b out := by
  have key : ∀ c : Cols, dotGraph d u (c.map (List.map skel)) out = dotGraph d u c out := by
    intro c
    unfold dotGraph
    simp only [← List.map_drop, edgesCols_skel, nodesCols_skel, dotEdges_skel]
  rw [← key a, ← key b, h]

/-- What `Dot` writes after `Build` and any calls of `Forward` and `Backward` is what it writes for some solved columns. -/
theorem InUse.dot {E : List Node} {o : Lattice} (wf : WellFormed d u) (hl : Safe d u inp cols0) (h : InUse d u cols0 E o) :
    ∃ cols, Solved d u ideo .normal inp cols0 cols ∧ o.dot = dotGraph d u cols (o.output.map OutRef.place) ∧
      ∀ r ∈ o.output, ∃ nd nd', r.deref cols = some nd ∧ r.deref o.store = some nd' ∧ skel nd = skel nd' := by
  obtain ⟨cols, rest, h1, h2, h3, h4⟩ := h.store
  obtain ⟨colsF, _, hsol⟩ := forward_solved wf hl ideo .normal
  have hskel : SameSkel cols colsF := h3.trans (solved_skel hsol).symm
  refine ⟨colsF, hsol, ?_, ?_⟩
  · unfold Lattice.dot
    rw [h1, h.len, ← h3.length, List.take_left, h.dict, h.udict, dotGraph_skel hskel]
  · intro r hr
    cases hm : o.output.mapM (OutRef.deref cols) with
    | none => rw [hm] at h4; cases h4
    | some x =>
      obtain ⟨nd', hnd⟩ := mapM_each hm _ hr
      have := deref_skel hskel r
      rw [hnd, Option.map_some] at this
      obtain ⟨nd, e1, e2⟩ := Option.map_eq_some_iff.mp this.symm
      exact ⟨nd, nd', e1, by rw [h1]; exact deref_more hnd, e2⟩

/-- After `Build` and any calls of `Forward` and `Backward` there is a graph. -/
theorem session_dot {o : Lattice} (ho : o.Clean) (wf : WellFormed o.dict o.udict) (pt : PosTables o.dict o.udict) (ideo : Nat → Bool) (inp : Bytes)
    (ops : List LatOp) (hops : ∀ s, LatOp.build s ∉ ops) : ∃ o' g, o.calls ideo (.build inp :: ops) = some o' ∧ o'.dot = some g := by
  obtain ⟨cols0, o', E', a, h1, h2, h3, h4, _⟩ := session_any ho wf ideo inp ops hops
  obtain ⟨cols, hsol, hd, _⟩ := h4.dot (ideo := ideo) wf h3
  obtain ⟨es, ns, gs, p1, _⟩ := dotGraph_parts wf pt hsol (o'.output.map OutRef.place)
  exact ⟨o', ⟨ns, gs⟩, h1, by rw [hd, p1]⟩

end

end Kagome
