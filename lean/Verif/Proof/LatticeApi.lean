import Verif.Spec.LatticeApi
import Verif.Props.Modes

/-! The exported lattice used directly: one object through any calls. -/

namespace Kagome

open Spec

/-! ### `Forward` again -/

theorem foldl_start {d : Dict} {ideo : Nat → Bool} {m : LMode} {P : List Node} (hP : P.length ≠ 0) {t t' : Node} (h : skel t = skel t') :
    (List.range P.length).foldl (relaxStep d ideo m P) t = (List.range P.length).foldl (relaxStep d ideo m P) t' := by
  obtain ⟨k, hk⟩ : ∃ k, P.length = k + 1 := ⟨P.length - 1, by omega⟩
  rw [hk, List.range_succ_eq_map, List.foldl_cons, List.foldl_cons]
  congr 1
  unfold relaxStep
  rw [List.getElem?_eq_getElem (by omega : 0 < P.length)]
  simp only [true_or, if_true, candCost_skel h]
  have h1 := congrArg Node.id h
  have h2 := congrArg Node.position h
  have h3 := congrArg Node.start h
  have h4 := congrArg Node.cls h
  have h5 := congrArg Node.left h
  have h6 := congrArg Node.right h
  have h7 := congrArg Node.weight h
  have h8 := congrArg Node.surface h
  simp only [skel] at h1 h2 h3 h4 h5 h6 h7 h8
  rw [h1, h2, h3, h4, h5, h6, h7, h8]

/-- What an earlier `Forward` left in a node does not matter. -/
theorem solve1_again {d : Dict} {ideo : Nat → Bool} {m1 m2 : LMode} {cols1 cols2 : Cols} {t : Node}
    (hl : (cols1[t.start]?).map List.length = (cols2[t.start]?).map List.length) :
    solve1 d ideo m2 cols2 (solve1 d ideo m1 cols1 t) = solve1 d ideo m2 cols2 t := by
  have hs : skel (solve1 d ideo m1 cols1 t) = skel t := skel_solve1 ..
  have hst := start_of_skel hs
  have hu : ∀ x : Node, x.start = t.start → solve1 d ideo m2 cols2 x = (match cols2[t.start]? with
      | none => x
      | some P => if P.length = 0 then { x with cost := maximumCost } else (List.range P.length).foldl (relaxStep d ideo m2 P) x) := by
    intro x hx
    have := solve1.eq_1 d ideo m2 cols2 x
    rw [← hx]
    exact this
  rw [hu _ hst, hu _ rfl]
  cases h2 : cols2[t.start]? with
  | none =>
    rw [h2] at hl
    simp only [Option.map_none, Option.map_eq_none_iff] at hl
    simp only
    rw [solve1, hl]
  | some P =>
    simp only
    by_cases hP : P.length = 0
    · rw [if_pos hP, if_pos hP]
      rw [h2] at hl
      cases h1 : cols1[t.start]? with
      | none => rw [h1] at hl; cases hl
      | some Q =>
        rw [h1] at hl
        simp only [Option.map_some, Option.some.injEq] at hl
        rw [solve1, h1]
        simp only
        rw [if_pos (by omega)]
    · rw [if_neg hP, if_neg hP]
      exact foldl_start hP hs

theorem forward_again {d : Dict} {u : Option UserDict} (wf : WellFormed d u) {inp : Bytes} {cols0 : Cols} (hl : Safe d u inp cols0) (ideo : Nat → Bool)
    (m1 m2 : LMode) {cols1 : Cols} (h1 : forward d ideo m1 cols0 = some cols1) : forward d ideo m2 cols1 = forward d ideo m2 cols0 := by
  obtain ⟨c1, e1, s1⟩ := forward_solved wf hl ideo m1
  rw [h1] at e1
  simp only [Option.some.injEq] at e1
  subst e1
  obtain ⟨c2, e2, s2⟩ := forward_solved wf hl ideo m2
  rw [e2]
  have htab : ∀ (p : Nat) c, cols0[p]? = some c → ∀ n ∈ c, TableNode d n := by
    intro p c hc n hn
    by_cases hp : 1 ≤ p
    · exact (lat_node wf hl hp hc hn).2.1
    · have : p = 0 := by omega
      subst this
      rw [hl.bos] at hc
      simp only [Option.some.injEq] at hc
      subst hc
      simp only [List.mem_singleton] at hn
      subst hn
      exact bos_table d
  have hlen := hl.len
  have hlen1 := s1.len
  -- the nodes after the first `Forward` are the built ones but for cost and predecessor
  have hback : ∀ (p : Nat) c, cols1[p]? = some c → ∀ n ∈ c, ∃ c0 n0, cols0[p]? = some c0 ∧ n0 ∈ c0 ∧ skel n = skel n0 := by
    intro p c hc n hn
    by_cases hp : 1 ≤ p
    · have hlt := (List.getElem?_eq_some_iff.mp hc).1
      have h0 : cols0[p]? = some cols0[p] := List.getElem?_eq_getElem (by omega)
      have := s1.col p hp _ h0
      rw [hc] at this
      simp only [Option.some.injEq] at this
      subst this
      obtain ⟨n0, hn0, rfl⟩ := List.mem_map.mp hn
      exact ⟨_, n0, h0, hn0, skel_solve1 ..⟩
    · have : p = 0 := by omega
      subst this
      rw [s1.bos] at hc
      simp only [Option.some.injEq] at hc
      subst hc
      exact ⟨_, n, hl.bos, hn, rfl⟩
  obtain ⟨c3, f1, f2, f3, f4⟩ := forwardLoop_eq (d := d) (ideo := ideo) (m := m2) (cols1.length - 1) 1 cols1 (by omega)
    (by
      intro p hp c hc t ht
      obtain ⟨c0, n0, g1, g2, g3⟩ := hback p c hc t ht
      rw [start_of_skel g3]
      exact (lat_node wf hl hp g1 g2).1)
    (by
      intro p hp c hc t ht q P hP n hn n' hn'
      obtain ⟨c0, t0, g1, g2, g3⟩ := hback p c hc t ht
      obtain ⟨P0, n0, k1, k2, k3⟩ := hback q P hP n hn
      rw [connCost_skel g3, connCost_eq wf (tableNode_skel (by rw [hn', k3]) (htab q P0 k1 n0 k2)) (htab p c0 g1 t0 g2)]
      rfl)
  have hlen2 := s2.len
  unfold forward
  rw [f1]
  congr 1
  apply List.ext_getElem?
  intro p
  induction p using Nat.strongRecOn with
  | ind p ih =>
    by_cases hp : 1 ≤ p
    · by_cases hlt : p < cols0.length
      · have h0 : cols0[p]? = some cols0[p] := List.getElem?_eq_getElem hlt
        rw [s2.col p hp _ h0, f4 p hp _ (s1.col p hp _ h0), List.map_map]
        congr 1
        apply List.map_congr_left
        intro t ht
        have hst := (lat_node wf hl hp h0 ht).1
        rw [Function.comp_apply, solve1_again, solve1_congr (ih t.start hst)]
        rw [ih t.start hst]
        by_cases hz : 1 ≤ t.start
        · have h0' : cols0[t.start]? = some cols0[t.start] := List.getElem?_eq_getElem (by omega)
          rw [s1.col _ hz _ h0', s2.col _ hz _ h0']
          simp
        · have : t.start = 0 := by omega
          rw [this, s1.bos, s2.bos]
      · rw [List.getElem?_eq_none (by omega), List.getElem?_eq_none (by omega)]
    · have : p = 0 := by omega
      subst this
      rw [f3 0 (by omega), s1.bos, s2.bos]

/-! ### `Backward` -/

theorem mapM_own (cols : Cols) (ns : List Node) : (ns.map OutRef.own).mapM (OutRef.deref cols) = some ns := by
  induction ns with
  | nil => rfl
  | cons n ns ih => rw [List.map_cons, List.mapM_cons, ih]; rfl

theorem mapM_append_some {α β : Type} {f : α → Option β} {a b : List α} {x y : List β} (h1 : a.mapM f = some x) (h2 : b.mapM f = some y) :
    (a ++ b).mapM f = some (x ++ y) := by
  rw [List.mapM_append, h1, h2]; rfl

theorem emitRef_deref {m : LMode} {cols : Cols} {q : Ptr} {p : Node} (h : getNode cols q.1 q.2 = some p) :
    (emitRef m q p).mapM (OutRef.deref cols) = some (emit m p) := by
  unfold emitRef emit
  split
  · simp [OutRef.deref, h]
  · exact mapM_own cols _

theorem walkRef_spec (m : LMode) (cols : Cols) (fuel : Nat) : ∀ (q : Option Ptr) (out : List Node), walk m cols fuel q = some out →
    ∃ refs, walkRef m cols fuel q = some refs ∧ refs.mapM (OutRef.deref cols) = some out := by
  induction fuel with
  | zero =>
    intro q out h
    cases q with
    | none => rw [walk] at h; simp only [Option.some.injEq] at h; subst h; exact ⟨[], by rw [walkRef], rfl⟩
    | some q => rw [walk] at h; cases h
  | succ fuel ih =>
    intro q out h
    cases q with
    | none => rw [walk] at h; simp only [Option.some.injEq] at h; subst h; exact ⟨[], by rw [walkRef], rfl⟩
    | some q =>
      obtain ⟨i, j⟩ := q
      rw [walk] at h
      cases hp : getNode cols i j with
      | none => rw [hp] at h; cases h
      | some p =>
        rw [hp] at h
        simp only [Option.map_eq_some_iff] at h
        obtain ⟨o', h1, rfl⟩ := h
        obtain ⟨refs, h2, h3⟩ := ih p.prev o' h1
        refine ⟨emitRef m (i, j) p ++ refs, ?_, mapM_append_some (emitRef_deref hp) h3⟩
        rw [walkRef, hp]
        simp only [h2, Option.map_some]

theorem deref_more {cols rest : Cols} {r : OutRef} {n : Node} (h : r.deref cols = some n) : r.deref (cols ++ rest) = some n := by
  cases r with
  | own n' => exact h
  | «at» q =>
    simp only [OutRef.deref, getNode] at h ⊢
    cases hc : cols[q.1]? with
    | none => simp [hc] at h
    | some c =>
      rw [List.getElem?_append_left (List.getElem?_eq_some_iff.mp hc).1, hc]
      rw [hc] at h
      exact h

theorem mapM_deref_more {cols rest : Cols} {refs : List OutRef} {out : List Node} (h : refs.mapM (OutRef.deref cols) = some out) :
    refs.mapM (OutRef.deref (cols ++ rest)) = some out := by
  induction refs generalizing out with
  | nil => exact h
  | cons r refs ih =>
    rw [List.mapM_cons] at h ⊢
    cases h1 : r.deref cols with
    | none => rw [h1] at h; cases h
    | some n =>
      cases h2 : refs.mapM (OutRef.deref cols) with
      | none => rw [h1, h2] at h; cases h
      | some ns =>
        rw [h1, h2] at h
        rw [deref_more h1, ih h2]
        exact h

/-! ### Sessions -/

theorem eq_replicate {l : Cols} (h : ∀ c ∈ l, c = []) : l = List.replicate l.length [] := List.eq_replicate_iff.2 ⟨rfl, h⟩

theorem calls_append (ideo : Nat → Bool) (o : Lattice) (a b : List LatOp) : o.calls ideo (a ++ b) = (o.calls ideo a).bind (·.calls ideo b) := by
  induction a generalizing o with
  | nil => rfl
  | cons op a ih =>
    rw [List.cons_append, Lattice.calls, Lattice.calls]
    cases o.call ideo op with
    | none => rfl
    | some o' => rw [Option.bind_some, Option.bind_some, ih]

theorem reserve_clean {o : Lattice} (h : o.Clean) (n : Nat) : (o.reserve n).output = [] ∧ (∀ c ∈ (o.reserve n).store, c = []) ∧ n ≤ (o.reserve n).store.length ∧
    (o.reserve n).dict = o.dict ∧ (o.reserve n).udict = o.udict := by
  unfold Lattice.reserve
  split
  · refine ⟨by simp [h.1], ?_, by simp, rfl, rfl⟩
    intro c hc
    exact (List.mem_replicate.1 hc).2
  · exact ⟨h.1, h.2.2, by omega, rfl, rfl⟩

theorem build_clean {o : Lattice} (h : o.Clean) (wf : WellFormed o.dict o.udict) (inp : Bytes) :
    ∃ cols0 o', o.build inp = some o' ∧ build o.dict o.udict inp = some cols0 ∧ Safe o.dict o.udict inp cols0 ∧ o'.dict = o.dict ∧ o'.udict = o.udict ∧
      o'.output = [] ∧ o'.len = cols0.length ∧ ∃ rest, o'.store = cols0 ++ rest ∧ ∀ c ∈ rest, c = [] := by
  obtain ⟨h1, h2, h3, h4, h5⟩ := reserve_clean h (runeCount inp + 2)
  obtain ⟨cols0, b1, b2⟩ := build_safe wf inp
  have ht : (o.reserve (runeCount inp + 2)).store.take (runeCount inp + 2) = List.replicate (runeCount inp + 2) [] := by
    rw [eq_replicate (l := (o.reserve (runeCount inp + 2)).store.take (runeCount inp + 2)) (fun c hc => h2 c (List.mem_of_mem_take hc)), List.length_take,
      Nat.min_eq_left h3]
  have hb : buildOn o.dict o.udict inp (List.replicate (runeCount inp + 2) []) = some cols0 := b1
  refine ⟨cols0, { o.reserve (runeCount inp + 2) with input := inp, store := cols0 ++ (o.reserve (runeCount inp + 2)).store.drop (runeCount inp + 2), len := runeCount inp + 2 }, ?_,
    b1, b2, h4, h5, h1, ?_, _, rfl, ?_⟩
  · unfold Lattice.build
    simp only [ht, h4, h5, hb, Option.map_some]
  · exact b2.len.symm
  · exact fun c hc => h2 c (List.mem_of_mem_drop hc)

/-! ### Nodes that differ in cost and predecessor only -/

/-- The same nodes up to cost and predecessor. -/
def SameSkel (a b : Cols) : Prop := a.map (List.map skel) = b.map (List.map skel)

theorem SameSkel.symm {a b : Cols} (h : SameSkel a b) : SameSkel b a := Eq.symm h
theorem SameSkel.trans {a b c : Cols} (h : SameSkel a b) (h' : SameSkel b c) : SameSkel a c := Eq.trans h h'

theorem SameSkel.len {a b : Cols} (h : SameSkel a b) : a.length = b.length := by
  have := congrArg List.length h
  rwa [List.length_map, List.length_map] at this

theorem getNode_skel {a b : Cols} (h : SameSkel a b) (i j : Nat) : (getNode a i j).map skel = (getNode b i j).map skel := by
  have h1 := congrArg (·[i]?) h
  simp only [List.getElem?_map] at h1
  unfold getNode
  cases ha : a[i]? with
  | none => rw [ha] at h1; cases hb : b[i]? with
    | none => rfl
    | some c => rw [hb] at h1; cases h1
  | some c =>
    rw [ha] at h1
    cases hb : b[i]? with
    | none => rw [hb] at h1; cases h1
    | some c' =>
      rw [hb] at h1
      simp only [Option.map_some, Option.some.injEq] at h1
      have h2 := congrArg (·[j]?) h1
      simpa using h2

theorem deref_skel {a b : Cols} (h : SameSkel a b) (r : OutRef) : (r.deref a).map skel = (r.deref b).map skel := by
  cases r with
  | own n => rfl
  | «at» q => exact getNode_skel h q.1 q.2

theorem mapM_skel {a b : Cols} (h : SameSkel a b) (refs : List OutRef) :
    (refs.mapM (OutRef.deref a)).map (List.map skel) = (refs.mapM (OutRef.deref b)).map (List.map skel) := by
  induction refs with
  | nil => rfl
  | cons r refs ih =>
    have h1 := deref_skel h r
    rw [List.mapM_cons, List.mapM_cons]
    cases ha : r.deref a with
    | none =>
      rw [ha] at h1
      cases hb : r.deref b with
      | none => rfl
      | some n => rw [hb] at h1; cases h1
    | some n =>
      rw [ha] at h1
      cases hb : r.deref b with
      | none => rw [hb] at h1; cases h1
      | some n' =>
        rw [hb] at h1
        simp only [Option.map_some, Option.some.injEq] at h1
        cases hc : refs.mapM (OutRef.deref a) with
        | none =>
          rw [hc] at ih
          cases hd : refs.mapM (OutRef.deref b) with
          | none => rfl
          | some x => rw [hd] at ih; cases ih
        | some x =>
          rw [hc] at ih
          cases hd : refs.mapM (OutRef.deref b) with
          | none => rw [hd] at ih; cases ih
          | some y =>
            rw [hd] at ih
            simp only [Option.map_some, Option.some.injEq] at ih
            change some ((n :: x).map skel) = some ((n' :: y).map skel)
            rw [List.map_cons, List.map_cons, h1, ih]

theorem solved_skel {d : Dict} {u : Option UserDict} {ideo : Nat → Bool} {m : LMode} {inp : Bytes} {cols0 cols : Cols}
    (s : Solved d u ideo m inp cols0 cols) : SameSkel cols cols0 := by
  unfold SameSkel
  apply List.ext_getElem?
  intro p
  rw [List.getElem?_map, List.getElem?_map]
  by_cases hp : 1 ≤ p
  · cases h0 : cols0[p]? with
    | none =>
      have h1 := List.getElem?_eq_none_iff.mp h0
      have h2 := s.len
      have h3 := s.lat.len
      rw [List.getElem?_eq_none (by omega)]
    | some c =>
      rw [s.col p hp c h0]
      simp only [Option.map_some, List.map_map]
      congr 1
      apply List.map_congr_left
      intro t _
      rw [Function.comp_apply, skel_solve1]
  · have : p = 0 := by omega
    subst this
    rw [s.bos, s.lat.bos]

/-! ### The best path and what is made of it -/

theorem walk_split (m : LMode) (cols : Cols) (fuel : Nat) : ∀ q, walk m cols fuel q = (walk .normal cols fuel q).map (·.flatMap (emit m)) := by
  induction fuel with
  | zero => intro q; cases q <;> rfl
  | succ fuel ih =>
    intro q
    cases q with
    | none => rfl
    | some q =>
      obtain ⟨i, j⟩ := q
      rw [walk, walk]
      cases getNode cols i j with
      | none => rfl
      | some p =>
        simp only
        rw [ih p.prev]
        cases walk .normal cols fuel p.prev with
        | none => rfl
        | some L => simp [emit]

theorem walk_mem {cols : Cols} (fuel : Nat) : ∀ q L, walk .normal cols fuel q = some L → ∀ n ∈ L, ∃ i j, getNode cols i j = some n := by
  induction fuel with
  | zero =>
    intro q L h n hn
    cases q with
    | none => rw [walk] at h; simp only [Option.some.injEq] at h; subst h; cases hn
    | some q => rw [walk] at h; cases h
  | succ fuel ih =>
    intro q L h n hn
    cases q with
    | none => rw [walk] at h; simp only [Option.some.injEq] at h; subst h; cases hn
    | some q =>
      obtain ⟨i, j⟩ := q
      rw [walk] at h
      cases hp : getNode cols i j with
      | none => rw [hp] at h; cases h
      | some p =>
        rw [hp] at h
        simp only [Option.map_eq_some_iff] at h
        obtain ⟨L', h1, rfl⟩ := h
        rcases List.mem_append.1 hn with h2 | h2
        · simp [emit] at h2
          subst h2
          exact ⟨i, j, hp⟩
        · exact ih _ _ h1 n h2

/-- The state after `Build` and at least one `Forward`, the last one in mode `cur`; `E` are the nodes in `Output` but for cost and predecessor. -/
structure Live (d : Dict) (u : Option UserDict) (ideo : Nat → Bool) (cols0 : Cols) (cur : LMode) (E : List Node) (o : Lattice) : Prop where
  dict : o.dict = d
  udict : o.udict = u
  len : o.len = cols0.length
  store : ∃ cols rest, o.store = cols ++ rest ∧ (∀ c ∈ rest, c = []) ∧ forward d ideo cur cols0 = some cols ∧
    (o.output.mapM (OutRef.deref cols)).map (List.map skel) = some E

section
variable {d : Dict} {u : Option UserDict} {ideo : Nat → Bool} {cols0 : Cols} {cur : LMode} {E : List Node} {o : Lattice} {inp : Bytes}

theorem Live.forward (wf : WellFormed d u) (hl : Safe d u inp cols0) (h : Live d u ideo cols0 cur E o) (m : LMode) :
    ∃ o', o.forward ideo m = some o' ∧ Live d u ideo cols0 m E o' := by
  obtain ⟨cols, rest, h1, h2, h3, h4⟩ := h.store
  obtain ⟨c1, e1, s1⟩ := forward_solved wf hl ideo cur
  rw [h3] at e1
  simp only [Option.some.injEq] at e1
  subst e1
  obtain ⟨c2, e2, s2⟩ := forward_solved wf hl ideo m
  have hlen : o.len = cols.length := by rw [h.len, s1.len, hl.len]
  refine ⟨{ o with store := c2 ++ rest }, ?_, h.dict, h.udict, h.len, c2, rest, rfl, h2, e2, ?_⟩
  · unfold Lattice.forward
    rw [h1, hlen, List.take_left, List.drop_left, h.dict, forward_again wf hl ideo cur m h3, e2]
    rfl
  · rw [← h4]
    exact mapM_skel ((solved_skel s2).trans (solved_skel s1).symm) _

theorem Live.backward (wf : WellFormed d u) (hl : Safe d u inp cols0) (h : Live d u ideo cols0 cur E o) (m : LMode) {cols : Cols} {L : List Node}
    (hf : Kagome.forward d ideo cur cols0 = some cols) (hL : Kagome.backward .normal cols = some L) :
    ∃ o', o.backward m = some o' ∧ Live d u ideo cols0 cur (E ++ (L.flatMap (emit m)).map skel) o' := by
  obtain ⟨cols', rest, h1, h2, h3, h4⟩ := h.store
  rw [hf] at h3
  simp only [Option.some.injEq] at h3
  subst h3
  obtain ⟨c1, e1, s1⟩ := forward_solved wf hl ideo cur
  rw [hf] at e1
  simp only [Option.some.injEq] at e1
  subst e1
  have hlen : o.len = cols.length := by rw [h.len, s1.len, hl.len]
  have hlen1 := s1.len
  unfold Kagome.backward at hL
  rw [if_neg (by omega)] at hL
  obtain ⟨refs, r1, r2⟩ := walkRef_spec m cols _ _ _ (by rw [walk_split, hL, Option.map_some])
  refine ⟨{ o with output := o.output ++ refs }, ?_, h.dict, h.udict, h.len, cols, rest, h1, h2, hf, ?_⟩
  · unfold Lattice.backward
    rw [h1, hlen, List.take_left, if_neg (by omega), r1]
    rfl
  · cases hm : o.output.mapM (OutRef.deref cols) with
    | none => rw [hm] at h4; cases h4
    | some x =>
      rw [hm] at h4
      simp only [Option.map_some, Option.some.injEq] at h4
      rw [mapM_append_some hm r2, Option.map_some, List.map_append, h4]

theorem Live.nodes (h : Live d u ideo cols0 cur E o) : o.nodes.map (List.map skel) = some E := by
  obtain ⟨cols, rest, h1, h2, h3, h4⟩ := h.store
  cases hm : o.output.mapM (OutRef.deref cols) with
  | none => rw [hm] at h4; cases h4
  | some x =>
    rw [hm] at h4
    unfold Lattice.nodes
    rw [h1, mapM_deref_more hm]
    exact h4

theorem Live.free (wf : WellFormed d u) (hl : Safe d u inp cols0) (h : Live d u ideo cols0 cur E o) : o.free.Clean := by
  obtain ⟨cols, rest, h1, h2, h3, h4⟩ := h.store
  obtain ⟨c1, e1, s1⟩ := forward_solved wf hl ideo cur
  rw [h3] at e1
  simp only [Option.some.injEq] at e1
  subst e1
  have hlen : o.len = cols.length := by rw [h.len, s1.len, hl.len]
  refine ⟨rfl, rfl, ?_⟩
  intro c hc
  simp only [Lattice.free, h1, hlen, List.take_left, List.drop_left] at hc
  rcases List.mem_append.1 hc with hc | hc
  · obtain ⟨_, _, rfl⟩ := List.mem_map.1 hc
    rfl
  · exact h2 c hc

end

/-! ### A whole session -/

theorem path_exists {d : Dict} {u : Option UserDict} (wf : WellFormed d u) {inp : Bytes} {cols0 : Cols} (hl : Safe d u inp cols0) (ideo : Nat → Bool) (m : LMode) :
    ∃ cols L, forward d ideo m cols0 = some cols ∧ Solved d u ideo m inp cols0 cols ∧ backward .normal cols = some L := by
  obtain ⟨cols, hf, hsol⟩ := forward_solved wf hl ideo m
  obtain ⟨e, he, _⟩ := hsol.eos
  obtain ⟨L, hL, hw⟩ := prevChain_exists wf hsol _ _ _ he
  have hlen := hsol.len
  have := hw (cols.length + 1) (by omega)
  rw [walk_split] at this
  simp only [Option.map_eq_some_iff] at this
  obtain ⟨L', h1, _⟩ := this
  refine ⟨cols, L', hf, hsol, ?_⟩
  unfold backward
  rw [if_neg (by omega)]
  have e : cols.length - 1 = runeCount inp + 1 := by omega
  rw [e]
  exact h1

theorem path_boundary {d : Dict} {u : Option UserDict} (wf : WellFormed d u) {inp : Bytes} {cols0 cols : Cols} {ideo : Nat → Bool} {m : LMode}
    (s : Solved d u ideo m inp cols0 cols) {L : List Node} (hL : backward .normal cols = some L) :
    ∀ n ∈ L, n.id = -1 → n.surface = [] ∧ n.cls = .dummy := by
  intro n hn hid
  have hlen := s.len
  unfold backward at hL
  rw [if_neg (by omega)] at hL
  obtain ⟨i, j, hg⟩ := walk_mem _ _ _ hL n hn
  have hsk := getNode_skel (solved_skel s) i j
  rw [hg, Option.map_some] at hsk
  cases hg0 : getNode cols0 i j with
  | none => rw [hg0] at hsk; cases hsk
  | some n0 =>
    rw [hg0] at hsk
    simp only [Option.map_some, Option.some.injEq] at hsk
    have e1 : (skel n).id = (skel n0).id := congrArg Node.id hsk
    have e2 : (skel n).surface = (skel n0).surface := congrArg Node.surface hsk
    have e3 : (skel n).cls = (skel n0).cls := congrArg Node.cls hsk
    change n.id = n0.id at e1
    change n.surface = n0.surface at e2
    change n.cls = n0.cls at e3
    rw [e2, e3]
    rw [e1] at hid
    have hs := s.lat
    unfold getNode at hg0
    cases hc : cols0[i]? with
    | none => rw [hc] at hg0; cases hg0
    | some c =>
      rw [hc] at hg0
      have hmem : n0 ∈ c := List.mem_of_getElem? hg0
      have hi := (List.getElem?_eq_some_iff.mp hc).1
      rw [hs.len] at hi
      by_cases h0 : i = 0
      · subst h0
        rw [hs.bos] at hc
        simp only [Option.some.injEq] at hc
        subst hc
        simp only [List.mem_singleton] at hmem
        subst hmem
        exact ⟨rfl, rfl⟩
      · by_cases hlast : i = runeCount inp + 1
        · subst hlast
          rw [hs.eos] at hc
          simp only [Option.some.injEq] at hc
          subst hc
          simp only [List.mem_singleton] at hmem
          subst hmem
          exact ⟨rfl, rfl⟩
        · obtain ⟨col, hc', hm⟩ := hs.mid i (by omega) (by omega)
          rw [hc] at hc'
          simp only [Option.some.injEq] at hc'
          subst hc'
          obtain ⟨k, pos, rest, w, hat, hw, hp, rfl⟩ := hm n0 hmem
          have := (weak_ok wf hw).id
          change w.id = -1 at hid
          omega

/-! ### Views -/

theorem nodeView_skel (n : Node) : nodeView (skel n) = nodeView n := rfl

theorem map_nodeView_skel {a b : List Node} (h : a.map skel = b.map skel) : a.map nodeView = b.map nodeView := by
  have := congrArg (List.map nodeView) h
  rwa [List.map_map, List.map_map] at this

theorem explode_views (p : Node) (hp : p.id ≠ -1) (tok : Token) (h1 : tok.id = p.id) (h2 : tok.position = p.position) (h3 : tok.start = p.start) :
    ∀ (l : List (Nat × Nat)) (i : Nat), (l.zipIdx i).map (fun x => tokenView
      { tok with cls := .dummy, position := tok.position + x.1.1, start := tok.start + x.2, stop := tok.start + x.2 + 1, surface := encodeRune x.1.2 }) =
      (explode p i l).map nodeView := by
  intro l
  induction l with
  | nil => intro i; rfl
  | cons x l ih =>
    intro i
    rw [List.zipIdx_cons, List.map_cons, ih, explode, List.map_cons]
    congr 1
    simp only [tokenView, nodeView, h1, h2, h3, if_neg hp]

theorem tokenLoop_views {t : Tokenizer} (ht : t.omitBosEos = false) : ∀ (ns : List Node) (i k : Nat), (∀ n ∈ ns, n.id = -1 → n.surface = [] ∧ n.cls = .dummy) →
    ∀ m, ((tokenLoop t i k ns).flatMap (cutFor m)).map tokenView = ns.flatMap (fun n => (emitFwd m n).map nodeView) := by
  intro ns
  induction ns with
  | nil => intro i k _ m; rfl
  | cons n ns ih =>
    intro i k h m
    rw [tokenLoop, if_neg (by simp [ht]), List.flatMap_cons, List.flatMap_cons, List.map_append, ih _ _ (fun x hx => h x (by simp [hx]))]
    congr 1
    have hn := h n (by simp)
    unfold cutFor emitFwd
    have hc : (mkToken t i k n).cls = n.cls := rfl
    rw [hc]
    by_cases hm : m = .extended ∧ n.cls = .unknown
    · rw [if_pos hm, if_neg (by simp [hm.1, hm.2])]
      have hid : n.id ≠ -1 := by
        intro h1
        have := (hn h1).2
        rw [hm.2] at this
        cases this
      have hsurf : (mkToken t i k n).surface = n.surface := if_neg hid
      rw [List.map_map, hsurf]
      exact explode_views n hid (mkToken t i k n) rfl rfl rfl _ 0
    · rw [if_neg hm, if_pos (by
        by_cases h1 : m = .extended
        · exact Or.inr (fun h2 => hm ⟨h1, h2⟩)
        · exact Or.inl h1)]
      have hv : tokenView (mkToken t i k n) = nodeView n := by
        by_cases hid : n.id = -1
        · have : tokenView (mkToken t i k n) = ⟨n.id, n.cls, n.position, n.start, []⟩ := by
            unfold tokenView; rw [if_pos (show (mkToken t i k n).id = -1 from hid)]; rfl
          rw [this, ← (hn hid).1]; rfl
        · have h1 : (mkToken t i k n).surface = n.surface := if_neg hid
          unfold tokenView; rw [if_neg (show ¬ (mkToken t i k n).id = -1 from hid), h1]; rfl
      rw [List.map_cons, List.map_nil, hv]; rfl

theorem emits_reverse (m : LMode) (L : List Node) : (L.flatMap (emit m)).reverse = L.reverse.flatMap (emitFwd m) := by
  induction L with
  | nil => rfl
  | cons p L ih =>
    rw [List.flatMap_cons, List.reverse_append, ih, List.reverse_cons, List.flatMap_append]
    congr 1
    rw [List.flatMap_singleton]
    unfold emit emitFwd
    split
    · rfl
    · rw [List.reverse_reverse]

theorem forward_wordsMode (d : Dict) (ideo : Nat → Bool) (cur : LMode) (cols : Cols) :
    forward d ideo (latticeMode (wordsMode cur)) cols = forward d ideo cur cols := by
  cases cur with
  | normal => rfl
  | search => rfl
  | extended => exact (forward_ext d ideo cols).symm

theorem answer_path {d : Dict} {u : Option UserDict} (wf : WellFormed d u) {inp : Bytes} {cols0 cols : Cols} {ideo : Nat → Bool} {cur : LMode}
    (hb : build d u inp = some cols0) (hf : forward d ideo cur cols0 = some cols) (s : Solved d u ideo cur inp cols0 cols) {L : List Node}
    (hL : backward .normal cols = some L) (m : LMode) : answer d u ideo inp cur m = some ((L.flatMap (emit m)).map nodeView) := by
  have h1 : latticeMode (wordsMode cur) ≠ .extended := by cases cur <;> decide
  have hback : backward (latticeMode (wordsMode cur)) cols = some L := by
    have hlen := s.len
    unfold backward at hL ⊢
    rw [if_neg (by omega)] at hL ⊢
    rw [walk_split, hL, Option.map_some]
    congr 1
    have : ∀ l : List Node, l.flatMap (emit (latticeMode (wordsMode cur))) = l := by
      intro l
      induction l with
      | nil => rfl
      | cons x l ih => rw [List.flatMap_cons, ih, emit, if_pos (Or.inl h1)]; rfl
    exact this L
  have hs : solve ⟨d, u, false⟩ ideo inp (latticeMode (wordsMode cur)) = some (cols, L) := by
    unfold solve
    rw [hb]
    simp only
    rw [forward_wordsMode, hf]
    simp only
    rw [hback]
    rfl
  unfold answer analyze
  rw [hs]
  simp only [Option.map_some]
  congr 1
  rw [tokenLoop_views rfl _ _ _ (fun n hn => path_boundary wf s hL n (List.mem_reverse.1 hn)), ← List.map_flatMap, ← emits_reverse, List.map_reverse,
    List.reverse_reverse]

theorem session_calls {d : Dict} {u : Option UserDict} (wf : WellFormed d u) {inp : Bytes} {cols0 : Cols} (hb : build d u inp = some cols0)
    (hl : Safe d u inp cols0) (ideo : Nat → Bool) : ∀ (ops : List LatOp) (cur : LMode) (E : List Node) (o : Lattice), (∀ s, LatOp.build s ∉ ops) →
      Live d u ideo cols0 cur E o → ∃ o' cur' E' a, o.calls ideo ops = some o' ∧ Live d u ideo cols0 cur' E' o' ∧ answers d u ideo inp cur ops = some a ∧
        E'.map nodeView = E.map nodeView ++ a := by
  intro ops
  induction ops with
  | nil => intro cur E o _ h; exact ⟨o, cur, E, [], rfl, h, rfl, by simp⟩
  | cons op ops ih =>
    intro cur E o hops h
    have hops' : ∀ s, LatOp.build s ∉ ops := fun s hs => hops s (by simp [hs])
    cases op with
    | build s => exact absurd (by simp) (hops s)
    | forward m =>
      obtain ⟨o1, h1, h2⟩ := h.forward wf hl m
      obtain ⟨o', cur', E', a, g1, g2, g3, g4⟩ := ih m E o1 hops' h2
      refine ⟨o', cur', E', a, ?_, g2, by rw [answers, g3], g4⟩
      rw [Lattice.calls, Lattice.call, h1, Option.bind_some, g1]
    | backward m =>
      obtain ⟨cols, L, hf, hs, hL⟩ := path_exists wf hl ideo cur
      obtain ⟨o1, h1, h2⟩ := h.backward wf hl m hf hL
      obtain ⟨o', cur', E', a, g1, g2, g3, g4⟩ := ih cur _ o1 hops' h2
      refine ⟨o', cur', E', (L.flatMap (emit m)).map nodeView ++ a, ?_, g2, ?_, ?_⟩
      · rw [Lattice.calls, Lattice.call, h1, Option.bind_some, g1]
      · rw [answers, answer_path wf hb hf hs hL m, Option.bind_some, g3, Option.map_some]
      · rw [g4, List.map_append, List.append_assoc, List.map_map]
        rfl

theorem session_start {o : Lattice} (h : o.Clean) (wf : WellFormed o.dict o.udict) (ideo : Nat → Bool) (inp : Bytes) (m : LMode) :
    ∃ cols0 o', o.calls ideo [.build inp, .forward m] = some o' ∧ build o.dict o.udict inp = some cols0 ∧ Safe o.dict o.udict inp cols0 ∧
      Live o.dict o.udict ideo cols0 m [] o' := by
  obtain ⟨cols0, o1, h1, h2, h3, h4, h5, h6, h7, rest, h8, h9⟩ := build_clean h wf inp
  obtain ⟨cols, hf, hs⟩ := forward_solved wf h3 ideo m
  refine ⟨cols0, { o1 with store := cols ++ rest }, ?_, h2, h3, h4, h5, h7, cols, rest, rfl, h9, hf, ?_⟩
  · rw [Lattice.calls, Lattice.call, h1, Option.bind_some, Lattice.calls, Lattice.call, Lattice.forward, h8, h7, List.take_left, List.drop_left, h4, hf]
    rfl
  · rw [h6]; rfl

end Kagome
