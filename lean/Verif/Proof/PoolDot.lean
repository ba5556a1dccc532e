import Verif.Proof.PoolFree
import Verif.Spec.Calls
import Verif.Proof.Dot

/-!
`Dot` and `AnalyzeGraph` on shared memory.
-/

namespace Kagome

/-- `p` changes nothing and gives `o`. -/
def Looks {α : Type} (p : Prog α) (h : LHeap) (o : Option α) : Prop :=
  ∀ Q : Option α → LHeap → Prop, (∀ a, o = some a → Q (some a) h) → (o = none → Q none h) → wp p h Q

theorem wp_reads {α β : Type} {p : Prog α} {h : LHeap} {o : Option α} {f : α → Prog β} {Q : Option β → LHeap → Prop} (hp : Looks p h o)
    (ok : ∀ a, o = some a → wp (f a) h Q) (bad : o = none → Q none h) : wp (p >>= f) h Q := wp_bind (hp _ ok bad)

theorem reads_must {α : Type} (o : Option α) (h : LHeap) : Looks (Prog.must o) h o := by
  intro Q ok bad
  cases o with
  | none => exact bad rfl
  | some a => exact ok a rfl

/-- The address a pointer of the sequential model stands for. -/
def addrOf (addrs : List (List Addr)) (q : Ptr) : Addr := (ptr addrs q.1 q.2).getD 0

section
variable {d : Dict} {u : Option UserDict} {out : List Addr} {la : Addr} {h : LHeap} {addrs : List (List Addr)} {cols : Cols}
  {bs : List Addr} {bp : List Ptr}

theorem Rep.named (hr : Rep d u out la h addrs cols) {i j : Nat} {n : Node} (hn : getNode cols i j = some n) :
    ∃ v, ptr addrs i j = some (addrOf addrs (i, j)) ∧ h.n (addrOf addrs (i, j)) = some (true, v) ∧ v.toNode = { n with prev := none } := by
  obtain ⟨a, v, h1, h2, h3⟩ := hr.at hn
  have : addrOf addrs (i, j) = a := by simp [addrOf, h1]
  rw [this]
  exact ⟨v, h1, h2, h3.val⟩

/-- The same nodes are on the best path. -/
def SameBests (addrs : List (List Addr)) (bs : List Addr) (bp : List Ptr) : Prop :=
  ∀ q a, ptr addrs q.1 q.2 = some a → bs.contains a = bp.contains q

theorem hiddenP_eq (hb : SameBests addrs bs bp) {q : Ptr} {a : Addr} {v : PNode} {n : Node} (ha : ptr addrs q.1 q.2 = some a)
    (hv : v.toNode = { n with prev := none }) : hiddenP bs a v = hidden bp q n := by
  unfold hiddenP hidden
  rw [hb q a ha, show v.cls = n.cls from congrArg Node.cls hv]

theorem getNode_suffix {i : Nat} {col done ns : List Node} {n : Node} (hc : cols[i]? = some col) (hd : col = done ++ n :: ns) :
    getNode cols i done.length = some n := by
  unfold getNode
  rw [hc]
  show col[done.length]? = some n
  rw [hd]; simp

theorem reads_edgesFrom (hr : Rep d u out la h addrs cols) (hb : SameBests addrs bs bp) (dst : Ptr) (start : Nat) {col : List Node}
    (hc : cols[start]? = some col) (ns : List Node) : ∀ j, (∃ done, col = done ++ ns ∧ done.length = j) →
    Looks (edgesFromP la bs (addrOf addrs dst) start (List.range' j ns.length)) h
      (some ((edgesFrom bp dst start j ns).map (fun e => (addrOf addrs e.1, addrOf addrs e.2)))) := by
  induction ns with
  | nil => intro j _ Q ok _; exact ok _ rfl
  | cons n ns ih =>
    rintro j ⟨done, hd, rfl⟩ Q ok bad
    obtain ⟨v, h1, h2, h3⟩ := hr.named (getNode_suffix hc hd)
    have hnext := ih (done.length + 1) ⟨done ++ [n], by simp [hd], by simp⟩
    rw [List.length_cons, List.range'_succ]
    unfold edgesFromP
    refine wp_atP hr.latIs h1 (wp_must_some rfl (wp_readNode h2 ?_))
    rw [hiddenP_eq hb (q := (start, done.length)) h1 h3]
    unfold edgesFrom at ok
    by_cases hh : hidden bp (start, done.length) n = true
    · rw [if_pos hh] at ok ⊢
      exact hnext Q ok (fun h => by cases h)
    · rw [if_neg hh] at ok ⊢
      refine wp_reads hnext ?_ (fun h => by cases h)
      intro es hes
      obtain rfl := Option.some.inj hes
      exact ok _ rfl

theorem reads_edgesCol (hr : Rep d u out la h addrs cols) (hb : SameBests addrs bs bp) (i : Nat) {col : List Node}
    (hc : cols[i]? = some col) (ns : List Node) : ∀ j, (∃ done, col = done ++ ns ∧ done.length = j) →
    Looks (edgesColP la bs i (List.range' j ns.length)) h
      ((edgesCol bp cols i j ns).map (List.map (fun e => (addrOf addrs e.1, addrOf addrs e.2)))) := by
  induction ns with
  | nil => intro j _ Q ok _; exact ok _ rfl
  | cons n ns ih =>
    rintro j ⟨done, hd, rfl⟩ Q ok bad
    obtain ⟨v, h1, h2, h3⟩ := hr.named (getNode_suffix hc hd)
    have hnext := ih (done.length + 1) ⟨done ++ [n], by simp [hd], by simp⟩
    rw [List.length_cons, List.range'_succ]
    unfold edgesColP
    refine wp_atP hr.latIs h1 (wp_must_some rfl (wp_readNode h2 ?_))
    rw [hiddenP_eq hb (q := (i, done.length)) h1 h3]
    unfold edgesCol at ok bad
    have hstart : v.start = n.start := congrArg Node.start h3
    by_cases hh : hidden bp (i, done.length) n = true
    · rw [if_pos hh] at ok bad ⊢
      exact hnext Q ok bad
    · rw [if_neg hh] at ok bad ⊢
      obtain ⟨lv, e1, -, -, -, e2, -⟩ := hr.lat
      refine wp_readLat e1 ?_
      rw [hstart]
      cases hp : cols[n.start]? with
      | none =>
        rw [hp] at bad
        exact wp_must_none (e2.get_none (hr.col_none hp)) (bad rfl)
      | some prevs =>
        rw [hp] at ok bad
        dsimp only at ok bad
        obtain ⟨as, g1, g2⟩ := hr.col' hp
        obtain ⟨s, g3, g4⟩ := e2.get g1
        refine wp_must_some g3 ?_
        rw [show s.len = prevs.length by rw [g4.1, List.length_map, g2]]
        refine wp_reads (reads_edgesFrom hr hb (i, done.length) n.start hp prevs 0 ⟨[], by simp⟩) ?_ (fun h => by cases h)
        intro es hes
        obtain rfl := Option.some.inj hes
        refine wp_reads hnext ?_ ?_
        · intro es' hes'
          refine ok _ ?_
          cases hx : edgesCol bp cols i (done.length + 1) ns with
          | none => rw [hx] at hes'; cases hes'
          | some x => rw [hx] at hes'; obtain rfl := Option.some.inj hes'; simp
        · intro hn
          refine bad ?_
          cases hx : edgesCol bp cols i (done.length + 1) ns with
          | none => rfl
          | some x => rw [hx] at hn; cases hn

theorem reads_edgesCols (hr : Rep d u out la h addrs cols) (hb : SameBests addrs bs bp) (rest : List (List Node)) :
    ∀ i, (∃ done, cols = done ++ rest ∧ done.length = i) →
    Looks (edgesColsP la bs (List.range' i rest.length)) h
      ((edgesCols bp cols i rest).map (List.map (fun e => (addrOf addrs e.1, addrOf addrs e.2)))) := by
  induction rest with
  | nil => intro i _ Q ok _; exact ok _ rfl
  | cons col rest ih =>
    rintro i ⟨done, hd, rfl⟩ Q ok bad
    have hnext := ih (done.length + 1) ⟨done ++ [col], by simp [hd], by simp⟩
    have hc : cols[done.length]? = some col := by rw [hd]; simp
    rw [List.length_cons, List.range'_succ]
    unfold edgesColsP
    obtain ⟨lv, e1, -, -, -, e2, -⟩ := hr.lat
    obtain ⟨as, g1, g2⟩ := hr.col' hc
    obtain ⟨s, g3, g4⟩ := e2.get g1
    refine wp_readLat e1 (wp_must_some g3 ?_)
    rw [show s.len = col.length by rw [g4.1, List.length_map, g2]]
    unfold edgesCols at ok bad
    refine wp_reads (reads_edgesCol hr hb done.length hc col 0 ⟨[], by simp⟩) ?_ ?_
    · intro es hes
      cases hx : edgesCol bp cols done.length 0 col with
      | none => rw [hx] at hes; cases hes
      | some x =>
        rw [hx] at hes ok bad
        obtain rfl := Option.some.inj hes
        refine wp_reads hnext ?_ ?_
        · intro es' hes'
          refine ok _ ?_
          cases hy : edgesCols bp cols (done.length + 1) rest with
          | none => rw [hy] at hes'; cases hes'
          | some y => rw [hy] at hes'; obtain rfl := Option.some.inj hes'; simp
        · intro hn
          refine bad ?_
          cases hy : edgesCols bp cols (done.length + 1) rest with
          | none => rfl
          | some y => rw [hy] at hn; cases hn
    · intro hn
      refine bad ?_
      cases hx : edgesCol bp cols done.length 0 col with
      | none => rfl
      | some x => rw [hx] at hn; cases hn

theorem reads_nodesCol (hr : Rep d u out la h addrs cols) (hb : SameBests addrs bs bp) (i : Nat) {col : List Node}
    (hc : cols[i]? = some col) (ns : List Node) : ∀ j, (∃ done, col = done ++ ns ∧ done.length = j) →
    Looks (nodesColP la bs i (List.range' j ns.length)) h
      ((nodesCol d u bp i j ns).map (List.map (fun n => ⟨addrOf addrs n.ptr, n.surface, n.pos, n.weight, n.marked⟩))) := by
  induction ns with
  | nil => intro j _ Q ok _; exact ok _ rfl
  | cons n ns ih =>
    rintro j ⟨done, hd, rfl⟩ Q ok bad
    obtain ⟨v, h1, h2, h3⟩ := hr.named (getNode_suffix hc hd)
    have hnext := ih (done.length + 1) ⟨done ++ [n], by simp [hd], by simp⟩
    rw [List.length_cons, List.range'_succ]
    unfold nodesColP
    refine wp_atP hr.latIs h1 (wp_must_some rfl (wp_readNode h2 ?_))
    rw [hiddenP_eq hb (q := (i, done.length)) h1 h3, hb (i, done.length) _ h1]
    unfold nodesCol at ok bad
    have hcls : v.cls = n.cls := congrArg Node.cls h3
    have hwt : v.weight = n.weight := congrArg Node.weight h3
    have hsf : dotSurface i v.toNode = dotSurface i n := by rw [show v.toNode = _ from h3]; rfl
    by_cases hh : hidden bp (i, done.length) n = true
    · rw [if_pos hh] at ok bad ⊢
      exact hnext Q ok bad
    · rw [if_neg hh] at ok bad ⊢
      obtain ⟨lv, e1, ed, eu, -, e2, -⟩ := hr.lat
      refine wp_readLat e1 (wp_must_some ed ?_)
      rw [eu, show posFeature d u v.toNode = posFeature d u n by rw [show v.toNode = _ from h3]; rfl, hsf, hcls, hwt]
      cases hp : posFeature d u n with
      | none =>
        rw [hp] at bad
        exact wp_must_none rfl (bad rfl)
      | some pos =>
        rw [hp] at ok bad
        dsimp only at ok bad
        refine wp_must_some rfl ?_
        have hgo : ∀ (mk : Bool), (∀ l, (nodesCol d u bp i (done.length + 1) ns).map
              (List.map (fun n => (⟨addrOf addrs n.ptr, n.surface, n.pos, n.weight, n.marked⟩ : GNodeOf Addr))) = some l →
              Q (some (⟨addrOf addrs (i, done.length), dotSurface i n, pos, n.weight, mk⟩ :: l)) h) →
            (nodesCol d u bp i (done.length + 1) ns = none → Q none h) →
            wp (nodesColP la bs i (List.range' (done.length + 1) ns.length) >>= fun ns =>
              pure (⟨addrOf addrs (i, done.length), dotSurface i n, pos, n.weight, mk⟩ :: ns)) h Q := by
          intro mk ok bad
          refine wp_reads hnext (fun l hl => ok l hl) (fun hn => bad ?_)
          cases hy : nodesCol d u bp i (done.length + 1) ns with
          | none => rfl
          | some y => rw [hy] at hn; cases hn
        by_cases hbest : bp.contains (i, done.length) = true
        · rw [if_pos hbest] at ok bad ⊢
          refine hgo true ?_ ?_
          · intro l hl
            refine ok _ ?_
            cases hy : nodesCol d u bp i (done.length + 1) ns with
            | none => rw [hy] at hl; cases hl
            | some y => rw [hy] at hl; obtain rfl := Option.some.inj hl; rfl
          · intro hn; exact bad (by rw [hn]; rfl)
        · rw [if_neg hbest] at ok bad ⊢
          by_cases hu : n.cls ≠ .unknown
          · rw [if_pos hu] at ok bad ⊢
            refine hgo false ?_ ?_
            · intro l hl
              refine ok _ ?_
              cases hy : nodesCol d u bp i (done.length + 1) ns with
              | none => rw [hy] at hl; cases hl
              | some y => rw [hy] at hl; obtain rfl := Option.some.inj hl; rfl
            · intro hn; exact bad (by rw [hn]; rfl)
          · rw [if_neg hu] at ok bad ⊢
            exact hnext Q ok bad

theorem reads_nodesCols (hr : Rep d u out la h addrs cols) (hb : SameBests addrs bs bp) (rest : List (List Node)) :
    ∀ i, (∃ done, cols = done ++ rest ∧ done.length = i) →
    Looks (nodesColsP la bs (List.range' i rest.length)) h
      ((nodesCols d u bp i rest).map (List.map (fun n => ⟨addrOf addrs n.ptr, n.surface, n.pos, n.weight, n.marked⟩))) := by
  induction rest with
  | nil => intro i _ Q ok _; exact ok _ rfl
  | cons col rest ih =>
    rintro i ⟨done, hd, rfl⟩ Q ok bad
    have hnext := ih (done.length + 1) ⟨done ++ [col], by simp [hd], by simp⟩
    have hc : cols[done.length]? = some col := by rw [hd]; simp
    rw [List.length_cons, List.range'_succ]
    unfold nodesColsP
    obtain ⟨lv, e1, -, -, -, e2, -⟩ := hr.lat
    obtain ⟨as, g1, g2⟩ := hr.col' hc
    obtain ⟨s, g3, g4⟩ := e2.get g1
    refine wp_readLat e1 (wp_must_some g3 ?_)
    rw [show s.len = col.length by rw [g4.1, List.length_map, g2]]
    unfold nodesCols at ok bad
    refine wp_reads (reads_nodesCol hr hb done.length hc col 0 ⟨[], by simp⟩) ?_ ?_
    · intro es hes
      cases hx : nodesCol d u bp done.length 0 col with
      | none => rw [hx] at hes; cases hes
      | some x =>
        rw [hx] at hes ok bad
        obtain rfl := Option.some.inj hes
        refine wp_reads hnext ?_ ?_
        · intro es' hes'
          refine ok _ ?_
          cases hy : nodesCols d u bp (done.length + 1) rest with
          | none => rw [hy] at hes'; cases hes'
          | some y => rw [hy] at hes'; obtain rfl := Option.some.inj hes'; simp
        · intro hn
          refine bad ?_
          cases hy : nodesCols d u bp (done.length + 1) rest with
          | none => rfl
          | some y => rw [hy] at hn; cases hn
    · intro hn
      refine bad ?_
      cases hx : nodesCol d u bp done.length 0 col with
      | none => rfl
      | some x => rw [hx] at hn; cases hn

/-- The nodes of the lattice that a pointer stands for have different addresses. -/
theorem addrOf_inj (hr : Rep d u out la h addrs cols) {q q' : Ptr} {n n' : Node} (hq : getNode cols q.1 q.2 = some n)
    (hq' : getNode cols q'.1 q'.2 = some n') (he : addrOf addrs q = addrOf addrs q') : q = q' := by
  obtain ⟨_, h1, _⟩ := hr.named hq
  obtain ⟨_, h2, _⟩ := hr.named hq'
  have he' : addrOf addrs (q.1, q.2) = addrOf addrs (q'.1, q'.2) := he
  rw [he'] at h1
  have := hr.inj _ _ _ _ _ h1 h2
  exact Prod.ext this.1 this.2

theorem reads_dotEdges (hr : Rep d u out la h addrs cols) (hb : SameBests addrs bs bp) (es : List (Ptr × Ptr))
    (hes : ∀ e ∈ es, (∃ a, getNode cols e.1.1 e.1.2 = some a) ∧ ∃ b, getNode cols e.2.1 e.2.2 = some b) :
    Looks (dotEdgesP la bs (es.map (fun e => (addrOf addrs e.1, addrOf addrs e.2)))) h
      ((dotEdges d bp cols es).map (List.map (fun e => ⟨addrOf addrs e.src, addrOf addrs e.dst, e.label, e.bold⟩))) := by
  induction es with
  | nil => intro Q ok _; exact ok _ rfl
  | cons e es ih =>
    intro Q ok bad
    have hnext := ih (fun e' he => hes e' (List.mem_cons_of_mem _ he))
    obtain ⟨⟨a, ha⟩, ⟨b, hbn⟩⟩ := hes e (List.mem_cons_self ..)
    obtain ⟨v, g1, g2, g3⟩ := hr.named ha
    obtain ⟨w, k1, k2, k3⟩ := hr.named hbn
    obtain ⟨lv, e1, ed, -⟩ := hr.lat
    rw [List.map_cons]
    unfold dotEdgesP
    refine wp_readNode (a := addrOf addrs e.1) g2 (wp_readNode (a := addrOf addrs e.2) k2 (wp_readLat e1 (wp_must_some ed ?_)))
    rw [show connCost d v.toNode w.toNode = connCost d a b by rw [show v.toNode = _ from g3, show w.toNode = _ from k3]; rfl,
      hb e.1 _ g1, hb e.2 _ k1]
    unfold dotEdges dotEdge at ok bad
    rw [ha, hbn] at ok bad
    dsimp only at ok bad
    cases hc : connCost d a b with
    | none => rw [hc] at bad; exact wp_must_none rfl (bad rfl)
    | some c =>
      rw [hc] at ok bad
      dsimp only [Option.map_some] at ok bad
      refine wp_must_some rfl (wp_reads hnext ?_ ?_)
      · intro gs hgs
        refine ok _ ?_
        cases hy : dotEdges d bp cols es with
        | none => rw [hy] at hgs; cases hgs
        | some y => rw [hy] at hgs; obtain rfl := Option.some.inj hgs; rfl
      · intro hn
        refine bad ?_
        cases hy : dotEdges d bp cols es with
        | none => rfl
        | some y => rw [hy] at hn; cases hn

theorem outPtr_mem {ps : List (Option Ptr)} (ho : OutPtr h addrs out ps) (hj : Inj addrs) {q : Ptr} {a : Addr} {pn : PNode}
    (ha : ptr addrs q.1 q.2 = some a) (hn : h.n a = some (true, pn)) : a ∈ out ↔ some q ∈ ps := by
  induction ho with
  | nil => simp
  | node ha' _ ih =>
    rw [List.mem_cons, List.mem_cons, ih]
    refine or_congr_left ⟨?_, ?_⟩
    · rintro rfl
      have := hj _ _ _ _ _ ha ha'
      exact congrArg some (Prod.ext this.1 this.2)
    · intro he
      obtain rfl := Option.some.inj he
      rw [ha] at ha'
      exact Option.some.inj ha'
  | priv ha' _ ih =>
    rw [List.mem_cons, List.mem_cons, ih]
    refine or_congr_left ⟨?_, fun he => by cases he⟩
    rintro rfl
    rw [hn] at ha'; cases ha'

theorem outPtr_bests (hr : Rep d u out la h addrs cols) {ps : List (Option Ptr)} (ho : OutPtr h addrs out ps) :
    SameBests addrs out (ps.filterMap id) := by
  intro q a ha
  obtain ⟨n, pn, h1, h2, _⟩ := hr.at' ha
  rw [Bool.eq_iff_iff, List.contains_iff_mem, List.contains_iff_mem, outPtr_mem ho hr.inj ha h2]
  simp

theorem SliceIs.vis {s : Slice (Option Addr)} {xs : List (Option Addr)} (hs : SliceIs s xs) : s.vis = xs := by
  obtain ⟨h1, t, h2, -⟩ := hs
  unfold Slice.vis
  rw [h1, h2]; simp

theorem reads_dot (hr : Rep d u out la h addrs cols) {ps : List (Option Ptr)} (ho : OutPtr h addrs out ps) :
    Looks (dotP la) h ((dotGraph d u cols ps).map (GraphOf.map (addrOf addrs))) := by
  intro Q ok bad
  have hb := outPtr_bests hr ho
  obtain ⟨lv, e1, -, -, e3, e2, -⟩ := hr.lat
  have hlen : lv.list.len = cols.length := by rw [e2.len, hr.length]
  have hbs : lv.output.vis.filterMap id = out := by rw [e3.vis]; simp
  unfold dotP
  refine wp_readLat e1 ?_
  rw [hbs]
  refine wp_readLat e1 ?_
  unfold dotGraph at ok bad
  generalize ps.filterMap id = bp at *
  dsimp only at ok bad
  rw [hlen]
  have h1 := reads_edgesCols hr hb (cols.drop 1)
  by_cases hz : cols = []
  · subst hz
    refine wp_readLat e1 ?_
    rw [hlen]
    exact ok ⟨[], []⟩ rfl
  · have hpos : 0 < cols.length := List.length_pos_iff.mpr hz
    specialize h1 1 ⟨cols.take 1, (List.take_append_drop 1 cols).symm, by rw [List.length_take]; omega⟩
    rw [List.length_drop] at h1
    refine wp_reads h1 ?_ ?_
    · intro es hes
      cases hx : edgesCols bp cols 1 (cols.drop 1) with
      | none => rw [hx] at hes; cases hes
      | some x =>
        rw [hx] at hes ok bad
        obtain rfl := Option.some.inj hes
        dsimp only at ok bad
        refine wp_readLat e1 ?_
        rw [hlen]
        refine wp_reads (reads_nodesCols hr hb cols 0 ⟨[], by simp⟩) ?_ ?_
        · intro ns hns
          cases hy : nodesCols d u bp 0 cols with
          | none => rw [hy] at hns; cases hns
          | some y =>
            rw [hy] at hns ok bad
            obtain rfl := Option.some.inj hns
            dsimp only at ok bad
            refine wp_reads (reads_dotEdges hr hb x ?_) ?_ ?_
            · intro e he
              obtain ⟨_, a, b, ha, hb', _⟩ := (mem_edges hx e).mp he
              exact ⟨⟨a, ha.1⟩, b, hb'.1⟩
            · intro gs hgs
              refine ok _ ?_
              cases hz : dotEdges d bp cols x with
              | none => rw [hz] at hgs; cases hgs
              | some z => rw [hz] at hgs; obtain rfl := Option.some.inj hgs; rfl
            · intro hn
              refine bad ?_
              cases hz : dotEdges d bp cols x with
              | none => rfl
              | some z => rw [hz] at hn; cases hn
        · intro hn
          refine bad ?_
          cases hy : nodesCols d u bp 0 cols with
          | none => rfl
          | some y => rw [hy] at hn; cases hn
    · intro hn
      refine bad ?_
      cases hx : edgesCols bp cols 1 (cols.drop 1) with
      | none => rfl
      | some x => rw [hx] at hn; cases hn

theorem dotGraph_apart (hr : Rep d u out la h addrs cols) {ps : List (Option Ptr)} {g : Graph} (hg : dotGraph d u cols ps = some g) :
    KeepsApart (addrOf addrs) g := by
  unfold dotGraph at hg
  generalize ps.filterMap id = bp at hg
  dsimp only at hg
  cases hx : edgesCols bp cols 1 (cols.drop 1) with
  | none => rw [hx] at hg; cases hg
  | some x =>
    rw [hx] at hg
    dsimp only at hg
    cases hy : nodesCols d u bp 0 cols with
    | none => rw [hy] at hg; cases hg
    | some y =>
      rw [hy] at hg
      obtain ⟨z, _, rfl⟩ := Option.map_eq_some_iff.mp hg
      intro n hn n' hn' he
      obtain ⟨a, _, ha, _⟩ := ((mem_nodes hy).1 n).mp hn
      obtain ⟨b, _, hb, _⟩ := ((mem_nodes hy).1 n').mp hn'
      exact addrOf_inj hr ha.1 hb.1 he

theorem wp_graphTokens (t : Tokenizer) (ns : List Node) (hr : Rep d u out la h addrs cols) (ho : OutIs h out ns) (rest : List Node) :
    ∀ i, (∃ done, ns.reverse = done ++ rest ∧ done.length = i) →
    Looks (graphTokensP t la ns.length rest.length i) h (some (graphLoop t i rest)) := by
  induction rest with
  | nil => intro i _ Q ok _; exact ok _ rfl
  | cons n rest ih =>
    rintro i ⟨done, hd, rfl⟩ Q ok _
    obtain ⟨lv, hl1, hl2, -, hl4, hl3, -⟩ := hr.lat
    have hlen := congrArg List.length hd
    simp only [List.length_reverse, List.length_append, List.length_cons] at hlen
    have hlo : out.length = ns.length := by simpa using congrArg List.length ho
    have hn : ns[ns.length - 1 - done.length]? = some n := by
      have h1 : ns.reverse[done.length]? = some n := by rw [hd]; simp
      rw [List.getElem?_reverse (by omega)] at h1
      exact h1
    obtain ⟨a, ha⟩ : ∃ a, out[ns.length - 1 - done.length]? = some a :=
      ⟨_, List.getElem?_eq_getElem (by omega)⟩
    have hv := congrArg (fun l => l[ns.length - 1 - done.length]?) ho
    simp only [List.getElem?_map, ha, hn, Option.map_some] at hv
    obtain ⟨x, hx, hy⟩ : ∃ x, h.n a = some x ∧ x.2.toNode = { n with prev := none } := by
      cases hx : h.n a with
      | none => rw [hx] at hv; simp at hv
      | some x => rw [hx] at hv; exact ⟨x, rfl, by simpa using hv⟩
    obtain ⟨b, v⟩ := x
    have hmk : ∀ i, mkGraphToken t i v.toNode = mkGraphToken t i n := by intro i; rw [show v.toNode = _ from hy]; rfl
    show wp (graphTokensP t la ns.length (rest.length + 1) done.length) h Q
    unfold graphTokensP
    refine wp_readLat hl1 (wp_must_some (a := some a) ?_ (wp_must_some rfl (wp_readNode hx ?_)))
    · rw [hl4.get, List.getElem?_map, ha]; rfl
    · rw [hmk]
      refine wp_reads (ih (done.length + 1) ⟨done ++ [n], by simp [hd], by simp⟩) ?_ (fun h => by cases h)
      intro ts hts
      obtain rfl := Option.some.inj hts
      exact ok _ rfl

/-! `Dot` changes nothing. -/

theorem ReadsOnly.atP (la : Addr) (i j : Nat) : ReadsOnly (atP la i j) :=
  .bind (.lat la) fun _ => .bind (.must _) fun _ => .must _

theorem ReadsOnly.edgesFrom (la : Addr) (bests : List Addr) (dst : Addr) (start : Nat) (js : List Nat) :
    ReadsOnly (edgesFromP la bests dst start js) := by
  induction js with
  | nil => exact .ret _
  | cons j js ih =>
    refine .bind (.atP ..) fun p => .bind (.must _) fun src => .bind (.node _) fun v => ?_
    split
    · exact ih
    · exact .bind ih fun _ => .ret _

theorem ReadsOnly.edgesCol (la : Addr) (bests : List Addr) (i : Nat) (js : List Nat) : ReadsOnly (edgesColP la bests i js) := by
  induction js with
  | nil => exact .ret _
  | cons j js ih =>
    refine .bind (.atP ..) fun p => .bind (.must _) fun src => .bind (.node _) fun v => ?_
    split
    · exact ih
    · exact .bind (.lat _) fun _ => .bind (.must _) fun _ => .bind (.edgesFrom ..) fun _ => .bind ih fun _ => .ret _

theorem ReadsOnly.edgesCols (la : Addr) (bests : List Addr) (is : List Nat) : ReadsOnly (edgesColsP la bests is) := by
  induction is with
  | nil => exact .ret _
  | cons i is ih => exact .bind (.lat _) fun _ => .bind (.must _) fun _ => .bind (.edgesCol ..) fun _ => .bind ih fun _ => .ret _

theorem ReadsOnly.nodesCol (la : Addr) (bests : List Addr) (i : Nat) (js : List Nat) : ReadsOnly (nodesColP la bests i js) := by
  induction js with
  | nil => exact .ret _
  | cons j js ih =>
    refine .bind (.atP ..) fun p => .bind (.must _) fun src => .bind (.node _) fun v => ?_
    split
    · exact ih
    · refine .bind (.lat _) fun _ => .bind (.must _) fun _ => .bind (.must _) fun _ => ?_
      split
      · exact .bind ih fun _ => .ret _
      · split
        · exact .bind ih fun _ => .ret _
        · exact ih

theorem ReadsOnly.nodesCols (la : Addr) (bests : List Addr) (is : List Nat) : ReadsOnly (nodesColsP la bests is) := by
  induction is with
  | nil => exact .ret _
  | cons i is ih => exact .bind (.lat _) fun _ => .bind (.must _) fun _ => .bind (.nodesCol ..) fun _ => .bind ih fun _ => .ret _

theorem ReadsOnly.dotEdges (la : Addr) (bests : List Addr) (es : List (Addr × Addr)) : ReadsOnly (dotEdgesP la bests es) := by
  induction es with
  | nil => exact .ret _
  | cons e es ih =>
    exact .bind (.node _) fun _ => .bind (.node _) fun _ => .bind (.lat _) fun _ => .bind (.must _) fun _ => .bind (.must _) fun _ =>
      .bind ih fun _ => .ret _

theorem ReadsOnly.dot (la : Addr) : ReadsOnly (dotP la) :=
  .bind (.lat _) fun _ => .bind (.lat _) fun _ => .bind (.edgesCols ..) fun _ => .bind (.lat _) fun _ => .bind (.nodesCols ..) fun _ =>
    .bind (.dotEdges ..) fun _ => .ret _

/-- `AnalyzeGraph` returns and writes what the sequential model says, with some names for the nodes, whatever the objects it is given contain, and gives
everything back, also when the writer panics; when it panics for another reason it still gives its lattice back. -/
theorem wp_analyzeGraph (t : Tokenizer) (ideo : Nat → Bool) (inp : Bytes) (mode : Int) (stop : Option Nat) {h : LHeap} (hi : Idle h)
    (Q : Option (List Token × GraphOf Addr) → LHeap → Prop)
    (ok : ∀ h' toks g f, analyzeGraph t ideo inp mode = some toks → exportGraph t ideo inp mode = some g → KeepsApart f g → Idle h' →
      Q (some (toks, g.map f)) h')
    (bad : analyzeGraph t ideo inp mode = none ∨ exportGraph t ideo inp mode = none → ∀ h', (∀ x, h'.l x = none) → Q none h')
    (stopped : ∀ n, stop = some n → ∀ h', Idle h' → Q none h') :
    wp (analyzeGraphP t ideo inp mode stop) h Q := by
  unfold analyzeGraphP
  refine wp_bind (wp_getLat (fun la lv _ hclean => ?_))
  refine wp_rewriteLat (wp_rewriteLat ?_)
  refine wp_deferred ?_
  have hbad : analyzeGraph t ideo inp mode = none ∨ exportGraph t ideo inp mode = none → ∀ h', Own h' la → beforeFin (freeP la) Q none h' := by
    intro hnone h' ho
    obtain ⟨d, u, out, addrs, o1, o2, o3⟩ := ho.rep
    exact wp_free _ o1 o2 o3 (fun h'' g1 _ => bad hnone h'' g1)
  unfold analyzeGraphBodyP
  unfold analyzeGraph exportGraph solve at hbad ok
  refine wp_bind (wp_build (d := t.dict) (u := t.userDict) inp (upd_same _ _ _) ⟨hclean.out, hclean.cols, hclean.noOut, hclean.noCols⟩ rfl rfl ?_ hi.n ?_ ?_)
  · intro x v hx
    by_cases he : x = la
    · exact he
    · simp only [LHeap.setL] at hx; rw [upd_other _ _ he, hi.l x] at hx; cases hx
  · intro h1 addrs cols hb hr1
    rw [hb] at hbad ok
    dsimp only at hbad ok
    refine wp_bind (wp_forward ideo (latticeMode mode) _ hr1 ?_ ?_)
    · intro h2 cols2 hf hr2
      rw [hf] at hbad ok
      dsimp only at hbad ok
      refine wp_bind (wp_backward (latticeMode mode) _ hr2 ?_ ?_)
      · intro h3 out ns ps hw hwp hr3 ho hop
        rw [hw] at hbad ok
        simp only [Option.map_some, hwp] at hbad ok
        obtain ⟨lv3, e1, -, -, e2, -⟩ := hr3.lat
        have hlo : out.length = ns.length := by simpa using congrArg List.length ho
        refine wp_readLat e1 ?_
        rw [show lv3.output.len = ns.length by rw [e2.1, List.length_map, hlo]]
        have := wp_graphTokens t ns hr3 ho ns.reverse 0 ⟨[], by simp⟩
        rw [List.length_reverse] at this
        refine wp_reads this ?_ (fun h => by cases h)
        intro toks htoks
        have hfree : ∀ r, (∀ h', Idle h' → Q r h') → beforeFin (freeP la) Q r h3 := by
          intro r hq
          refine wp_free _ hr3.lat hr3.inj (fun i j a ha => ?_) (fun h4 g1 g2 => hq h4 ⟨g1, ?_⟩)
          · obtain ⟨_, pn, _, hx, _⟩ := hr3.at' ha
            exact ⟨pn, hx⟩
          · intro a pn hx
            obtain ⟨g3, g4⟩ := g2 a _ hx
            obtain ⟨i, j, hij⟩ := hr3.only a pn g3
            exact g4 i j hij
        have hdot : ∀ r, r = (dotGraph t.dict t.userDict cols2 ps).map (GraphOf.map (addrOf addrs)) →
            andThen (fun g => (pure (toks, g) : Prog (List Token × GraphOf Addr))) (beforeFin (freeP la) Q) r h3 := by
          intro r he
          cases hg : dotGraph t.dict t.userDict cols2 ps with
          | none =>
            rw [hg] at he; subst he
            exact hbad (.inr hg) h3 hr3.own
          | some g =>
            rw [hg] at he; subst he
            exact hfree _ (fun h' hi' => ok h' _ _ _ htoks hg (dotGraph_apart hr3 hg) hi')
        cases stop with
        | none =>
          exact wp_bind (reads_dot hr3 hop _ (fun a ha => hdot _ ha.symm) (fun ha => hdot _ ha.symm))
        | some n =>
          refine wp_bind (wp_mono (wp_cut n (.dot la) (reads_dot hr3 hop (fun r h' => andThen _ (beforeFin (freeP la) Q) r h')
            (fun a ha => hdot _ ha.symm) (fun ha => hdot _ ha.symm))) ?_)
          rintro r h' (hr | ⟨rfl, rfl⟩)
          · exact hr
          · exact hfree _ (fun h' hi' => stopped n rfl h' hi')
      · intro hw h3 ho
        rw [hw] at hbad
        exact hbad (.inl rfl) h3 ho
    · intro hf h2 ho
      rw [hf] at hbad
      exact hbad (.inl rfl) h2 ho
  · intro hb h1 ho
    rw [hb] at hbad
    exact hbad (.inl rfl) h1 ho

end

end Kagome
