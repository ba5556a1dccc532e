import Verif.Proof.PoolDot
import Verif.Proof.Kept

/-!
A lattice used directly on shared memory: what is in `Output` after any calls of `Forward` and `Backward`.
-/

namespace Kagome

section
variable {d : Dict} {u : Option UserDict} {out : List Addr} {la : Addr} {h : LHeap} {addrs : List (List Addr)} {cols : Cols}

/-- The pointers in `Output` are these. -/
inductive OutRefs (h : LHeap) (addrs : List (List Addr)) : List Addr → List OutRef → Prop
  | nil : OutRefs h addrs [] []
  | node {a : Addr} {q : Ptr} {out rs} (ha : ptr addrs q.1 q.2 = some a) (hs : OutRefs h addrs out rs) : OutRefs h addrs (a :: out) (.at q :: rs)
  | priv {a : Addr} {v : PNode} {n : Node} {out rs} (ha : h.n a = some (false, v)) (hv : v.toNode = { n with prev := none })
      (hs : OutRefs h addrs out rs) : OutRefs h addrs (a :: out) (.own n :: rs)

/-- A pointer as `Verif/Model/LatticeApi.lean` has it, from the two views of `Backward`. -/
def refOf : Option Ptr → Node → OutRef
  | some q, _ => .at q
  | none, n => .own n

theorem zip_priv (l : List Node) : List.zipWith refOf (l.map (fun _ => none)) l = l.map .own := by
  induction l with
  | nil => rfl
  | cons a l ih => simp only [List.map_cons, List.zipWith_cons_cons, ih, refOf]

theorem explode_len (p : Node) (l : List (Nat × Nat)) : ∀ i, (explode p i l).length = l.length := by
  induction l with
  | nil => intro i; rfl
  | cons x l ih => intro i; obtain ⟨k, r⟩ := x; rw [explode, List.length_cons, ih, List.length_cons]

theorem emit_len (m : LMode) (q : Ptr) (p : Node) : (emitPtr m q p).length = (emit m p).length := by
  unfold emitPtr emit
  split
  · rfl
  · rw [List.length_map, List.length_reverse, explode_len]

theorem emitRef_eq (m : LMode) (q : Ptr) (p : Node) : emitRef m q p = List.zipWith refOf (emitPtr m q p) (emit m p) := by
  unfold emitRef emitPtr emit
  split
  · rfl
  · rw [← zip_priv]
    congr 1
    rw [List.map_const', List.map_const', List.length_reverse, explode_len]

/-- `Backward` appends pointers: where they lead (`walkPtr`) and what is there (`walk`). -/
theorem walkRef_eq (m : LMode) (cols : Cols) (fuel : Nat) : ∀ q,
    (∀ ns ps, walk m cols fuel q = some ns → walkPtr m cols fuel q = some ps →
      ps.length = ns.length ∧ walkRef m cols fuel q = some (List.zipWith refOf ps ns)) ∧
    (walk m cols fuel q = none → walkRef m cols fuel q = none) := by
  induction fuel with
  | zero =>
    intro q
    cases q with
    | none => exact ⟨fun ns ps h1 h2 => by cases h1; cases h2; exact ⟨rfl, rfl⟩, fun h => by cases h⟩
    | some q => exact ⟨fun ns ps h1 h2 => (by cases h1), fun _ => rfl⟩
  | succ fuel ih =>
    intro q
    cases q with
    | none => exact ⟨fun ns ps h1 h2 => by cases h1; cases h2; exact ⟨rfl, rfl⟩, fun h => by cases h⟩
    | some q =>
      obtain ⟨i, j⟩ := q
      rw [walk, walkPtr, walkRef]
      cases hg : getNode cols i j with
      | none => exact ⟨fun ns ps h1 h2 => (by cases h1), fun _ => rfl⟩
      | some p =>
        obtain ⟨h1, h2⟩ := ih p.prev
        simp only []
        constructor
        · intro ns ps e1 e2
          obtain ⟨ns', f1, rfl⟩ := Option.map_eq_some_iff.mp e1
          obtain ⟨ps', f2, rfl⟩ := Option.map_eq_some_iff.mp e2
          obtain ⟨g1, g2⟩ := h1 ns' ps' f1 f2
          refine ⟨by rw [List.length_append, List.length_append, g1, emit_len], ?_⟩
          rw [g2, Option.map_some, emitRef_eq, List.zipWith_append (emit_len m (i, j) p)]
        · intro e
          rw [Option.map_eq_none_iff] at e
          rw [h2 e]; rfl

theorem refOf_place : ∀ {ps : List (Option Ptr)} {ns : List Node}, ps.length = ns.length → (List.zipWith refOf ps ns).map OutRef.place = ps
  | [], [], _ => rfl
  | [], _ :: _, h => by cases h
  | _ :: _, [], h => by cases h
  | p :: ps, n :: ns, h => by
    rw [List.zipWith_cons_cons, List.map_cons, refOf_place (by simpa using h)]
    cases p <;> rfl

theorem OutRefs.of_views {ps : List (Option Ptr)} {ns : List Node} (hp : OutPtr h addrs out ps) (ho : OutIs h out ns) :
    OutRefs h addrs out (List.zipWith refOf ps ns) := by
  induction hp generalizing ns with
  | nil => exact .nil
  | node ha _ ih =>
    cases ns with
    | nil => cases ho
    | cons n ns =>
      unfold OutIs at ho ih
      rw [List.map_cons, List.map_cons, List.cons.injEq] at ho
      exact .node ha (ih ho.2)
  | priv ha _ ih =>
    cases ns with
    | nil => cases ho
    | cons n ns =>
      unfold OutIs at ho ih
      rw [List.map_cons, List.map_cons, List.cons.injEq, ha, Option.map_some, Option.some.injEq] at ho
      exact .priv ha ho.1 (ih ho.2)

theorem OutRefs.views {rs : List OutRef} (ho : OutRefs h addrs out rs) (hr : ∀ i j a, ptr addrs i j = some a →
      ∃ (n : Node) (x : Bool × PNode), h.n a = some x ∧ x.2.toNode = { n with prev := none }) :
    ∃ ns ps, OutIs h out ns ∧ OutPtr h addrs out ps ∧ ps.length = ns.length ∧ rs = List.zipWith refOf ps ns := by
  induction ho with
  | nil => exact ⟨[], [], rfl, .nil, rfl, rfl⟩
  | @node a q out rs ha _ ih =>
    obtain ⟨ns, ps, h1, h2, h3, h4⟩ := ih
    obtain ⟨n, x, g1, g2⟩ := hr _ _ _ ha
    refine ⟨n :: ns, some q :: ps, ?_, .node ha h2, by simp [h3], by rw [h4]; rfl⟩
    unfold OutIs at *
    rw [List.map_cons, List.map_cons, h1, g1, Option.map_some, g2]
  | @priv a v n out rs ha hv _ ih =>
    obtain ⟨ns, ps, h1, h2, h3, h4⟩ := ih
    refine ⟨n :: ns, none :: ps, ?_, .priv ha h2, by simp [h3], by rw [h4]; rfl⟩
    unfold OutIs at *
    rw [List.map_cons, List.map_cons, h1, ha, Option.map_some, hv]

/-- `Forward` leaves alone the nodes that belong to `Output` only. -/
theorem wp_forward_refs (ideo : Nat → Bool) (m : LMode) (Q : Option Unit → LHeap → Prop) {rs : List OutRef} (hr : Rep d u out la h addrs cols)
    (ho : OutRefs h addrs out rs)
    (ok : ∀ h' cols', forward d ideo m cols = some cols' → Rep d u out la h' addrs cols' → OutRefs h' addrs out rs → Q (some ()) h')
    (bad : forward d ideo m cols = none → ∀ h', Own h' la → Q none h') : wp (forwardP la ideo m) h Q := by
  let g : Addr → Option (Bool × PNode) := fun a => match h.n a with | some (false, v) => some (false, v) | _ => none
  let n0 : Addr → Option (Bool × PNode) := fun a => match h.n a with | some (true, v) => some (true, v) | _ => none
  have gfalse : ∀ a x, g a = some x → h.n a = some x ∧ x.1 = false := by
    intro a x hx
    simp only [g] at hx
    split at hx
    · rename_i he; cases hx; exact ⟨he, rfl⟩
    · cases hx
  have ntrue : ∀ a x, n0 a = some x → h.n a = some x ∧ x.1 = true := by
    intro a x hx
    simp only [n0] at hx
    split at hx
    · rename_i he; cases hx; exact ⟨he, rfl⟩
    · cases hx
  have hh : h = LHeap.with ⟨n0, h.l⟩ g := by
    unfold LHeap.with
    have : h.n = fun a => (n0 a).or (g a) := by
      funext a
      simp only [n0, g]
      rcases h.n a with _ | ⟨_ | _, v⟩ <;> rfl
    rw [← this]
  have hr0 : Rep d u out la ⟨n0, h.l⟩ addrs cols := by
    refine ⟨hr.lat, hr.inj, hr.same, ?_, fun a pn ha => hr.only a pn (ntrue a _ ha).1⟩
    intro i j a n h1 h2
    obtain ⟨pn, h3, h4⟩ := hr.node i j a n h1 h2
    refine ⟨pn, ?_, h4⟩
    simp only [n0, h3]
  have key := wp_frame (g := g) (wp_forward ideo m
    (fun r h' => (∀ x, r = some x → ∃ cols', forward d ideo m cols = some cols' ∧ Rep d u out la h' addrs cols') ∧
      (r = none → forward d ideo m cols = none ∧ Own h' la)) hr0
    (fun h' cols' he hr' => ⟨fun _ _ => ⟨cols', he, hr'⟩, fun h => by cases h⟩)
    (fun he h' ho => ⟨fun _ h => (by cases h), fun _ => ⟨he, ho⟩⟩))
    (by
      intro a x hx
      obtain ⟨h1, h2⟩ := ntrue a x hx
      cases hg : g a with
      | none => rfl
      | some y =>
        obtain ⟨h3, h4⟩ := gfalse a y hg
        rw [h1] at h3
        obtain rfl := Option.some.inj h3
        rw [h2] at h4; cases h4)
  rw [← hh] at key
  refine wp_mono key ?_
  rintro r h' ⟨h0, rfl, hdis, hok, hbad⟩
  cases r with
  | none =>
    obtain ⟨he, how⟩ := hbad rfl
    refine bad he _ ⟨?_⟩
    obtain ⟨d, u, out, addrs, o1, o2, o3⟩ := how.rep
    refine ⟨d, u, out, addrs, o1, o2, fun i j a ha => ?_⟩
    obtain ⟨pn, hpn⟩ := o3 i j a ha
    exact ⟨pn, by simp [LHeap.with, hpn]⟩
  | some x =>
    obtain ⟨cols', he, hr'⟩ := hok () (by cases x; rfl)
    refine ok _ cols' he ⟨hr'.lat, hr'.inj, hr'.same, ?_, ?_⟩ ?_
    · intro i j a n h1 h2
      obtain ⟨pn, h3, h4⟩ := hr'.node i j a n h1 h2
      exact ⟨pn, by simp [LHeap.with, h3], h4⟩
    · intro a pn ha
      simp only [LHeap.with] at ha
      cases hn : h0.n a with
      | some y =>
        rw [hn] at ha
        obtain rfl := Option.some.inj ha
        exact hr'.only a pn hn
      | none =>
        rw [hn] at ha
        obtain ⟨_, h2⟩ := gfalse a _ ha
        cases h2
    · clear hr' he hok hbad key hr0 bad ok hr
      induction ho with
      | nil => exact .nil
      | node ha _ ih => exact .node ha ih
      | @priv a v n out rs ha hv _ ih =>
        refine .priv ?_ hv ih
        have hg : g a = some (false, v) := by simp only [g, ha]
        simp only [LHeap.with]
        cases hn : h0.n a with
        | some y => rw [hdis a y hn] at hg; cases hg
        | none => exact hg

/-- `Backward` appends to what is in `Output`. -/
theorem wp_backward_refs (m : LMode) (Q : Option Unit → LHeap → Prop) {rs : List OutRef} (hr : Rep d u out la h addrs cols)
    (ho : OutRefs h addrs out rs) (hz : cols.length ≠ 0)
    (ok : ∀ h' out' rs', walkRef m cols (cols.length + 1) (some (cols.length - 1, 0)) = some rs' → Rep d u out' la h' addrs cols →
      OutRefs h' addrs out' (rs ++ rs') → Q (some ()) h')
    (bad : walkRef m cols (cols.length + 1) (some (cols.length - 1, 0)) = none → ∀ h', Own h' la → Q none h') : wp (backwardP la m) h Q := by
  obtain ⟨lv, hl1, hl2, -, -, hl3, -⟩ := hr.lat
  obtain ⟨w1, w2⟩ := walkRef_eq m cols (cols.length + 1) (some (cols.length - 1, 0))
  refine wp_readLat hl1 ?_
  rw [show lv.list.len = cols.length by rw [hl3.len, hr.length], if_neg hz]
  obtain ⟨ns, ps, v1, v2, v3, v4⟩ := ho.views (fun i j a ha => by
    obtain ⟨n, pn, _, e2, e3⟩ := hr.at' ha
    exact ⟨n, _, e2, e3.val⟩)
  cases hp : ptr addrs (cols.length - 1) 0 with
  | none =>
    refine wp_atP_none hr.latIs hp (bad (w2 ?_) h hr.own)
    rw [walk]
    cases hg : getNode cols (cols.length - 1) 0 with
    | none => rfl
    | some n =>
      obtain ⟨a, _, h1, _⟩ := hr.at hg
      rw [hp] at h1; cases h1
  | some a =>
    refine wp_atP hr.latIs hp ?_
    refine wp_walk m Q _ h out ns ps (some a) (some (cols.length - 1, 0)) hr v1 v2 hp.symm (fun _ => rfl) ?_ (fun hw => bad (w2 hw))
    intro h' out' ns' ps' hw hwp hr' ho' hps'
    obtain ⟨g1, g2⟩ := w1 ns' ps' hw hwp
    refine ok h' out' _ g2 hr' ?_
    rw [v4, ← List.zipWith_append v3]
    exact .of_views hps' ho'

/-- Some calls after `Build`. -/
theorem wp_moves (ideo : Nat → Bool) (Q : Option Unit → LHeap → Prop) (inp : Bytes) (moves : List Move) :
    ∀ (h : LHeap) (out : List Addr) (cols : Cols) (rs : List OutRef), Rep d u out la h addrs cols → OutRefs h addrs out rs → cols.length ≠ 0 →
    (∀ h' out' cols' rs', (Lattice.mk d u inp rs cols cols.length).calls ideo (moves.map Move.op) = some ⟨d, u, inp, rs', cols', cols'.length⟩ →
      Rep d u out' la h' addrs cols' → OutRefs h' addrs out' rs' → Q (some ()) h') →
    ((Lattice.mk d u inp rs cols cols.length).calls ideo (moves.map Move.op) = none → ∀ h', Own h' la → Q none h') →
    wp (Prog.each moves (moveP la ideo)) h Q := by
  induction moves with
  | nil => intro h out cols rs hr ho _ ok _; exact ok h out cols rs rfl hr ho
  | cons mv moves ih =>
    intro h out cols rs hr ho hz ok bad
    rw [List.map_cons, Lattice.calls] at bad
    simp only [List.map_cons, Lattice.calls] at ok
    cases mv with
    | forward m =>
      simp only [Move.op, Lattice.call, Lattice.forward, List.take_length, List.drop_length, List.append_nil] at ok bad
      refine wp_bind (wp_forward_refs ideo m _ hr ho ?_ ?_)
      · intro h' cols' he hr' ho'
        have hlen : cols'.length = cols.length := by rw [hr'.length, hr.length]
        rw [he, Option.map_some, Option.bind_some, ← hlen] at bad
        simp only [he, Option.map_some, Option.bind_some, ← hlen] at ok
        exact ih h' out cols' rs hr' ho' (by rw [hlen]; exact hz) ok bad
      · intro he h' hw
        rw [he] at bad
        exact bad rfl h' hw
    | backward m =>
      simp only [Move.op, Lattice.call, Lattice.backward, if_neg hz, List.take_length] at ok bad
      refine wp_bind (wp_backward_refs m _ hr ho hz ?_ ?_)
      · intro h' out' rs' he hr' ho'
        rw [he, Option.map_some, Option.bind_some] at bad
        simp only [he, Option.map_some, Option.bind_some] at ok
        exact ih h' out' cols (rs ++ rs') hr' ho' hz ok bad
      · intro he h' hw
        rw [he] at bad
        exact bad rfl h' hw

/-- What is read of the nodes in `Output`. -/
theorem wp_readOutput {rs : List OutRef} (hr : Rep d u out la h addrs cols) (ho : OutRefs h addrs out' rs) : ∀ (Q : Option (List Node) → LHeap → Prop),
    (∀ ns, rs.mapM (OutRef.deref cols) = some ns → Q (some (ns.map fun n => { n with prev := none })) h) →
    wp (readOutputP (out'.map some)) h Q := by
  induction ho with
  | nil => intro Q ok; exact ok [] rfl
  | @node a q out' rs ha _ ih =>
    intro Q ok
    obtain ⟨n, pn, e1, e2, e3⟩ := hr.at' ha
    refine wp_must_some rfl (wp_readNode e2 (wp_bind (ih _ ?_)))
    intro ns hns
    have := ok (n :: ns) (by rw [List.mapM_cons, hns, show OutRef.deref cols (.at q) = some n from e1]; rfl)
    rw [List.map_cons, ← e3.val] at this
    exact this
  | @priv a v n out' rs ha hv _ ih =>
    intro Q ok
    refine wp_must_some rfl (wp_readNode ha (wp_bind (ih _ ?_)))
    intro ns hns
    have := ok (n :: ns) (by rw [List.mapM_cons, hns]; rfl)
    rw [List.map_cons, ← hv] at this
    exact this

theorem newLattice_build (d : Dict) (u : Option UserDict) (inp : Bytes) :
    (newLattice d u).build inp = (build d u inp).map fun cols => ⟨d, u, inp, [], cols, runeCount inp + 2⟩ := by
  unfold Lattice.build Lattice.reserve newLattice
  simp only [List.length_nil, Nat.zero_lt_succ, if_true, List.map_nil, List.take_replicate, Nat.min_self, List.drop_replicate, Nat.sub_self,
    List.replicate_zero, List.append_nil]
  rfl

theorem build_len {d : Dict} {u : Option UserDict} {inp : Bytes} {cols : Cols} (h : build d u inp = some cols) : cols.length = runeCount inp + 2 := by
  have : buildOn d u inp (List.replicate (runeCount inp + 2) []) = some cols := h
  have := (keeps_buildOn this).1
  rw [List.length_replicate] at this
  exact this.symm

/-- A lattice used directly gives what it gives alone, whatever the objects it is given contain, and everything goes back to the pools; after a panic the
lattice still does. -/
theorem wp_use (t : Tokenizer) (ideo : Nat → Bool) (inp : Bytes) (moves : List Move) {h : LHeap} (hi : Idle h)
    (Q : Option (List Node) → LHeap → Prop)
    (ok : ∀ h' out, outputAlone t ideo inp moves = some out → Idle h' → Q (some (out.map fun n => { n with prev := none })) h')
    (bad : outputAlone t ideo inp moves = none → ∀ h', (∀ x, h'.l x = none) → Q none h') :
    wp (useP t.dict t.userDict ideo inp moves) h Q := by
  unfold useP
  refine wp_bind (wp_getLat (fun la lv _ hclean => ?_))
  refine wp_rewriteLat (wp_rewriteLat ?_)
  refine wp_deferred ?_
  have hbad : outputAlone t ideo inp moves = none → ∀ h', Own h' la → beforeFin (freeP la) Q none h' := by
    intro hnone h' ho
    obtain ⟨d, u, out, addrs, o1, o2, o3⟩ := ho.rep
    exact wp_free _ o1 o2 o3 (fun h'' g1 _ => bad hnone h'' g1)
  unfold useBodyP
  unfold outputAlone at hbad ok
  rw [Lattice.calls, Lattice.call, newLattice_build] at hbad
  simp only [Lattice.calls, Lattice.call, newLattice_build] at ok
  refine wp_bind (wp_build (d := t.dict) (u := t.userDict) inp (upd_same _ _ _) ⟨hclean.out, hclean.cols, hclean.noOut, hclean.noCols⟩ rfl rfl ?_ hi.n ?_ ?_)
  · intro x v hx
    by_cases he : x = la
    · exact he
    · simp only [LHeap.setL] at hx; rw [upd_other _ _ he, hi.l x] at hx; cases hx
  · intro h1 addrs cols hb hr1
    have hlen : cols.length = runeCount inp + 2 := build_len hb
    rw [hb, Option.map_some, Option.bind_some, ← hlen] at hbad
    simp only [hb, Option.map_some, Option.bind_some, ← hlen] at ok
    refine wp_bind (wp_moves ideo _ inp moves h1 [] cols [] hr1 .nil (by omega) ?_ ?_)
    · intro h2 out cols2 rs he hr2 ho2
      rw [he, Option.bind_some] at hbad
      simp only [he, Option.bind_some] at ok
      obtain ⟨lv3, e1, -, -, e2, -⟩ := hr2.lat
      refine wp_readLat e1 ?_
      rw [e2.vis]
      refine wp_readOutput hr2 ho2 _ ?_
      intro ns hns
      refine wp_free _ hr2.lat hr2.inj (fun i j a ha => ?_) (fun h4 g1 g2 => ok h4 ns hns ⟨g1, ?_⟩)
      · obtain ⟨_, pn, _, hx, _⟩ := hr2.at' ha
        exact ⟨pn, hx⟩
      · intro a pn hx
        obtain ⟨g3, g4⟩ := g2 a _ hx
        obtain ⟨i, j, hij⟩ := hr2.only a pn g3
        exact g4 i j hij
    · intro he h2 hw
      rw [he] at hbad
      exact hbad rfl h2 hw
  · intro hb h1 ho
    rw [hb] at hbad
    exact hbad rfl h1 ho

/-- The same with `Dot` behind the other calls: its graph is that of a lattice used alone, with some names for the nodes; also when its writer panics everything
goes back to the pools. -/
theorem wp_draw (t : Tokenizer) (ideo : Nat → Bool) (inp : Bytes) (moves : List Move) (stop : Option Nat) {h : LHeap} (hi : Idle h)
    (Q : Option (GraphOf Addr × List Node) → LHeap → Prop)
    (ok : ∀ h' out g f, outputAlone t ideo inp moves = some out → dotAlone t ideo inp moves = some g → KeepsApart f g → Idle h' →
      Q (some (g.map f, out.map fun n => { n with prev := none })) h')
    (bad : outputAlone t ideo inp moves = none ∨ dotAlone t ideo inp moves = none → ∀ h', (∀ x, h'.l x = none) → Q none h')
    (stopped : ∀ n, stop = some n → ∀ h', Idle h' → Q none h') :
    wp (drawP t.dict t.userDict ideo inp moves stop) h Q := by
  unfold drawP
  refine wp_bind (wp_getLat (fun la lv _ hclean => ?_))
  refine wp_rewriteLat (wp_rewriteLat ?_)
  refine wp_deferred ?_
  have hbad : outputAlone t ideo inp moves = none ∨ dotAlone t ideo inp moves = none → ∀ h', Own h' la → beforeFin (freeP la) Q none h' := by
    intro hnone h' ho
    obtain ⟨d, u, out, addrs, o1, o2, o3⟩ := ho.rep
    exact wp_free _ o1 o2 o3 (fun h'' g1 _ => bad hnone h'' g1)
  unfold drawBodyP
  unfold outputAlone dotAlone at hbad ok
  rw [Lattice.calls, Lattice.call, newLattice_build] at hbad
  simp only [Lattice.calls, Lattice.call, newLattice_build] at ok
  refine wp_bind (wp_build (d := t.dict) (u := t.userDict) inp (upd_same _ _ _) ⟨hclean.out, hclean.cols, hclean.noOut, hclean.noCols⟩ rfl rfl ?_ hi.n ?_ ?_)
  · intro x v hx
    by_cases he : x = la
    · exact he
    · simp only [LHeap.setL] at hx; rw [upd_other _ _ he, hi.l x] at hx; cases hx
  · intro h1 addrs cols hb hr1
    have hlen : cols.length = runeCount inp + 2 := build_len hb
    rw [hb, Option.map_some, Option.bind_some, ← hlen] at hbad
    simp only [hb, Option.map_some, Option.bind_some, ← hlen] at ok
    refine wp_bind (wp_moves ideo _ inp moves h1 [] cols [] hr1 .nil (by omega) ?_ ?_)
    · intro h2 out cols2 rs he hr2 ho2
      rw [he, Option.bind_some, Option.bind_some] at hbad
      simp only [he, Option.bind_some] at ok
      obtain ⟨lv3, e1, -, -, e2, -⟩ := hr2.lat
      have hfree : ∀ r, (∀ h', Idle h' → Q r h') → beforeFin (freeP la) Q r h2 := by
        intro r hq
        refine wp_free _ hr2.lat hr2.inj (fun i j a ha => ?_) (fun h4 g1 g2 => hq h4 ⟨g1, ?_⟩)
        · obtain ⟨_, pn, _, hx, _⟩ := hr2.at' ha
          exact ⟨pn, hx⟩
        · intro a pn hx
          obtain ⟨g3, g4⟩ := g2 a _ hx
          obtain ⟨i, j, hij⟩ := hr2.only a pn g3
          exact g4 i j hij
      obtain ⟨ns, ps, v1, v2, v3, v4⟩ := ho2.views (fun i j a ha => by
        obtain ⟨n, pn, _, e2, e3⟩ := hr2.at' ha
        exact ⟨n, _, e2, e3.val⟩)
      have hps : rs.map OutRef.place = ps := by rw [v4]; exact refOf_place v3
      have hlat : (Lattice.mk t.dict t.userDict inp rs cols2 cols2.length).dot = dotGraph t.dict t.userDict cols2 ps := by
        unfold Lattice.dot
        simp only [List.take_length, hps]
      rw [hlat] at hbad
      simp only [hlat] at ok
      have hdot : ∀ r, r = (dotGraph t.dict t.userDict cols2 ps).map (GraphOf.map (addrOf addrs)) →
          andThen (fun g => do
            let l ← readLatP la
            let out ← readOutputP l.output.vis
            return (g, out)) (beforeFin (freeP la) Q) r h2 := by
        intro r he
        cases hg : dotGraph t.dict t.userDict cols2 ps with
        | none =>
          rw [hg] at he; subst he
          exact hbad (.inr hg) h2 hr2.own
        | some g =>
          rw [hg] at he; subst he
          refine wp_readLat e1 ?_
          rw [e2.vis]
          refine wp_bind (wp_readOutput hr2 ho2 _ ?_)
          intro ns' hns
          exact hfree _ (fun h' hi' => ok h' _ _ _ hns hg (dotGraph_apart hr2 hg) hi')
      cases stop with
      | none =>
        exact wp_bind (reads_dot hr2 v2 _ (fun a ha => hdot _ ha.symm) (fun ha => hdot _ ha.symm))
      | some n =>
        refine wp_bind (wp_mono (wp_cut n (.dot la) (reads_dot hr2 v2 (fun r h' => andThen _ (beforeFin (freeP la) Q) r h')
          (fun a ha => hdot _ ha.symm) (fun ha => hdot _ ha.symm))) ?_)
        rintro r h' (hr | ⟨rfl, rfl⟩)
        · exact hr
        · exact hfree _ (fun h' hi' => stopped n rfl h' hi')
    · intro he h2 hw
      rw [he] at hbad
      exact hbad (.inl rfl) h2 hw
  · intro hb h1 ho
    rw [hb] at hbad
    exact hbad (.inl rfl) h1 ho

end

/-- The nodes of a graph are nodes of the lattice. -/
theorem dotGraph_held {d : Dict} {u : Option UserDict} {cols : Cols} {ps : List (Option Ptr)} {g : Graph} (hg : dotGraph d u cols ps = some g) :
    ∀ n ∈ g.nodes, ∃ nd, getNode cols n.ptr.1 n.ptr.2 = some nd := by
  unfold dotGraph at hg
  generalize ps.filterMap id = bp at hg
  dsimp only at hg
  cases hx : edgesCols bp cols 1 (cols.drop 1) with
  | none => rw [hx] at hg; cases hg
  | some x =>
    rw [hx] at hg
    dsimp only at hg
    cases hy : nodesCols d u bp 0 cols with
    | none => rw [hy] at hg; cases hg
    | some y =>
      rw [hy] at hg
      obtain ⟨z, _, rfl⟩ := Option.map_eq_some_iff.mp hg
      intro n hn
      obtain ⟨a, _, ha, _⟩ := ((mem_nodes hy).1 n).mp hn
      exact ⟨a, ha.1⟩

/-- The nodes of these graphs are nodes of the lattice at these addresses. -/
def AllHeld (addrs : List (List Addr)) (vs : List (SightOf Ptr)) : Prop :=
  ∀ g, .graph (some g) ∈ vs → ∀ n ∈ g.nodes, ∃ a, ptr addrs n.ptr.1 n.ptr.2 = some a

theorem AllHeld.apart {addrs : List (List Addr)} {vs : List (SightOf Ptr)} (hh : AllHeld addrs vs) (hi : Inj addrs) : KeepsAllApart (addrOf addrs) vs := by
  intro g g' hg hg' n hn n' hn' he
  obtain ⟨a, ha⟩ := hh g hg n hn
  obtain ⟨b, hb⟩ := hh g' hg' n' hn'
  unfold addrOf at he
  rw [ha, hb, Option.getD_some, Option.getD_some] at he
  subst he
  have := hi _ _ _ _ _ ha hb
  exact Prod.ext this.1 this.2

section
variable {d : Dict} {u : Option UserDict} {la : Addr} {addrs : List (List Addr)}

/-- All that a client does between `Build` and `Free`. -/
theorem wp_acts (ideo : Nat → Bool) (inp : Bytes) (acts : List Deed) : ∀ (Q : Option (List (SightOf Addr)) → LHeap → Prop)
    (h : LHeap) (out : List Addr) (cols : Cols) (rs : List OutRef), Rep d u out la h addrs cols → OutRefs h addrs out rs → cols.length ≠ 0 →
    (∀ h' out' cols' vs, Sees ideo (Lattice.mk d u inp rs cols cols.length) acts vs → AllHeld addrs vs →
      Rep d u out' la h' addrs cols' → Q (some (vs.map (SightOf.map (addrOf addrs)))) h') →
    ((Lattice.mk d u inp rs cols cols.length).calls ideo ((movesOf acts).map Move.op) = none → ∀ h', Own h' la → Q none h') →
    wp (actsP la ideo acts) h Q := by
  induction acts with
  | nil => intro Q h out cols rs hr ho _ ok _; exact ok h out cols [] .done (fun g hg => by cases hg) hr
  | cons a acts ih =>
    intro Q h out cols rs hr ho hz ok bad
    unfold actsP
    cases a with
    | move mv =>
      simp only [movesOf, List.map_cons, Lattice.calls] at bad
      cases mv with
      | forward m =>
        simp only [Move.op, Lattice.call, Lattice.forward, List.take_length, List.drop_length, List.append_nil] at bad
        refine wp_bind (wp_bind (wp_forward_refs ideo m _ hr ho ?_ ?_))
        · intro h' cols' he hr' ho'
          have hlen : cols'.length = cols.length := by rw [hr'.length, hr.length]
          rw [he, Option.map_some, Option.bind_some, ← hlen] at bad
          refine wp_bind (ih _ h' out cols' rs hr' ho' (by rw [hlen]; exact hz) ?_ bad)
          intro h2 out2 cols2 vs hs hh hr2
          refine ok h2 out2 cols2 vs (.move ?_ hs) hh hr2
          simp only [Move.op, Lattice.call, Lattice.forward, List.take_length, List.drop_length, List.append_nil, he, Option.map_some, hlen]
        · intro he h' hw
          rw [he] at bad
          exact bad rfl h' hw
      | backward m =>
        simp only [Move.op, Lattice.call, Lattice.backward, if_neg hz, List.take_length] at bad
        refine wp_bind (wp_bind (wp_backward_refs m _ hr ho hz ?_ ?_))
        · intro h' out' rs' he hr' ho'
          rw [he, Option.map_some, Option.bind_some] at bad
          refine wp_bind (ih _ h' out' cols (rs ++ rs') hr' ho' hz ?_ bad)
          intro h2 out2 cols2 vs hs hh hr2
          refine ok h2 out2 cols2 vs (.move ?_ hs) hh hr2
          simp only [Move.op, Lattice.call, Lattice.backward, if_neg hz, List.take_length, he, Option.map_some]
        · intro he h' hw
          rw [he] at bad
          exact bad rfl h' hw
    | look =>
      obtain ⟨lv3, e1, -, -, e2, -⟩ := hr.lat
      refine wp_bind (wp_readLat e1 ?_)
      rw [e2.vis]
      refine wp_bind (wp_readOutput hr ho _ ?_)
      intro ns hns
      refine wp_bind (ih _ h out cols rs hr ho hz ?_ bad)
      intro h2 out2 cols2 vs hs hh hr2
      refine ok h2 out2 cols2 _ (.look (ns := ns) hns hs) ?_ hr2
      intro g hg
      rcases List.mem_cons.mp hg with hg | hg
      · cases hg
      · exact hh g hg
    | dot stop =>
      obtain ⟨ns, ps, v1, v2, v3, v4⟩ := ho.views (fun i j a ha => by
        obtain ⟨n, pn, _, e2, e3⟩ := hr.at' ha
        exact ⟨n, _, e2, e3.val⟩)
      have hps : rs.map OutRef.place = ps := by rw [v4]; exact refOf_place v3
      have hlat : (Lattice.mk d u inp rs cols cols.length).dot = dotGraph d u cols ps := by
        unfold Lattice.dot
        simp only [List.take_length, hps]
      have rest : ∀ v : SightOf Ptr, (∀ vs, Sees ideo (Lattice.mk d u inp rs cols cols.length) acts vs →
            Sees ideo (Lattice.mk d u inp rs cols cols.length) (.dot stop :: acts) (v :: vs)) → AllHeld addrs [v] →
          wp (do
            let vs ← actsP la ideo acts
            return [v.map (addrOf addrs)] ++ vs) h Q := by
        intro v hv hheld
        refine wp_bind (ih _ h out cols rs hr ho hz ?_ bad)
        intro h2 out2 cols2 vs hs hh hr2
        refine ok h2 out2 cols2 (v :: vs) (hv vs hs) ?_ hr2
        intro g hg
        rcases List.mem_cons.mp hg with hg | hg
        · exact hheld g (by rw [hg]; exact List.mem_singleton_self _)
        · exact hh g hg
      have hdot : ∀ r, r = (dotGraph d u cols ps).map (GraphOf.map (addrOf addrs)) → wp (do
            let vs ← actsP la ideo acts
            return [SightOf.graph r] ++ vs) h Q := by
        intro r he
        have := rest (.graph (dotGraph d u cols ps)) (fun vs hs => by rw [← hlat]; exact .dot hs) ?_
        · rw [he]; exact this
        · intro g hg
          simp only [List.mem_singleton, SightOf.graph.injEq] at hg
          intro n hn
          obtain ⟨nd, hnd⟩ := dotGraph_held hg.symm n hn
          obtain ⟨a, _, ha, _⟩ := hr.at hnd
          exact ⟨a, ha⟩
      refine wp_bind (wp_bind (wp_recovered ?_))
      cases stop with
      | none => exact reads_dot hr v2 _ (fun a ha => hdot _ ha.symm) (fun ha => hdot _ ha.symm)
      | some n =>
        refine wp_mono (wp_cut n (.dot la) (reads_dot hr v2 (fun r h' => h' = h ∧ r = (dotGraph d u cols ps).map (GraphOf.map (addrOf addrs)))
          (fun a ha => ⟨rfl, ha.symm⟩) (fun ha => ⟨rfl, ha.symm⟩))) ?_
        rintro r h' (⟨rfl, hr'⟩ | ⟨rfl, rfl⟩)
        · exact hdot _ hr'
        · exact rest (.graph none) (fun vs hs => .cut hs) (fun g hg => by simp at hg)

/-- A client that looks at its lattice in between sees what it sees alone, whatever the objects it is given contain, and everything goes back to the pools;
after a panic the lattice still does. -/
theorem wp_session (t : Tokenizer) (ideo : Nat → Bool) (inp : Bytes) (acts : List Deed) {h : LHeap} (hi : Idle h)
    (Q : Option (List (SightOf Addr)) → LHeap → Prop)
    (ok : ∀ h' o vs f, (newLattice t.dict t.userDict).build inp = some o → Sees ideo o acts vs → KeepsAllApart f vs → Idle h' →
      Q (some (vs.map (SightOf.map f))) h')
    (bad : (newLattice t.dict t.userDict).calls ideo (.build inp :: (movesOf acts).map Move.op) = none → ∀ h', (∀ x, h'.l x = none) → Q none h') :
    wp (sessionP t.dict t.userDict ideo inp acts) h Q := by
  unfold sessionP
  refine wp_bind (wp_getLat (fun la lv _ hclean => ?_))
  refine wp_rewriteLat (wp_rewriteLat ?_)
  refine wp_deferred ?_
  have hbad : (newLattice t.dict t.userDict).calls ideo (.build inp :: (movesOf acts).map Move.op) = none → ∀ h', Own h' la →
      beforeFin (freeP la) Q none h' := by
    intro hnone h' ho
    obtain ⟨d, u, out, addrs, o1, o2, o3⟩ := ho.rep
    exact wp_free _ o1 o2 o3 (fun h'' g1 _ => bad hnone h'' g1)
  unfold sessionBodyP
  rw [Lattice.calls, Lattice.call, newLattice_build] at hbad
  simp only [newLattice_build] at ok
  refine wp_bind (wp_build (d := t.dict) (u := t.userDict) inp (upd_same _ _ _) ⟨hclean.out, hclean.cols, hclean.noOut, hclean.noCols⟩ rfl rfl ?_ hi.n ?_ ?_)
  · intro x v hx
    by_cases he : x = la
    · exact he
    · simp only [LHeap.setL] at hx; rw [upd_other _ _ he, hi.l x] at hx; cases hx
  · intro h1 addrs cols hb hr1
    have hlen : cols.length = runeCount inp + 2 := build_len hb
    rw [hb, Option.map_some, Option.bind_some, ← hlen] at hbad
    simp only [hb, Option.map_some, ← hlen] at ok
    refine wp_acts ideo inp acts _ h1 [] cols [] hr1 .nil (by omega) ?_ hbad
    intro h2 out2 cols2 vs hs hh hr2
    refine wp_free _ hr2.lat hr2.inj (fun i j a ha => ?_) (fun h4 g1 g2 => ok h4 _ vs _ rfl hs (hh.apart hr2.inj) ⟨g1, ?_⟩)
    · obtain ⟨_, pn, _, hx, _⟩ := hr2.at' ha
      exact ⟨pn, hx⟩
    · intro a pn hx
      obtain ⟨g3, g4⟩ := g2 a _ hx
      obtain ⟨i, j, hij⟩ := hr2.only a pn g3
      exact g4 i j hij
  · intro hb h1 ho
    rw [hb] at hbad
    exact hbad rfl h1 ho

end

end Kagome
