import Verif.Proof.PoolBuild

/-!
`Forward` and `Backward` on shared memory compute what `forward` and `backward` of the sequential model compute.
-/

namespace Kagome

section
variable {d : Dict} {u : Option UserDict} {out : List Addr} {la : Addr} {h : LHeap} {addrs : List (List Addr)} {cols : Cols}

theorem connCost_val {d : Dict} {n t : Node} {pn pt : PNode} (hn : pn.toNode = { n with prev := none })
    (ht : pt.toNode = { t with prev := none }) : connCost d pn.toNode pt.toNode = connCost d n t := by
  rw [hn, ht]; rfl

theorem totalCost_val {ideo : Nat → Bool} {m : LMode} {c : Int} {n t : Node} {pn pt : PNode} (hn : pn.toNode = { n with prev := none })
    (ht : pt.toNode = { t with prev := none }) : totalCost ideo m c pn.toNode pt.toNode = totalCost ideo m c n t := by
  rw [hn, ht]; rfl

theorem Rep.latIs (hr : Rep d u out la h addrs cols) : ∃ d u out, LatIs d u out h la addrs := ⟨_, _, _, hr.lat⟩

theorem wp_relax (ideo : Nat → Bool) (m : LMode) (i idx : Nat) (target : Addr) (prevList : Slice (Option Addr)) (as : List Addr) (st : Nat)
    (hs : SliceIs prevList (as.map some)) (has : addrs[st]? = some as) (ht : ptr addrs i idx = some target) (js : List Nat)
    (Q : Option Unit → LHeap → Prop) :
    ∀ h cols, Rep d u out la h addrs cols → (∀ n, getNode cols i idx = some n → n.start = st) →
    (∀ h' cols', relax d ideo m i idx js cols = some cols' → Rep d u out la h' addrs cols' → Q (some ()) h') →
    (relax d ideo m i idx js cols = none → ∀ h', Own h' la → Q none h') →
    wp (Prog.each js (relaxP la ideo m i idx target prevList)) h Q := by
  induction js with
  | nil => intro h cols hr _ ok _; exact ok h cols rfl hr
  | cons j js ih =>
    intro h cols hr hst ok bad
    obtain ⟨t, tv, ht1, ht2, ht3⟩ := hr.at' ht
    obtain rfl := hst t ht1
    have hpt : ∀ x, as[j]? = x → ptr addrs t.start j = x := by intro x hx; unfold ptr; rw [has]; exact hx
    have htst : tv.start = t.start := congrArg Node.start ht3.val
    have htc : tv.cost = t.cost := congrArg Node.cost ht3.val
    obtain ⟨lv, hl1, hl2, -⟩ := hr.lat
    rw [relax.eq_def] at ok bad
    simp only [ht1] at ok bad
    refine wp_bind ?_
    unfold relaxP
    cases ha : as[j]? with
    | none =>
      refine wp_must_none (by rw [hs.get, List.getElem?_map, ha]; rfl) (bad ?_ h hr.own)
      cases hg : getNode cols t.start j with
      | none => rfl
      | some n =>
        obtain ⟨a, _, h1, _⟩ := hr.at hg
        rw [hpt _ ha] at h1; cases h1
    | some a =>
      obtain ⟨n, nv, hn1, hn2, hn3⟩ := hr.at' (hpt _ ha)
      rw [hn1] at ok bad
      dsimp only at ok bad
      refine wp_must_some (a := some a) (by rw [hs.get, List.getElem?_map, ha]; rfl) (wp_must_some rfl ?_)
      refine wp_readNode hn2 (wp_readNode ht2 (wp_readLat hl1 (wp_must_some hl2 ?_)))
      rw [connCost_val hn3.val ht3.val]
      cases hc : connCost d n t with
      | none => rw [hc] at bad; exact wp_must_none rfl (bad rfl h hr.own)
      | some c =>
        rw [hc] at ok bad
        dsimp only at ok bad
        refine wp_must_some rfl ?_
        rw [totalCost_val hn3.val ht3.val]
        refine wp_atP hr.latIs ht (wp_must_some rfl (wp_readNode ht2 ?_))
        rw [htc]
        by_cases hlt : j = 0 ∨ int32 (totalCost ideo m c n t) < t.cost
        · rw [if_pos hlt] at ok bad
          rw [if_pos hlt]
          refine wp_atP hr.latIs ht (wp_must_some rfl (wp_writeNode ht2 ?_))
          have hlat : ∃ d u out, LatIs d u out (h.setN target (some (true, { tv with cost := int32 (totalCost ideo m c n t) }))) la addrs := hr.latIs
          refine wp_atP hlat ht (wp_must_some rfl ?_)
          refine wp_readNode (b := true) (upd_same _ _ _) ?_
          refine wp_atP (a := a) hlat (by rw [← hpt _ ha]; exact congrArg (fun s => ptr addrs s j) htst) ?_
          refine ⟨true, _, upd_same _ _ _, ?_⟩
          rw [LHeap.setN_setN]
          refine ih _ _ (hr.write (n' := { t with cost := int32 (totalCost ideo m c n t), prev := some (t.start, j) }) ht ⟨?_, ?_, ?_⟩) ?_ ok bad
          · have := ht3.val
            simp only [PNode.toNode, Node.mk.injEq] at this ⊢
            simp [this]
          · exact (hpt _ ha).symm
          · intro _; rfl
          · intro n' hn'
            rw [getNode_setNode, if_pos ⟨rfl, rfl⟩, ht1] at hn'
            obtain rfl := Option.some.inj hn'
            rfl
        · rw [if_neg hlt] at ok bad
          rw [if_neg hlt]
          exact ih h cols hr (fun n hn => by rw [ht1] at hn; obtain rfl := Option.some.inj hn; rfl) ok bad

theorem wp_forwardNode (ideo : Nat → Bool) (m : LMode) (i idx : Nat) (cur : Slice (Option Addr)) (as : List Addr)
    (hs : SliceIs cur (as.map some)) (has : addrs[i]? = some as) (Q : Option Unit → LHeap → Prop) (hr : Rep d u out la h addrs cols)
    (ok : ∀ h' cols', forwardNode d ideo m i idx cols = some cols' → Rep d u out la h' addrs cols' → Q (some ()) h')
    (bad : forwardNode d ideo m i idx cols = none → ∀ h', Own h' la → Q none h') :
    wp (forwardNodeP la ideo m i cur idx) h Q := by
  unfold forwardNodeP
  unfold forwardNode at ok bad
  cases ha : as[idx]? with
  | none =>
    refine wp_must_none (by rw [hs.get, List.getElem?_map, ha]; rfl) (bad ?_ h hr.own)
    cases hg : getNode cols i idx with
    | none => rfl
    | some n =>
      obtain ⟨a, _, h1, _⟩ := hr.at hg
      unfold ptr at h1
      rw [has] at h1
      replace h1 : as[idx]? = some a := h1
      rw [ha] at h1; cases h1
  | some target =>
    have hp : ptr addrs i idx = some target := by unfold ptr; rw [has]; exact ha
    obtain ⟨t, tv, ht1, ht2, ht3⟩ := hr.at' hp
    obtain ⟨lv, hl1, hl2, -, -, hl3, -⟩ := hr.lat
    have htst : tv.start = t.start := congrArg Node.start ht3.val
    rw [ht1] at ok bad
    dsimp only at ok bad
    refine wp_must_some (a := some target) (by rw [hs.get, List.getElem?_map, ha]; rfl) (wp_must_some rfl ?_)
    refine wp_readNode ht2 (wp_readLat hl1 ?_)
    rw [htst]
    cases hc : addrs[t.start]? with
    | none =>
      refine wp_must_none (hl3.get_none hc) (bad ?_ h hr.own)
      cases hcc : cols[t.start]? with
      | none => rfl
      | some col =>
        obtain ⟨as', h1, _⟩ := hr.col' hcc
        rw [hc] at h1; cases h1
    | some as' =>
      obtain ⟨s, h1, h2⟩ := hl3.get hc
      obtain ⟨col, h3, h4⟩ := hr.col hc
      have hlen : s.len = col.length := by rw [h2.1, List.length_map, h4]
      rw [h3] at ok bad
      dsimp only at ok bad
      refine wp_must_some h1 ?_
      rw [hlen]
      by_cases hz : col.length = 0
      · rw [if_pos hz] at ok bad
        rw [if_pos hz]
        refine wp_atP hr.latIs hp (wp_must_some rfl ⟨true, tv, ht2, ?_⟩)
        refine ok _ _ rfl (hr.write hp ⟨?_, ht3.link, ht3.linked⟩)
        have := ht3.val
        simp only [PNode.toNode, Node.mk.injEq] at this ⊢
        simp [this]
      · rw [if_neg hz] at ok bad
        rw [if_neg hz]
        exact wp_relax ideo m i idx target s as' t.start h2 hc hp _ Q h cols hr
          (fun n hn => by rw [ht1] at hn; obtain rfl := Option.some.inj hn; rfl) ok bad

theorem wp_forwardCol (ideo : Nat → Bool) (m : LMode) (i : Nat) (cur : Slice (Option Addr)) (as : List Addr)
    (hs : SliceIs cur (as.map some)) (has : addrs[i]? = some as) (Q : Option Unit → LHeap → Prop) (js : List Nat) :
    ∀ h cols, Rep d u out la h addrs cols →
    (∀ h' cols', forwardCol d ideo m i js cols = some cols' → Rep d u out la h' addrs cols' → Q (some ()) h') →
    (forwardCol d ideo m i js cols = none → ∀ h', Own h' la → Q none h') →
    wp (Prog.each js (forwardNodeP la ideo m i cur)) h Q := by
  induction js with
  | nil => intro h cols hr ok _; exact ok h cols rfl hr
  | cons j js ih =>
    intro h cols hr ok bad
    rw [forwardCol.eq_def] at ok bad
    dsimp only at ok bad
    refine wp_bind (wp_forwardNode ideo m i j cur as hs has _ hr ?_ ?_)
    · intro h' cols' he hr'
      rw [he] at ok bad
      exact ih h' cols' hr' ok bad
    · intro he h' ho
      rw [he] at bad
      exact bad rfl h' ho

theorem wp_forwardLoop (ideo : Nat → Bool) (m : LMode) (Q : Option Unit → LHeap → Prop) (is : List Nat) :
    ∀ h cols, Rep d u out la h addrs cols →
    (∀ h' cols', forwardLoop d ideo m is cols = some cols' → Rep d u out la h' addrs cols' → Q (some ()) h') →
    (forwardLoop d ideo m is cols = none → ∀ h', Own h' la → Q none h') →
    wp (Prog.each is (fun i => do
      let l ← readLatP la
      let currentList ← Prog.must (l.list.get? i)
      Prog.each (List.range currentList.len) (forwardNodeP la ideo m i currentList))) h Q := by
  induction is with
  | nil => intro h cols hr ok _; exact ok h cols rfl hr
  | cons i is ih =>
    intro h cols hr ok bad
    rw [forwardLoop.eq_def] at ok bad
    dsimp only at ok bad
    obtain ⟨lv, hl1, hl2, -, -, hl3, -⟩ := hr.lat
    refine wp_bind (wp_readLat hl1 ?_)
    cases hc : cols[i]? with
    | none =>
      rw [hc] at bad
      exact wp_must_none (hl3.get_none (hr.col_none hc)) (bad rfl h hr.own)
    | some col =>
      rw [hc] at ok bad
      dsimp only at ok bad
      obtain ⟨as, h1, h2⟩ := hr.col' hc
      obtain ⟨s, h3, h4⟩ := hl3.get h1
      refine wp_must_some h3 ?_
      rw [show s.len = col.length by rw [h4.1, List.length_map, h2]]
      refine wp_forwardCol ideo m i s as h4 h1 _ _ h cols hr ?_ ?_
      · intro h' cols' he hr'
        rw [he] at ok bad
        exact ih h' cols' hr' ok bad
      · intro he h' ho
        rw [he] at bad
        exact bad rfl h' ho

theorem wp_forward (ideo : Nat → Bool) (m : LMode) (Q : Option Unit → LHeap → Prop) (hr : Rep d u out la h addrs cols)
    (ok : ∀ h' cols', forward d ideo m cols = some cols' → Rep d u out la h' addrs cols' → Q (some ()) h')
    (bad : forward d ideo m cols = none → ∀ h', Own h' la → Q none h') : wp (forwardP la ideo m) h Q := by
  obtain ⟨lv, hl1, hl2, -, -, hl3, -⟩ := hr.lat
  refine wp_readLat hl1 ?_
  rw [show lv.list.len = cols.length by rw [hl3.len, hr.length]]
  exact wp_forwardLoop ideo m Q _ h cols hr ok bad

end

end Kagome
