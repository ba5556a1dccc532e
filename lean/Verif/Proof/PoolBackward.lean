import Verif.Proof.PoolForward
import Verif.Model.Dot

/-!
`Backward`, the token loop and `Free` on shared memory; `Analyze` as a whole.
-/

namespace Kagome

section
variable {d : Dict} {u : Option UserDict} {out : List Addr} {la : Addr} {h : LHeap} {addrs : List (List Addr)} {cols : Cols}

/-- More private nodes. -/
structure Ext (h h' : LHeap) : Prop where
  l : h'.l = h.l
  keep : ∀ a x, h.n a = some x → h'.n a = some x
  priv : ∀ a pn, h'.n a = some (true, pn) → h.n a = some (true, pn)

theorem Ext.refl (h : LHeap) : Ext h h := ⟨rfl, fun _ _ hx => hx, fun _ _ hx => hx⟩

theorem Ext.trans {h h' h'' : LHeap} (a : Ext h h') (b : Ext h' h'') : Ext h h'' :=
  ⟨b.l.trans a.l, fun x y hx => b.keep x y (a.keep x y hx), fun x y hx => a.priv x y (b.priv x y hx)⟩

theorem Ext.new {a : Addr} {v : PNode} (ha : h.n a = none) : Ext h (h.setN a (some (false, v))) := by
  refine ⟨rfl, ?_, ?_⟩
  · intro b x hb
    have : b ≠ a := by rintro rfl; rw [ha] at hb; cases hb
    simp only [LHeap.setN]; rw [upd_other _ _ this]; exact hb
  · intro b pn hb
    simp only [LHeap.setN] at hb
    by_cases he : b = a
    · subst he; rw [upd_same] at hb; cases hb
    · rw [upd_other _ _ he] at hb; exact hb

theorem Rep.ext (hr : Rep d u out la h addrs cols) {h' : LHeap} (he : Ext h h') : Rep d u out la h' addrs cols := by
  refine ⟨?_, hr.inj, hr.same, ?_, fun a pn ha => hr.only a pn (he.priv a pn ha)⟩
  · obtain ⟨lv, h1⟩ := hr.lat
    rw [← he.l] at h1
    exact ⟨lv, h1⟩
  · intro i j a n h1 h2
    obtain ⟨pn, h3, h4⟩ := hr.node i j a n h1 h2
    exact ⟨pn, he.keep _ _ h3, h4⟩

/-- The nodes behind the output are these. -/
def OutIs (h : LHeap) (out : List Addr) (ns : List Node) : Prop :=
  out.map (fun a => (h.n a).map (fun x => x.2.toNode)) = ns.map (fun n => some { n with prev := none })

theorem OutIs.append {out out' : List Addr} {ns ns' : List Node} (h1 : OutIs h out ns) (h2 : OutIs h out' ns') :
    OutIs h (out ++ out') (ns ++ ns') := by
  unfold OutIs at *
  rw [List.map_append, List.map_append, h1, h2]

theorem OutIs.ext {ns : List Node} (ho : OutIs h out ns) {h' : LHeap} (he : Ext h h') : OutIs h' out ns := by
  unfold OutIs at *
  rw [← ho]
  apply List.map_congr_left
  intro a ha
  have : (h.n a).map (fun x => x.2.toNode) ∈ ns.map (fun n => some { n with prev := none }) := by
    rw [← ho]; exact List.mem_map_of_mem (f := fun a => (h.n a).map (fun x => x.2.toNode)) ha
  obtain ⟨n, _, hn⟩ := List.mem_map.mp this
  cases hx : h.n a with
  | none => rw [hx] at hn; cases hn
  | some x => rw [he.keep a x hx]

/-- The pointers in the output: nodes of the lattice, or private nodes. -/
inductive OutPtr (h : LHeap) (addrs : List (List Addr)) : List Addr → List (Option Ptr) → Prop
  | nil : OutPtr h addrs [] []
  | node {a : Addr} {q : Ptr} {out ps} (ha : ptr addrs q.1 q.2 = some a) (hs : OutPtr h addrs out ps) : OutPtr h addrs (a :: out) (some q :: ps)
  | priv {a : Addr} {v : PNode} {out ps} (ha : h.n a = some (false, v)) (hs : OutPtr h addrs out ps) : OutPtr h addrs (a :: out) (none :: ps)

theorem OutPtr.append {out out' : List Addr} {ps ps' : List (Option Ptr)} (h1 : OutPtr h addrs out ps) (h2 : OutPtr h addrs out' ps') :
    OutPtr h addrs (out ++ out') (ps ++ ps') := by
  induction h1 with
  | nil => exact h2
  | node ha _ ih => exact .node ha ih
  | priv ha _ ih => exact .priv ha ih

theorem OutPtr.keep {ps : List (Option Ptr)} (ho : OutPtr h addrs out ps) {h' : LHeap} (he : ∀ a x, h.n a = some x → h'.n a = some x) :
    OutPtr h' addrs out ps := by
  induction ho with
  | nil => exact .nil
  | node ha _ ih => exact .node ha ih
  | priv ha _ ih => exact .priv (he _ _ ha) ih

theorem OutPtr.fresh (ho : ∀ a ∈ out, ∃ v, h.n a = some (false, v)) : OutPtr h addrs out (out.map (fun _ => none)) := by
  induction out with
  | nil => exact .nil
  | cons a out ih =>
    obtain ⟨v, hv⟩ := ho a (List.mem_cons_self ..)
    exact .priv hv (ih (fun b hb => ho b (List.mem_cons_of_mem _ hb)))

theorem wp_output {Q : Option Unit → LHeap → Prop} {p : Addr} (hr : Rep d u out la h addrs cols)
    (ok : ∀ h', Rep d u (out ++ [p]) la h' addrs cols → h'.n = h.n → Q (some ()) h') : wp (outputP la p) h Q := by
  obtain ⟨lv, h1, h2, h3, h4, h5, h6⟩ := hr.lat
  refine wp_choose (fun e => ⟨lv, h1, ?_⟩)
  refine ok _ ⟨?_, hr.inj, hr.same, hr.node, hr.only⟩ rfl
  refine ⟨_, upd_same _ _ _, h2, h3, ?_, h5, ?_⟩
  · rw [List.map_append]; exact h4.append _ _
  · intro x v hx
    by_cases he : x = la
    · exact he
    · simp only [LHeap.setL] at hx; rw [upd_other _ _ he] at hx; exact h6 x v hx

theorem wp_outputs {Q : Option Unit → LHeap → Prop} (as : List Addr) :
    ∀ h out, Rep d u out la h addrs cols → (∀ h', Rep d u (out ++ as) la h' addrs cols → h'.n = h.n → Q (some ()) h') →
    wp (Prog.each as (outputP la)) h Q := by
  induction as with
  | nil => intro h out hr ok; exact ok h (by simpa using hr) rfl
  | cons a as ih =>
    intro h out hr ok
    refine wp_bind (wp_output hr ?_)
    intro h' hr' hn
    refine ih h' _ hr' ?_
    intro h'' hr'' hn'
    exact ok h'' (by simpa using hr'') (hn'.trans hn)

theorem wp_explode (p : PNode) (n : Node) (hv : p.toNode = { n with prev := none })
    (l : List (Nat × Nat)) :
    ∀ i (h : LHeap) (Q : Option (List Addr) → LHeap → Prop),
    (∀ h' as, Ext h h' → OutIs h' as (explode n i l) → (∀ a ∈ as, ∃ v, h'.n a = some (false, v)) → as.length = l.length → Q (some as) h') →
    wp (explodeP p i l) h Q := by
  have e1 : p.id = n.id := congrArg Node.id hv
  have e2 : p.start = n.start := congrArg Node.start hv
  have e3 : p.position = n.position := congrArg Node.position hv
  induction l with
  | nil => intro i h Q ok; exact ok h [] (Ext.refl h) rfl (fun a ha => by cases ha) rfl
  | cons x l ih =>
    obtain ⟨k, r⟩ := x
    intro i h Q ok
    refine wp_newNode (fun a ha => wp_bind (ih (i + 1) _ _ ?_))
    intro h' as hx ho hf hlen
    have h1 := hx.keep a _ (upd_same _ _ _)
    refine ok h' (a :: as) ((Ext.new ha).trans hx) ?_ ?_ (by simp [hlen])
    rotate_left
    · intro b hb
      rcases List.mem_cons.mp hb with rfl | hb
      · exact ⟨_, h1⟩
      · exact hf b hb
    unfold OutIs at *
    rw [explode, List.map_cons, List.map_cons, ho, h1]
    simp [PNode.toNode, e1, e2, e3, PNode.zero]

theorem wp_walk (m : LMode) (Q : Option Unit → LHeap → Prop) (fuel : Nat) :
    ∀ (h : LHeap) (out : List Addr) (ns : List Node) (ps : List (Option Ptr)) (p : Option Addr) (q : Option (Nat × Nat)),
    Rep d u out la h addrs cols → OutIs h out ns → OutPtr h addrs out ps → p = q.bind (fun q => ptr addrs q.1 q.2) → (q.isSome → p.isSome) →
    (∀ h' out' ns' ps', walk m cols fuel q = some ns' → walkPtr m cols fuel q = some ps' → Rep d u out' la h' addrs cols →
      OutIs h' out' (ns ++ ns') → OutPtr h' addrs out' (ps ++ ps') → Q (some ()) h') →
    (walk m cols fuel q = none → ∀ h', Own h' la → Q none h') →
    wp (walkP la m fuel p) h Q := by
  induction fuel with
  | zero =>
    intro h out ns ps p q hr ho hps hp hs ok bad
    cases q with
    | none => obtain rfl : p = none := hp; exact ok h out [] [] rfl rfl hr (by simpa using ho) (by simpa using hps)
    | some q =>
      obtain ⟨a, rfl⟩ := Option.isSome_iff_exists.mp (hs rfl)
      exact bad rfl h hr.own
  | succ fuel ih =>
    intro h out ns ps p q hr ho hps hp hs ok bad
    cases q with
    | none => obtain rfl : p = none := hp; exact ok h out [] [] rfl rfl hr (by simpa using ho) (by simpa using hps)
    | some q =>
      obtain ⟨a, rfl⟩ := Option.isSome_iff_exists.mp (hs rfl)
      obtain ⟨i, j⟩ := q
      replace hp : ptr addrs i j = some a := hp.symm
      obtain ⟨n, v, h1, h2, h3⟩ := hr.at' hp
      rw [walk] at ok bad
      rw [walkPtr] at ok
      simp only [h1] at ok bad
      have hcls : v.cls = n.cls := congrArg Node.cls h3.val
      have hsur : v.surface = n.surface := congrArg Node.surface h3.val
      have hrest : ∀ h' out', Rep d u out' la h' addrs cols → OutIs h' out' (ns ++ emit m n) → OutPtr h' addrs out' (ps ++ emitPtr m (i, j) n) →
          wp (readNodeP a >>= fun v => walkP la m fuel v.prev) h' Q := by
        intro h' out' hr' ho' hps'
        obtain ⟨n', v', h1', h2', h3'⟩ := hr'.at' hp
        rw [h1] at h1'
        obtain rfl := Option.some.inj h1'
        refine wp_readNode h2' ?_
        refine ih h' out' _ _ v'.prev n.prev hr' ho' hps' h3'.link h3'.linked ?_ ?_
        · intro h'' out'' ns'' ps'' hw hwp hr'' ho'' hps''
          exact ok h'' out'' (emit m n ++ ns'') (emitPtr m (i, j) n ++ ps'') (by rw [hw]; rfl) (by rw [hwp]; rfl) hr'' (by simpa using ho'')
            (by simpa using hps'')
        · intro hw h'' hw'
          exact bad (by rw [hw]; rfl) h'' hw'
      unfold walkP
      refine wp_readNode h2 ?_
      rw [hcls, hsur]
      by_cases hm : m ≠ .extended ∨ n.cls ≠ .unknown
      · simp only [if_pos hm]
        refine wp_bind (wp_output (p := a) hr ?_)
        intro h' hr' hn
        refine hrest h' _ hr' ?_ ?_
        rotate_left
        · unfold emitPtr
          rw [if_pos hm]
          exact (hps.keep (fun a x hx => by rw [hn]; exact hx)).append (.node hp .nil)
        unfold emit
        rw [if_pos hm]
        have ho1 : OutIs h' out ns := by unfold OutIs at *; rw [hn]; exact ho
        refine ho1.append ?_
        unfold OutIs
        rw [hn]
        simp [h2, h3.val]
      · simp only [if_neg hm]
        refine wp_bind (wp_explode v n h3.val _ 0 h _ ?_)
        intro h' as hx hy hf hlen
        refine wp_bind (wp_outputs as.reverse h' out (hr.ext hx) ?_)
        intro h'' hr'' hn
        refine hrest h'' _ hr'' ?_ ?_
        rotate_left
        · unfold emitPtr
          rw [if_neg hm]
          refine (hps.keep (fun a x hx' => by rw [hn]; exact hx.keep a x hx')).append ?_
          have := OutPtr.fresh (h := h'') (addrs := addrs) (out := as.reverse) (fun a ha => by rw [hn]; exact hf a (List.mem_reverse.mp ha))
          rw [List.map_const', List.length_reverse, hlen] at this
          rw [List.map_const']
          exact this
        unfold emit
        rw [if_neg hm]
        have ho1 : OutIs h'' out ns := by have := ho.ext hx; unfold OutIs at *; rw [hn]; exact this
        refine ho1.append ?_
        unfold OutIs at *
        rw [hn, List.map_reverse, List.map_reverse, hy]

theorem wp_atP_none {β : Type} {Q : Option β → LHeap → Prop} {f : Option Addr → Prog β} {i j : Nat}
    (hl : ∃ d u out, LatIs d u out h la addrs) (ha : ptr addrs i j = none) (hk : Q none h) :
    wp (atP la i j >>= f) h Q := by
  obtain ⟨d, u, out, lv, h1, -, -, -, h2, -⟩ := hl
  unfold ptr at ha
  refine wp_bind (wp_readLat h1 ?_)
  cases hc : addrs[i]? with
  | none => exact wp_must_none (h2.get_none hc) hk
  | some as =>
    rw [hc] at ha
    replace ha : as[j]? = none := ha
    obtain ⟨s, h3, h4⟩ := h2.get hc
    refine wp_must_some h3 ?_
    have : s.get? j = none := by rw [h4.get, List.getElem?_map, ha]; rfl
    rw [this]
    exact hk

theorem wp_backward (m : LMode) (Q : Option Unit → LHeap → Prop) (hr : Rep d u [] la h addrs cols)
    (ok : ∀ h' out' ns' ps', backward m cols = some ns' → backwardPtr m cols = some ps' → Rep d u out' la h' addrs cols → OutIs h' out' ns' →
      OutPtr h' addrs out' ps' → Q (some ()) h')
    (bad : backward m cols = none → ∀ h', Own h' la → Q none h') : wp (backwardP la m) h Q := by
  obtain ⟨lv, hl1, hl2, -, -, hl3, -⟩ := hr.lat
  refine wp_readLat hl1 ?_
  rw [show lv.list.len = cols.length by rw [hl3.len, hr.length]]
  unfold backward at ok bad
  unfold backwardPtr at ok
  by_cases hz : cols.length = 0
  · rw [if_pos hz, if_pos hz] at ok
    rw [if_pos hz]
    exact ok h [] [] [] rfl rfl hr rfl .nil
  · rw [if_neg hz] at ok bad
    rw [if_neg hz] at ok
    rw [if_neg hz]
    cases hp : ptr addrs (cols.length - 1) 0 with
    | none =>
      refine wp_atP_none hr.latIs hp (bad ?_ h hr.own)
      rw [walk]
      cases hg : getNode cols (cols.length - 1) 0 with
      | none => rfl
      | some n =>
        obtain ⟨a, _, h1, _⟩ := hr.at hg
        rw [hp] at h1; cases h1
    | some a =>
      refine wp_atP hr.latIs hp ?_
      refine wp_walk m Q _ h [] [] [] (some a) (some (cols.length - 1, 0)) hr rfl .nil hp.symm (fun _ => rfl) ?_ bad
      intro h' out' ns' ps' hw hwp hr' ho' hps'
      exact ok h' out' ns' ps' hw hwp hr' (by simpa using ho') (by simpa using hps')

theorem wp_tokens (t : Tokenizer) (ns : List Node) (hr : Rep d u out la h addrs cols) (ho : OutIs h out ns) (rest : List Node) :
    ∀ i k (Q : Option (List Token) → LHeap → Prop), (∃ done, ns.reverse = done ++ rest ∧ done.length = i) →
    Q (some (tokenLoop t i k rest)) h → wp (tokensP t la ns.length rest.length i k) h Q := by
  induction rest with
  | nil => intro i k Q _ ok; exact ok
  | cons n rest ih =>
    rintro i k Q ⟨done, hd, rfl⟩ ok
    obtain ⟨lv, hl1, hl2, -, hl4, hl3, -⟩ := hr.lat
    have hlen := congrArg List.length hd
    simp only [List.length_reverse, List.length_append, List.length_cons] at hlen
    have hlo : out.length = ns.length := by simpa using congrArg List.length ho
    have hn : ns[ns.length - 1 - done.length]? = some n := by
      have h1 : ns.reverse[done.length]? = some n := by rw [hd]; simp
      rw [List.getElem?_reverse (by omega)] at h1
      exact h1
    obtain ⟨a, ha⟩ : ∃ a, out[ns.length - 1 - done.length]? = some a :=
      ⟨_, List.getElem?_eq_getElem (by omega)⟩
    have hv := congrArg (fun l => l[ns.length - 1 - done.length]?) ho
    simp only [List.getElem?_map, ha, hn, Option.map_some] at hv
    obtain ⟨x, hx, hy⟩ : ∃ x, h.n a = some x ∧ x.2.toNode = { n with prev := none } := by
      cases hx : h.n a with
      | none => rw [hx] at hv; simp at hv
      | some x => rw [hx] at hv; exact ⟨x, rfl, by simpa using hv⟩
    obtain ⟨b, v⟩ := x
    have hid : v.id = n.id := congrArg Node.id hy
    have hmk : ∀ i k, mkToken t i k v.toNode = mkToken t i k n := by intro i k; rw [show v.toNode = _ from hy]; rfl
    show wp (tokensP t la ns.length (rest.length + 1) done.length k) h Q
    unfold tokensP
    refine wp_readLat hl1 (wp_must_some (a := some a) ?_ (wp_must_some rfl (wp_readNode hx ?_)))
    · rw [hl4.get, List.getElem?_map, ha]; rfl
    · rw [hid, hmk]
      rw [tokenLoop] at ok
      have hnext : ∃ d', ns.reverse = d' ++ rest ∧ d'.length = done.length + 1 := ⟨done ++ [n], by simp [hd], by simp⟩
      by_cases hc : t.omitBosEos = true ∧ n.id = bosEosID
      · rw [if_pos hc] at ok ⊢
        exact ih _ _ _ hnext ok
      · rw [if_neg hc] at ok ⊢
        exact wp_bind (ih _ _ _ hnext ok)

end

end Kagome
