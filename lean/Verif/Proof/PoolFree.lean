import Verif.Proof.PoolBackward

/-!
`Free` on shared memory; `Analyze` as a whole.
-/

namespace Kagome

/-- As `Shape`, with the column `i` given by itself. -/
structure ShapeX (list : Slice (Slice (Option Addr))) (addrs : List (List Addr)) (i : Nat) (xs : List (Option Addr)) : Prop where
  len : list.len = addrs.length
  cap : addrs.length ≤ list.arr.length
  this : ∃ s, list.arr[i]? = some s ∧ SliceIs s xs
  col : ∀ (k : Nat) (as : List Addr), k ≠ i → addrs[k]? = some as → ∃ s, list.arr[k]? = some s ∧ SliceIs s (as.map some)
  hid : ∀ (k : Nat) (s : Slice (Option Addr)), addrs.length ≤ k → list.arr[k]? = some s → SliceIs s []

section
variable {list : Slice (Slice (Option Addr))} {addrs : List (List Addr)} {i : Nat} {xs : List (Option Addr)}

theorem Shape.toX (h : Shape list addrs) {as : List Addr} (ha : addrs[i]? = some as) : ShapeX list addrs i (as.map some) :=
  ⟨h.len, h.cap, h.col i as ha, fun k as' _ hk => h.col k as' hk, h.hid⟩

theorem ShapeX.set (h : ShapeX list addrs i xs) (hi : i < addrs.length) {s : Slice (Option Addr)} {ys : List (Option Addr)} (hs : SliceIs s ys) :
    ShapeX (list.set i s) addrs i ys := by
  have hcap := h.cap
  refine ⟨h.len, by simpa [Slice.set] using h.cap, ⟨s, ?_, hs⟩, ?_, ?_⟩
  · simp only [Slice.set]; rw [List.getElem?_set, if_pos rfl, if_pos (by omega)]
  · intro k as hk ha
    simp only [Slice.set]; rw [List.getElem?_set, if_neg (Ne.symm hk)]
    exact h.col k as hk ha
  · intro k s' hk hs'
    simp only [Slice.set] at hs'; rw [List.getElem?_set, if_neg (by omega)] at hs'
    exact h.hid k s' hk hs'

theorem ShapeX.done (h : ShapeX list addrs i []) (hi : i < addrs.length) : Shape list (addrs.set i []) := by
  refine ⟨by simpa using h.len, by simpa using h.cap, ?_, ?_⟩
  · intro k as hk
    rw [List.getElem?_set] at hk
    split at hk
    · rename_i he
      subst he
      obtain rfl := Option.some.inj hk
      exact h.this
    · rename_i he
      exact h.col k as (Ne.symm he) hk
  · intro k s hk hs
    rw [List.length_set] at hk
    exact h.hid k s hk hs

theorem ShapeX.get (h : ShapeX list addrs i xs) (hi : i < addrs.length) : ∃ s, list.get? i = some s ∧ SliceIs s xs := by
  obtain ⟨s, h1, h2⟩ := h.this
  exact ⟨s, by simp [Slice.get?, h.len, hi, h1], h2⟩

end

section
variable {la : Addr}

/-- Nothing else of the lattices changes. -/
def OtherLats (la : Addr) (h h' : LHeap) : Prop := ∀ x, x ≠ la → h'.l x = h.l x

theorem wp_freeNodes (A : List (List Addr)) (i : Nat) (hi : i < A.length) (rest : List Addr) :
    ∀ (j : Nat) (h : LHeap) (lv : LatObj) (Q : Option Unit → LHeap → Prop), h.l la = some lv →
    ShapeX lv.list A i (List.replicate j none ++ rest.map some) → rest.Nodup → (∀ a ∈ rest, ∃ pn, h.n a = some (true, pn)) →
    (∀ h' lv', h'.l la = some lv' → OtherLats la h h' → ShapeX lv'.list A i (List.replicate (j + rest.length) none) → lv'.output = lv.output → lv'.input = lv.input →
      (∀ a ∈ rest, h'.n a = none) → (∀ a, a ∉ rest → h'.n a = h.n a) → Q (some ()) h') →
    wp (Prog.each (List.range' j rest.length) (fun j => do
      let p ← atP la i j
      let n ← Prog.must p
      putNodeP n
      writeLatP la (fun l => { l with list := l.list.set i ((l.list.get? i).getD .nil |>.set j none) }))) h Q := by
  induction rest with
  | nil => intro j h lv Q h1 h2 _ _ ok; exact ok h lv h1 (fun _ _ => rfl) (by simpa using h2) rfl rfl (fun a ha => by cases ha) (fun _ _ => rfl)
  | cons a rest ih =>
    intro j h lv Q h1 h2 h3 h4 ok
    obtain ⟨s, hs1, hs2⟩ := h2.get hi
    obtain ⟨pn, hpn⟩ := h4 a (List.mem_cons_self ..)
    have hnd := List.nodup_cons.mp h3
    refine wp_bind ?_
    refine wp_bind (wp_readLat h1 (wp_must_some hs1 ?_))
    have hg : s.get? j = some (some a) := by rw [hs2.get]; simp
    rw [hg]
    refine wp_putNode hpn ?_
    refine ⟨lv, h1, ?_⟩
    refine ih (j + 1) _ _ Q (upd_same _ _ _) ?_ hnd.2 ?_ ?_
    · dsimp only
      rw [hs1]
      refine h2.set hi ?_
      have := hs2.set j
      have he : (List.replicate j (none : Option Addr) ++ (a :: rest).map some).set j none = List.replicate (j + 1) none ++ rest.map some := by
        rw [List.set_append]; simp [List.replicate_succ']
      rw [he] at this
      exact this
    · intro b hb
      have : b ≠ a := by rintro rfl; exact hnd.1 hb
      obtain ⟨pn', hb'⟩ := h4 b (List.mem_cons_of_mem _ hb)
      exact ⟨pn', by simp only [LHeap.setL, LHeap.setN]; rw [upd_other _ _ this]; exact hb'⟩
    · intro h' lv' e1 e2 e3 e4 e0 e5 e6
      refine ok h' lv' e1 (fun x hx => ?_) (by rw [List.length_cons, show j + (rest.length + 1) = j + 1 + rest.length by omega]; exact e3) e4 e0 ?_ ?_
      · rw [e2 x hx]; exact upd_other _ _ hx
      · intro b hb
        rcases List.mem_cons.mp hb with rfl | hb
        · rw [e6 b hnd.1]; exact upd_same _ _ _
        · exact e5 b hb
      · intro b hb
        rw [List.mem_cons, not_or] at hb
        rw [e6 b hb.2]; exact upd_other _ _ hb.1

theorem nodup_of_inj {A : List (List Addr)} (hA : Inj A) {i : Nat} {as : List Addr} (ha : A[i]? = some as) : as.Nodup := by
  unfold List.Nodup
  rw [List.pairwise_iff_getElem]
  intro j k hj hk hjk he
  have h1 : ptr A i j = some as[j] := by unfold ptr; rw [ha]; exact List.getElem?_eq_getElem hj
  have h2 : ptr A i k = some as[j] := by unfold ptr; rw [ha, he]; exact List.getElem?_eq_getElem hk
  have := (hA _ _ _ _ _ h1 h2).2
  omega

theorem wp_freeCol (A : List (List Addr)) (i : Nat) (as : List Addr) (ha : A[i]? = some as) (h : LHeap) (lv : LatObj)
    (Q : Option Unit → LHeap → Prop) (h1 : h.l la = some lv) (h2 : Shape lv.list A) (h3 : Inj A)
    (h4 : ∀ a ∈ as, ∃ pn, h.n a = some (true, pn))
    (ok : ∀ h' lv', h'.l la = some lv' → OtherLats la h h' → Shape lv'.list (A.set i []) → lv'.output = lv.output → lv'.input = lv.input →
      (∀ a ∈ as, h'.n a = none) → (∀ a, a ∉ as → h'.n a = h.n a) → Q (some ()) h') : wp (freeColP la i) h Q := by
  have hi := (List.getElem?_eq_some_iff.mp ha).1
  obtain ⟨s, hs1, hs2⟩ := h2.get ha
  refine wp_readLat h1 (wp_must_some hs1 (wp_bind ?_))
  rw [show s.len = as.length by rw [hs2.1, List.length_map], List.range_eq_range']
  refine wp_freeNodes A i hi as 0 h lv _ h1 (by simpa using h2.toX ha) (nodup_of_inj h3 ha) h4 ?_
  intro h' lv' e1 e2 e3 e4 e0 e5 e6
  obtain ⟨s', hs1', hs2'⟩ := e3.get hi
  refine wp_readLat e1 (wp_must_some hs1' (wp_must_some hs2'.reslice ⟨lv', e1, ?_⟩))
  refine ok _ _ (upd_same _ _ _) (fun x hx => ?_) ?_ e4 e0 e5 e6
  · rw [← e2 x hx]; exact upd_other _ _ hx
  · refine (e3.set hi (SliceIs.of_len_zero rfl (fun p hp => ?_))).done hi
    obtain ⟨_, t, g1, g2⟩ := hs2'
    rcases List.mem_append.mp (g1 ▸ hp) with hp | hp
    · exact List.eq_of_mem_replicate hp
    · exact g2 p hp

/-- The columns `is` are emptied. -/
def emptied (A : List (List Addr)) (is : List Nat) : List (List Addr) := is.foldl (fun A i => A.set i []) A

theorem ptr_set_nil (A : List (List Addr)) (i i' j : Nat) : ptr (A.set i []) i' j = if i = i' then none else ptr A i' j := by
  unfold ptr
  rw [List.getElem?_set]
  by_cases he : i = i'
  · subst he
    rw [if_pos rfl, if_pos rfl]
    split <;> rfl
  · rw [if_neg he, if_neg he]

theorem wp_freeCols (is : List Nat) :
    ∀ (A : List (List Addr)) (h : LHeap) (lv : LatObj) (Q : Option Unit → LHeap → Prop), (∀ i ∈ is, i < A.length) →
    h.l la = some lv → Shape lv.list A → Inj A → (∀ i j a, ptr A i j = some a → ∃ pn, h.n a = some (true, pn)) →
    (∀ h' lv', h'.l la = some lv' → OtherLats la h h' → Shape lv'.list (emptied A is) → lv'.output = lv.output → lv'.input = lv.input →
      (∀ i ∈ is, ∀ j a, ptr A i j = some a → h'.n a = none) → (∀ a x, h'.n a = some x → h.n a = some x) → Q (some ()) h') →
    wp (Prog.each is (freeColP la)) h Q := by
  induction is with
  | nil =>
    intro A h lv Q _ h1 h2 _ _ ok
    exact ok h lv h1 (fun _ _ => rfl) h2 rfl rfl (fun i hi => by cases hi) (fun _ _ hx => hx)
  | cons i is ih =>
    intro A h lv Q h0 h1 h2 h3 h4 ok
    have hi := h0 i (List.mem_cons_self ..)
    have ha : A[i]? = some A[i] := List.getElem?_eq_getElem hi
    have hmem : ∀ a, a ∈ A[i] ↔ ∃ j, ptr A i j = some a := by
      intro a
      unfold ptr
      rw [ha]
      exact List.mem_iff_getElem?
    refine wp_bind (wp_freeCol A i A[i] ha h lv _ h1 h2 h3 ?_ ?_)
    · intro a hx
      obtain ⟨j, hj⟩ := (hmem a).mp hx
      exact h4 i j a hj
    · intro h' lv' e1 e2 e3 e4 e0 e5 e6
      refine ih (A.set i []) h' lv' Q ?_ e1 e3 ?_ ?_ ?_
      · intro k hk; rw [List.length_set]; exact h0 k (List.mem_cons_of_mem _ hk)
      · intro a b c e x hx hy
        rw [ptr_set_nil] at hx hy
        split at hx
        · cases hx
        · split at hy
          · cases hy
          · exact h3 _ _ _ _ _ hx hy
      · intro k j a hk
        rw [ptr_set_nil] at hk
        split at hk
        · cases hk
        · rename_i hne
          obtain ⟨pn, hp⟩ := h4 k j a hk
          refine ⟨pn, ?_⟩
          rw [e6 a]
          · exact hp
          · intro hx
            obtain ⟨j', hj'⟩ := (hmem a).mp hx
            exact hne (h3 _ _ _ _ _ hj' hk).1
      · intro h'' lv'' f1 f2 f3 f4 f0 f5 f6
        have hback : ∀ a x, h''.n a = some x → h'.n a = some x := f6
        refine ok h'' lv'' f1 (fun x hx => (f2 x hx).trans (e2 x hx)) f3 (f4.trans e4) (f0.trans e0) ?_ ?_
        · intro k hk j a hp
          by_cases he : i = k
          · subst he
            have h5 := e5 a ((hmem a).mpr ⟨j, hp⟩)
            cases hn : h''.n a with
            | none => rfl
            | some x => rw [hback a x hn] at h5; cases h5
          · rcases List.mem_cons.mp hk with rfl | hk
            · exact absurd rfl he
            · exact f5 k hk j a (by rw [ptr_set_nil, if_neg he]; exact hp)
        · intro a x hx
          have h5 := hback a x hx
          by_cases hm : a ∈ A[i]
          · rw [e5 a hm] at h5; cases h5
          · rw [e6 a hm] at h5; exact h5

theorem emptied_get (is : List Nat) : ∀ (A : List (List Addr)) (i : Nat) (as : List Addr), (emptied A is)[i]? = some as →
    (i ∈ is → as = []) ∧ i < A.length := by
  have hlen : ∀ (is : List Nat) (A : List (List Addr)), (emptied A is).length = A.length := by
    intro is
    induction is with
    | nil => intro A; rfl
    | cons k is ih => intro A; show (emptied (A.set k []) is).length = _; rw [ih, List.length_set]
  intro A i as ha
  refine ⟨?_, by rw [← hlen is A]; exact (List.getElem?_eq_some_iff.mp ha).1⟩
  induction is generalizing A with
  | nil => intro hi; cases hi
  | cons k is ih =>
    intro hi
    have ha' : (emptied (A.set k []) is)[i]? = some as := ha
    by_cases hm : i ∈ is
    · exact ih _ ha' hm
    · rcases List.mem_cons.mp hi with rfl | hi
      · have hkeep : ∀ (is : List Nat) (A : List (List Addr)), i ∉ is → (emptied A is)[i]? = A[i]? := by
          intro is
          induction is with
          | nil => intro A _; rfl
          | cons k is ih =>
            intro A hn
            rw [List.mem_cons, not_or] at hn
            show (emptied (A.set k []) is)[i]? = _
            rw [ih _ hn.2, List.getElem?_set, if_neg (Ne.symm hn.1)]
        rw [hkeep _ _ hm, List.getElem?_set, if_pos rfl] at ha'
        split at ha'
        · exact (Option.some.inj ha').symm
        · cases ha'
      · exact absurd hi hm

theorem wp_clearOutput (is : List Nat) : ∀ (h : LHeap) (lv : LatObj) (Q : Option Unit → LHeap → Prop), h.l la = some lv →
    (∀ h' lv', h'.l la = some lv' → OtherLats la h h' → lv'.list = lv.list → lv'.input = lv.input → h'.n = h.n →
      (∀ k p, lv'.output.arr[k]? = some p → p = none ∨ k ∉ is ∧ lv.output.arr[k]? = some p) → Q (some ()) h') →
    wp (Prog.each is (fun i => writeLatP la (fun l => { l with output := l.output.set i none }))) h Q := by
  induction is with
  | nil => intro h lv Q h1 ok; exact ok h lv h1 (fun _ _ => rfl) rfl rfl rfl (fun k p hp => .inr ⟨List.not_mem_nil, hp⟩)
  | cons i is ih =>
    intro h lv Q h1 ok
    refine wp_bind ⟨lv, h1, ?_⟩
    refine ih _ _ Q (upd_same _ _ _) ?_
    intro h' lv' e1 e2 e3 e4 e5 e6
    refine ok h' lv' e1 (fun x hx => (e2 x hx).trans (upd_other _ _ hx)) e3 e4 e5 (fun k p hp => ?_)
    rcases e6 k p hp with h | ⟨h, hk⟩
    · exact .inl h
    · simp only [Slice.set] at hk
      rw [List.getElem?_set] at hk
      split at hk
      · split at hk
        · exact .inl (Option.some.inj hk).symm
        · cases hk
      · rename_i hne
        exact .inr ⟨by rw [List.mem_cons, not_or]; exact ⟨Ne.symm hne, h⟩, hk⟩

/-- After `Free` the program owns no lattice, and of the nodes from the pool only what it owned before and was not in the lattice. -/
theorem wp_free {d : Option Dict} {u : Option UserDict} {out : List Addr} {addrs : List (List Addr)} {h : LHeap}
    (Q : Option Unit → LHeap → Prop) (hl : LatIs d u out h la addrs) (hj : Inj addrs)
    (hn : ∀ i j a, ptr addrs i j = some a → ∃ pn, h.n a = some (true, pn))
    (ok : ∀ h', (∀ x, h'.l x = none) → (∀ a x, h'.n a = some x → h.n a = some x ∧ ∀ i j, ptr addrs i j ≠ some a) → Q (some ()) h') :
    wp (freeP la) h Q := by
  obtain ⟨lv, h1, -, -, h0, h2, h3⟩ := hl
  unfold freeP
  refine wp_writeLat h1 ?_
  refine wp_readLat (upd_same _ _ _) ?_
  refine wp_bind (wp_clearOutput _ _ _ _ (upd_same _ _ _) ?_)
  intro g lv1 e1 e2 e3 e5 e4 e6
  refine wp_readLat e1 (wp_must_some (a := ⟨lv1.output.arr, 0⟩) (by simp [Slice.reslice]) (wp_writeLat e1 ?_))
  refine wp_readLat (upd_same _ _ _) ?_
  have hlen : lv1.list.len = addrs.length := by rw [e3]; exact h2.len
  refine wp_bind (wp_freeCols (List.range lv1.list.len) addrs _ _ _ ?_ (upd_same _ _ _) (by rw [show (LatObj.list _) = lv.list from e3]; exact h2) hj ?_ ?_)
  · intro i hi; rw [hlen] at hi; exact List.mem_range.mp hi
  · intro i j a ha
    obtain ⟨pn, hp⟩ := hn i j a ha
    exact ⟨pn, by simp only [LHeap.setL] at e4 ⊢; rw [e4]; exact hp⟩
  · intro h' lv2 f1 f2 f3 f4 f0 f5 f6
    refine wp_readLat f1 (wp_must_some (a := ⟨lv2.list.arr, 0⟩) (by simp [Slice.reslice]) (wp_writeLat f1 (wp_rewriteLat ?_)))
    have hcols : ∀ s ∈ lv2.list.arr, SliceIs s [] := by
      intro s hs
      obtain ⟨k, hk⟩ := List.mem_iff_getElem?.mp hs
      replace hk : lv2.list.arr[k]? = some s := hk
      by_cases hlt : k < (emptied addrs (List.range lv1.list.len)).length
      · have hg := List.getElem?_eq_getElem hlt
        obtain ⟨s', g1, g2⟩ := f3.col _ _ hg
        obtain ⟨g3, g4⟩ := emptied_get _ _ _ _ hg
        rw [hk] at g1
        obtain rfl := Option.some.inj g1
        rw [g3 (by rw [hlen]; exact List.mem_range.mpr g4)] at g2
        exact g2
      · exact f3.hid k s (by omega) hk
    refine ⟨⟨_, upd_same _ _ _, ⟨⟨?_, fun s hs => (hcols s hs).1, ?_, fun s hs => (hcols s hs).none_of_nil⟩, ?_, rfl⟩⟩, ?_⟩
    · show lv2.output.len = 0
      rw [f4]
    · show ∀ p ∈ lv2.output.arr, p = none
      rw [f4]
      intro p hp
      obtain ⟨k, hk⟩ := List.mem_iff_getElem?.mp hp
      rcases e6 k p hk with h | ⟨h, hk'⟩
      · exact h
      · obtain ⟨o1, t, o2, o3⟩ := h0
        rw [List.mem_range] at h
        replace hk' : lv.output.arr[k]? = some p := hk'
        replace h : ¬ k < lv.output.len := h
        rw [o2, List.getElem?_append_right (by omega)] at hk'
        exact o3 p (List.mem_of_getElem? hk')
    · show lv2.input = []
      rw [f0]
      exact e5
    · refine ok _ ?_ ?_
      · intro x
        by_cases he : x = la
        · subst he; exact upd_same _ _ _
        · cases hx : h.l x with
          | some v => exact absurd (h3 x v hx) he
          | none =>
            simp only [LHeap.setL] at f2 e2 ⊢
            rw [upd_other _ _ he, upd_other _ _ he, f2 x he]
            simp only []
            rw [upd_other _ _ he, e2 x he]
            simp only []
            rw [upd_other _ _ he, hx]
      · intro a x hx
        have h5 := f6 a x hx
        refine ⟨?_, ?_⟩
        · simp only [LHeap.setL] at h5 e4; rw [e4] at h5; exact h5
        · intro i j hp
          have hi : i < addrs.length := by
            unfold ptr at hp
            cases hc : addrs[i]? with
            | none => rw [hc] at hp; cases hp
            | some as => exact (List.getElem?_eq_some_iff.mp hc).1
          have h6 := f5 i (by rw [hlen]; exact List.mem_range.mpr hi) j a hp
          rw [show h'.n a = some x from hx] at h6
          cases h6

/-- A goroutine between two calls: it owns no lattice and no node of the pool. -/
structure Idle (h : LHeap) : Prop where
  l : ∀ x, h.l x = none
  n : ∀ a pn, h.n a ≠ some (true, pn)

/-- `Analyze` computes what the sequential model computes, whatever the objects it is given contain, and gives everything back; when it panics it
still gives its lattice back. -/
theorem wp_analyze (t : Tokenizer) (ideo : Nat → Bool) (inp : Bytes) (mode : Int) {h : LHeap} (hi : Idle h)
    (Q : Option (List Token) → LHeap → Prop)
    (ok : ∀ h' toks, analyze t ideo inp mode = some toks → Idle h' → Q (some toks) h')
    (bad : analyze t ideo inp mode = none → ∀ h', (∀ x, h'.l x = none) → Q none h') :
    wp (analyzeP t ideo inp mode) h Q := by
  unfold analyzeP
  refine wp_bind (wp_getLat (fun la lv _ hclean => ?_))
  refine wp_rewriteLat (wp_rewriteLat ?_)
  refine wp_deferred ?_
  have hbad : analyze t ideo inp mode = none → ∀ h', Own h' la → beforeFin (freeP la) Q none h' := by
    intro hnone h' ho
    obtain ⟨d, u, out, addrs, o1, o2, o3⟩ := ho.rep
    exact wp_free _ o1 o2 o3 (fun h'' g1 _ => bad hnone h'' g1)
  unfold analyzeBodyP
  unfold analyze solve at hbad ok
  refine wp_bind (wp_build (d := t.dict) (u := t.userDict) inp (upd_same _ _ _) ⟨hclean.out, hclean.cols, hclean.noOut, hclean.noCols⟩ rfl rfl ?_ hi.n ?_ ?_)
  · intro x v hx
    by_cases he : x = la
    · exact he
    · simp only [LHeap.setL] at hx; rw [upd_other _ _ he, hi.l x] at hx; cases hx
  · intro h1 addrs cols hb hr1
    rw [hb] at hbad ok
    dsimp only at hbad ok
    refine wp_bind (wp_forward ideo (latticeMode mode) _ hr1 ?_ ?_)
    · intro h2 cols2 hf hr2
      rw [hf] at hbad ok
      dsimp only at hbad ok
      refine wp_bind (wp_backward (latticeMode mode) _ hr2 ?_ ?_)
      · intro h3 out ns _ hw _ hr3 ho _
        rw [hw] at hbad ok
        obtain ⟨lv3, e1, -, -, e2, -⟩ := hr3.lat
        have hlo : out.length = ns.length := by simpa using congrArg List.length ho
        refine wp_readLat e1 ?_
        rw [show lv3.output.len = ns.length by rw [e2.1, List.length_map, hlo]]
        have := wp_tokens t ns hr3 ho ns.reverse 0 0 (beforeFin (freeP la) Q) ⟨[], by simp⟩
        rw [List.length_reverse] at this
        refine this ?_
        refine wp_free _ hr3.lat hr3.inj (fun i j a ha => ?_) (fun h4 g1 g2 => ok h4 _ rfl ⟨g1, ?_⟩)
        · obtain ⟨_, pn, _, hx, _⟩ := hr3.at' ha
          exact ⟨pn, hx⟩
        · intro a pn hx
          obtain ⟨g3, g4⟩ := g2 a _ hx
          obtain ⟨i, j, hij⟩ := hr3.only a pn g3
          exact g4 i j hij
      · intro hw h3 ho
        rw [hw] at hbad
        exact hbad rfl h3 ho
    · intro hf h2 ho
      rw [hf] at hbad
      exact hbad rfl h2 ho
  · intro hb h1 ho
    rw [hb] at hbad
    exact hbad rfl h1 ho

end

end Kagome
