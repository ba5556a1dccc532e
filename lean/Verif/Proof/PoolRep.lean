import Verif.Proof.Wp

/-!
How the memory of a running program represents the lattice of the sequential model.
-/

namespace Kagome

/-- The slice has these elements, and there are no pointers in the array behind them. -/
def SliceIs (s : Slice (Option Addr)) (xs : List (Option Addr)) : Prop := s.len = xs.length ∧ ∃ tail, s.arr = xs ++ tail ∧ ∀ p ∈ tail, p = none

namespace SliceIs

variable {s : Slice (Option Addr)} {xs : List (Option Addr)}

theorem get (h : SliceIs s xs) (j : Nat) : s.get? j = xs[j]? := by
  obtain ⟨h1, t, h2, -⟩ := h
  unfold Slice.get?
  rw [h1, h2]
  split
  · rename_i hj; exact List.getElem?_append_left hj
  · rename_i hj; exact (List.getElem?_eq_none (by omega)).symm

theorem append (h : SliceIs s xs) (x : Option Addr) (e : Nat) : SliceIs (s.append x e none) (xs ++ [x]) := by
  obtain ⟨h1, t, h2, h3⟩ := h
  unfold Slice.append
  rw [h1, h2]
  split
  · rename_i hl
    cases t with
    | nil => simp at hl
    | cons y t =>
      refine ⟨by simp, t, ?_, fun p hp => h3 p (List.mem_cons_of_mem _ hp)⟩
      simp
  · refine ⟨by simp, List.replicate e none, ?_, fun p hp => List.eq_of_mem_replicate hp⟩
    simp

theorem set (h : SliceIs s xs) (j : Nat) : SliceIs (s.set j none) (xs.set j none) := by
  obtain ⟨h1, t, h2, h3⟩ := h
  refine ⟨by simp [Slice.set, h1], ?_⟩
  simp only [Slice.set, h2]
  rw [List.set_append]
  split
  · exact ⟨t, rfl, h3⟩
  · rename_i hj
    refine ⟨t.set (j - xs.length) none, by rw [List.set_eq_of_length_le (l := xs) (by omega)], fun p hp => ?_⟩
    rcases List.mem_or_eq_of_mem_set hp with h | h
    · exact h3 p h
    · exact h

theorem nil : SliceIs Slice.nil [] := ⟨rfl, [], rfl, fun p hp => by cases hp⟩

theorem of_len_zero (h : s.len = 0) (h' : ∀ p ∈ s.arr, p = none) : SliceIs s [] := ⟨h, s.arr, rfl, h'⟩

theorem none_of_nil (h : SliceIs s []) : ∀ p ∈ s.arr, p = none := by
  obtain ⟨_, t, h2, h3⟩ := h
  rw [h2]
  exact h3

theorem reslice (_ : SliceIs s xs) : s.reslice 0 = some ⟨s.arr, 0⟩ := by simp [Slice.reslice]

end SliceIs

/-- The address of the node at a coordinate. -/
def ptr (addrs : List (List Addr)) (i j : Nat) : Option Addr := addrs[i]?.bind (·[j]?)

/-- The columns of the lattice are these addresses, and what is behind the visible part is empty. -/
structure Shape (list : Slice (Slice (Option Addr))) (addrs : List (List Addr)) : Prop where
  len : list.len = addrs.length
  cap : addrs.length ≤ list.arr.length
  col : ∀ (i : Nat) (as : List Addr), addrs[i]? = some as → ∃ s, list.arr[i]? = some s ∧ SliceIs s (as.map some)
  hid : ∀ (i : Nat) (s : Slice (Option Addr)), addrs.length ≤ i → list.arr[i]? = some s → SliceIs s []

namespace Shape

variable {list : Slice (Slice (Option Addr))} {addrs : List (List Addr)}

theorem get (h : Shape list addrs) {i : Nat} {as : List Addr} (ha : addrs[i]? = some as) :
    ∃ s, list.get? i = some s ∧ SliceIs s (as.map some) := by
  obtain ⟨s, h1, h2⟩ := h.col i as ha
  refine ⟨s, ?_, h2⟩
  have := (List.getElem?_eq_some_iff.mp ha).1
  simp [Slice.get?, h.len, this, h1]

theorem get_none (h : Shape list addrs) {i : Nat} (ha : addrs[i]? = none) : list.get? i = none := by
  have := List.getElem?_eq_none_iff.mp ha
  unfold Slice.get?
  rw [if_neg (by rw [h.len]; omega)]

/-- One column is replaced. -/
theorem set (h : Shape list addrs) {p : Nat} {s : Slice (Option Addr)} {as : List Addr} (hp : p < addrs.length)
    (hs : SliceIs s (as.map some)) : Shape (list.set p s) (addrs.set p as) := by
  have hcap := h.cap
  constructor
  · simp [Slice.set, h.len]
  · simpa [Slice.set] using h.cap
  · intro i as' hi
    simp only [Slice.set]
    rw [List.getElem?_set] at hi ⊢
    split at hi
    · rename_i he
      subst he
      obtain rfl := Option.some.inj hi
      refine ⟨s, ?_, hs⟩
      rw [if_pos rfl, if_pos (by omega)]
    · rename_i he
      rw [if_neg he]
      exact h.col i as' hi
  · intro i s' hi hs'
    simp only [Slice.set] at hs'
    rw [List.length_set] at hi
    rw [List.getElem?_set, if_neg (by omega)] at hs'
    exact h.hid i s' hi hs'

end Shape

/-- The lattice object, its columns (as addresses), its output (as addresses). The program owns no other lattice. -/
def LatIs (d : Option Dict) (u : Option UserDict) (out : List Addr) (h : LHeap) (la : Addr) (addrs : List (List Addr)) : Prop :=
  ∃ lv, h.l la = some lv ∧ lv.dic = d ∧ lv.udic = u ∧ SliceIs lv.output (out.map some) ∧ Shape lv.list addrs ∧
    ∀ x v, h.l x = some v → x = la

/-- Different places have different nodes. -/
def Inj (addrs : List (List Addr)) : Prop :=
  ∀ i j i' j' a, ptr addrs i j = some a → ptr addrs i' j' = some a → i = i' ∧ j = j'

/-- What `Free` needs. -/
structure Own (h : LHeap) (la : Addr) : Prop where
  rep : ∃ d u out addrs, LatIs d u out h la addrs ∧ Inj addrs ∧ ∀ i j a, ptr addrs i j = some a → ∃ pn, h.n a = some (true, pn)

/-- A node in memory is a node of the model. -/
structure RepNode (addrs : List (List Addr)) (n : Node) (pn : PNode) : Prop where
  val : pn.toNode = { n with prev := none }
  link : pn.prev = n.prev.bind (fun q => ptr addrs q.1 q.2)
  linked : n.prev.isSome → pn.prev.isSome

/-- The memory represents the columns `cols`. -/
structure Rep (d : Dict) (u : Option UserDict) (out : List Addr) (la : Addr) (h : LHeap) (addrs : List (List Addr)) (cols : Cols) : Prop where
  lat : LatIs (some d) u out h la addrs
  inj : Inj addrs
  same : cols.map List.length = addrs.map List.length
  node : ∀ i j a n, ptr addrs i j = some a → getNode cols i j = some n → ∃ pn, h.n a = some (true, pn) ∧ RepNode addrs n pn
  only : ∀ a pn, h.n a = some (true, pn) → ∃ i j, ptr addrs i j = some a

section
variable {d : Dict} {u : Option UserDict} {out : List Addr} {la : Addr} {h : LHeap} {addrs : List (List Addr)} {cols : Cols}

theorem Rep.length (hr : Rep d u out la h addrs cols) : cols.length = addrs.length := by
  simpa using congrArg List.length hr.same

theorem Rep.collen (hr : Rep d u out la h addrs cols) (i : Nat) : cols[i]?.map List.length = addrs[i]?.map List.length := by
  have := congrArg (fun l => l[i]?) hr.same
  simpa using this

theorem Rep.col (hr : Rep d u out la h addrs cols) {i : Nat} {as : List Addr} (ha : addrs[i]? = some as) :
    ∃ col, cols[i]? = some col ∧ col.length = as.length := by
  have := hr.collen i
  rw [ha] at this
  cases hc : cols[i]? with
  | none => rw [hc] at this; cases this
  | some col => rw [hc] at this; exact ⟨col, rfl, by simpa using this⟩

theorem Rep.col' (hr : Rep d u out la h addrs cols) {i : Nat} {col : List Node} (ha : cols[i]? = some col) :
    ∃ as, addrs[i]? = some as ∧ col.length = as.length := by
  have := hr.collen i
  rw [ha] at this
  cases hc : addrs[i]? with
  | none => rw [hc] at this; cases this
  | some col => rw [hc] at this; exact ⟨col, rfl, by simpa using this⟩

theorem Rep.col_none (hr : Rep d u out la h addrs cols) {i : Nat} (ha : cols[i]? = none) : addrs[i]? = none := by
  have := hr.collen i
  rw [ha] at this
  cases hc : addrs[i]? with
  | none => rfl
  | some col => rw [hc] at this; cases this

/-- A pointer and the node it stands for. -/
theorem Rep.at (hr : Rep d u out la h addrs cols) {i j : Nat} {n : Node} (hn : getNode cols i j = some n) :
    ∃ a pn, ptr addrs i j = some a ∧ h.n a = some (true, pn) ∧ RepNode addrs n pn := by
  unfold getNode at hn
  cases hc : cols[i]? with
  | none => rw [hc] at hn; cases hn
  | some col =>
    rw [hc] at hn
    replace hn : col[j]? = some n := hn
    obtain ⟨as, h1, h2⟩ := hr.col' hc
    obtain ⟨hj, _⟩ := List.getElem?_eq_some_iff.mp hn
    have hp : ptr addrs i j = some (as[j]'(h2 ▸ hj)) := by
      unfold ptr; rw [h1]; exact List.getElem?_eq_getElem (h2 ▸ hj)
    obtain ⟨pn, h3, h4⟩ := hr.node i j _ n hp (by unfold getNode; rw [hc]; exact hn)
    exact ⟨_, pn, hp, h3, h4⟩

theorem Rep.at_none (hr : Rep d u out la h addrs cols) {i j : Nat} (hn : getNode cols i j = none) : ptr addrs i j = none := by
  unfold getNode at hn
  unfold ptr
  cases hc : cols[i]? with
  | none => rw [hr.col_none hc]; rfl
  | some col =>
    rw [hc] at hn
    replace hn : col[j]? = none := hn
    obtain ⟨as, h1, h2⟩ := hr.col' hc
    rw [h1]
    rw [List.getElem?_eq_none_iff] at hn
    exact List.getElem?_eq_none (by omega)

theorem Rep.at' (hr : Rep d u out la h addrs cols) {i j : Nat} {a : Addr} (ha : ptr addrs i j = some a) :
    ∃ n pn, getNode cols i j = some n ∧ h.n a = some (true, pn) ∧ RepNode addrs n pn := by
  cases hn : getNode cols i j with
  | none => rw [hr.at_none hn] at ha; cases ha
  | some n =>
    obtain ⟨pn, h1, h2⟩ := hr.node i j a n ha hn
    exact ⟨n, pn, rfl, h1, h2⟩

theorem Rep.own (hr : Rep d u out la h addrs cols) : Own h la :=
  ⟨_, _, _, _, hr.lat, hr.inj, fun _ _ _ ha => by
    obtain ⟨_, pn, _, h1, _⟩ := hr.at' ha
    exact ⟨pn, h1⟩⟩

theorem getNode_setNode (cols : Cols) (i j i' j' : Nat) (n : Node) :
    getNode (setNode cols i j n) i' j' = if i = i' ∧ j = j' then (getNode cols i j).map (fun _ => n) else getNode cols i' j' := by
  unfold getNode setNode
  rw [List.getElem?_modify]
  by_cases hi : i = i'
  · subst hi
    cases hc : cols[i]? with
    | none => simp
    | some col =>
      by_cases hj : j = j'
      · subst hj
        simp [List.getElem?_set]
        by_cases hl : j < col.length
        · simp [hl]
        · simp [hl]
      · simp [hj]
  · simp [hi]

/-- Writing through a pointer changes the node at its place and nothing else. -/
theorem Rep.write (hr : Rep d u out la h addrs cols) {i j : Nat} {a : Addr} {n' : Node} {pn' : PNode}
    (ha : ptr addrs i j = some a) (hn : RepNode addrs n' pn') :
    Rep d u out la (h.setN a (some (true, pn'))) addrs (setNode cols i j n') := by
  constructor
  · exact hr.lat
  · exact hr.inj
  · rw [← hr.same]
    apply List.ext_getElem?
    intro k
    simp only [setNode, List.getElem?_map, List.getElem?_modify]
    cases cols[k]? with
    | none => rfl
    | some c =>
      by_cases he : i = k
      · simp [he]
      · simp [he]
  · intro i' j' a' n ha' hg
    rw [getNode_setNode] at hg
    by_cases he : a' = a
    · subst he
      obtain ⟨rfl, rfl⟩ := hr.inj _ _ _ _ _ ha ha'
      obtain ⟨n0, pn0, h1, h2, h3⟩ := hr.at' ha
      rw [if_pos ⟨rfl, rfl⟩, h1] at hg
      obtain rfl := Option.some.inj hg
      exact ⟨pn', by simp [LHeap.setN], hn⟩
    · have hne : ¬ (i = i' ∧ j = j') := by
        rintro ⟨rfl, rfl⟩
        rw [ha] at ha'
        exact he (Option.some.inj ha').symm
      rw [if_neg hne] at hg
      obtain ⟨pn, h1, h2⟩ := hr.node i' j' a' n ha' hg
      exact ⟨pn, by simp only [LHeap.setN]; rw [upd_other _ _ he]; exact h1, h2⟩
  · intro a' pn hh
    by_cases he : a' = a
    · subst he; exact ⟨i, j, ha⟩
    · simp only [LHeap.setN] at hh
      rw [upd_other _ _ he] at hh
      exact hr.only a' pn hh

/-- `la.list[i][j]` -/
theorem wp_atP {β : Type} {Q : Option β → LHeap → Prop} {f : Option Addr → Prog β} {i j : Nat} {a : Addr}
    (hl : ∃ d u out, LatIs d u out h la addrs) (ha : ptr addrs i j = some a) (hk : wp (f (some a)) h Q) :
    wp (atP la i j >>= f) h Q := by
  obtain ⟨d, u, out, lv, h1, -, -, -, h2, -⟩ := hl
  unfold ptr at ha
  cases hc : addrs[i]? with
  | none => rw [hc] at ha; cases ha
  | some as =>
    rw [hc] at ha
    replace ha : as[j]? = some a := ha
    obtain ⟨s, h3, h4⟩ := h2.get hc
    refine wp_bind (wp_readLat h1 (wp_must_some h3 ?_))
    have : s.get? j = some (some a) := by rw [h4.get, List.getElem?_map, ha]; rfl
    rw [this]
    exact hk

end

end Kagome
