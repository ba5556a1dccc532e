import Verif.Model.LatticeText
import Verif.Props.Text
import Verif.Props.DotText
import Verif.Props.LatticeApi

/-! C52: the debug text of a lattice tells what is in the lattice. -/

namespace Kagome

open Spec

/-- What `%v` makes of pointers: different texts for different pointers, none of them `<nil>`, and no space or line feed in them. -/
structure AddressTexts (addr : Ptr → Bytes) : Prop where
  inj : ∀ p q, addr p = addr q → p = q
  plain : ∀ p, (0x20 : UInt8) ∉ addr p ∧ (0x0A : UInt8) ∉ addr p
  proper : ∀ p, addr p ≠ str "<nil>"

theorem cut_at {sep : UInt8} {a b x y : Bytes} (ha : sep ∉ a) (hb : sep ∉ b) (h : a ++ sep :: x = b ++ sep :: y) : a = b ∧ x = y := by
  induction a generalizing b with
  | nil =>
    cases b with
    | nil => simpa using h
    | cons c b =>
      simp only [List.nil_append, List.cons_append, List.cons.injEq] at h
      exact absurd (by simp [h.1]) hb
  | cons c a ih =>
    cases b with
    | nil =>
      simp only [List.nil_append, List.cons_append, List.cons.injEq] at h
      exact absurd (by simp [h.1]) ha
    | cons c' b =>
      simp only [List.cons_append, List.cons.injEq] at h
      have := ih (fun hm => ha (by simp [hm])) (fun hm => hb (by simp [hm])) h.2
      exact ⟨by rw [h.1, this.1], this.2⟩

theorem cut_at_last {sep : UInt8} {a b x y : Bytes} (hx : sep ∉ x) (hy : sep ∉ y) (h : a ++ sep :: x = b ++ sep :: y) : a = b ∧ x = y := by
  have := congrArg List.reverse h
  simp only [List.reverse_append, List.reverse_cons, List.append_assoc, List.singleton_append] at this
  have := cut_at (by simpa using hx) (by simpa using hy) this
  exact ⟨List.reverse_inj.mp this.2, List.reverse_inj.mp this.1⟩

theorem itoa_no_space (x : Int) : (0x20 : UInt8) ∉ itoa x := by
  intro h
  rcases itoa_digits x _ h with h | h <;> revert h <;> decide

theorem itoa_no_feed (x : Int) : (0x0A : UInt8) ∉ itoa x := by
  intro h
  rcases itoa_digits x _ h with h | h <;> revert h <;> decide

theorem itoa_inj {x y : Int} (h : itoa x = itoa y) : x = y := by
  have hx := numberText_itoa x
  rw [h, numberText_itoa] at hx
  cases hx; rfl

theorem className_no (c : NodeClass) : (0x20 : UInt8) ∉ className c ∧ (0x0A : UInt8) ∉ className c := by
  cases c <;> decide

theorem className_inj {a b : NodeClass} (h : className a = className b) : a = b := by
  cases a <;> cases b <;> first | rfl | (revert h; decide)

theorem prevText_inj {addr : Ptr → Bytes} (ha : AddressTexts addr) {p q : Option Ptr} (h : prevText addr p = prevText addr q) : p = q := by
  cases p with
  | none => cases q with
    | none => rfl
    | some q => exact absurd h.symm (ha.proper q)
  | some p => cases q with
    | none => exact absurd h (ha.proper p)
    | some q => rw [ha.inj p q h]

theorem prevText_no {addr : Ptr → Bytes} (ha : AddressTexts addr) (p : Option Ptr) :
    (0x20 : UInt8) ∉ prevText addr p ∧ (0x0A : UInt8) ∉ prevText addr p := by
  cases p with
  | none => exact ⟨show (0x20 : UInt8) ∉ str "<nil>" by decide, show (0x0A : UInt8) ∉ str "<nil>" by decide⟩
  | some p => exact ha.plain p

/-- The line of a node, with its fields one behind the other. -/
theorem nodeText_eq (addr : Ptr → Bytes) (n : Node) :
    nodeText addr n = 0x26 :: 0x7B :: (itoa n.id ++ 0x20 :: (itoa n.position ++ 0x20 :: (itoa n.start ++ 0x20 :: (className n.cls ++ 0x20 ::
      (itoa n.cost ++ 0x20 :: (itoa n.left ++ 0x20 :: (itoa n.right ++ 0x20 :: (itoa n.weight ++ 0x20 :: (n.surface ++ 0x20 ::
        (prevText addr n.prev ++ [0x7D])))))))))) := by
  have h1 : str "&{" = [0x26, 0x7B] := by decide
  have h2 : str " " = [0x20] := by decide
  have h3 : str "}" = [0x7D] := by decide
  unfold nodeText
  rw [h1, h2, h3]
  simp only [List.append_assoc, List.cons_append, List.nil_append]

theorem nodeText_inj {addr : Ptr → Bytes} (ha : AddressTexts addr) {n n' : Node} (h : nodeText addr n = nodeText addr n') : n = n' := by
  rw [nodeText_eq, nodeText_eq] at h
  simp only [List.cons.injEq, true_and] at h
  obtain ⟨e1, h⟩ := cut_at (itoa_no_space _) (itoa_no_space _) h
  obtain ⟨e2, h⟩ := cut_at (itoa_no_space _) (itoa_no_space _) h
  obtain ⟨e3, h⟩ := cut_at (itoa_no_space _) (itoa_no_space _) h
  obtain ⟨e4, h⟩ := cut_at (className_no _).1 (className_no _).1 h
  obtain ⟨e5, h⟩ := cut_at (itoa_no_space _) (itoa_no_space _) h
  obtain ⟨e6, h⟩ := cut_at (itoa_no_space _) (itoa_no_space _) h
  obtain ⟨e7, h⟩ := cut_at (itoa_no_space _) (itoa_no_space _) h
  obtain ⟨e8, h⟩ := cut_at (itoa_no_space _) (itoa_no_space _) h
  have hb : ∀ p, (0x20 : UInt8) ∉ prevText addr p ++ [0x7D] := by
    intro p hm
    rcases List.mem_append.mp hm with hm | hm
    · exact (prevText_no ha p).1 hm
    · revert hm; decide
  obtain ⟨e9, h⟩ := cut_at_last (hb _) (hb _) h
  have e10 := prevText_inj ha (List.append_cancel_right h)
  have i2 := itoa_inj e2
  have i3 := itoa_inj e3
  cases n
  cases n'
  simp only [Node.mk.injEq]
  exact ⟨itoa_inj e1, by exact_mod_cast i2, by exact_mod_cast i3, className_inj e4, itoa_inj e5, itoa_inj e6, itoa_inj e7, itoa_inj e8, e9, e10⟩

theorem nodeText_no_feed {addr : Ptr → Bytes} (ha : AddressTexts addr) {n : Node} (h : (0x0A : UInt8) ∉ n.surface) : (0x0A : UInt8) ∉ nodeText addr n := by
  rw [nodeText_eq]
  have hp := (prevText_no ha n.prev).2
  have hc := (className_no n.cls).2
  simp [itoa_no_feed, h, hp, hc]

/-- The lines of a column behind its heading. -/
theorem column_inj {addr : Ptr → Bytes} (ha : AddressTexts addr) {c c' : List Node} (hc : ∀ n ∈ c, (0x0A : UInt8) ∉ n.surface)
    (hc' : ∀ n ∈ c', (0x0A : UInt8) ∉ n.surface) {x y : Bytes}
    (h : c.flatMap (fun n => nodeText addr n ++ [0x0A]) ++ 0x0A :: x = c'.flatMap (fun n => nodeText addr n ++ [0x0A]) ++ 0x0A :: y) : c = c' ∧ x = y := by
  induction c generalizing c' with
  | nil =>
    cases c' with
    | nil => simpa using h
    | cons n' c' =>
      rw [List.flatMap_cons, nodeText_eq] at h
      simp at h
  | cons n c ih =>
    cases c' with
    | nil =>
      rw [List.flatMap_cons, nodeText_eq] at h
      simp at h
    | cons n' c' =>
      rw [List.flatMap_cons, List.flatMap_cons] at h
      simp only [List.append_assoc, List.cons_append, List.nil_append] at h
      obtain ⟨h1, h2⟩ := cut_at (nodeText_no_feed ha (hc n (by simp))) (nodeText_no_feed ha (hc' n' (by simp))) h
      obtain ⟨h3, h4⟩ := ih (fun m hm => hc m (by simp [hm])) (fun m hm => hc' m (by simp [hm])) h2
      exact ⟨by rw [nodeText_inj ha h1, h3], h4⟩

theorem columnText_eq (addr : Ptr → Bytes) (i : Nat) (c : List Node) (x : Bytes) :
    columnText addr i c ++ x = (0x5B :: (itoa i ++ [0x5D, 0x20, 0x3A])) ++ 0x0A :: (c.flatMap (fun n => nodeText addr n ++ [0x0A]) ++ 0x0A :: x) := by
  have h1 : str "[" = [0x5B] := by decide
  have h2 : str "] :\n" = [0x5D, 0x20, 0x3A, 0x0A] := by decide
  have h3 : str "\n" = [0x0A] := by decide
  unfold columnText
  rw [h1, h2, h3]
  simp only [List.append_assoc, List.cons_append, List.nil_append]

theorem columns_inj {addr : Ptr → Bytes} (ha : AddressTexts addr) (i : Nat) {a b : Cols} (hA : ∀ c ∈ a, ∀ n ∈ c, (0x0A : UInt8) ∉ n.surface)
    (hB : ∀ c ∈ b, ∀ n ∈ c, (0x0A : UInt8) ∉ n.surface) (h : columnsText addr i a = columnsText addr i b) : a = b := by
  induction a generalizing i b with
  | nil =>
    cases b with
    | nil => rfl
    | cons c b => rw [columnsText, columnsText, columnText_eq] at h; simp at h
  | cons c a ih =>
    cases b with
    | nil => rw [columnsText, columnsText, columnText_eq] at h; simp at h
    | cons c' b =>
      rw [columnsText, columnsText, columnText_eq, columnText_eq] at h
      have h := (List.append_cancel_left h)
      simp only [List.cons.injEq, true_and] at h
      obtain ⟨h1, h2⟩ := column_inj ha (hA c (by simp)) (hB c' (by simp)) h
      rw [h1, ih (i + 1) (fun d hd => hA d (by simp [hd])) (fun d hd => hB d (by simp [hd])) h2]

/-- C52: the debug text of a lattice tells the columns and, of every node, everything: two lattices without a line feed in a surface have the same text
exactly if they have the same nodes at the same places, with the same costs and the same nodes before them. -/
theorem C52_lattice {addr : Ptr → Bytes} (ha : AddressTexts addr) {o o' : Lattice}
    (hs : ∀ c ∈ o.store.take o.len, ∀ n ∈ c, (0x0A : UInt8) ∉ n.surface) (hs' : ∀ c ∈ o'.store.take o'.len, ∀ n ∈ c, (0x0A : UInt8) ∉ n.surface) :
    o.string addr = o'.string addr ↔ o.store.take o.len = o'.store.take o'.len := by
  unfold Lattice.string
  exact ⟨columns_inj ha 0 hs hs', fun h => by rw [h]⟩

/-- A lattice with one node, whose surface has a line feed. -/
def Toy.oneNode : Cols := [[⟨1, 0, 0, .known, 0, 0, 0, 0, str "a <nil>}\n&{1 0 0 KNOWN 0 0 0 0 b", none⟩]]

/-- A lattice with two nodes. -/
def Toy.twoNodes : Cols := [[⟨1, 0, 0, .known, 0, 0, 0, 0, str "a", none⟩, ⟨1, 0, 0, .known, 0, 0, 0, 0, str "b", none⟩]]

theorem nodeText_free (addr addr' : Ptr → Bytes) {n : Node} (h : n.prev = none) : nodeText addr n = nodeText addr' n := by
  have hp : prevText addr n.prev = prevText addr' n.prev := by rw [h]; rfl
  rw [nodeText_eq, nodeText_eq, hp]

theorem column_free (addr addr' : Ptr → Bytes) (i : Nat) {c : List Node} (h : ∀ n ∈ c, n.prev = none) : columnText addr i c = columnText addr' i c := by
  have hn : ∀ c : List Node, (∀ n ∈ c, n.prev = none) →
      c.flatMap (fun n => nodeText addr n ++ [0x0A]) = c.flatMap (fun n => nodeText addr' n ++ [0x0A]) := by
    intro c hc
    induction c with
    | nil => rw [List.flatMap_nil, List.flatMap_nil]
    | cons n c ihc =>
      rw [List.flatMap_cons, List.flatMap_cons, ihc (fun m hm => hc m (by simp [hm])), nodeText_free addr addr' (hc n (by simp))]
  have h1 := columnText_eq addr i c []
  have h2 := columnText_eq addr' i c []
  rw [hn c h, ← h2] at h1
  exact List.append_cancel_right h1

theorem columnsText_free (addr addr' : Ptr → Bytes) (i : Nat) {a : Cols} (h : ∀ c ∈ a, ∀ n ∈ c, n.prev = none) :
    columnsText addr i a = columnsText addr' i a := by
  induction a generalizing i with
  | nil => rfl
  | cons c a ih => rw [columnsText, columnsText, ih (i + 1) (fun d hd => h d (by simp [hd])), column_free addr addr' i (h c (by simp))]

/-- C52: with a line feed in a surface two different lattices can have the same text: here one node, and two. -/
theorem C52_lattice_line_break (addr : Ptr → Bytes) : ∃ a b : Cols, a ≠ b ∧ columnsText addr 0 a = columnsText addr 0 b := by
  refine ⟨Toy.oneNode, Toy.twoNodes, fun h => ?_, ?_⟩
  · have := congrArg (fun c : Cols => c.map List.length) h
    revert this
    decide
  · have h0 : columnsText addr 0 Toy.oneNode = columnsText (fun _ => []) 0 Toy.oneNode := columnsText_free _ _ 0 (by decide)
    have h1 : columnsText addr 0 Toy.twoNodes = columnsText (fun _ => []) 0 Toy.twoNodes := columnsText_free _ _ 0 (by decide)
    rw [h0, h1]
    decide +kernel

/-! ### The hypotheses can be met -/

theorem Toy.addr_texts : AddressTexts Toy.addr := by
  have he : ∀ p : Ptr, Toy.addr p = str "0xc" ++ (itoa p.1 ++ 0x61 :: itoa p.2) := by
    intro p
    have h : str "a" = [0x61] := by decide
    unfold Toy.addr
    rw [h]
    simp only [List.append_assoc, List.cons_append, List.nil_append]
  have hd : ∀ x : Int, (0x61 : UInt8) ∉ itoa x := by
    intro x h
    rcases itoa_digits x _ h with h | h <;> revert h <;> decide
  have h0 : (0x20 : UInt8) ∉ str "0xc" := by decide
  have h1 : (0x0A : UInt8) ∉ str "0xc" := by decide
  refine ⟨fun p q h => ?_, fun p => ?_, fun p h => ?_⟩
  · rw [he, he] at h
    obtain ⟨a, b⟩ := cut_at (hd _) (hd _) (List.append_cancel_left h)
    have a := itoa_inj a
    have b := itoa_inj b
    exact Prod.ext (by exact_mod_cast a) (by exact_mod_cast b)
  · rw [he]
    simp [itoa_no_space, itoa_no_feed, h0, h1]
  · have := congrArg List.head? h
    have hs : str "0xc" = [0x30, 0x78, 0x63] := by decide
    rw [he, hs] at this
    revert this
    simp only [List.cons_append, List.head?_cons]
    decide

/-- A lattice and its text. -/
example : ((newLattice Toy.dict none).calls Toy.ideo [.build (str "もa"), .forward .normal]).map (Lattice.string Toy.addr) =
    some (str "[0] :\n&{-1 0 0 DUMMY 0 0 0 0  <nil>}\n\n[1] :\n&{3 0 0 KNOWN 3000 2 2 3000 も 0xc0a0}\n\n" ++
      str "[2] :\n&{1 3 1 UNKNOWN 8000 1 1 5000 a 0xc1a0}\n&{2 3 1 UNKNOWN 13500 2 2 9000 a 0xc1a0}\n\n[3] :\n&{-1 4 2 DUMMY 8000 0 0 0  0xc2a0}\n\n") := by
  decide +kernel

end Kagome
