import Verif.Model.Machine

/-!
What the library keeps in memory between calls: what can be reached from the two pools. Property C84.
-/

namespace Kagome.Spec

/-- A pointer in the arrays of the lattice, also behind the elements of a slice: the garbage collector looks at whole arrays. -/
def HoldsNode (l : LatObj) (a : Addr) : Prop := some a ∈ l.output.arr ∨ ∃ col ∈ l.list.arr, some a ∈ col.arr

/-- The nodes that can be reached from a lattice in the pool. -/
inductive FromLattices (m : Mem) : Addr → Prop
  | held {la a : Addr} (h : la ∈ m.latPool) (hp : HoldsNode (m.lats la) a) : FromLattices m a
  | prev {a b : Addr} (h : FromLattices m b) (hp : (m.nodes b).prev = some a) : FromLattices m a

/-- The nodes that can be reached from a node in the pool. -/
inductive FromNodes (m : Mem) : Addr → Prop
  | pooled {a : Addr} (h : a ∈ m.nodePool) : FromNodes m a
  | prev {a b : Addr} (h : FromNodes m b) (hp : (m.nodes b).prev = some a) : FromNodes m a

/-- The library keeps this text, or a part of a text, which keeps the whole of it. -/
def KeepsText (m : Mem) (b : Bytes) : Prop :=
  b ≠ [] ∧ ((∃ la ∈ m.latPool, (m.lats la).input = b) ∨ ∃ a, (FromLattices m a ∨ FromNodes m a) ∧ (m.nodes a).surface = b)

/-- The library keeps a user dictionary. -/
def KeepsUserDict (m : Mem) : Prop := ∃ la ∈ m.latPool, (m.lats la).udic ≠ none

/-- The library keeps a system dictionary. -/
def KeepsDict (m : Mem) : Prop := ∃ la ∈ m.latPool, (m.lats la).dic ≠ none

end Kagome.Spec
