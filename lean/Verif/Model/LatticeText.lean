import Verif.Model.LatticeApi

/-! `Lattice.String` of `/repo/tokenizer/lattice/lattice.go`, with what `fmt` makes of a `*Node`. -/

namespace Kagome

/-- The field `prev` (node.go:47): `%v` of a pointer inside a struct is its address, or `<nil>`. -/
def prevText (addr : Ptr → Bytes) : Option Ptr → Bytes
  | none => str "<nil>"
  | some q => addr q

/-- `%v` of a `*Node` (node.go:36-48), lattice.go:185: `&` and the fields in braces; `Class` by its method `String` (node.go:22-34). -/
def nodeText (addr : Ptr → Bytes) (n : Node) : Bytes :=
  str "&{" ++ itoa n.id ++ str " " ++ itoa n.position ++ str " " ++ itoa n.start ++ str " " ++ className n.cls ++ str " " ++ itoa n.cost ++ str " " ++
    itoa n.left ++ str " " ++ itoa n.right ++ str " " ++ itoa n.weight ++ str " " ++ n.surface ++ str " " ++ prevText addr n.prev ++ str "}"

/-- lattice.go:182-188: one column. -/
def columnText (addr : Ptr → Bytes) (i : Nat) (nodes : List Node) : Bytes :=
  str "[" ++ itoa i ++ str "] :\n" ++ nodes.flatMap (fun n => nodeText addr n ++ str "\n") ++ str "\n"

/-- lattice.go:181-189: the loop over the columns, from column `i` on. -/
def columnsText (addr : Ptr → Bytes) : Nat → Cols → Bytes
  | _, [] => []
  | i, c :: cs => columnText addr i c ++ columnsText addr (i + 1) cs

/-- lattice.go:179-190 `String`. -/
def Lattice.string (addr : Ptr → Bytes) (o : Lattice) : Bytes := columnsText addr 0 (o.store.take o.len)

end Kagome
