import Verif.Go.Str

/-!
The dictionary types of `github.com/ikawaha/kagome-dict/dict` as `/repo` uses them. That package is not part of `/repo`:
the tables are lists, the double-array index and the character-category table are arbitrary functions.
-/

namespace Kagome

/-- `dict.Morph`: used at tokenizer/lattice/lattice.go:76-86,93. -/
structure Morph where
  left : Int16
  right : Int16
  weight : Int16
deriving DecidableEq, Repr

/-- The zero `dict.Morph`, tokenizer/lattice/lattice.go:76. -/
def Morph.zero : Morph := ⟨0, 0, 0⟩

/-- `dict.UnkDict`: used at lattice.go:83,166-167,282-299 and token.go:71-73,110-117,165-181,243. `Index` and `IndexDup` are
maps whose missing keys read as 0, hence total functions of the character category. -/
structure UnkDict where
  morphs : List Morph
  index : Nat → Int
  indexDup : Nat → Int
  contentsMeta : Bytes → Option Int8
  contents : List (List Bytes)

/-- `dict.Dict`: `contents = none` is a nil slice (token.go:59,66). `prefixSearch s` is the list of `(id, l)` that
`Index.CommonPrefixSearchCallback(s, _)` passes to its callback, in order (lattice.go:131). `connection r l` is
`Connection.At(r, l)`, `none` when it panics (lattice.go:225). `category` is `CharacterCategory` (lattice.go:138). -/
structure Dict where
  morphs : List Morph
  poss : List (List Nat)
  nameList : List Bytes
  contentsMeta : Bytes → Option Int8
  contents : Option (List (List Bytes))
  connection : Int → Int → Option Int16
  prefixSearch : Bytes → List (Nat × Nat)
  category : Nat → Nat
  invokeList : List Bool
  groupList : List Bool
  unk : UnkDict

/-- `dict.UserDictContent`: token.go:77-80,124-128,145-148. -/
structure UserContent where
  tokens : List Bytes
  yomi : List Bytes
  pos : Bytes
deriving DecidableEq, Repr

/-- `dict.UserDict`: lattice.go:118-125, token.go:76-80. -/
structure UserDict where
  prefixSearch : Bytes → List (Nat × Nat)
  contents : List UserContent

end Kagome
