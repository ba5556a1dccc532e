import Verif.Go.Quote
import Verif.Model.Filter

/-! The printed forms: `TokenizeMode.String`, `Token.String`, `FeaturesFilter.String`. `Lattice.String` is in `Verif/Model/LatticeText.lean`. -/

namespace Kagome

/-- tokenizer.go:21-31 `TokenizeMode.String`. -/
def modeString (m : Int) : Bytes :=
  if m = modeNormal then str "normal"
  else if m = modeSearch then str "search"
  else if m = modeExtended then str "extend"
  else str "unknown tokenize mode (" ++ itoa m ++ str ")"

/-- token.go:253-255 `Token.String`. -/
def tokenString (isPrint : Nat → Bool) (t : Token) : Bytes :=
  itoa t.index ++ str ":" ++ quote isPrint t.surface ++ str " (" ++ itoa t.position ++ str ": " ++ itoa t.start ++ str ", " ++ itoa t.stop ++ str ") " ++
    className t.cls ++ str " [" ++ itoa t.id ++ str "]"

mutual

/-- feature.go:101-109 `filterString`, with what is written as the result. -/
def FNode.print (indent : Nat) : FNode → Bytes
  | .mk es => printEdges indent es

/-- feature.go:103-108, the loop over the edges. -/
def printEdges (indent : Nat) : List (Bytes × FNode) → Bytes
  | [] => []
  | e :: es => (List.replicate indent (str "  ")).flatten ++ e.1 ++ str "\n" ++ e.2.print (indent + 1) ++ printEdges indent es

end

/-- feature.go:95-99 `FeaturesFilter.String`. -/
def filterText (f : FNode) : Bytes := f.print 0

end Kagome
