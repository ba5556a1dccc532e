import Verif.Model.LatticeApi
import Verif.Model.Tokenizer
import Verif.Spec.Words

/-!
What the exported lattice is for (C54): after `Build`, `Forward` and `Backward`, `Output` lists the words that `Analyze` returns, last word first.
-/

namespace Kagome.Spec

/-- What a reader sees of a node of `Output`. -/
structure View where
  id : Int
  cls : NodeClass
  position : Nat
  start : Nat
  surface : Bytes
deriving DecidableEq, Repr

def nodeView (n : Node) : View := ⟨n.id, n.cls, n.position, n.start, n.surface⟩

/-- The same of a token. The tokens for the two ends of the text are called `BOS` and `EOS`; in the lattice they have no surface. -/
def tokenView (tok : Token) : View := ⟨tok.id, tok.cls, tok.position, tok.start, if tok.id = -1 then [] else tok.surface⟩

/-- In extended mode `Backward` writes unknown words character by character. -/
def cutFor (m : LMode) (tok : Token) : List Token :=
  if m = .extended ∧ tok.cls = .unknown then
    (rangeString tok.surface).zipIdx.map (fun x =>
      { tok with cls := .dummy, position := tok.position + x.1.1, start := tok.start + x.2, stop := tok.start + x.2 + 1,
                 surface := encodeRune x.1.2 })
  else [tok]

/-- The mode in which `Analyze` looks for the same words as `Forward`. -/
def wordsMode : LMode → Int
  | .normal => 1
  | .search => 2
  | .extended => 2

/-- What one call of `Backward m` has to append to `Output` when the last `Forward` was in mode `cur`. -/
def answer (d : Dict) (u : Option UserDict) (ideo : Nat → Bool) (inp : Bytes) (cur m : LMode) : Option (List View) :=
  (analyze ⟨d, u, false⟩ ideo inp (wordsMode cur)).map fun toks => ((toks.flatMap (cutFor m)).map tokenView).reverse

/-- What a list of calls of `Forward` and `Backward` has to append, when the last `Forward` before it was in mode `cur`. -/
def answers (d : Dict) (u : Option UserDict) (ideo : Nat → Bool) (inp : Bytes) : LMode → List LatOp → Option (List View)
  | _, [] => some []
  | _, .forward m :: ops => answers d u ideo inp m ops
  | cur, .backward m :: ops => (answer d u ideo inp cur m).bind fun a => (answers d u ideo inp cur ops).map (a ++ ·)
  | _, .build _ :: _ => none

/-- The end of the text as a reader of `Output` sees it. -/
def endView (inp : Bytes) : View := ⟨-1, .dummy, inp.length, runeCount inp, []⟩

/-- What a list of calls of `Forward` and `Backward` has to append when no `Forward` came before it: a `Backward` before the first `Forward` finds no words. -/
def answersNew (d : Dict) (u : Option UserDict) (ideo : Nat → Bool) (inp : Bytes) : List LatOp → Option (List View)
  | [] => some []
  | .forward m :: ops => answers d u ideo inp m ops
  | .backward _ :: ops => (answersNew d u ideo inp ops).map (endView inp :: ·)
  | .build _ :: _ => none

end Kagome.Spec

namespace Kagome

/-- An object as it comes from the pool when it was used properly: nothing in `Output`, and every column there is room for is empty. -/
def Lattice.Clean (o : Lattice) : Prop := o.output = [] ∧ o.len = 0 ∧ ∀ c ∈ o.store, c = []

end Kagome
