import Verif.Spec.CommandLine
import Verif.Spec.Features
import Verif.Spec.Lines

/-! Specification: what `tokenize` prints. -/

namespace Kagome.Spec

open Kagome

/-- One line per token: the text alone for a token without features, otherwise text, tab, and the features with commas in between. -/
inductive TokenLine (t : Token) : Bytes → Prop
  | bare : t.cls = .dummy → TokenLine t (t.surface ++ str "\n")
  | full {fs : List Bytes} : t.cls ≠ .dummy → HasFeatures t fs →
      TokenLine t (t.surface ++ str "\t" ++ join (str ",") fs ++ str "\n")

/-- What is printed for the tokens of one text: their lines, without BOS and EOS, then `EOS`. -/
def PlainText (toks : List Token) (out : Bytes) : Prop :=
  ∃ rows : List Bytes, rows.length = (inner toks).length ∧
    (∀ (i : Nat) (t : Token) (row : Bytes), (inner toks)[i]? = some t → rows[i]? = some row → TokenLine t row) ∧
    out = rows.flatten ++ str "EOS\n"

/-- `outs` has a member for each text, and it is what `P` says of that text. -/
def ForEach (P : Bytes → Bytes → Prop) : List Bytes → List Bytes → Prop
  | [], [] => True
  | text :: texts, out :: outs => P text out ∧ ForEach P texts outs
  | _, _ => False

end Kagome.Spec
