import Verif.Model.Server
import Verif.Spec.Tokens

/-! Specification: the demo page. -/

namespace Kagome.Spec

open Kagome

/-- A cell of the table: a star in place of a feature that does not exist. -/
def cell (v : Bytes × Bool) : Bytes := if v.2 then v.1 else str "*"

/-- The row of a token: its text, `POS()` joined with commas (a star if that is empty), `BaseForm()`, `Reading()`, `Pronunciation()`. -/
def RowOf (t : Token) (r : Record) : Prop :=
  ∃ pos b rd p, tokenPOS t = some pos ∧ baseForm t = some b ∧ reading t = some rd ∧ pronunciation t = some p ∧
    r.surface = t.surface ∧ r.baseForm = cell b ∧ r.reading = cell rd ∧ r.pronunciation = cell p ∧
    ((join (str ",") (pos.getD []) = [] ∧ r.pos = str "*") ∨ (r.pos = join (str ",") (pos.getD []) ∧ r.pos ≠ []))

/-- The rows of a list of tokens. -/
def RowsOf (toks : List Token) (rs : List Record) : Prop :=
  rs.length = toks.length ∧ ∀ (i : Nat) (t : Token) (r : Record), toks[i]? = some t → rs[i]? = some r → RowOf t r

/-- The picture without what is in front of the first `<svg`. -/
def Cropped (pic svg : Bytes) : Prop :=
  (∃ a b, pic = a ++ (str "<svg" ++ b) ∧ (∀ a' b', pic = a' ++ (str "<svg" ++ b') → a.length ≤ a'.length) ∧ svg = str "<svg" ++ b) ∨
  ((∀ a b, pic ≠ a ++ (str "<svg" ++ b)) ∧ svg = pic)

/-- The mode of the analysis: Extended uses search mode. -/
inductive DemoMode : Bytes → Int → Prop
  | search : DemoMode (str "Search") 2
  | extended : DemoMode (str "Extended") 2
  | other {mode : Bytes} : mode ≠ str "Search" → mode ≠ str "Extended" → DemoMode mode 1

end Kagome.Spec
