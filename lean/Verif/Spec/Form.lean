import Verif.Spec.Live
import Verif.Model.Form

/-! Specification: the values in a form. -/

namespace Kagome.Spec

open Kagome

/-- A text of application/x-www-form-urlencoded and what it stands for. -/
inductive Unescaped : Bytes → Bytes → Prop where
  | nil : Unescaped [] []
  | plain (b : UInt8) {raw s : Bytes} : b ≠ 0x25 → b ≠ 0x2B → Unescaped raw s → Unescaped (b :: raw) (b :: s)
  | plus {raw s : Bytes} : Unescaped raw s → Unescaped (0x2B :: raw) (0x20 :: s)
  | percent (a b : UInt8) (x y : Nat) {raw s : Bytes} : hexVal a = some x → hexVal b = some y → Unescaped raw s →
      Unescaped (0x25 :: a :: b :: raw) (UInt8.ofNat (16 * x + y) :: s)

/-- The piece has a name and a value: what is in front of the first `=` and what is behind it. It has no semicolon. -/
def IsPair (piece name value : Bytes) : Prop :=
  0x3B ∉ piece ∧ piece ≠ [] ∧ ∃ rn rv, 0x3D ∉ rn ∧ (piece = rn ++ 0x3D :: rv ∨ piece = rn ∧ rv = []) ∧ Unescaped rn name ∧ Unescaped rv value

/-- The pieces of a text, between the `&`. -/
def Pieces (text : Bytes) (pieces : List Bytes) : Prop := pieces ≠ [] ∧ join (Kagome.str "&") pieces = text ∧ ∀ p ∈ pieces, 0x26 ∉ p

/-- The value of the first piece of that name; the empty text, if there is none. -/
def FirstValue (pieces : List Bytes) (name value : Bytes) : Prop :=
  (∃ before p after, pieces = before ++ p :: after ∧ IsPair p name value ∧ ∀ q ∈ before, ∀ v, ¬ IsPair q name v) ∨
    (value = [] ∧ ∀ p ∈ pieces, ∀ v, ¬ IsPair p name v)

/-- The body counts: a form of at most 10 MB that is posted (or put). -/
def BodyCounts (r : HttpRequest) : Prop :=
  r.method ∈ [Kagome.str "POST", Kagome.str "PUT", Kagome.str "PATCH"] ∧ r.isForm = true ∧ r.body.length ≤ 10 * 1024 * 1024

/-- The value of a field of a request: of the body, if it counts and has the field, and of the query otherwise. -/
def FieldValue (r : HttpRequest) (name value : Bytes) : Prop :=
  ∃ inQuery, Pieces r.query inQuery ∧
    ((BodyCounts r ∧ ∃ inBody, Pieces r.body inBody ∧ FirstValue (inBody ++ inQuery) name value) ∨ (¬ BodyCounts r ∧ FirstValue inQuery name value))

/-- The text with each of its line breaks, CR LF or CR or LF, as CR LF. -/
inductive WithCrlf : Bytes → Bytes → Prop where
  | nil : WithCrlf [] []
  | char (b : UInt8) {s s' : Bytes} : b ≠ 0x0D → b ≠ 0x0A → WithCrlf s s' → WithCrlf (b :: s) (b :: s')
  | crlf {s s' : Bytes} : WithCrlf s s' → WithCrlf (0x0D :: 0x0A :: s) (0x0D :: 0x0A :: s')
  | lf {s s' : Bytes} : WithCrlf s s' → WithCrlf (0x0A :: s) (0x0D :: 0x0A :: s')
  | cr {s s' : Bytes} : s.head? ≠ some 0x0A → WithCrlf s s' → WithCrlf (0x0D :: s) (0x0D :: 0x0A :: s')

end Kagome.Spec
