import Verif.Spec.JsonPlace
import Verif.Model.Server

/-! Specification: the request that stands in a body. -/

namespace Kagome.Spec

open Kagome

/-- The key names the field: the same letters, but for their case; the letter s may be long (U+017F). -/
inductive Names : Bytes → Bytes → Prop where
  | nil : Names [] []
  | same (b : UInt8) {key name : Bytes} : Names key name → Names (b :: key) (b :: name)
  | upper (b : UInt8) {key name : Bytes} : 0x61 ≤ b → b ≤ 0x7A → Names key name → Names ((b - 0x20) :: key) (b :: name)
  | long {key name : Bytes} : Names key name → Names (0xC5 :: 0xBF :: key) (0x73 :: name)

/-- The members of that name are texts or null, and `s` is the last of the texts; the empty text, if there is none. -/
def HasText (members : List (Bytes × JTree)) (name s : Bytes) : Prop :=
  (∀ m ∈ members, Names m.1 name → m.2 = .null ∨ ∃ x, m.2 = .str x) ∧
  ((∃ before key after, members = before ++ (key, .str s) :: after ∧ Names key name ∧ ∀ m ∈ after, Names m.1 name → m.2 = .null) ∨
    (s = [] ∧ ∀ m ∈ members, Names m.1 name → m.2 = .null))

/-- The request a value stands for. -/
def IsRequest (v : JTree) (req : ApiRequest) : Prop :=
  (v = .null ∧ req.input = [] ∧ req.mode = []) ∨
    ∃ members, v = .obj members ∧ HasText members (Kagome.str "sentence") req.input ∧ HasText members (Kagome.str "mode") req.mode

/-- The body has a JSON value at its front, which may have white space before it and anything behind it, and which stands for the request. At most 10000
brackets are open at a time. -/
def Carries (body : Bytes) (req : ApiRequest) : Prop :=
  ∃ ws text rest v, body = ws ++ text ++ rest ∧ IsSpace ws ∧ ValueText 10000 v text ∧ IsRequest v req

/-- The beginning of a JSON text. -/
def Beginning (s : Bytes) : Prop := ∃ more ws text v, s ++ more = ws ++ text ∧ IsSpace ws ∧ ValueText 10000 v text

/-- The value at the front of the body. -/
def Front (body : Bytes) (v : JTree) : Prop := ∃ ws text rest, body = ws ++ text ++ rest ∧ IsSpace ws ∧ ValueText 10000 v text

/-- A value that is not stored in a field of type string. -/
def Unfit (v : JTree) : Prop := v ≠ .null ∧ ∀ x, v ≠ .str x

/-- The type of a value, in the words of encoding/json. -/
def typeName : JTree → Bytes
  | .null => Kagome.str "null"
  | .bool _ => Kagome.str "bool"
  | .num _ => Kagome.str "number"
  | .str _ => Kagome.str "string"
  | .arr _ => Kagome.str "array"
  | .obj _ => Kagome.str "object"

/-- The fields of a request. -/
def fields : List Bytes := [Kagome.str "sentence", Kagome.str "mode"]

/-- The reason why a value is not a request. -/
inductive TypeError : JTree → Bytes → Prop where
  | whole (v : JTree) : v ≠ .null → (∀ l, v ≠ .obj l) →
      TypeError v (Kagome.str "json: cannot unmarshal " ++ typeName v ++ Kagome.str " into Go value of type server.TokenizerRequestBody")
  | field (before after : List (Bytes × JTree)) (k name : Bytes) (v : JTree) : name ∈ fields → Names k name → Unfit v →
      (∀ m ∈ before, ∀ name ∈ fields, Names m.1 name → ¬ Unfit m.2) →
      TypeError (.obj (before ++ (k, v) :: after))
        (Kagome.str "json: cannot unmarshal " ++ typeName v ++ Kagome.str " into Go struct field TokenizerRequestBody." ++ name ++ Kagome.str " of type string")

/-- The reason why a body carries no request: there is nothing in it; it ends too early; a character of it is wrong, this is the first one with which it is not
the beginning of a JSON text, and the reason names the character and its place; its value is of another type. -/
inductive Refusal (body : Bytes) : Bytes → Prop where
  | blank : IsSpace body → Refusal body (Kagome.str "EOF")
  | short : ¬ IsSpace body → Beginning body → (∀ v, Front body v → ∃ t, v = .num t) → Refusal body (Kagome.str "unexpected EOF")
  | wrong (good : Bytes) (c : UInt8) (rest char why : Bytes) : body = good ++ c :: rest → Beginning good → ¬ Beginning (good ++ [c]) →
      (∀ v, Front body v → ∃ t, v = .num t) → Shown c char → OpenValue c 10000 good why →
      Refusal body (Kagome.str "invalid character " ++ char ++ Kagome.str " " ++ why)
  | type (v : JTree) (reason : Bytes) : Front body v → TypeError v reason → Refusal body reason

end Kagome.Spec
