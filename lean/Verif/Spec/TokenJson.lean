import Verif.Spec.Json
import Verif.Spec.Tokens
import Verif.Model.Token

/-! Specification: the JSON value of a token. Bytes that are not valid UTF-8 are replaced, JSON cannot carry them. -/

namespace Kagome.Spec

open Kagome

def textJson (s : Bytes) : Json := .str (repaired s)

def textsJson : Option (List Bytes) → Json
  | none => .null
  | some l => .arr (l.map textJson)

/-- The object of a token. -/
def dataJson (t : TokenData) : Json := .obj [
  (str "id", .num t.id), (str "start", .num t.start), (str "end", .num t.stop), (str "surface", textJson t.surface),
  (str "class", textJson t.cls), (str "pos", textsJson t.pos), (str "base_form", textJson t.baseForm), (str "reading", textJson t.reading),
  (str "pronunciation", textJson t.pronunciation), (str "features", textsJson t.features)]

end Kagome.Spec
