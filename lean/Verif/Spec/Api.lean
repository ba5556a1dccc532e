import Verif.Spec.Json
import Verif.Spec.Utf8
import Verif.Model.Server

/-! Specification: a request of the API and what a client reads in the answer, in terms of JSON values. -/

namespace Kagome.Spec

open Kagome

/-- The member of an object. -/
def Json.get? (k : Bytes) : Json → Option Json
  | .obj l => (l.find? (fun x => x.1 = k)).map (·.2)
  | _ => none

/-- A text. -/
def Json.text : Json → Bytes
  | .str s => s
  | _ => []

/-- The texts of the tokens in an answer, joined. -/
def surfacesOf (answer : Json) : Bytes :=
  match answer.get? (Kagome.str "tokens") with
  | some (.arr l) => l.flatMap (fun t => ((t.get? (Kagome.str "surface")).getD .null).text)
  | _ => []

end Kagome.Spec
