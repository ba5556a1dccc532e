import Verif.Spec.Api
import Verif.Spec.Tokens

/-! Specification: how a program reads what `tokenize -json` prints. -/

namespace Kagome.Spec

open Kagome

/-- JSON values one after another, with white space between them and around them. -/
def readValues : Nat → Bytes → Option (List Json)
  | 0, _ => none
  | fuel + 1, s =>
    if skipWs s = [] then some []
    else match readValue (s.length + 1) s with
      | none => none
      | some (v, rest) => (readValues fuel rest).map (fun l => v :: l)

/-- The values of a text. -/
def readStream (s : Bytes) : Option (List Json) := readValues (s.length + 1) s

/-- The texts under `surface` in the objects of an array. -/
def surfaceTexts : Json → List Bytes
  | .arr l => l.map (fun t => ((t.get? (Kagome.str "surface")).getD .null).text)
  | _ => []

/-- The characters of a text from number `a` to before number `b`. -/
def charsBetween (s : Bytes) (a b : Nat) : Bytes := (((runes s).drop a).take (b - a)).flatMap (fun r => encodeRune r.1)

/-- An object of a word says where the word is in a text: the characters from `start` to `end` are the surface, and there is at least one. -/
def Placed (text : Bytes) (v : Json) : Prop :=
  ∃ (a b : Nat) (s : Bytes), v.get? (Kagome.str "start") = some (.num a) ∧ v.get? (Kagome.str "end") = some (.num b) ∧
    v.get? (Kagome.str "surface") = some (.str s) ∧ a < b ∧ b ≤ runeCount text ∧ charsBetween text a b = s

end Kagome.Spec
