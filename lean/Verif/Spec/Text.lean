import Verif.Spec.Quote
import Verif.Model.Text

/-! Specification: readers for printed forms. -/

namespace Kagome.Spec

open Kagome

/-- What is left of `s` behind the text `p`. -/
def expect (p s : Bytes) : Option Bytes := if p <+: s then some (s.drop p.length) else none

/-- What the printed form of a token tells. -/
structure TokenText where
  index : Int
  surface : Bytes
  position : Int
  start : Int
  stop : Int
  cls : Bytes
  id : Int
deriving DecidableEq, Repr

/-- Read `0:"すもも" (0: 0, 3) KNOWN [36163]`. -/
def readToken (s : Bytes) : Option TokenText :=
  (readInt s).bind fun index =>
  (expect (Kagome.str ":") index.2).bind fun s =>
  (unquote s).bind fun surface =>
  (expect (Kagome.str " (") surface.2).bind fun s =>
  (readInt s).bind fun position =>
  (expect (Kagome.str ": ") position.2).bind fun s =>
  (readInt s).bind fun start =>
  (expect (Kagome.str ", ") start.2).bind fun s =>
  (readInt s).bind fun stop =>
  (expect (Kagome.str ") ") stop.2).bind fun s =>
  (expect (Kagome.str " [") (s.dropWhile (fun b => b ≠ 0x20))).bind fun t =>
  (readInt t).bind fun id =>
  if id.2 = Kagome.str "]" then some ⟨index.1, surface.1, position.1, start.1, stop.1, s.takeWhile (fun b => b ≠ 0x20), id.1⟩ else none

/-- Features whose printed form cannot be misread: no line break, no space in front. -/
def Plain (v : Bytes) : Prop := 0x0A ∉ v ∧ v.head? ≠ some 0x20

end Kagome.Spec
