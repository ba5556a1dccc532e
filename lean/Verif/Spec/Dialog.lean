import Verif.Model.Dialog
import Verif.Spec.Output
import Verif.Spec.Reader
import Verif.Spec.Utf8

/-! What has been entered and what has been shown at a moment of a run. `Verif/Model/Dialog.lean` is used for the type `Act` only. -/

namespace Kagome.Spec

open Kagome

/-- The bytes that have been read. -/
def entered : List Act → Bytes
  | [] => []
  | .read rd :: acts => rd.bytes ++ entered acts
  | .write _ :: acts => entered acts

/-- The pieces that have been written. -/
def said : List Act → List Bytes
  | [] => []
  | .read _ :: acts => said acts
  | .write text :: acts => text :: said acts

/-- A text up to and with its last line feed. -/
def closedPart (s : Bytes) : Bytes := s.take (s.length - (openLine s).length)

/-- The lines of a text that have been ended with a line feed. -/
def finishedLines (s : Bytes) : List Bytes := lines (closedPart s)

/-- A reader that delivers whole characters. -/
def WholeChars (rds : List ReadResult) : Prop := ∀ rd ∈ rds, ValidUtf8 rd.bytes

end Kagome.Spec
