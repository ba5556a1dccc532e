import Verif.Model.Cmd
import Verif.Spec.Output

/-!
What can get lost on the way out (C70). `room i` is how many bytes call number `i` of `Write` can write; `none`: as many as it is given.
-/

namespace Kagome.Spec

open Kagome

/-- Nothing gets lost. -/
def Unlimited (room : Nat → Option Nat) : Prop := ∀ i, room i = none

/-- `parts` has a member for each of `wholes`: that whole, or only its beginning. -/
def CutParts (parts wholes : List Bytes) : Prop := ForEach (fun whole part => part <+: whole) wholes parts

/-- What the one who started the process learns without looking at the output: the exit status, what is on stderr, the address served, and which files
were written. -/
def seenOutside (e : Exit) : Nat × List Note × Option Bytes × List Bytes := (e.exit, e.notes, e.served, e.files.map (·.1))

end Kagome.Spec
