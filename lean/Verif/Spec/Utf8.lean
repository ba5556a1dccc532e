import Verif.Go.Utf8

/-!
# Specification: valid UTF-8

Stated with Lean's own character type and encoder, not with the decoder of `Verif.Go.Utf8`.
-/

namespace Kagome.Spec

open Kagome

/-- `s` is the UTF-8 encoding of some sequence of Unicode scalar values. -/
def ValidUtf8 (s : Bytes) : Prop := ∃ cs : List Char, s = cs.flatMap String.utf8EncodeChar

end Kagome.Spec
