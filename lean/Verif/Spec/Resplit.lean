import Verif.Spec.Chunks
import Verif.Spec.Utf8

/-!
# Specification: texts put together from sentences

Used to say when splitting a text that was made from sentences gives these sentences again.
-/

namespace Kagome.Spec

open Kagome

/-- A sentence that has an end of its own: it contains a delimiter, or it has as many characters as a sentence may have. -/
def HasEnd (s : Splitter) (x : Bytes) : Prop := (∃ c ∈ pieces x, s.isDelim c.1 = true) ∨ s.maxRuneLen ≤ (pieces x).length

/-- A sentence that cannot be taken for what follows the end of the sentence before it. -/
def OpensNew (s : Splitter) (x : Bytes) : Prop := ∀ c rest, pieces x = c :: rest → s.isDelim c.1 = false ∧ s.isFollower c.1 = false

/-- Every sentence but the last has an end of its own, and every one but the first cannot be taken for the closing of the one before it. -/
def SelfContained (s : Splitter) (xs : List Bytes) : Prop := (∀ x ∈ xs.dropLast, HasEnd s x) ∧ ∀ x ∈ xs.tail, OpensNew s x

/-- A text of white space. -/
def WhiteText (w : Bytes) : Prop := ∃ cs : List Char, w = enc cs ∧ ∀ c ∈ cs, c.val.toNat ∈ whiteSpace

/-- No white-space character is configured as a delimiter. -/
def NoWhiteDelim (s : Splitter) : Prop := ∀ r ∈ whiteSpace, s.isDelim r = false

/-- A text put together from parts, each with something behind it. -/
def putTogether (parts : List (Bytes × Bytes)) : Bytes := parts.flatMap (fun p => p.1 ++ p.2)

end Kagome.Spec
