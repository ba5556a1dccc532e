import Verif.Spec.Sentence

/-! Splitting a text into sentences before it is analysed. -/

namespace Kagome.Spec

open Kagome

/-- The characters of a text that sentences are made of. -/
def keptChars (s : Splitter) (cs : List Char) : List Char := if s.skipWhiteSpace then cs.filter nonSpace else cs

/-- There are never more than `n` delimiters and followers in a row. -/
def RunsUpTo (s : Splitter) (n : Nat) (cs : List Char) : Prop :=
  ∀ run, run <:+: cs → (∀ c ∈ run, s.isDelim c.val.toNat = true ∨ s.isFollower c.val.toNat = true) → run.length ≤ n

end Kagome.Spec
