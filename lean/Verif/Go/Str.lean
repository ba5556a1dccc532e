import Verif.Go.Utf8

/-! Go string literals, slices and `strings` helpers over bytes. -/

namespace Kagome

/-- A Go string literal: the UTF-8 bytes of its characters. Language; used in /repo wherever there is a string literal, e.g.
cmd/tokenize/cmd.go:79-83. -/
def str (s : String) : Bytes := s.toList.flatMap String.utf8EncodeChar

/-- `s[a:b]`: panics (`none`) unless `a ≤ b ≤ len(s)`. Language; used in /repo at lattice.go:121, 132, 171, 173 and
filter/sentence_splitter.go:69-132. -/
def slice (s : Bytes) (a b : Nat) : Option Bytes :=
  if a ≤ b ∧ b ≤ s.length then some ((s.take b).drop a) else none

/-- `s[i]` of a slice with an `int` index: panics (`none`) unless `0 ≤ i < len(s)`. Language; used in /repo at tokenizer/token.go:62-79, 92-128. -/
def goGet {α : Type} (l : List α) (i : Int) : Option α :=
  match i with
  | .ofNat n => l[n]?
  | .negSucc _ => none

/-- `strings.Join(xs, sep)`. Standard library; used in /repo at tokenizer/token.go:78-79, 126, 128, lattice.go:306, cmd/tokenize/cmd.go:188,
cmd/lattice/cmd.go:70, 143 and cmd/server/demo.go:56. -/
def join (sep : Bytes) : List Bytes → Bytes
  | [] => []
  | [x] => x
  | x :: y :: t => x ++ sep ++ join sep (y :: t)

/-- Slices out of range panic. -/
example : slice [1, 2, 3] 1 3 = some [2, 3] ∧ slice [1, 2, 3] 2 1 = none ∧ slice [1, 2, 3] 1 4 = none ∧ slice [1, 2, 3] 3 3 = some [] := by decide

end Kagome
