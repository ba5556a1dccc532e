import Verif.Model.Examples

/-! Specification: words in a text, for the full-text search. -/

namespace Kagome.Spec

open Kagome

/-- Bytes of characters outside ASCII, as Japanese words have them. -/
def Foreign (w : Bytes) : Prop := ∀ b ∈ w, (0x80 : UInt8) ≤ b

/-- What a search sees as a separator: ASCII other than letters and digits. -/
def Separator (b : UInt8) : Prop := b < 0x80 ∧ ¬ (0x30 ≤ b ∧ b ≤ 0x39) ∧ ¬ (0x41 ≤ b ∧ b ≤ 0x5A) ∧ ¬ (0x61 ≤ b ∧ b ≤ 0x7A)

/-- `w` stands in `s` between separators or the ends of `s`. -/
def StandsAlone (w s : Bytes) : Prop :=
  ∃ before after, s = before ++ w ++ after ∧ (∀ b, before.getLast? = some b → Separator b) ∧ (∀ b, after.head? = some b → Separator b)

/-- What is printed about a word found in the lines with the numbers `ks`. -/
def searchReport (lines : List Bytes) (w : Bytes) (ks : List Nat) : Bytes :=
  str "Searching for: " ++ w ++ str "\n" ++
    if ks = [] then str "  No results found\n"
    else ks.flatMap (fun k : Nat => str "  Found content: " ++ (lines[k - 1]?).getD [] ++ str " at line: " ++ itoa k ++ str "\n")

end Kagome.Spec
