import Verif.Spec.Sentence
import Verif.Spec.Reader

/-!
# Specification: chunks of a text that are cut at harmless places

Used to say for which readers the sentences do not depend on how the text is delivered.
-/

namespace Kagome.Spec

open Kagome

/-- A character that neither ends a sentence nor can follow its end nor is left out. -/
def Ordinary (s : Splitter) (c : Piece) : Prop :=
  blank s c = false ∧ s.isDelim c.1 = false ∧ s.isFollower c.1 = false

/-- The last white-space character of a text is not a line feed. -/
def NoFeedLast (cs : List Piece) : Prop := ∀ c, (cs.filter (fun c => isSpace c.1)).getLast? = some c → c.1 ≠ 10

/-- How many characters, white space that is skipped aside, stand behind the last delimiter of a text. -/
def sinceDelim (s : Splitter) (cs : List Piece) : Nat :=
  ((cs.filter (fun c => !blank s c)).reverse.takeWhile (fun c => !s.isDelim c.1)).length

/-- A text that ends in the middle of a sentence: its last character is an ordinary one (and no line feed), and behind its last delimiter there are not yet so
many characters that the sentence could have been ended for its length. -/
def Midway (s : Splitter) (before : List Piece) : Prop :=
  (∃ c, before.getLast? = some c ∧ Ordinary s c ∧ c.1 ≠ 10) ∧ (sinceDelim s before : Int) < s.maxRuneLen

/-- The first character of a text, white space that is skipped aside, is an ordinary one, if there is one. -/
def StartsOrdinary (s : Splitter) (after : List Piece) : Prop := ∀ c, after.find? (fun c => !blank s c) = some c → Ordinary s c

/-- A text that ends with a sentence: a delimiter, perhaps delimiters and followers, perhaps white space that is skipped. -/
def EndsClosed (s : Splitter) (before : List Piece) : Prop :=
  ∃ u d fs bl, before = u ++ d :: (fs ++ bl) ∧ (blank s d = false ∧ s.isDelim d.1 = true) ∧
    (∀ f ∈ fs, blank s f = false ∧ (s.isDelim f.1 || s.isFollower f.1) = true) ∧ ∀ b ∈ bl, blank s b = true

/-- The text may be cut here: what follows begins with an ordinary character or what comes before ends in the middle of a sentence, and, if both options are
on, the last white space before the cut is not a line feed or stands behind the end of a sentence. -/
def SafeCut (s : Splitter) (before after : List Piece) : Prop :=
  after = [] ∨
    (StartsOrdinary s after ∨ Midway s before) ∧
      (s.skipWhiteSpace = true → s.doubleLineFeedSplit = true → NoFeedLast before ∨ EndsClosed s before)

/-- A reader that cuts the text it delivers at such places only. -/
def CutsSafely (s : Splitter) (reader : List ReadResult) : Prop :=
  ∀ before after, reader = before ++ after → (∀ x ∈ before, x.err = false) →
    delivered before = [] ∨ SafeCut s (pieces (delivered before)) (pieces (delivered after))

/-- Between any two line feeds of a text there are another white-space character (left out by the splitter) and an ordinary one.
Every text with at most one line feed is such a text. -/
def FeedsApart (s : Splitter) (cs : List Piece) : Prop :=
  ∀ before f1 between f2 after, cs = before ++ f1 :: (between ++ f2 :: after) → f1.1 = 10 → f2.1 = 10 →
    (∀ c ∈ between, c.1 ≠ 10) → (∃ c ∈ between, blank s c = true) ∧ ∃ c ∈ between, Ordinary s c

end Kagome.Spec
