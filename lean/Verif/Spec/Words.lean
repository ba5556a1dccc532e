import Verif.Spec.Utf8
import Verif.Model.Dict
import Verif.Model.Lattice

/-!
What a dictionary contributes to the analysis of a text, what an analysis of a text is and what it costs, stated without the
lattice. Of the model only the dictionary types, the node classes and the modes are used.
-/

namespace Kagome.Spec

open Kagome

/-- The dictionary tables fit together. Every dictionary built by `kagome-dict` has this shape: the keys of the index are
non-empty UTF-8 strings that have a morph, every character category occurring has its flags and its unknown-word entries, and
the connection matrix covers the ids in the morph tables (0 is the id of BOS, EOS and user words). -/
structure WellFormed (d : Dict) (u : Option UserDict) : Prop where
  known_hit : ∀ s id l, (id, l) ∈ d.prefixSearch s → 1 ≤ l ∧ l ≤ s.length ∧ ValidUtf8 (s.take l) ∧ id < d.morphs.length
  user_hit : ∀ ud, u = some ud → ∀ s id l, (id, l) ∈ ud.prefixSearch s →
    1 ≤ l ∧ l ≤ s.length ∧ ValidUtf8 (s.take l) ∧ id < ud.contents.length
  group_flag : ∀ r, d.category r < d.groupList.length
  invoke_flag : ∀ r, d.category r < d.invokeList.length
  unk_entry : ∀ r, 0 ≤ d.unk.index (d.category r) ∧ 0 ≤ d.unk.indexDup (d.category r) ∧
    d.unk.index (d.category r) + d.unk.indexDup (d.category r) < d.unk.morphs.length
  conn : ∀ a b, a ∈ Morph.zero :: d.morphs ++ d.unk.morphs → b ∈ Morph.zero :: d.morphs ++ d.unk.morphs →
    (d.connection a.right.toInt b.left.toInt).isSome

/-- Either U+FFFD belongs to a grouping category (true of the IPA and UniDic dictionaries, where it is `DEFAULT`) or the text
contains no encoded U+FFFD. (Broken bytes, which decode to U+FFFD with width 1, are always allowed.) -/
def ReplacementOk (d : Dict) (inp : Bytes) : Prop :=
  d.groupList[d.category 0xFFFD]? = some true ∨ (0xFFFD, 3) ∉ runes inp

/-- A piece of an analysis: where it comes from, its id there, and its text. -/
structure Word where
  cls : NodeClass
  id : Int
  surface : Bytes
deriving DecidableEq, Repr

/-- The first `k` characters of `s`. -/
def firstChars (s : Bytes) (k : Nat) : Bytes := s.take (((runes s).take k).map Prod.snd).sum

/-- The code point a text starts with. -/
def firstChar (s : Bytes) : Nat := (decodeRune s).1

/-- The entries of the user dictionary that the text starts with: `(id, length in bytes)`. -/
def userEntries (u : Option UserDict) (s : Bytes) : List (Nat × Nat) :=
  match u with
  | some u => u.prefixSearch s
  | none => []

/-- The longest unknown word is cut at this many characters (a text starting with an encoded U+FFFD loses two). -/
def unknownLimit (s : Bytes) : Nat := if decodeRune s = (0xFFFD, 3) then 1022 else 1024

/-- Length in characters of the longest unknown word at the beginning of `s`: one character, or for a grouping category the
whole run of characters of the same category, up to the limit. -/
def unknownLength (d : Dict) (s : Bytes) : Nat :=
  if d.groupList[d.category (firstChar s)]? = some true then
    min (unknownLimit s) ((runes s).takeWhile (fun r => d.category r.1 = d.category (firstChar s))).length
  else 1

/-- The texts that may be unknown words at the beginning of `s`: the longest one, and that one without its last character
(not when that character is U+FFFD). -/
def UnknownText (d : Dict) (s w : Bytes) : Prop :=
  w = firstChars s (unknownLength d s) ∨
  (2 ≤ unknownLength d s ∧ (∀ r, (runes s)[unknownLength d s - 1]? = some r → r.1 ≠ 0xFFFD) ∧
    w = firstChars s (unknownLength d s - 1))

/-- The words that may stand at the beginning of the text `s`. -/
inductive Candidate (d : Dict) (u : Option UserDict) (s : Bytes) : Word → Prop
  | user (id l : Nat) : (id, l) ∈ userEntries u s → Candidate d u s ⟨.user, id, s.take l⟩
  | known (id l : Nat) : userEntries u s = [] → (id, l) ∈ d.prefixSearch s → Candidate d u s ⟨.known, id, s.take l⟩
  | unknown (x : Nat) (w : Bytes) : userEntries u s = [] → s ≠ [] →
      (d.prefixSearch s = [] ∨ d.invokeList[d.category (firstChar s)]? = some true) →
      (x : Int) ≤ d.unk.indexDup (d.category (firstChar s)) → UnknownText d s w →
      Candidate d u s ⟨.unknown, d.unk.index (d.category (firstChar s)) + x, w⟩

/-- An analysis of a text: the words follow each other and together are the text. -/
inductive Analysis (d : Dict) (u : Option UserDict) : Bytes → List Word → Prop
  | nil : Analysis d u [] []
  | cons (w : Word) (rest : Bytes) (ws : List Word) : Candidate d u (w.surface ++ rest) w → Analysis d u rest ws →
      Analysis d u (w.surface ++ rest) (w :: ws)

/-- Connection ids and cost of a word. -/
def morphOfWord (d : Dict) (w : Word) : Morph :=
  match w.cls, w.id with
  | .known, .ofNat n => (d.morphs[n]?).getD Morph.zero
  | .unknown, .ofNat n => (d.unk.morphs[n]?).getD Morph.zero
  | _, _ => Morph.zero

/-- The cost of putting `b` after `a`: nothing next to a user word, otherwise the entry of the connection matrix. -/
def connect (d : Dict) (a b : Word) : Int :=
  if a.cls = .user ∨ b.cls = .user then 0
  else match d.connection (morphOfWord d a).right.toInt (morphOfWord d b).left.toInt with
    | some c => c.toInt
    | none => 0

/-- The penalty for long words in search and extended mode: 3000 per character beyond two for words of ideographs only,
otherwise 1700 per character beyond seven. -/
def penalty (ideo : Nat → Bool) (w : Word) : Int :=
  if 2 < runeCount w.surface ∧ ∀ r ∈ runes w.surface, ideo r.1 = true then 3000 * ((runeCount w.surface : Int) - 2)
  else if 7 < runeCount w.surface then 1700 * ((runeCount w.surface : Int) - 7)
  else 0

/-- The cost of `b` after `a` in a given mode. -/
def stepCost (d : Dict) (ideo : Nat → Bool) (m : LMode) (a b : Word) : Int :=
  connect d a b + (morphOfWord d b).weight.toInt + (if m = .normal then 0 else penalty ideo a)

/-- The cost of a sequence of words, each after the one before. -/
def chainCost (d : Dict) (ideo : Nat → Bool) (m : LMode) : List Word → Int
  | a :: b :: ws => stepCost d ideo m a b + chainCost d ideo m (b :: ws)
  | _ => 0

/-- The sentence boundary. -/
def boundary : Word := ⟨.dummy, -1, []⟩

/-- The cost of an analysis, including the boundaries. -/
def cost (d : Dict) (ideo : Nat → Bool) (m : LMode) (ws : List Word) : Int :=
  chainCost d ideo m (boundary :: ws ++ [boundary])

/-- Costs that a text of `n` characters can add up to without touching the 32-bit limits: `n + 1` steps, each between `-lo` and
`hi`, plus the penalties. -/
def Fits (d : Dict) (n : Nat) : Prop :=
  ∃ lo hi : Int, 0 ≤ lo ∧ 0 ≤ hi ∧
    (∀ c : Int16, (c = 0 ∨ ∃ x y, d.connection x y = some c) → ∀ m, m ∈ Morph.zero :: d.morphs ++ d.unk.morphs →
      -lo ≤ c.toInt + m.weight.toInt ∧ c.toInt + m.weight.toInt ≤ hi) ∧
    (n + 1) * (lo + hi + 3000) < 2147483647

end Kagome.Spec
