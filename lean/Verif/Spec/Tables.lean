import Verif.Spec.Tokens

/-! A dictionary given by lists: words with their costs, a matrix of connection costs, and what is known of each category of characters. -/

namespace Kagome.Spec

open Kagome

/-- A text of characters in UTF-8. -/
def utf8 (cs : List Char) : Bytes := cs.flatMap String.utf8EncodeChar

/-- What a dictionary says of a category of characters. -/
structure CategoryEntry where
  invoke : Bool
  group : Bool
  /-- the unknown words of this category -/
  unknowns : List Morph

/-- The lists a dictionary is made of. -/
structure Tables where
  words : List (List Char × Morph)
  matrix : List (List Int16)
  categories : List CategoryEntry
  categoryOf : Nat → Nat

/-- The numbers of the entries of `words` that `s` starts with, and their lengths; `i` is the number of the first one. -/
def startingWords (s : Bytes) : Nat → List (List Char) → List (Nat × Nat)
  | _, [] => []
  | i, w :: ws => (if utf8 w <+: s then [(i, (utf8 w).length)] else []) ++ startingWords s (i + 1) ws

/-- The dictionary made of the lists. (Parts of speech and other features play no role in the segmentation.) -/
def Tables.dict (T : Tables) : Dict where
  morphs := T.words.map (·.2)
  poss := []
  nameList := []
  contentsMeta := fun _ => none
  contents := none
  connection := fun x y => if 0 ≤ x ∧ 0 ≤ y then (T.matrix[x.toNat]?).bind (·[y.toNat]?) else none
  prefixSearch := fun s => startingWords s 0 (T.words.map (·.1))
  category := T.categoryOf
  invokeList := T.categories.map (·.invoke)
  groupList := T.categories.map (·.group)
  unk := {
    morphs := T.categories.flatMap (·.unknowns)
    index := fun c => ((T.categories.take c).flatMap (·.unknowns)).length
    indexDup := fun c => match T.categories[c]? with | some e => (e.unknowns.length : Int) - 1 | none => 0
    contentsMeta := fun _ => none
    contents := [] }

/-- A user dictionary made of words. -/
def userTables (l : List (List Char × UserContent)) : UserDict := ⟨fun s => startingWords s 0 (l.map (·.1)), l.map (·.2)⟩

/-- A connection class that the matrix has. -/
def Tables.Class (T : Tables) (x : Int16) : Prop := 0 ≤ x.toInt ∧ x.toInt < T.matrix.length

/-- The lists fit together: no empty word, a square matrix that has the classes of all entries, and a known category with at least one unknown word for every character. -/
structure Tables.Ok (T : Tables) : Prop where
  words : ∀ w ∈ T.words, w.1 ≠ [] ∧ T.Class w.2.left ∧ T.Class w.2.right
  matrix : T.matrix ≠ [] ∧ ∀ row ∈ T.matrix, row.length = T.matrix.length
  unknowns : ∀ e ∈ T.categories, e.unknowns ≠ [] ∧ ∀ m ∈ e.unknowns, T.Class m.left ∧ T.Class m.right
  category : ∀ r, T.categoryOf r < T.categories.length

end Kagome.Spec
