import Verif.Spec.Output

/-! Specification: how a program reads the table that `tokenize` prints. -/

namespace Kagome.Spec

open Kagome

/-- A text that fits into a cell: no tab and no line feed. -/
def CellText (s : Bytes) : Prop := (0x09 : UInt8) ∉ s ∧ (0x0A : UInt8) ∉ s

instance (s : Bytes) : Decidable (CellText s) := inferInstanceAs (Decidable (_ ∧ _))

/-- The texts of the dictionaries fit into cells. -/
structure CellTexts (d : Dict) (u : Option UserDict) : Prop where
  names : ∀ n ∈ d.nameList, CellText n
  contents : ∀ cs, d.contents = some cs → ∀ c ∈ cs, ∀ x ∈ c, CellText x
  unk : ∀ c ∈ d.unk.contents, ∀ x ∈ c, CellText x
  user : ∀ ud, u = some ud → ∀ c ∈ ud.contents, CellText c.pos ∧ (∀ x ∈ c.tokens, CellText x) ∧ ∀ x ∈ c.yomi, CellText x

/-- The part behind the last tab. -/
def behindTab (row : Bytes) : Bytes := (row.reverse.takeWhile (· != 0x09)).reverse

/-- The part before the last tab. -/
def beforeTab (row : Bytes) : Bytes := ((row.reverse.dropWhile (· != 0x09)).drop 1).reverse

/-- A row is cut at its last tab into the word and its features; a row without a tab, and one that is nothing but a tab, is a word without features. -/
def readRow (row : Bytes) : Bytes × Option Bytes :=
  if row = [0x09] ∨ (0x09 : UInt8) ∉ row then (row, none) else (beforeTab row, some (behindTab row))

/-- The rows up to each `EOS`. -/
def tables : List Bytes → List (List Bytes)
  | [] => []
  | row :: rows =>
    if row = str "EOS" then [] :: tables rows
    else match tables rows with
      | [] => [[row]]
      | t :: ts => (row :: t) :: ts

/-- What a program reads from the output: for every text the list of words with their features. -/
def readBack (out : Bytes) : List (List (Bytes × Option Bytes)) := (tables (rawLines out)).map (·.map readRow)

/-- The words alone. -/
def wordsBack (out : Bytes) : List (List Bytes) := (readBack out).map (·.map Prod.fst)

/-- A row says what there is to say about a token. -/
def Says (t : Token) (row : Bytes × Option Bytes) : Prop :=
  row.1 = t.surface ∧ (t.cls = .dummy → row.2 = none) ∧ (t.cls ≠ .dummy → ∃ fs, HasFeatures t fs ∧ row.2 = some (join (str ",") fs))

/-- A table says what there is to say about a list of tokens. -/
def SaysAll (toks : List Token) (table : List (Bytes × Option Bytes)) : Prop :=
  table.length = toks.length ∧ ∀ (i : Nat) (t : Token) (row : Bytes × Option Bytes), toks[i]? = some t → table[i]? = some row → Says t row

end Kagome.Spec
