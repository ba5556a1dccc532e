import Verif.Spec.Live
import Verif.Spec.Html
import Verif.Model.Browser

/-! Specification: what the page of the browser example shows. -/

namespace Kagome.Spec

open Kagome

/-- `TextDecoder` of the web: a text in UTF-8 is read as it is, but for a byte order mark at its start. -/
def Decodes (toJs : Bytes → Bytes) : Prop := ∀ s, ValidUtf8 s → ¬ [0xEF, 0xBB, 0xBF] <+: s → toJs s = s

/-- A text that a page shows as it is if it is written into it without escapes. -/
structure PlainCell (s : Bytes) : Prop where
  valid : ValidUtf8 s
  mark : ¬ [0xEF, 0xBB, 0xBF] <+: s
  markup : ∀ b ∈ s, b ≠ 0x3C ∧ b ≠ 0x26

/-- The cells of the row of a word: surface, parts of speech, base form, reading, pronunciation. -/
def wordCells (x : TokenData) : List Bytes := [x.surface, join (str ",") (x.pos.getD []), x.baseForm, x.reading, x.pronunciation]

/-- The rows show the words of the text: one row per word; joined, the words are the text; a row of a word whose texts, as decoded, have no markup has
these five texts as cells; and if the texts are plain, they are shown as they are. -/
def TableShows (d : Dict) (ideo : Nat → Bool) (toJs : Bytes → Bytes) (s : Bytes) (rows : List Bytes) : Prop :=
  ∃ (toks : List Token) (ds : List TokenData), tokenize ⟨d, none, true⟩ ideo s = some toks ∧ toks.map newTokenData = ds.map some ∧
    rows.length = ds.length ∧ ds.flatMap (fun x => x.surface) = s ∧
    ∀ (i : Nat) (x : TokenData) (row : Bytes), ds[i]? = some x → rows[i]? = some row →
      ((∀ c ∈ wordCells x, ∀ b ∈ toJs c, b ≠ 0x3C ∧ b ≠ 0x26) → textsOf (str "td") row = (wordCells x).map toJs) ∧
      ((∀ c ∈ wordCells x, PlainCell c) → textsOf (str "td") row = wordCells x)

/-- The texts that were typed when the program was there. -/
def heard : Bool → List BrowserEvent → List (List Nat)
  | _, [] => []
  | _, .loaded :: es => heard true es
  | true, .input us :: es => us :: heard true es
  | false, .input _ :: es => heard false es

end Kagome.Spec
