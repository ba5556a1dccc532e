import Verif.Spec.Words
import Verif.Model.Tokenizer

/-! Vocabulary for statements about the tokens of a result. -/

namespace Kagome.Spec

open Kagome

/-- Go's `string([]rune(s))`: the text with every byte that is not part of valid UTF-8 replaced by U+FFFD. -/
def repaired (s : Bytes) : Bytes := (runes s).flatMap (fun r => encodeRune r.1)

/-- The tokens that are not BOS or EOS (`lattice.BosEosID` is `-1`). -/
def inner (toks : List Token) : List Token := toks.filter (fun t => t.id ≠ -1)

/-- Source, id and text of a token. -/
def wordOfToken (t : Token) : Word := ⟨t.cls, t.id, t.surface⟩

/-- One word per character for an unknown word, the word itself otherwise (Extended mode). -/
def splitUnknown (w : Word) : List Word :=
  if w.cls = .unknown then (runes w.surface).map (fun r => ⟨.dummy, w.id, encodeRune r.1⟩) else [w]

/-- The hypotheses of the segmentation theorems: the dictionaries are well formed, U+FFFD is no problem, and the costs of a text
of this length fit into 32 bits. -/
structure Tame (t : Tokenizer) (inp : Bytes) : Prop where
  wf : WellFormed t.dict t.userDict
  rep : ReplacementOk t.dict inp
  fits : Fits t.dict (runeCount inp)

end Kagome.Spec
