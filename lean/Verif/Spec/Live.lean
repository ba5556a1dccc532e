import Verif.Spec.JsonText
import Verif.Spec.Tokens
import Verif.Model.Live

/-! Specification: texts in a browser, and the rows that stand for a text. -/

namespace Kagome.Spec

open Kagome

/-- The text that UTF-16 code units stand for, in UTF-8: a pair of surrogates is a character, a surrogate without a partner is replaced by U+FFFD. -/
inductive Utf16 : List Nat → Bytes → Prop where
  | nil : Utf16 [] []
  | char (c : Char) {us : List Nat} {s : Bytes} : c.val.toNat < 0x10000 → Utf16 us s → Utf16 (c.val.toNat :: us) (String.utf8EncodeChar c ++ s)
  | pair (hi lo : Nat) (c : Char) {us : List Nat} {s : Bytes} : IsHigh hi → IsLow lo → c.val.toNat = 0x10000 + (hi - 0xD800) * 0x400 + (lo - 0xDC00) →
      Utf16 us s → Utf16 (hi :: lo :: us) (String.utf8EncodeChar c ++ s)
  | lone (u : Nat) {us : List Nat} {s : Bytes} : (IsHigh u ∨ IsLow u) → (∀ lo us', us = lo :: us' → ¬ (IsHigh u ∧ IsLow lo)) → Utf16 us s →
      Utf16 (u :: us) (replacement ++ s)

/-- What a client reads of the data of a token: bytes that are not UTF-8 are replaced in JSON. -/
def readData (d : TokenData) : TokenData :=
  { d with surface := repaired d.surface, pos := d.pos.map (·.map repaired), baseForm := repaired d.baseForm, reading := repaired d.reading,
           pronunciation := repaired d.pronunciation }

/-- The rows show the tokens of the text in the mode: one row per token, and none for the empty text. Joined, the surfaces are the text. -/
def Shows (t : Tokenizer) (ideo : Nat → Bool) (s m : Bytes) (rows : List Bytes) : Prop :=
  (s = [] ∧ rows = []) ∨
    (s ≠ [] ∧ ∃ (toks : List Token) (ds : List TokenData), analyze t ideo s (apiMode m) = some toks ∧ (inner toks).map newTokenData = ds.map some ∧
      rows = ds.map (fun d => liveRow (readData d)) ∧ ds.flatMap (fun d => (readData d).surface) = s)

/-- The rows show what was in the field and which button was checked. -/
def ShowsInput (t : Tokenizer) (ideo : Nat → Bool) (r : List Nat × Option (List Nat)) (rows : List Bytes) : Prop :=
  ∃ s m, Utf16 r.1 s ∧ (r.2 = none ∧ m = [] ∨ ∃ us, r.2 = some us ∧ Utf16 us m) ∧ Shows t ideo s m rows

/-- What was typed, in order. -/
def inputs : List LiveEvent → List (List Nat × Option (List Nat))
  | [] => []
  | .input text mode :: es => (text, mode) :: inputs es
  | _ :: es => inputs es

/-- The answers come in the order of the requests, and none is lost. -/
def InOrder (es : List LiveEvent) : Prop := ∀ e ∈ es, (∀ i, e = .answer i → i = 0) ∧ ∀ i, e ≠ .lost i

/-- The requests that are answered, in the order in which the answers come, if the given ones wait at first. -/
def answeredOf : (waiting : List (List Nat × Option (List Nat))) → List LiveEvent → List (List Nat × Option (List Nat))
  | _, [] => []
  | w, .input text mode :: es => answeredOf (w ++ [(text, mode)]) es
  | w, .answer i :: es =>
    match w[i]? with
    | none => answeredOf w es
    | some r => r :: answeredOf (w.eraseIdx i) es
  | w, .lost i :: es => answeredOf (w.eraseIdx i) es
  | w, .button _ :: es => answeredOf w es

end Kagome.Spec
