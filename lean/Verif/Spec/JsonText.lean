import Verif.Go.JsonDecode
import Verif.Spec.Json
import Verif.Spec.Utf8

/-!
# Specification: the grammar of JSON

RFC 8259, as a relation between texts and values, without a reader. A value is a `JTree`; a number is its text. What the RFC leaves open is settled as the
documentation of encoding/json says: bytes that are not UTF-8 and surrogates without a partner stand for U+FFFD.
-/

namespace Kagome.Spec

open Kagome

/-- White space. -/
def IsSpace (ws : Bytes) : Prop := ∀ b ∈ ws, b = 0x20 ∨ b = 0x09 ∨ b = 0x0A ∨ b = 0x0D

/-- Decimal digits. -/
def IsDigits (ds : Bytes) : Prop := ∀ b ∈ ds, 0x30 ≤ b ∧ b ≤ 0x39

/-- The integer in a number: no zero in front. -/
def IsInteger (int : Bytes) : Prop := int = Kagome.str "0" ∨ ∃ d ds, int = d :: ds ∧ 0x31 ≤ d ∧ d ≤ 0x39 ∧ IsDigits ds

/-- The fraction in a number. -/
def IsFraction (frac : Bytes) : Prop := frac = [] ∨ ∃ ds, frac = Kagome.str "." ++ ds ∧ ds ≠ [] ∧ IsDigits ds

/-- The exponent in a number. -/
def IsExponent (exp : Bytes) : Prop :=
  exp = [] ∨ ∃ e s ds, exp = e ++ s ++ ds ∧ (e = Kagome.str "e" ∨ e = Kagome.str "E") ∧ (s = [] ∨ s = Kagome.str "+" ∨ s = Kagome.str "-") ∧
    ds ≠ [] ∧ IsDigits ds

/-- A number. -/
def IsNumber (text : Bytes) : Prop :=
  ∃ sign int frac exp : Bytes, text = sign ++ int ++ frac ++ exp ∧ (sign = [] ∨ sign = Kagome.str "-") ∧ IsInteger int ∧ IsFraction frac ∧
    IsExponent exp

/-- Four hexadecimal digits. -/
def hexUnit (a b c d : UInt8) : Option Nat :=
  match hexVal a, hexVal b, hexVal c, hexVal d with
  | some a, some b, some c, some d => some (((a * 16 + b) * 16 + c) * 16 + d)
  | _, _, _, _ => none

/-- The first and the second half of a pair of surrogates. -/
def IsHigh (u : Nat) : Prop := 0xD800 ≤ u ∧ u ≤ 0xDBFF
@[inherit_doc IsHigh] def IsLow (u : Nat) : Prop := 0xDC00 ≤ u ∧ u ≤ 0xDFFF

/-- U+FFFD. -/
def replacement : Bytes := String.utf8EncodeChar (Char.ofNat 0xFFFD)

/-- What is between the quotation marks of a string, and the text it stands for. -/
inductive StringText : Bytes → Bytes → Prop where
  | nil : StringText [] []
  | char (c : Char) {raw s : Bytes} : 0x20 ≤ c.val.toNat → c ≠ '"' → c ≠ '\\' → StringText raw s →
      StringText (String.utf8EncodeChar c ++ raw) (String.utf8EncodeChar c ++ s)
  | short (e x : UInt8) {raw s : Bytes} : escape e = some x → StringText raw s → StringText (0x5C :: e :: raw) (x :: s)
  | code (a b c d : UInt8) (ch : Char) {raw s : Bytes} : hexUnit a b c d = some ch.val.toNat → StringText raw s →
      StringText (0x5C :: 0x75 :: a :: b :: c :: d :: raw) (String.utf8EncodeChar ch ++ s)
  | pair (a b c d a' b' c' d' : UInt8) (hi lo : Nat) (ch : Char) {raw s : Bytes} : hexUnit a b c d = some hi → hexUnit a' b' c' d' = some lo →
      IsHigh hi → IsLow lo → ch.val.toNat = 0x10000 + (hi - 0xD800) * 0x400 + (lo - 0xDC00) → StringText raw s →
      StringText (0x5C :: 0x75 :: a :: b :: c :: d :: 0x5C :: 0x75 :: a' :: b' :: c' :: d' :: raw) (String.utf8EncodeChar ch ++ s)
  | lone (a b c d : UInt8) (u : Nat) {raw s : Bytes} : hexUnit a b c d = some u → (IsHigh u ∨ IsLow u) →
      (∀ a' b' c' d' lo raw', raw = 0x5C :: 0x75 :: a' :: b' :: c' :: d' :: raw' → hexUnit a' b' c' d' = some lo → ¬ (IsHigh u ∧ IsLow lo)) →
      StringText raw s → StringText (0x5C :: 0x75 :: a :: b :: c :: d :: raw) (replacement ++ s)
  | bad (b : UInt8) {raw s : Bytes} : 0x80 ≤ b → (∀ c : Char, ¬ String.utf8EncodeChar c <+: b :: raw) → StringText raw s →
      StringText (b :: raw) (replacement ++ s)

mutual

/-- A text of a value, in which at most the given number of brackets is open at a time. -/
inductive ValueText : Nat → JTree → Bytes → Prop where
  | null (n : Nat) : ValueText n .null (Kagome.str "null")
  | true (n : Nat) : ValueText n (.bool true) (Kagome.str "true")
  | false (n : Nat) : ValueText n (.bool false) (Kagome.str "false")
  | num (n : Nat) (text : Bytes) : IsNumber text → ValueText n (.num text) text
  | str (n : Nat) (raw s : Bytes) : StringText raw s → ValueText n (.str s) (0x22 :: raw ++ [0x22])
  | noItems (n : Nat) (ws : Bytes) : IsSpace ws → ValueText (n + 1) (.arr []) (0x5B :: ws ++ [0x5D])
  | arr (n : Nat) (l : List JTree) (text : Bytes) : ItemsText n l text → ValueText (n + 1) (.arr l) (0x5B :: text ++ [0x5D])
  | noMembers (n : Nat) (ws : Bytes) : IsSpace ws → ValueText (n + 1) (.obj []) (0x7B :: ws ++ [0x7D])
  | obj (n : Nat) (l : List (Bytes × JTree)) (text : Bytes) : MembersText n l text → ValueText (n + 1) (.obj l) (0x7B :: text ++ [0x7D])

/-- The values of an array, with white space and commas. -/
inductive ItemsText : Nat → List JTree → Bytes → Prop where
  | last (n : Nat) (v : JTree) (ws text ws' : Bytes) : IsSpace ws → ValueText n v text → IsSpace ws' → ItemsText n [v] (ws ++ text ++ ws')
  | more (n : Nat) (v : JTree) (l : List JTree) (ws text ws' rest : Bytes) : IsSpace ws → ValueText n v text → IsSpace ws' → ItemsText n l rest →
      ItemsText n (v :: l) (ws ++ text ++ ws' ++ 0x2C :: rest)

/-- The members of an object. -/
inductive MembersText : Nat → List (Bytes × JTree) → Bytes → Prop where
  | last (n : Nat) (k : Bytes) (v : JTree) (ws raw ws1 ws2 text ws' : Bytes) : IsSpace ws → StringText raw k → IsSpace ws1 → IsSpace ws2 →
      ValueText n v text → IsSpace ws' → MembersText n [(k, v)] (ws ++ 0x22 :: raw ++ 0x22 :: ws1 ++ 0x3A :: ws2 ++ text ++ ws')
  | more (n : Nat) (k : Bytes) (v : JTree) (l : List (Bytes × JTree)) (ws raw ws1 ws2 text ws' rest : Bytes) : IsSpace ws → StringText raw k →
      IsSpace ws1 → IsSpace ws2 → ValueText n v text → IsSpace ws' → MembersText n l rest →
      MembersText n ((k, v) :: l) (ws ++ 0x22 :: raw ++ 0x22 :: ws1 ++ 0x3A :: ws2 ++ text ++ ws' ++ 0x2C :: rest)

end

end Kagome.Spec
