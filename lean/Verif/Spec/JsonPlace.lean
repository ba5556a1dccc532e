import Verif.Spec.JsonText

/-!
# Specification: how the message about a wrong character names the character and its place

The words are those of encoding/json. A place is described by the text in front of it, which is the beginning of a JSON text.
-/

namespace Kagome.Spec

open Kagome

/-- The characters with an escape of one letter. -/
def letterEscapes : List (UInt8 × UInt8) := [(0x07, 0x61), (0x08, 0x62), (0x0C, 0x66), (0x0A, 0x6E), (0x0D, 0x72), (0x09, 0x74), (0x0B, 0x76)]

/-- A byte as a character literal of Go: the byte is taken for a character of Latin-1. -/
inductive Shown (c : UInt8) : Bytes → Prop where
  | ascii : 0x20 ≤ c → c ≤ 0x7E → c ≠ 0x27 → c ≠ 0x5C → Shown c [0x27, c, 0x27]
  | escaped : c = 0x27 ∨ c = 0x5C → Shown c [0x27, 0x5C, c, 0x27]
  | letter (e : UInt8) : (c, e) ∈ letterEscapes → Shown c [0x27, 0x5C, e, 0x27]
  | hex (a b : UInt8) (x y : Nat) : c < 0x20 ∨ c = 0x7F → (∀ e, (c, e) ∉ letterEscapes) → hexVal a = some x → hexVal b = some y → c.toNat = x * 16 + y →
      Shown c (Kagome.str "'\\x" ++ [a, b, 0x27])
  | latin (ch : Char) : 0xA1 ≤ c → c ≠ 0xAD → ch.val.toNat = c.toNat → Shown c (0x27 :: String.utf8EncodeChar ch ++ [0x27])
  | code (a b : UInt8) (x y : Nat) : 0x80 ≤ c → (c ≤ 0xA0 ∨ c = 0xAD) → hexVal a = some x → hexVal b = some y → c.toNat = x * 16 + y →
      Shown c (Kagome.str "'\\u00" ++ [a, b, 0x27])

/-- A string behind its quotation mark, up to the place named. -/
inductive OpenString : Bytes → Bytes → Prop where
  | text (raw s : Bytes) : StringText raw s → OpenString raw (Kagome.str "in string literal")
  | escape (raw s : Bytes) : StringText raw s → OpenString (raw ++ [0x5C]) (Kagome.str "in string escape code")
  | hex (raw s digits : Bytes) : StringText raw s → digits.length < 4 → (∀ b ∈ digits, (hexVal b).isSome) →
      OpenString (raw ++ 0x5C :: 0x75 :: digits) (Kagome.str "in \\u hexadecimal character escape")

/-- A number up to the place named. -/
inductive OpenNumber : Bytes → Bytes → Prop where
  | sign : OpenNumber (Kagome.str "-") (Kagome.str "in numeric literal")
  | point (sign int : Bytes) : (sign = [] ∨ sign = Kagome.str "-") → IsInteger int →
      OpenNumber (sign ++ int ++ Kagome.str ".") (Kagome.str "after decimal point in numeric literal")
  | exponent (sign int frac e s : Bytes) : (sign = [] ∨ sign = Kagome.str "-") → IsInteger int → IsFraction frac →
      (e = Kagome.str "e" ∨ e = Kagome.str "E") → (s = [] ∨ s = Kagome.str "+" ∨ s = Kagome.str "-") →
      OpenNumber (sign ++ int ++ frac ++ e ++ s) (Kagome.str "in exponent of numeric literal")

mutual

/-- A value up to the place named, where the character `c` stands. -/
inductive OpenValue (c : UInt8) : Nat → Bytes → Bytes → Prop where
  | first (n : Nat) (ws : Bytes) : IsSpace ws → c ≠ 0x5B → c ≠ 0x7B → OpenValue c n ws (Kagome.str "looking for beginning of value")
  | deep (ws : Bytes) : IsSpace ws → c = 0x5B ∨ c = 0x7B → OpenValue c 0 ws (Kagome.str "exceeded max depth")
  | word (n : Nat) (ws name a b : Bytes) (e : UInt8) : IsSpace ws → name = Kagome.str "null" ∨ name = Kagome.str "true" ∨ name = Kagome.str "false" →
      name = a ++ e :: b → a ≠ [] → OpenValue c n (ws ++ a) (Kagome.str "in literal " ++ name ++ Kagome.str " (expecting '" ++ [e] ++ Kagome.str "')")
  | num (n : Nat) (ws part why : Bytes) : IsSpace ws → OpenNumber part why → OpenValue c n (ws ++ part) why
  | str (n : Nat) (ws part why : Bytes) : IsSpace ws → OpenString part why → OpenValue c n (ws ++ 0x22 :: part) why
  | arr (n : Nat) (ws part why : Bytes) : IsSpace ws → OpenItems c n part why → OpenValue c (n + 1) (ws ++ 0x5B :: part) why
  | obj (n : Nat) (ws part why : Bytes) : IsSpace ws → OpenMembers c n part why → OpenValue c (n + 1) (ws ++ 0x7B :: part) why

/-- The values of an array. -/
inductive OpenItems (c : UInt8) : Nat → Bytes → Bytes → Prop where
  | value (n : Nat) (part why : Bytes) : OpenValue c n part why → OpenItems c n part why
  | behind (n : Nat) (v : JTree) (ws text ws' : Bytes) : IsSpace ws → ValueText n v text → IsSpace ws' →
      OpenItems c n (ws ++ text ++ ws') (Kagome.str "after array element")
  | next (n : Nat) (v : JTree) (ws text ws' part why : Bytes) : IsSpace ws → ValueText n v text → IsSpace ws' → OpenItems c n part why →
      OpenItems c n (ws ++ text ++ ws' ++ 0x2C :: part) why

/-- The members of an object. -/
inductive OpenMembers (c : UInt8) : Nat → Bytes → Bytes → Prop where
  | first (n : Nat) (ws : Bytes) : IsSpace ws → OpenMembers c n ws (Kagome.str "looking for beginning of object key string")
  | key (n : Nat) (ws part why : Bytes) : IsSpace ws → OpenString part why → OpenMembers c n (ws ++ 0x22 :: part) why
  | colon (n : Nat) (k ws raw ws1 : Bytes) : IsSpace ws → StringText raw k → IsSpace ws1 →
      OpenMembers c n (ws ++ 0x22 :: raw ++ 0x22 :: ws1) (Kagome.str "after object key")
  | value (n : Nat) (k ws raw ws1 part why : Bytes) : IsSpace ws → StringText raw k → IsSpace ws1 → OpenValue c n part why →
      OpenMembers c n (ws ++ 0x22 :: raw ++ 0x22 :: ws1 ++ 0x3A :: part) why
  | behind (n : Nat) (v : JTree) (k ws raw ws1 ws2 text ws' : Bytes) : IsSpace ws → StringText raw k → IsSpace ws1 → IsSpace ws2 → ValueText n v text →
      IsSpace ws' → OpenMembers c n (ws ++ 0x22 :: raw ++ 0x22 :: ws1 ++ 0x3A :: ws2 ++ text ++ ws') (Kagome.str "after object key:value pair")
  | next (n : Nat) (v : JTree) (k ws raw ws1 ws2 text ws' part why : Bytes) : IsSpace ws → StringText raw k → IsSpace ws1 → IsSpace ws2 →
      ValueText n v text → IsSpace ws' → OpenMembers c n part why →
      OpenMembers c n (ws ++ 0x22 :: raw ++ 0x22 :: ws1 ++ 0x3A :: ws2 ++ text ++ ws' ++ 0x2C :: part) why

end

end Kagome.Spec
