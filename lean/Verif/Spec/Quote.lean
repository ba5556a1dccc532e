import Verif.Spec.Json

/-! A reader for Go's quoted strings (interpreted string literals without octal escapes). -/

namespace Kagome.Spec

open Kagome

/-- The number with these hexadecimal digits. -/
def hexNumber : Bytes → Option Nat
  | [] => some 0
  | b :: s =>
    match hexVal b, hexNumber s with
    | some d, some n => some (d * 16 ^ s.length + n)
    | _, _ => none

/-- The byte a one-letter escape stands for. -/
def goEscape (e : UInt8) : Option UInt8 :=
  if e = 0x22 ∨ e = 0x5C then some e
  else if e = 0x61 then some 0x07
  else if e = 0x62 then some 0x08
  else if e = 0x66 then some 0x0C
  else if e = 0x6E then some 0x0A
  else if e = 0x72 then some 0x0D
  else if e = 0x74 then some 0x09
  else if e = 0x76 then some 0x0B
  else none

/-- The character with this number. -/
def numberedChar (n : Nat) : Option Char := if Nat.isValidChar n then some (Char.ofNat n) else none

/-- The first character of a quoted string, behind its first quotation mark, and what follows; no character: the string ends here. -/
def unquoteChar : Bytes → Option (Option Bytes × Bytes)
  | [] => none
  | b :: s =>
    if b = 0x22 then some (none, s)
    else if b = 0x0A then none
    else if b = 0x5C then
      match s with
      | [] => none
      | e :: t =>
        if e = 0x78 then
          if t.length < 2 then none else (hexNumber (t.take 2)).map (fun n => (some [UInt8.ofNat n], t.drop 2))
        else if e = 0x75 then
          if t.length < 4 then none else ((hexNumber (t.take 4)).bind numberedChar).map (fun c => (some (String.utf8EncodeChar c), t.drop 4))
        else if e = 0x55 then
          if t.length < 8 then none else ((hexNumber (t.take 8)).bind numberedChar).map (fun c => (some (String.utf8EncodeChar c), t.drop 8))
        else (goEscape e).map (fun c => (some [c], t))
    else some (some [b], s)

/-- A quoted string, behind its first quotation mark; `n` bounds the number of characters. -/
def unquoteChars : Nat → Bytes → Option (Bytes × Bytes)
  | 0, _ => none
  | n + 1, s =>
    match unquoteChar s with
    | none => none
    | some (none, t) => some ([], t)
    | some (some c, t) => (unquoteChars n t).map (fun r => (c ++ r.1, r.2))

/-- A quoted string and what follows it. -/
def unquote : Bytes → Option (Bytes × Bytes)
  | [] => none
  | b :: s => if b = 0x22 then unquoteChars s.length s else none

end Kagome.Spec
