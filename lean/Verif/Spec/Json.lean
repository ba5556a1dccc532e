import Verif.Go.Str

/-!
A strict reader for JSON (RFC 8259). A string value is its UTF-8 text. Numbers with fraction or exponent, and escaped surrogates, are
refused: what the reader accepts is JSON, and it stands for the value the reader gives. That a text is valid UTF-8 is stated separately.
-/

namespace Kagome.Spec

open Kagome

inductive Json where
  | null
  | bool (b : Bool)
  | num (n : Int)
  | str (s : Bytes)
  | arr (l : List Json)
  | obj (l : List (Bytes × Json))

/-- White space. -/
def isWs (b : UInt8) : Bool := b == 0x20 || b == 0x0A || b == 0x0D || b == 0x09

def skipWs : Bytes → Bytes
  | [] => []
  | b :: s => if isWs b then skipWs s else b :: s

def isDigit (b : UInt8) : Bool := 0x30 ≤ b && b ≤ 0x39

/-- The digits at the beginning, as a number that continues `acc`. -/
def readDigits (acc : Nat) : Bytes → Nat × Bytes
  | [] => (acc, [])
  | b :: s => if isDigit b then readDigits (10 * acc + (b.toNat - 48)) s else (acc, b :: s)

/-- A natural number without leading zeros; no fraction or exponent may follow. -/
def readNat : Bytes → Option (Nat × Bytes)
  | [] => none
  | b :: s =>
    if isDigit b then
      let r := if b = 0x30 then (0, s) else readDigits (b.toNat - 48) s
      match r.2 with
      | [] => some r
      | c :: _ => if isDigit c || c == 0x2E || c == 0x45 || c == 0x65 then none else some r
    else none

/-- An integer. -/
def readInt : Bytes → Option (Int × Bytes)
  | [] => none
  | b :: s => if b = 0x2D then (readNat s).map (fun r => (-(r.1 : Int), r.2)) else (readNat (b :: s)).map (fun r => ((r.1 : Int), r.2))

def hexVal (b : UInt8) : Option Nat :=
  if isDigit b then some (b.toNat - 48)
  else if 0x61 ≤ b && b ≤ 0x66 then some (b.toNat - 97 + 10)
  else if 0x41 ≤ b && b ≤ 0x46 then some (b.toNat - 65 + 10)
  else none

/-- The character with four hexadecimal digits, if it is no surrogate. -/
def hexChar (a b c d : UInt8) : Option Char :=
  match hexVal a, hexVal b, hexVal c, hexVal d with
  | some a, some b, some c, some d =>
    if Nat.isValidChar (((a * 16 + b) * 16 + c) * 16 + d) then some (Char.ofNat (((a * 16 + b) * 16 + c) * 16 + d)) else none
  | _, _, _, _ => none

/-- The character of a short escape. -/
def escape (e : UInt8) : Option UInt8 :=
  if e = 0x22 ∨ e = 0x5C ∨ e = 0x2F then some e
  else if e = 0x62 then some 0x08
  else if e = 0x66 then some 0x0C
  else if e = 0x6E then some 0x0A
  else if e = 0x72 then some 0x0D
  else if e = 0x74 then some 0x09
  else none

/-- The first character of a string, behind its first quotation mark, and what follows; no character: the string ends here. -/
def readChar : Bytes → Option (Option Bytes × Bytes)
  | [] => none
  | b :: s =>
    if b = 0x22 then some (none, s)
    else if b = 0x5C then
      match s with
      | [] => none
      | e :: t =>
        if e = 0x75 then
          match t with
          | h1 :: h2 :: h3 :: h4 :: u => (hexChar h1 h2 h3 h4).map (fun c => (some (String.utf8EncodeChar c), u))
          | _ => none
        else (escape e).map (fun c => (some [c], t))
    else if b < 0x20 then none
    else some (some [b], s)

/-- A string, behind its first quotation mark; `n` bounds the number of characters. -/
def readChars : Nat → Bytes → Option (Bytes × Bytes)
  | 0, _ => none
  | n + 1, s =>
    match readChar s with
    | none => none
    | some (none, t) => some ([], t)
    | some (some c, t) => (readChars n t).map (fun r => (c ++ r.1, r.2))

def readString (s : Bytes) : Option (Bytes × Bytes) := readChars s.length s

mutual

/-- A value. -/
def readValue : Nat → Bytes → Option (Json × Bytes)
  | 0, _ => none
  | fuel + 1, s =>
    match skipWs s with
    | [] => none
    | b :: t =>
      if b = 0x22 then (readString t).map (fun r => (.str r.1, r.2))
      else if b = 0x5B then
        match skipWs t with
        | [] => none
        | c :: u => if c = 0x5D then some (.arr [], u) else (readItems fuel (c :: u)).map (fun r => (.arr r.1, r.2))
      else if b = 0x7B then
        match skipWs t with
        | [] => none
        | c :: u => if c = 0x7D then some (.obj [], u) else (readMembers fuel (c :: u)).map (fun r => (.obj r.1, r.2))
      else if Kagome.str "null" <+: b :: t then some (.null, (b :: t).drop 4)
      else if Kagome.str "true" <+: b :: t then some (.bool true, (b :: t).drop 4)
      else if Kagome.str "false" <+: b :: t then some (.bool false, (b :: t).drop 5)
      else (readInt (b :: t)).map (fun r => (.num r.1, r.2))

/-- The values of an array up to its closing bracket. -/
def readItems : Nat → Bytes → Option (List Json × Bytes)
  | 0, _ => none
  | fuel + 1, s =>
    match readValue fuel s with
    | none => none
    | some (v, t) =>
      match skipWs t with
      | [] => none
      | c :: u =>
        if c = 0x5D then some ([v], u)
        else if c = 0x2C then (readItems fuel u).map (fun r => (v :: r.1, r.2))
        else none

/-- The members of an object up to its closing brace. -/
def readMembers : Nat → Bytes → Option (List (Bytes × Json) × Bytes)
  | 0, _ => none
  | fuel + 1, s =>
    match skipWs s with
    | [] => none
    | q :: s =>
      if q = 0x22 then
        match readString s with
        | none => none
        | some (k, t) =>
          match skipWs t with
          | [] => none
          | colon :: t =>
            if colon = 0x3A then
              match readValue fuel t with
              | none => none
              | some (v, t) =>
                match skipWs t with
                | [] => none
                | c :: u =>
                  if c = 0x7D then some ([(k, v)], u)
                  else if c = 0x2C then (readMembers fuel u).map (fun r => ((k, v) :: r.1, r.2))
                  else none
            else none
      else none

end

/-- The value of a text that is one JSON value. -/
def readJson (s : Bytes) : Option Json :=
  match readValue (s.length + 1) s with
  | some (v, rest) => if skipWs rest = [] then some v else none
  | none => none

end Kagome.Spec
