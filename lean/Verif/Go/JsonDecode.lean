import Verif.Go.Quote

/-!
# `json.NewDecoder(r).Decode(&v)`

Written from Go's encoding/json (scanner.go, stream.go, decode.go, fold.go); part of the trusted base: the package is not in /repo. Only what a struct of two
strings needs is here. The scanner of the package is a machine with a stack, fed byte by byte; here each of its stack frames is a call. It is run twice by
the package, first to find the end of the value and any syntax error, then to store the value; here the one run gives the tree of the value and the tree is
stored. What stands behind the value is not looked at.
-/

namespace Kagome

/-- A value as the scanner sees it. Standard library; used in /repo at cmd/server/api.go:31. -/
inductive JTree where
  | null
  | bool (b : Bool)
  | num (text : Bytes)
  | str (s : Bytes)
  | arr (l : List JTree)
  | obj (l : List (Bytes × JTree))

/-- Why there is no value: `scanner.error` with the byte and the context; the input ends inside the value or before it; `unquoteBytes` fails, which is a panic;
the fuel of the model is spent. Standard library; used in /repo at cmd/server/api.go:31. -/
inductive JErr where
  | bad (c : UInt8) (context : Bytes)
  | short
  | panic
  | fuel

/-- `isSpace`. Standard library; used in /repo at cmd/server/api.go:31. -/
def jsonSpace (b : UInt8) : Bool := b == 0x20 || b == 0x09 || b == 0x0D || b == 0x0A

/-- The scanner skips white space. Standard library; used in /repo at cmd/server/api.go:31. -/
def dropSpace : Bytes → Bytes
  | [] => []
  | b :: s => if jsonSpace b then dropSpace s else b :: s

/-- A decimal digit. Standard library; used in /repo at cmd/server/api.go:31. -/
def jsonDigit (b : UInt8) : Bool := 0x30 ≤ b && b ≤ 0x39

/-- `state1`, `stateDot0`, `stateE0`: the digits are skipped. Standard library; used in /repo at cmd/server/api.go:31. -/
def dropDigits : Bytes → Bytes
  | [] => []
  | b :: s => if jsonDigit b then dropDigits s else b :: s

/-- `stateESign`. Standard library; used in /repo at cmd/server/api.go:31. -/
def scanExpDigits : Bytes → Except JErr Bytes
  | [] => .error .short
  | b :: s => if jsonDigit b then .ok (dropDigits s) else .error (.bad b (str "in exponent of numeric literal"))

/-- `stateE`. Standard library; used in /repo at cmd/server/api.go:31. -/
def scanExp : Bytes → Except JErr Bytes
  | [] => .error .short
  | b :: s => if b = 0x2B ∨ b = 0x2D then scanExpDigits s else scanExpDigits (b :: s)

/-- The end of `state0` and `stateDot0`: an exponent may follow. Standard library; used in /repo at cmd/server/api.go:31. -/
def scanTail : Bytes → Except JErr Bytes
  | [] => .ok []
  | b :: s => if b = 0x65 ∨ b = 0x45 then scanExp s else .ok (b :: s)

/-- `stateDot`. Standard library; used in /repo at cmd/server/api.go:31. -/
def scanDot : Bytes → Except JErr Bytes
  | [] => .error .short
  | b :: s => if jsonDigit b then scanTail (dropDigits s) else .error (.bad b (str "after decimal point in numeric literal"))

/-- `state0`. Standard library; used in /repo at cmd/server/api.go:31. -/
def scanFrac : Bytes → Except JErr Bytes
  | [] => .ok []
  | b :: s => if b = 0x2E then scanDot s else scanTail (b :: s)

/-- `state0` and `state1` behind their first digit. Standard library; used in /repo at cmd/server/api.go:31. -/
def scanDigits (first : UInt8) (s : Bytes) : Except JErr Bytes := if first = 0x30 then scanFrac s else scanFrac (dropDigits s)

/-- `stateNeg`. Standard library; used in /repo at cmd/server/api.go:31. -/
def scanNeg : Bytes → Except JErr Bytes
  | [] => .error .short
  | b :: s => if jsonDigit b then scanDigits b s else .error (.bad b (str "in numeric literal"))

/-- `stateT`, `stateTr` and so on: the letters `want` of the literal `name` must follow. Standard library; used in /repo at cmd/server/api.go:31. -/
def scanLetters (name : Bytes) : Bytes → Bytes → Except JErr Bytes
  | [], s => .ok s
  | _ :: _, [] => .error .short
  | e :: want, b :: s =>
    if b = e then scanLetters name want s else .error (.bad b (str "in literal " ++ name ++ str " (expecting '" ++ [e] ++ str "')"))

/-- `stateInString`, `stateInStringEsc`, and `stateInStringEscU` to `stateInStringEscU123` with the digits still to come after the next. Standard library; used
in /repo at cmd/server/api.go:31. -/
inductive StrState where
  | plain
  | esc
  | hex (n : Nat)

/-- A hexadecimal digit. Standard library; used in /repo at cmd/server/api.go:31. -/
def jsonHex (b : UInt8) : Option Nat :=
  if 0x30 ≤ b && b ≤ 0x39 then some (b.toNat - 0x30)
  else if 0x61 ≤ b && b ≤ 0x66 then some (b.toNat - 0x61 + 10)
  else if 0x41 ≤ b && b ≤ 0x46 then some (b.toNat - 0x41 + 10)
  else none

/-- A string behind its quotation mark: what is between the quotation marks, and what follows. Standard library; used in /repo at cmd/server/api.go:31. -/
def scanString : StrState → Bytes → Except JErr (Bytes × Bytes)
  | _, [] => .error .short
  | .plain, b :: s =>
    if b = 0x22 then .ok ([], s)
    else if b = 0x5C then (scanString .esc s).map (fun r => (b :: r.1, r.2))
    else if b < 0x20 then .error (.bad b (str "in string literal"))
    else (scanString .plain s).map (fun r => (b :: r.1, r.2))
  | .esc, b :: s =>
    if b = 0x62 ∨ b = 0x66 ∨ b = 0x6E ∨ b = 0x72 ∨ b = 0x74 ∨ b = 0x5C ∨ b = 0x2F ∨ b = 0x22 then
      (scanString .plain s).map (fun r => (b :: r.1, r.2))
    else if b = 0x75 then (scanString (.hex 3) s).map (fun r => (b :: r.1, r.2))
    else .error (.bad b (str "in string escape code"))
  | .hex n, b :: s =>
    if (jsonHex b).isSome then
      match n with
      | 0 => (scanString .plain s).map (fun r => (b :: r.1, r.2))
      | n + 1 => (scanString (.hex n) s).map (fun r => (b :: r.1, r.2))
    else .error (.bad b (str "in \\u hexadecimal character escape"))

/-- `getu4`. Standard library; used in /repo at cmd/server/api.go:31. -/
def getu4 : Bytes → Option Nat
  | a :: u :: h1 :: h2 :: h3 :: h4 :: _ =>
    if a = 0x5C ∧ u = 0x75 then
      match jsonHex h1, jsonHex h2, jsonHex h3, jsonHex h4 with
      | some x1, some x2, some x3, some x4 => some (((x1 * 16 + x2) * 16 + x3) * 16 + x4)
      | _, _, _, _ => none
    else none
  | _ => none

/-- `utf16.IsSurrogate`. Standard library; used in /repo at cmd/server/api.go:31. -/
def isSurrogate (r : Nat) : Bool := 0xD800 ≤ r && r < 0xE000

/-- `utf16.DecodeRune`, none for the replacement character. Standard library; used in /repo at cmd/server/api.go:31. -/
def utf16Decode (r1 : Nat) (r2 : Option Nat) : Option Nat :=
  match r2 with
  | some r2 => if 0xD800 ≤ r1 ∧ r1 < 0xDC00 ∧ 0xDC00 ≤ r2 ∧ r2 < 0xE000 then some ((r1 - 0xD800) * 1024 + (r2 - 0xDC00) + 0x10000) else none
  | none => none

/-- `unquoteBytes` on what is between the quotation marks; the counter skips the bytes that were dealt with (it keeps the recursion structural). The first loop
of the function, which returns a text without escapes as it is, gives the same. Standard library; used in /repo at cmd/server/api.go:31. -/
def unquoteFrom : Nat → Bytes → Option Bytes
  | _, [] => some []
  | k + 1, _ :: s => unquoteFrom k s
  | 0, b :: s =>
    if b = 0x5C then
      match s with
      | [] => none
      | e :: _ =>
        if e = 0x22 ∨ e = 0x5C ∨ e = 0x2F ∨ e = 0x27 then (unquoteFrom 1 s).map (e :: ·)
        else if e = 0x62 then (unquoteFrom 1 s).map (0x08 :: ·)
        else if e = 0x66 then (unquoteFrom 1 s).map (0x0C :: ·)
        else if e = 0x6E then (unquoteFrom 1 s).map (0x0A :: ·)
        else if e = 0x72 then (unquoteFrom 1 s).map (0x0D :: ·)
        else if e = 0x74 then (unquoteFrom 1 s).map (0x09 :: ·)
        else if e = 0x75 then
          match getu4 (b :: s) with
          | none => none
          | some rr =>
            if isSurrogate rr then
              match utf16Decode rr (getu4 (s.drop 5)) with
              | some dec => (unquoteFrom 11 s).map (encodeRune dec ++ ·)
              | none => (unquoteFrom 5 s).map (encodeRune runeError ++ ·)
            else (unquoteFrom 5 s).map (encodeRune rr ++ ·)
        else none
    else if b = 0x22 ∨ b < 0x20 then none
    else if b < 0x80 then (unquoteFrom 0 s).map (b :: ·)
    else (unquoteFrom ((decodeRune (b :: s)).2 - 1) s).map (encodeRune (decodeRune (b :: s)).1 ++ ·)

/-- A string behind its quotation mark: its text, and what follows. Standard library; used in /repo at cmd/server/api.go:31. -/
def scanText (s : Bytes) : Except JErr (Bytes × Bytes) :=
  match scanString .plain s with
  | .error e => .error e
  | .ok (raw, rest) =>
    match unquoteFrom 0 raw with
    | none => .error .panic
    | some t => .ok (t, rest)

/-- What was read of `s` when `rest` is left. Standard library; used in /repo at cmd/server/api.go:31. -/
def readOf (s rest : Bytes) : Bytes := s.take (s.length - rest.length)

mutual

/-- `stateBeginValue`; `room` is how many more brackets may be open (`maxNestingDepth` is 10000). Standard library; used in /repo at cmd/server/api.go:31. -/
def scanValue : Nat → Nat → Bytes → Except JErr (JTree × Bytes)
  | 0, _, _ => .error .fuel
  | fuel + 1, room, s =>
    match dropSpace s with
    | [] => .error .short
    | b :: t =>
      if b = 0x7B then
        match room with
        | 0 => .error (.bad b (str "exceeded max depth"))
        | room + 1 =>
          match dropSpace t with
          | [] => .error .short
          | c :: u => if c = 0x7D then .ok (.obj [], u) else (scanMembers fuel room (c :: u)).map (fun r => (.obj r.1, r.2))
      else if b = 0x5B then
        match room with
        | 0 => .error (.bad b (str "exceeded max depth"))
        | room + 1 =>
          match dropSpace t with
          | [] => .error .short
          | c :: u => if c = 0x5D then .ok (.arr [], u) else (scanItems fuel room (c :: u)).map (fun r => (.arr r.1, r.2))
      else if b = 0x22 then (scanText t).map (fun r => (.str r.1, r.2))
      else if b = 0x2D then (scanNeg t).map (fun rest => (.num (readOf (b :: t) rest), rest))
      else if jsonDigit b then (scanDigits b t).map (fun rest => (.num (readOf (b :: t) rest), rest))
      else if b = 0x74 then (scanLetters (str "true") (str "rue") t).map (fun rest => (.bool true, rest))
      else if b = 0x66 then (scanLetters (str "false") (str "alse") t).map (fun rest => (.bool false, rest))
      else if b = 0x6E then (scanLetters (str "null") (str "ull") t).map (fun rest => (.null, rest))
      else .error (.bad b (str "looking for beginning of value"))

/-- An element of an array and what follows it; `stateEndValue`. Standard library; used in /repo at cmd/server/api.go:31. -/
def scanItems : Nat → Nat → Bytes → Except JErr (List JTree × Bytes)
  | 0, _, _ => .error .fuel
  | fuel + 1, room, s =>
    match scanValue fuel room s with
    | .error e => .error e
    | .ok (v, t) =>
      match dropSpace t with
      | [] => .error .short
      | c :: u =>
        if c = 0x2C then (scanItems fuel room u).map (fun r => (v :: r.1, r.2))
        else if c = 0x5D then .ok ([v], u)
        else .error (.bad c (str "after array element"))

/-- A member of an object and what follows it; `stateBeginString`, `stateEndValue`. Standard library; used in /repo at cmd/server/api.go:31. -/
def scanMembers : Nat → Nat → Bytes → Except JErr (List (Bytes × JTree) × Bytes)
  | 0, _, _ => .error .fuel
  | fuel + 1, room, s =>
    match dropSpace s with
    | [] => .error .short
    | q :: s =>
      if q = 0x22 then
        match scanText s with
        | .error e => .error e
        | .ok (k, t) =>
          match dropSpace t with
          | [] => .error .short
          | colon :: t =>
            if colon = 0x3A then
              match scanValue fuel room t with
              | .error e => .error e
              | .ok (v, t) =>
                match dropSpace t with
                | [] => .error .short
                | c :: u =>
                  if c = 0x2C then (scanMembers fuel room u).map (fun r => ((k, v) :: r.1, r.2))
                  else if c = 0x7D then .ok ([(k, v)], u)
                  else .error (.bad c (str "after object key:value pair"))
            else .error (.bad colon (str "after object key"))
      else .error (.bad q (str "looking for beginning of object key string"))

end

/-- `strconv.IsPrint` below U+0100. Standard library; used in /repo at cmd/server/api.go:32. -/
def latinPrint (r : Nat) : Bool := (0x20 ≤ r && r < 0x7F) || (0xA1 ≤ r && r < 0x100 && r ≠ 0xAD)

/-- `quoteChar`: the byte is taken for a character. Standard library; used in /repo at cmd/server/api.go:32. -/
def quoteChar (c : UInt8) : Bytes :=
  if c = 0x27 then str "'\\''"
  else if c = 0x22 then str "'\"'"
  else str "'" ++ quoteRune latinPrint c.toNat ++ str "'"

/-- `scanner.error`. Standard library; used in /repo at cmd/server/api.go:32. -/
def syntaxMessage (c : UInt8) (context : Bytes) : Bytes := str "invalid character " ++ quoteChar c ++ str " " ++ context

/-- `Decoder.readValue`: the first value, or the message of the error; `io.EOF` where there is nothing but white space. None: a panic, or no end. Standard
library; used in /repo at cmd/server/api.go:31-32. -/
def readFirst (body : Bytes) : Option (Except Bytes JTree) :=
  match scanValue (2 * body.length + 1) 10000 body with
  | .ok (v, _) => some (.ok v)
  | .error (.bad c context) => some (.error (syntaxMessage c context))
  | .error .short => some (.error (if dropSpace body = [] then str "EOF" else str "unexpected EOF"))
  | .error .panic => none
  | .error .fuel => none

/-- `b & caseMask`: an ASCII letter in upper case. Standard library; used in /repo at cmd/server/api.go:16-19, 31. -/
def upperMask (b : UInt8) : UInt8 := b &&& 0xDF

/-- Whether a key names the field with the given name, a name of ASCII letters in lower case without K: `equalFoldRight` (before Go 1.21), which for a name
without S gives the same as `simpleLetterEqualFold`; a comparison of `foldName` (since Go 1.21). The letter S is also U+017F. Standard library; used in /repo at
cmd/server/api.go:16-19, 31. -/
def equalFoldRight : Bytes → Bytes → Bool
  | [], t => t == []
  | _ :: _, [] => false
  | a :: s, b :: t =>
    if b < 0x80 then (a == b || upperMask a == upperMask b) && equalFoldRight s t
    else a == 0x73 && (decodeRune (b :: t)).1 == 0x17F && equalFoldRight s ((b :: t).drop (decodeRune (b :: t)).2)

/-- `UnmarshalTypeError.Value`. Standard library; used in /repo at cmd/server/api.go:32. -/
def JTree.kind : JTree → Bytes
  | .null => Kagome.str "null"
  | .bool _ => Kagome.str "bool"
  | .num _ => Kagome.str "number"
  | .str _ => Kagome.str "string"
  | .arr _ => Kagome.str "array"
  | .obj _ => Kagome.str "object"

end Kagome
