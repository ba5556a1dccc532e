/-!
# Go strings and `unicode/utf8`

Strings and byte slices are `List UInt8`; a rune is a natural number. The functions below follow the documented
behaviour (and the source) of Go's `unicode/utf8` package, with the bit operations written as arithmetic.
They are part of the trusted base: the package is not in /repo.
-/

namespace Kagome

/-- A Go string or byte slice: its bytes. Language; the input of every function, e.g. tokenizer.go:83. -/
abbrev Bytes := List UInt8

/-- `utf8.RuneError` (U+FFFD). Standard library; used in /repo at lattice.go:141, 163. -/
def runeError : Nat := 0xFFFD

/-- A continuation byte, `0x80..0xBF` (`locb..hicb` in Go's utf8.go). -/
def isCont (b : UInt8) : Bool := 0x80 ≤ b.toNat && b.toNat ≤ 0xBF

/-- `utf8.RuneStart`: the byte could begin a rune. Standard library; used in /repo at lattice.go:150, 163 and filter/sentence_splitter.go:62, 101. -/
def runeStart (b : UInt8) : Bool := !isCont b

/-- The `acceptRanges` entry for the second byte, chosen by the first byte. Standard library; used in /repo at lattice.go:150, 163 and
filter/sentence_splitter.go:62, 101. -/
def secondLo (x : Nat) : Nat := if x = 0xE0 then 0xA0 else if x = 0xF0 then 0x90 else 0x80
/-- The upper end of that range. Standard library; used in /repo at lattice.go:150, 163 and filter/sentence_splitter.go:62, 101. -/
def secondHi (x : Nat) : Nat := if x = 0xED then 0x9F else if x = 0xF4 then 0x8F else 0xBF

/-- The valid case of `utf8.DecodeRune`: the rune and its width when the bytes begin with valid UTF-8. Standard library; used in /repo at
lattice.go:150, 163 and filter/sentence_splitter.go:62, 101. -/
def decodeValid : Bytes → Option (Nat × Nat)
  | [] => none
  | b0 :: rest =>
    let x := b0.toNat
    if x < 0x80 then some (x, 1)
    else if x < 0xC2 then none
    else if x < 0xE0 then
      match rest with
      | b1 :: _ => if isCont b1 then some ((x - 0xC0) * 64 + (b1.toNat - 0x80), 2) else none
      | _ => none
    else if x < 0xF0 then
      match rest with
      | b1 :: b2 :: _ =>
        if secondLo x ≤ b1.toNat ∧ b1.toNat ≤ secondHi x ∧ isCont b2 then
          some ((x - 0xE0) * 4096 + (b1.toNat - 0x80) * 64 + (b2.toNat - 0x80), 3)
        else none
      | _ => none
    else if x < 0xF5 then
      match rest with
      | b1 :: b2 :: b3 :: _ =>
        if secondLo x ≤ b1.toNat ∧ b1.toNat ≤ secondHi x ∧ isCont b2 ∧ isCont b3 then
          some ((x - 0xF0) * 262144 + (b1.toNat - 0x80) * 4096 + (b2.toNat - 0x80) * 64 + (b3.toNat - 0x80), 4)
        else none
      | _ => none
    else none

/-- `utf8.DecodeRune` / `utf8.DecodeRuneInString`: `(RuneError, 0)` on empty input, `(RuneError, 1)` on an
invalid or truncated encoding. Standard library; used in /repo at lattice.go:150, 163 and filter/sentence_splitter.go:62, 101. -/
def decodeRune : Bytes → Nat × Nat
  | [] => (runeError, 0)
  | b :: t =>
    match decodeValid (b :: t) with
    | some d => d
    | none => (runeError, 1)

/-- Repeated decoding: the runes and widths that `for _, r := range s` visits. The counter skips the bytes of the
current rune (it keeps the recursion structural). Language; used in /repo at lattice.go:114, 193, 257. -/
def runesAux : Nat → Bytes → List (Nat × Nat)
  | _, [] => []
  | 0, b :: t => decodeRune (b :: t) :: runesAux ((decodeRune (b :: t)).2 - 1) t
  | k + 1, _ :: t => runesAux k t

/-- All runes of a string with their widths, in the order of a range loop. Language; used in /repo at lattice.go:114, 193, 257. -/
def runes (s : Bytes) : List (Nat × Nat) := runesAux 0 s

/-- `utf8.RuneCountInString`. Standard library; used in /repo at tokenizer.go:111, 157 and lattice.go:96, 103, 202, 254. -/
def runeCount (s : Bytes) : Nat := (runes s).length

/-- Byte positions attached to a list of runes, starting at `pos`. Language; used in /repo at lattice.go:114, 257. -/
def withPos : Nat → List (Nat × Nat) → List (Nat × Nat)
  | _, [] => []
  | pos, (r, w) :: t => (pos, r) :: withPos (pos + w) t

/-- `for pos, ch := range s`. Language; used in /repo at lattice.go:114, 257. -/
def rangeString (s : Bytes) : List (Nat × Nat) := withPos 0 (runes s)

/-- `utf8.RuneLen`, for runes that decoding can produce (others give `-1` in Go; here 0). Standard library; used in /repo at lattice.go:142. -/
def runeLen (r : Nat) : Nat :=
  if r < 0x80 then 1
  else if r < 0x800 then 2
  else if 0xD800 ≤ r ∧ r ≤ 0xDFFF then 0
  else if r < 0x10000 then 3
  else if r ≤ 0x10FFFF then 4
  else 0

/-- `string(r)` / `utf8.AppendRune`: the encoding of a rune, U+FFFD for surrogates and out-of-range values. Language; used in /repo at
lattice.go:262. -/
def encodeRune (r : Nat) : Bytes :=
  if r < 0x80 then [UInt8.ofNat r]
  else if r < 0x800 then [UInt8.ofNat (0xC0 + r / 64), UInt8.ofNat (0x80 + r % 64)]
  else if (0xD800 ≤ r ∧ r ≤ 0xDFFF) ∨ 0x10FFFF < r then [0xEF, 0xBF, 0xBD]
  else if r < 0x10000 then
    [UInt8.ofNat (0xE0 + r / 4096), UInt8.ofNat (0x80 + r / 64 % 64), UInt8.ofNat (0x80 + r % 64)]
  else
    [UInt8.ofNat (0xF0 + r / 262144), UInt8.ofNat (0x80 + r / 4096 % 64), UInt8.ofNat (0x80 + r / 64 % 64),
     UInt8.ofNat (0x80 + r % 64)]

/-- The backwards loop of `utf8.DecodeLastRune`: `n = end - start` for the `start` at which the loop stops.
Go: `start := end-1; lim := max(0, end-4); for start--; start >= lim; start-- { if RuneStart(s[start]) {break} };
if start < 0 { start = 0 }`. The list holds the bytes before position `end-n`, last one first. Standard library; used in /repo at lattice.go:163. -/
def lastStart : Nat → Bytes → Nat
  | n, [] => n                            -- start < 0, so start = 0
  | n, b :: t =>
    if 4 ≤ n then n + 1                   -- start = lim - 1 ≥ 0: the loop has ended
    else if runeStart b then n + 1
    else lastStart (n + 1) t

/-- `utf8.DecodeLastRuneInString`. Standard library; used in /repo at lattice.go:163. -/
def decodeLastRune (s : Bytes) : Nat × Nat :=
  match s.reverse with
  | [] => (runeError, 0)
  | b :: rev =>
    if b.toNat < 0x80 then (b.toNat, 1)
    else
      let n := lastStart 1 rev
      let d := decodeRune (s.drop (s.length - n))
      if d.2 = n then d else (runeError, 1)

/-- The empty text has no rune; a broken byte is one of width 1. -/
example : decodeRune [] = (0xFFFD, 0) ∧ decodeRune [0x80] = (0xFFFD, 1) ∧ decodeRune [0xE3, 0x81] = (0xFFFD, 1) ∧ decodeRune [0xE3, 0x81, 0x82] = (0x3042, 3) ∧
    decodeLastRune [] = (0xFFFD, 0) ∧ decodeLastRune [0x61, 0xE3, 0x81, 0x82] = (0x3042, 3) := by decide

end Kagome
