import Verif.Go.Json

/-!
`strconv.Quote` (the `%q` of a string), written from Go's strconv/quote.go; part of the trusted base: the package is not in /repo.
`strconv.IsPrint` is a parameter.
-/

namespace Kagome

/-- The two hexadecimal digits of a byte. Standard library; `%q`, used in /repo at tokenizer/token.go:254. -/
def hex2 (n : Nat) : Bytes := [hexByte (n / 16 % 16), hexByte (n % 16)]

/-- `appendEscapedRune` with `quote = '"'`, not ASCII only. Standard library; `%q`, used in /repo at tokenizer/token.go:254. -/
def quoteRune (isPrint : Nat → Bool) (r : Nat) : Bytes :=
  if r = 0x22 ∨ r = 0x5C then [0x5C, UInt8.ofNat r]
  else if isPrint r then encodeRune r
  else if r = 0x07 then str "\\a"
  else if r = 0x08 then str "\\b"
  else if r = 0x0C then str "\\f"
  else if r = 0x0A then str "\\n"
  else if r = 0x0D then str "\\r"
  else if r = 0x09 then str "\\t"
  else if r = 0x0B then str "\\v"
  else if r < 0x20 ∨ r = 0x7F then str "\\x" ++ hex2 r
  else if r < 0x10000 then str "\\u" ++ hex2 (r / 256) ++ hex2 r
  else str "\\U" ++ hex2 (r / 16777216) ++ hex2 (r / 65536) ++ hex2 (r / 256) ++ hex2 r

/-- The loop of `appendQuotedWith`, over the runes of `s` and their widths. (`ValidRune` holds for every rune that decoding gives.) Standard
library; `%q`, used in /repo at tokenizer/token.go:254. -/
def quoteLoop (isPrint : Nat → Bool) : List (Nat × Nat) → Bytes → Bytes
  | [], _ => []
  | r :: rs, s =>
    (if r = (runeError, 1) then str "\\x" ++ hex2 (s.head?.getD 0).toNat else quoteRune isPrint r.1) ++ quoteLoop isPrint rs (s.drop r.2)

/-- `strconv.Quote`. Standard library; `%q`, used in /repo at tokenizer/token.go:254. -/
def quote (isPrint : Nat → Bool) (s : Bytes) : Bytes := str "\"" ++ quoteLoop isPrint (runes s) s ++ str "\""

end Kagome
