import Verif.Go.Str
import Verif.Model.Token

/-!
# `json.Marshal` for the values in /repo

Written from Go's encoding/json (encode.go); part of the trusted base: the package is not in /repo. Only integers, strings, slices of
strings, `TokenData` and the response of the server are encoded. `short`: whether U+0008 and U+000C are written `\b` and `\f` (Go 1.22
and later) or `\u0008` and `\u000c` (before). A valid character that needs no escape is copied; here its bytes are encoded again, which
gives the same bytes.
-/

namespace Kagome

/-- A digit of a hexadecimal number, `"0123456789abcdef"[n]`. Standard library; used in /repo at cmd/tokenize/cmd.go:208 and cmd/server/api.go:54. -/
def hexByte (n : Nat) : UInt8 := if n < 10 then UInt8.ofNat (0x30 + n) else UInt8.ofNat (0x61 + (n - 10))

/-- `htmlSafeSet`: the ASCII characters that are copied. Standard library; used in /repo at cmd/tokenize/cmd.go:208 and cmd/server/api.go:54. -/
def htmlSafe (r : Nat) : Bool :=
  0x20 ≤ r && r ≠ 0x22 && r ≠ 0x26 && r ≠ 0x3C && r ≠ 0x3E && r ≠ 0x5C

/-- The loop body of `appendString` with `escapeHTML`, for one character and its width. Standard library; used in /repo at
cmd/tokenize/cmd.go:208 and cmd/server/api.go:54. -/
def jsonRune (short : Bool) (r : Nat × Nat) : Bytes :=
  if r.1 < 0x80 then
    if htmlSafe r.1 then [UInt8.ofNat r.1]
    else if r.1 = 0x5C ∨ r.1 = 0x22 then [0x5C, UInt8.ofNat r.1]
    else if short && r.1 = 0x08 then str "\\b"
    else if short && r.1 = 0x0C then str "\\f"
    else if r.1 = 0x0A then str "\\n"
    else if r.1 = 0x0D then str "\\r"
    else if r.1 = 0x09 then str "\\t"
    else str "\\u00" ++ [hexByte (r.1 / 16), hexByte (r.1 % 16)]
  else if r = (runeError, 1) then str "\\ufffd"
  else if r.1 = 0x2028 ∨ r.1 = 0x2029 then str "\\u202" ++ [hexByte (r.1 % 16)]
  else encodeRune r.1

/-- A string. Standard library; used in /repo at cmd/tokenize/cmd.go:208 and cmd/server/api.go:54. -/
def jsonString (short : Bool) (s : Bytes) : Bytes := str "\"" ++ (runes s).flatMap (jsonRune short) ++ str "\""

/-- `%d` and `strconv.AppendInt`. Standard library; used in /repo at lattice.go:366-384 and cmd/tokenize/cmd.go:208. -/
def itoa (x : Int) : Bytes := str (toString x)

/-- A slice of strings; nil gives `null`. Standard library; used in /repo at cmd/tokenize/cmd.go:208 and cmd/server/api.go:54. -/
def jsonStrings (short : Bool) : Option (List Bytes) → Bytes
  | none => str "null"
  | some l => str "[" ++ join (str ",") (l.map (jsonString short)) ++ str "]"

/-- A field of a struct. Standard library; used in /repo at cmd/tokenize/cmd.go:208 and cmd/server/api.go:54. -/
def jsonField (name value : Bytes) : Bytes := str "\"" ++ name ++ str "\":" ++ value

/-- `TokenData` (token.go:265-276 with its tags). -/
def jsonTokenData (short : Bool) (t : TokenData) : Bytes :=
  str "{" ++ join (str ",") [
    jsonField (str "id") (itoa t.id), jsonField (str "start") (itoa t.start), jsonField (str "end") (itoa t.stop),
    jsonField (str "surface") (jsonString short t.surface), jsonField (str "class") (jsonString short t.cls),
    jsonField (str "pos") (jsonStrings short t.pos), jsonField (str "base_form") (jsonString short t.baseForm),
    jsonField (str "reading") (jsonString short t.reading), jsonField (str "pronunciation") (jsonString short t.pronunciation),
    jsonField (str "features") (jsonStrings short t.features)] ++ str "}"

/-- A slice of `TokenData`; nil gives `null`. Standard library; used in /repo at cmd/server/api.go:54-57 and cmd/tokenize/cmd.go:208. -/
def jsonTokens (short : Bool) : Option (List TokenData) → Bytes
  | none => str "null"
  | some l => str "[" ++ join (str ",") (l.map (jsonTokenData short)) ++ str "]"

end Kagome
