import Verif.Go.Utf8

/-! `unicode.IsSpace`: the runes with the Unicode property White_Space. Part of the trusted base (not in /repo). -/

namespace Kagome

/-- `unicode.IsSpace`. Latin-1: `'\t', '\n', '\v', '\f', '\r', ' ', U+0085, U+00A0`; above: the `White_Space` range
table of package unicode. Standard library; used in /repo at filter/sentence_splitter.go:63, 102. -/
def isSpace (r : Nat) : Bool :=
  (9 ≤ r && r ≤ 13) || r == 0x20 || r == 0x85 || r == 0xA0 || r == 0x1680 || (0x2000 ≤ r && r ≤ 0x200A) ||
    r == 0x2028 || r == 0x2029 || r == 0x202F || r == 0x205F || r == 0x3000

/-- The rune `'\n'`. Language; used in /repo at filter/sentence_splitter.go:70, 89, 104. -/
def lineFeed : Nat := 10

end Kagome
