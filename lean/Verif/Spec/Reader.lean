import Verif.Go.Scanner

/-! Specification: what a reader delivers. -/

namespace Kagome.Spec

open Kagome

/-- The bytes a reader delivers until it first reports an error or the end of the input. -/
def delivered : List ReadResult → Bytes
  | [] => []
  | rd :: rds => if rd.err then rd.bytes else rd.bytes ++ delivered rds

/-- A reader that does not give up: it does not give nothing and no error more than 100 times in a row. `k`: how often it just did. -/
def Lively : Nat → List ReadResult → Prop
  | _, [] => True
  | k, rd :: rds => rd.err = true ∨ (if rd.bytes = [] then k < 100 ∧ Lively (k + 1) rds else Lively 0 rds)

/-- What is behind the last line feed of a text. -/
def openLine (s : Bytes) : Bytes := (s.reverse.takeWhile (· ≠ 0x0A)).reverse

/-- The reads of a file through the buffer of a `bufio.Scanner` for lines, which holds 65536 bytes: bytes and the end of the file never come
together, and no read gives more than there is room for behind the line begun (`u`). When the buffer is full nothing more is read. -/
def FileReads : Bytes → List ReadResult → Prop
  | _, [] => True
  | u, rd :: rds => 65536 ≤ u.length ∨ (rd.err = true ∧ rd.bytes = []) ∨
      (rd.err = false ∧ u.length + rd.bytes.length ≤ 65536 ∧ FileReads (openLine (u ++ rd.bytes)) rds)

end Kagome.Spec
