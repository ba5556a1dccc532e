import Verif.Model.Splitter

/-!
# `bufio.Scanner`

`Scanner.Scan` called until it returns false, with `Text` taken after each call (the loop of
cmd/sentence/cmd.go:67-72). Written from Go's bufio/scan.go; part of the trusted base. Simplifications: the buffer
is only its unread part `buf[start:end]`; a reader is the list of the results its `Read` calls give, of any size
(Go's are limited by the free space of the buffer); after the list, `Read` gives `0, io.EOF`.
-/

namespace Kagome

/-- One result of `Read`: the bytes, and whether an error (`io.EOF` or another) came with them. Standard library; used in /repo at
cmd/tokenize/cmd.go:161, cmd/sentence/cmd.go:78-83 and filter/ja/loader.go:10. -/
structure ReadResult where
  bytes : Bytes
  err : Bool := false

/-- Why the scan ended. `done`: after the reader reported `io.EOF` or an error of its own. Standard library; used in /repo at
cmd/tokenize/cmd.go:161, cmd/sentence/cmd.go:78-83 and filter/ja/loader.go:10. -/
inductive ScanEnd where
  | done
  | tooLong        -- bufio.ErrTooLong
  | noProgress     -- io.ErrNoProgress
  deriving DecidableEq, Repr

/-- `bufio.MaxScanTokenSize`. Standard library; used in /repo at cmd/tokenize/cmd.go:161, cmd/sentence/cmd.go:78-83 and filter/ja/loader.go:10. -/
def maxTokenSize : Nat := 65536

/-- `maxConsecutiveEmptyReads`. Standard library; used in /repo at cmd/tokenize/cmd.go:161, cmd/sentence/cmd.go:78-83 and filter/ja/loader.go:10. -/
def maxEmptyReads : Nat := 100

/-- A split function: the new contents of the data, advance and token; `none` = panic. Standard library; used in /repo at
cmd/tokenize/cmd.go:161, cmd/sentence/cmd.go:78-83 and filter/ja/loader.go:10. -/
abbrev SplitFunc := Bytes → Bool → Option SplitResult

/-- Calls of the split function on the unread bytes until it gives no token: the tokens and what is left unread.
`none`: the split function panicked, or broke the contract (advance beyond the data is an error in Go; a token
without progress at end of input, more than 100 times in a row, is a panic in Go), or the calls never end. Standard library; used in /repo at
cmd/tokenize/cmd.go:161, cmd/sentence/cmd.go:78-83 and filter/ja/loader.go:10. -/
def drain (split : SplitFunc) (atEOF : Bool) : Nat → Bytes → Option (List Bytes × Bytes)
  | 0, _ => none
  | fuel + 1, buf =>
    if buf.isEmpty && !atEOF then some ([], buf)
    else do
      let res ← split buf atEOF
      if res.advance ≤ res.data.length then
        match res.token with
        | none => some ([], res.data.drop res.advance)
        | some (a, b) => do
          let more ← drain split atEOF fuel (res.data.drop res.advance)
          some ((res.data.take b).drop a :: more.1, more.2)
      else none

/-- The whole scan: the texts of the tokens, in order, and how it ended. `empties`: consecutive empty reads. Standard library; used in /repo at
cmd/tokenize/cmd.go:161, cmd/sentence/cmd.go:78-83 and filter/ja/loader.go:10. -/
def scanFrom (split : SplitFunc) : List ReadResult → (empties : Nat) → Bytes → Option (List Bytes × ScanEnd)
  | [], _, buf => do
    let last ← drain split true (buf.length + 1) buf
    some (last.1, .done)
  | rd :: rds, empties, buf =>
    if rd.err then do
      let last ← drain split true ((buf ++ rd.bytes).length + 1) (buf ++ rd.bytes)
      some (last.1, .done)
    else if rd.bytes.isEmpty then
      if maxEmptyReads ≤ empties then do
        let last ← drain split true (buf.length + 1) buf
        some (last.1, .noProgress)
      else scanFrom split rds (empties + 1) buf
    else do
      let now ← drain split false ((buf ++ rd.bytes).length + 1) (buf ++ rd.bytes)
      if maxTokenSize ≤ now.2.length then some (now.1, .tooLong)
      else do
        let more ← scanFrom split rds 0 now.2
        some (now.1 ++ more.1, more.2)

/-- `bufio.NewScanner(r)`, `Split(split)`, and `for Scan() { … Text() … }`. Standard library; used in /repo at cmd/tokenize/cmd.go:161,
cmd/sentence/cmd.go:78-83 and filter/ja/loader.go:10. -/
def scanAll (split : SplitFunc) (reader : List ReadResult) : Option (List Bytes × ScanEnd) := scanFrom split reader 0 []

end Kagome
