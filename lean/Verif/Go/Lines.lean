import Verif.Go.Scanner

/-! # `bufio.ScanLines`

Written from Go's bufio/scan.go; part of the trusted base. It does not change the data. -/

namespace Kagome

/-- `dropCR`, as the new length. Standard library; used in /repo at cmd/tokenize/cmd.go:161 (the default split function) and
filter/ja/loader.go:10. -/
def dropCRLen (line : Bytes) : Nat := if line.getLast? = some 0x0D then line.length - 1 else line.length

/-- `bufio.ScanLines`. Standard library; used in /repo at cmd/tokenize/cmd.go:161 (the default split function) and filter/ja/loader.go:10. -/
def scanLines : SplitFunc := fun data atEOF =>
  if atEOF && data.isEmpty then some ⟨data, 0, none⟩
  else
    let i := data.findIdx (· == 0x0A)
    if i < data.length then some ⟨data, i + 1, some (0, dropCRLen (data.take i))⟩
    else if atEOF then some ⟨data, data.length, some (0, dropCRLen data)⟩
    else some ⟨data, 0, none⟩

end Kagome
