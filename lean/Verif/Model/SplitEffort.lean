import Verif.Go.Scanner

/-!
`/repo/filter/sentence_splitter.go` with a counter: the functions are those of `Verif/Model/Splitter.lean` (and the loop around them those of
`Verif/Go/Scanner.lean`) with a number `k` that grows by one in every round of every loop over the text: for every character looked at, for every
byte moved and for every byte overwritten with a blank. The loops over the (fixed) lists of delimiters and followers are not counted.
`C79_counts_call` and `C79_counts_scan` show that without the number these are the original functions.
-/

namespace Kagome

/-- filter/sentence_splitter.go:82-84 and 112-114: `copyBytes`, counting the bytes. -/
def copyBytesN : Nat → Bytes → Nat → Nat → Nat → Option (Bytes × Nat)
  | 0, data, _, _, k => some (data, k)
  | n + 1, data, to, fr, k => do
    let b ← data[fr]?
    let data ← setByte data to b
    copyBytesN n data (to + 1) (fr + 1) (k + 1)

/-- filter/sentence_splitter.go:81-85 and 111-115: `moveRune`, counting the bytes. -/
def moveRuneN (size : Nat) (data : Bytes) (stop p k : Nat) : Option (Bytes × Nat) :=
  if stop ≠ p then copyBytesN size data stop p k else some (data, k)

/-- filter/sentence_splitter.go:126-128: `fillSpaces`, counting the bytes. -/
def fillSpacesN : Nat → Bytes → Nat → Nat → Option (Bytes × Nat)
  | 0, data, _, k => some (data, k)
  | n + 1, data, i, k => do
    let data ← setByte data i 0x20
    fillSpacesN n data (i + 1) (k + 1)

/-- filter/sentence_splitter.go:69, 72, 91, 106, 122, 132: `returnToken` with the number. -/
def returnTokenN (data : Bytes) (p start stop k : Nat) : Option (SplitResult × Nat) := (returnToken data p start stop).map (·, k)

/-- filter/sentence_splitter.go:100-122: `tailLoop`, counting the rounds and the bytes moved. -/
def Splitter.tailLoopN (s : Splitter) (start : Nat) : Nat → Bytes → (p stop : Nat) → (nn : Bool) → (k : Nat) → Option (SplitResult × Nat)
  | 0, _, _, _, _, _ => none
  | fuel + 1, data, p, stop, nn, k =>
    if p < data.length then
      let r := (decodeRune (data.drop p)).1
      let size := (decodeRune (data.drop p)).2
      if s.skipWhiteSpace && isSpace r then
        if s.doubleLineFeedSplit && r == lineFeed then
          if nn then returnTokenN data (p + size) start stop (k + 1)
          else s.tailLoopN start fuel data (p + size) stop true (k + 1)
        else s.tailLoopN start fuel data (p + size) stop nn (k + 1)
      else if s.isDelim r || s.isFollower r then do
        let (data, k) ← moveRuneN size data stop p (k + 1)
        s.tailLoopN start fuel data (p + size) (stop + size) nn k
      else returnTokenN data p start stop (k + 1)
    else returnTokenN data p start stop k

/-- filter/sentence_splitter.go:61-133: `mainLoop`, counting the rounds, the bytes moved and the bytes overwritten. -/
def Splitter.mainLoopN (s : Splitter) (atEOF : Bool) :
    Nat → Bytes → (p start stop : Nat) → (rcount : Int) → (head nn : Bool) → (k : Nat) → Option (SplitResult × Nat)
  | 0, _, _, _, _, _, _, _, _ => none
  | fuel + 1, data, p, start, stop, rcount, head, nn, k =>
    if p < data.length then
      let r := (decodeRune (data.drop p)).1
      let size := (decodeRune (data.drop p)).2
      if s.skipWhiteSpace && isSpace r then
        if head then s.mainLoopN atEOF fuel data (p + size) (p + size) (p + size) rcount head nn (k + 1)
        else if s.isDelim r then returnTokenN data (p + size) start stop (k + 1)
        else if s.doubleLineFeedSplit && r == lineFeed then
          if nn then returnTokenN data (p + size) start stop (k + 1)
          else s.mainLoopN atEOF fuel data (p + size) start stop rcount head true (k + 1)
        else s.mainLoopN atEOF fuel data (p + size) start stop rcount head (if nn then false else nn) (k + 1)
      else do
        let (data, k) ← moveRuneN size data stop p (k + 1)
        let p := p + size
        let stop := stop + size
        let rcount := rcount + 1
        if s.doubleLineFeedSplit && r == lineFeed && nn then returnTokenN data p start stop k
        else
          let nn := if s.doubleLineFeedSplit && r == lineFeed then true else nn
          if !s.isDelim r && decide (rcount < s.maxRuneLen) then
            s.mainLoopN atEOF fuel data p start stop rcount false nn k
          else s.tailLoopN start (data.length + 1) data p stop false k
    else if !atEOF then do
      let (data, k) ← fillSpacesN (data.length - stop) data stop k
      some (⟨data, start, none⟩, k)
    else returnTokenN data data.length start stop k

/-- filter/sentence_splitter.go:52-133 (`SentenceSplitter.ScanSentences`): the result of one call and the work it took. -/
def Splitter.scanSentencesN (s : Splitter) (data : Bytes) (atEOF : Bool) : Option (SplitResult × Nat) :=
  if atEOF && data.isEmpty then some (⟨data, 0, none⟩, 0)
  else s.mainLoopN atEOF (data.length + 1) data 0 0 0 0 true false 0

/-- `drain` of `Verif/Go/Scanner.lean` (calls of the split function until it gives no token), adding up the work of the calls. Used in /repo at
cmd/sentence/cmd.go:78-83. -/
def drainN (split : Bytes → Bool → Option (SplitResult × Nat)) (atEOF : Bool) : Nat → Bytes → Option ((List Bytes × Bytes) × Nat)
  | 0, _ => none
  | fuel + 1, buf =>
    if buf.isEmpty && !atEOF then some (([], buf), 0)
    else do
      let (res, k) ← split buf atEOF
      if res.advance ≤ res.data.length then
        match res.token with
        | none => some (([], res.data.drop res.advance), k)
        | some (a, b) => do
          let (more, k') ← drainN split atEOF fuel (res.data.drop res.advance)
          some (((res.data.take b).drop a :: more.1, more.2), k + k')
      else none

/-- `scanFrom` of `Verif/Go/Scanner.lean` (a whole scan), adding up the work of the calls. Used in /repo at cmd/sentence/cmd.go:78-83. -/
def scanFromN (split : Bytes → Bool → Option (SplitResult × Nat)) :
    List ReadResult → (empties : Nat) → Bytes → Option ((List Bytes × ScanEnd) × Nat)
  | [], _, buf => do
    let (last, k) ← drainN split true (buf.length + 1) buf
    some ((last.1, .done), k)
  | rd :: rds, empties, buf =>
    if rd.err then do
      let (last, k) ← drainN split true ((buf ++ rd.bytes).length + 1) (buf ++ rd.bytes)
      some ((last.1, .done), k)
    else if rd.bytes.isEmpty then
      if maxEmptyReads ≤ empties then do
        let (last, k) ← drainN split true (buf.length + 1) buf
        some ((last.1, .noProgress), k)
      else scanFromN split rds (empties + 1) buf
    else do
      let (now, k) ← drainN split false ((buf ++ rd.bytes).length + 1) (buf ++ rd.bytes)
      if maxTokenSize ≤ now.2.length then some ((now.1, .tooLong), k)
      else do
        let (more, k') ← scanFromN split rds 0 now.2
        some ((now.1 ++ more.1, more.2), k + k')

/-- `scanAll` of `Verif/Go/Scanner.lean`, with the work. Used in /repo at cmd/sentence/cmd.go:78-83. -/
def scanAllN (split : Bytes → Bool → Option (SplitResult × Nat)) (reader : List ReadResult) : Option ((List Bytes × ScanEnd) × Nat) :=
  scanFromN split reader 0 []

end Kagome
