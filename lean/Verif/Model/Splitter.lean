import Verif.Go.Space
import Verif.Go.Str

/-!
# filter/sentence_splitter.go

The split function edits `data` in place, so the model threads the contents of `data` through the loop. Indexing and
slicing are checked; `none` is a panic. `p`, `start`, `end` are byte offsets in `data`.
-/

namespace Kagome

/-- filter/sentence_splitter.go:9-15 (`SentenceSplitter`). -/
structure Splitter where
  delim : List Nat
  follower : List Nat
  skipWhiteSpace : Bool
  doubleLineFeedSplit : Bool
  maxRuneLen : Int

/-- filter/sentence_splitter.go:18-24 (`defaultSplitter`). -/
def defaultSplitter : Splitter where
  delim := ['。', '．', '！', '!', '？', '?'].map (·.val.toNat)
  follower := ['.', '｣', '」', '』', ')', '）', '｝', '}', '〉', '》'].map (·.val.toNat)
  skipWhiteSpace := true
  doubleLineFeedSplit := true
  maxRuneLen := 128

/-- filter/sentence_splitter.go:32-39 (`isDelim`). -/
def Splitter.isDelim (s : Splitter) (r : Nat) : Bool := s.delim.any (r == ·)

/-- filter/sentence_splitter.go:41-48 (`isFollower`). -/
def Splitter.isFollower (s : Splitter) (r : Nat) : Bool := s.follower.any (r == ·)

/-- The results of a split function, with the contents of `data` after the call. `token = none` is nil; otherwise the
token is the slice `data[a:b]` (sharing memory with `data`). The error result is always nil here and left out. filter/sentence_splitter.go:52. -/
structure SplitResult where
  data : Bytes
  advance : Nat
  token : Option (Nat × Nat)
  deriving DecidableEq, Repr

/-- `data[i] = b`: panics unless `i < len(data)`. filter/sentence_splitter.go:83, 113, 127. -/
def setByte (data : Bytes) (i : Nat) (b : UInt8) : Option Bytes :=
  if i < data.length then some (data.set i b) else none

/-- filter/sentence_splitter.go:82-84 and 112-114: `for i := 0; i < size; i++ { data[end+i] = data[p+i] }`, with `k`
iterations left and current offsets `to`, `from`. -/
def copyBytes : Nat → Bytes → Nat → Nat → Option Bytes
  | 0, data, _, _ => some data
  | k + 1, data, to, fr => do
    let b ← data[fr]?
    let data ← setByte data to b
    copyBytes k data (to + 1) (fr + 1)

/-- filter/sentence_splitter.go:81-85 and 111-115: the copy, unless nothing has been skipped. -/
def moveRune (size : Nat) (data : Bytes) (stop p : Nat) : Option Bytes :=
  if stop ≠ p then copyBytes size data stop p else some data

/-- filter/sentence_splitter.go:126-128: `for i := end; i < len(data); i++ { data[i] = ' ' }`, `k` iterations left. -/
def fillSpaces : Nat → Bytes → Nat → Option Bytes
  | 0, data, _ => some data
  | k + 1, data, i => do
    let data ← setByte data i 0x20
    fillSpaces k data (i + 1)

/-- `return p, data[start:end], nil`: the slice expression is checked. filter/sentence_splitter.go:69, 72, 91, 106, 122, 132. -/
def returnToken (data : Bytes) (p start stop : Nat) : Option SplitResult :=
  if start ≤ stop ∧ stop ≤ data.length then some ⟨data, p, some (start, stop)⟩ else none

/-- filter/sentence_splitter.go:100-122: the loop that collects delimiters and followers after a sentence, and the
return behind it. `fuel` bounds the iterations. -/
def Splitter.tailLoop (s : Splitter) (start : Nat) : Nat → Bytes → (p stop : Nat) → (nn : Bool) → Option SplitResult
  | 0, _, _, _, _ => none
  | fuel + 1, data, p, stop, nn =>
    if p < data.length then
      let r := (decodeRune (data.drop p)).1
      let size := (decodeRune (data.drop p)).2
      if s.skipWhiteSpace && isSpace r then
        if s.doubleLineFeedSplit && r == lineFeed then
          if nn then returnToken data (p + size) start stop
          else s.tailLoop start fuel data (p + size) stop true
        else s.tailLoop start fuel data (p + size) stop nn
      else if s.isDelim r || s.isFollower r then do
        let data ← moveRune size data stop p
        s.tailLoop start fuel data (p + size) (stop + size) nn
      else returnToken data p start stop
    else returnToken data p start stop

/-- filter/sentence_splitter.go:61-133: the main loop and the code behind it. `fuel` bounds the iterations. -/
def Splitter.mainLoop (s : Splitter) (atEOF : Bool) :
    Nat → Bytes → (p start stop : Nat) → (rcount : Int) → (head nn : Bool) → Option SplitResult
  | 0, _, _, _, _, _, _, _ => none
  | fuel + 1, data, p, start, stop, rcount, head, nn =>
    if p < data.length then
      let r := (decodeRune (data.drop p)).1
      let size := (decodeRune (data.drop p)).2
      if s.skipWhiteSpace && isSpace r then
        if head then s.mainLoop atEOF fuel data (p + size) (p + size) (p + size) rcount head nn
        else if s.isDelim r then returnToken data (p + size) start stop
        else if s.doubleLineFeedSplit && r == lineFeed then
          if nn then returnToken data (p + size) start stop
          else s.mainLoop atEOF fuel data (p + size) start stop rcount head true
        else s.mainLoop atEOF fuel data (p + size) start stop rcount head (if nn then false else nn)
      else do
        let data ← moveRune size data stop p
        let p := p + size
        let stop := stop + size
        let rcount := rcount + 1
        if s.doubleLineFeedSplit && r == lineFeed && nn then returnToken data p start stop
        else
          let nn := if s.doubleLineFeedSplit && r == lineFeed then true else nn
          if !s.isDelim r && decide (rcount < s.maxRuneLen) then
            s.mainLoop atEOF fuel data p start stop rcount false nn
          else s.tailLoop start (data.length + 1) data p stop false
    else if !atEOF then do
      let data ← fillSpaces (data.length - stop) data stop
      some ⟨data, start, none⟩
    else returnToken data data.length start stop

/-- filter/sentence_splitter.go:52-133 (`SentenceSplitter.ScanSentences`). -/
def Splitter.scanSentences (s : Splitter) (data : Bytes) (atEOF : Bool) : Option SplitResult :=
  if atEOF && data.isEmpty then some ⟨data, 0, none⟩
  else s.mainLoop atEOF (data.length + 1) data 0 0 0 0 true false

/-- filter/sentence_splitter.go:28-30 (`ScanSentences`). -/
def scanSentences (data : Bytes) (atEOF : Bool) : Option SplitResult := defaultSplitter.scanSentences data atEOF

end Kagome
