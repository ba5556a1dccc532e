import Verif.Model.Token

/-! `/repo/filter/feature.go`, `filter.go`, `pos.go`, `word.go` and `/repo/filter/ja/filter.go`, `loader.go`. -/

namespace Kagome

/-- feature.go:17 `Any`. -/
def anyFeature : Bytes := [0]

/-- feature.go:19-26 `filterNode` with its edges. A nil `fanout` is the empty list (`fanout` is never empty and not nil). Every edge
owns the node it points to, so the pointers form a tree. -/
inductive FNode where
  | mk (fanout : List (Bytes × FNode))

/-- feature.go:25. -/
def FNode.fanout : FNode → List (Bytes × FNode)
  | .mk es => es

/-- feature.go:28-30 `isLeaf`. -/
def FNode.isLeaf (n : FNode) : Bool := n.fanout.isEmpty

/-- feature.go:32-39 `has`: the first edge that carries `Any` or `s` (`none` is -1). -/
def FNode.has (n : FNode) (s : Bytes) : Option Nat := n.fanout.findIdx? (fun e => e.1 = anyFeature ∨ e.1 = s)

/-- feature.go:57-75, the loop of `add` at node `n` with the rest of the features. -/
def FNode.add (n : FNode) : List Bytes → FNode
  | [] => n
  | v :: rest =>
    match n.has v with
    | some k =>
      match n.fanout[k]? with
      | none => n
      | some (val, to) =>
        if to.isLeaf then n
        else if rest = [] then .mk (n.fanout.set k (val, .mk []))
        else .mk (n.fanout.set k (val, to.add rest))
    | none => .mk (n.fanout ++ [(v, (FNode.mk []).add rest)])

/-- feature.go:47-53 `NewFeaturesFilter`, the loop. -/
def addAll : FNode → List (List Bytes) → FNode
  | f, [] => f
  | f, v :: fs => addAll (f.add v) fs

/-- feature.go:47-53 `NewFeaturesFilter`. -/
def newFeaturesFilter (fs : List (List Bytes)) : FNode := addAll (.mk []) fs

/-- feature.go:79-92 `Match`. -/
def FNode.matchFeatures (n : FNode) : List Bytes → Bool
  | [] => false
  | v :: rest =>
    match n.has v with
    | some k =>
      match n.fanout[k]? with
      | none => false
      | some (_, to) => if to.isLeaf then true else to.matchFeatures rest
    | none => false

/-- word.go:8-10: a `map[string]struct{}` is the predicate of its keys. -/
abbrev WordFilter := Bytes → Bool

/-- word.go:17-19: `ret.words[v] = struct{}{}` for each word. -/
def insertWords : WordFilter → List Bytes → WordFilter
  | f, [] => f
  | f, v :: vs => insertWords (fun w => w = v || f w) vs

/-- word.go:13-21 `NewWordFilter`. -/
def newWordFilter (words : List Bytes) : WordFilter := insertWords (fun _ => false) words

/-- word.go:24-27 `Match`. -/
def wordMatch (f : WordFilter) (w : Bytes) : Bool := f w

/-! A slice of tokens is its backing array from its first cell up to its capacity, together with its length. -/

/-- filter.go:22-30, the loop of `applyFilter`: `n` iterations left, loop variable `i`. The match function may keep a state and may
panic; the token is read from the array as it is by then. -/
def applyLoop {σ : Type} (m : σ → Token → Option (Bool × σ)) (drop : Bool) :
    Nat → Nat → Nat → σ → List Token → Option (List Token × Nat × σ)
  | 0, _, tail, s, arr => some (arr, tail, s)
  | n + 1, i, tail, s, arr =>
    match arr[i]? with
    | none => none
    | some v =>
      match m s v with
      | none => none
      | some (b, s) =>
        if b = drop then applyLoop m drop n (i + 1) tail s arr
        else applyLoop m drop n (i + 1) (tail + 1) s (if i ≠ tail then arr.set tail v else arr)

/-- filter.go:17-32 `applyFilter`; a nil pointer is `none`. -/
def applyFilter {σ : Type} (m : σ → Token → Option (Bool × σ)) (drop : Bool) (s : σ) (tokens : Option (List Token × Nat)) :
    Option (Option (List Token × Nat) × σ) :=
  match tokens with
  | none => some (none, s)
  | some (arr, len) => (applyLoop m drop len 0 0 s arr).map (fun r => (some (r.1, r.2.1), r.2.2))

/-- filter.go:8-10 `Drop`. -/
def dropTokens {σ : Type} (s : σ) (tokens : Option (List Token × Nat)) (m : σ → Token → Option (Bool × σ)) := applyFilter m true s tokens
/-- filter.go:13-15 `Keep`. -/
def keepTokens {σ : Type} (s : σ) (tokens : Option (List Token × Nat)) (m : σ → Token → Option (Bool × σ)) := applyFilter m false s tokens

/-- pos.go:25-27 `Match` (a nil POS is an empty one). -/
def posMatch (f : FNode) (p : Option (List Bytes)) : Bool := f.matchFeatures (p.getD [])

/-- pos.go:44-52, the loop of `apply`. -/
def posLoop (f : FNode) (drop : Bool) : Nat → Nat → Nat → List Token → Option (List Token × Nat)
  | 0, _, tail, arr => some (arr, tail)
  | n + 1, i, tail, arr =>
    match arr[i]? with
    | none => none
    | some v =>
      match tokenPOS v with
      | none => none
      | some p =>
        if posMatch f p = drop then posLoop f drop n (i + 1) tail arr
        else posLoop f drop n (i + 1) (tail + 1) (if i ≠ tail then arr.set tail v else arr)

/-- pos.go:39-54 `apply`. -/
def posApply (f : FNode) (drop : Bool) (tokens : Option (List Token × Nat)) : Option (Option (List Token × Nat)) :=
  match tokens with
  | none => some none
  | some (arr, len) => (posLoop f drop len 0 0 arr).map some

/-- pos.go:30-32 `Drop`. -/
def posDrop (f : FNode) (tokens : Option (List Token × Nat)) := posApply f true tokens
/-- pos.go:35-37 `Keep`. -/
def posKeep (f : FNode) (tokens : Option (List Token × Nat)) := posApply f false tokens

/-- word.go:44-52, the loop of `apply`. -/
def wordLoop (f : WordFilter) (drop : Bool) : Nat → Nat → Nat → List Token → Option (List Token × Nat)
  | 0, _, tail, arr => some (arr, tail)
  | n + 1, i, tail, arr =>
    match arr[i]? with
    | none => none
    | some v =>
      if wordMatch f v.surface = drop then wordLoop f drop n (i + 1) tail arr
      else wordLoop f drop n (i + 1) (tail + 1) (if i ≠ tail then arr.set tail v else arr)

/-- word.go:39-54 `apply`. -/
def wordApply (f : WordFilter) (drop : Bool) (tokens : Option (List Token × Nat)) : Option (Option (List Token × Nat)) :=
  match tokens with
  | none => some none
  | some (arr, len) => (wordLoop f drop len 0 0 arr).map some

/-- word.go:30-32 `Drop`. -/
def wordDrop (f : WordFilter) (tokens : Option (List Token × Nat)) := wordApply f true tokens
/-- word.go:35-37 `Keep`. -/
def wordKeep (f : WordFilter) (tokens : Option (List Token × Nat)) := wordApply f false tokens

/-! ### `filter/ja` -/

/-- ja/filter.go:13-17 `Filter`. -/
structure JaFilter where
  baseForm : FNode
  stopTags : FNode
  stopWords : WordFilter

/-- ja/filter.go:20 `FilterOption`. -/
abbrev JaOption := JaFilter → JaFilter

/-- ja/filter.go:23-27 `BaseFormFilterOption`. -/
def baseFormOption (p : List (List Bytes)) : JaOption := fun f => { f with baseForm := newFeaturesFilter p }
/-- ja/filter.go:30-34 `StopTagsFilterOption`. -/
def stopTagsOption (p : List (List Bytes)) : JaOption := fun f => { f with stopTags := newFeaturesFilter p }
/-- ja/filter.go:37-41 `StopWordsFilterOption`. -/
def stopWordsOption (p : List Bytes) : JaOption := fun f => { f with stopWords := newWordFilter p }

/-- `bufio.ScanLines` run by a `bufio.Scanner` over a `bytes.Reader` (loader.go:10-13): the lines of the data without their line
feed; a last line without line feed counts, an empty rest does not. `cur` is the line so far, reversed. -/
def splitLines : Bytes → Bytes → List Bytes
  | cur, [] => if cur = [] then [] else [cur.reverse]
  | cur, c :: cs => if c = 0x0A then cur.reverse :: splitLines [] cs else splitLines (c :: cur) cs

/-- `bufio.ScanLines` drops one carriage return at the end of a line. Used at filter/ja/loader.go:10-13. -/
def dropCR (line : Bytes) : Bytes := if line.getLast? = some 0x0D then line.dropLast else line

/-- The largest line a `bufio.Scanner` takes with its default buffer: `bufio.MaxScanTokenSize` is 64 * 1024, and the line feed or
the end of the data has to be seen within the buffer. Used at filter/ja/loader.go:10. -/
def maxLine : Nat := 65535

/-- `strings.Index(s, "#")` (loader.go:17). -/
def indexHash (s : Bytes) : Option Nat := s.findIdx? (· = 0x23)

/-- loader.go:17-19: cut the line at its first `#`, unless it starts with it. -/
def cutHash (line : Bytes) : Bytes :=
  match indexHash line with
  | some i => if i > 0 then line.take i else line
  | none => line

/-- loader.go:12-25, the body of the loop for one line: the entry it appends, if any. -/
def loadLine (line : Bytes) : Option Bytes :=
  if line.head? = some 0x23 then none
  else
    let line := cutHash line
    if line = [] then none else some line

/-- loader.go:12-24, the loop over the lines the scanner delivers; it stops at a line that is too long (`true`). -/
def loadLoop : List Bytes → List Bytes × Bool
  | [] => ([], false)
  | line :: lines =>
    if line.length > maxLine then ([], true)
    else
      let (ret, err) := loadLoop lines
      match loadLine (dropCR line) with
      | some e => (e :: ret, err)
      | none => (ret, err)

/-- loader.go:9-26 `loadConfig`: the entries, or `bufio.ErrTooLong`. -/
def loadConfig (b : Bytes) : Except String (List Bytes) :=
  let (ret, err) := loadLoop (splitLines [] b)
  if err then .error "bufio.Scanner: token too long" else .ok ret

/-- `strings.Split(s, "-")` (ja/filter.go:90): `cur` is the part so far, reversed. -/
def splitDash : Bytes → Bytes → List Bytes
  | cur, [] => [cur.reverse]
  | cur, c :: cs => if c = 0x2D then cur.reverse :: splitDash [] cs else splitDash (c :: cur) cs

/-- ja/filter.go:91-93: fill up with `*` to four levels. -/
def padPOS (pos : List Bytes) : List Bytes := pos ++ List.replicate (4 - pos.length) (str "*")

/-- ja/filter.go:83-97 `newDefaultLuceneStopTagPOSFilter`; the argument is the embedded `asset/stop_tags.txt`. -/
def defaultStopTags (asset : Bytes) : Except String FNode :=
  match loadConfig asset with
  | .error e => .error ("failed to load stop tags: " ++ e)
  | .ok t => .ok (newFeaturesFilter (t.map (fun v => padPOS (splitDash [] v))))

/-- ja/filter.go:99-105 `newDefaultLuceneStopWordFilter`; the argument is the embedded `asset/stop_words.txt`. -/
def defaultStopWords (asset : Bytes) : Except String WordFilter :=
  match loadConfig asset with
  | .error e => .error ("failed to load stop words: " ++ e)
  | .ok t => .ok (newWordFilter t)

/-- ja/filter.go:67-81 `newDefaultLuceneFilter`. -/
def defaultJaFilter (tags words : Bytes) : Except String JaFilter :=
  match defaultStopTags tags with
  | .error e => .error ("failed to load stop tags: " ++ e)
  | .ok ta =>
    match defaultStopWords words with
    | .error e => .error ("failed to load stop words: " ++ e)
    | .ok wo => .ok { baseForm := newFeaturesFilter [[str "動詞"], [str "形容詞"], [str "形容動詞"]], stopTags := ta, stopWords := wo }

/-- ja/filter.go:50-52, the loop over the options. -/
def applyJaOptions : List JaOption → JaFilter → JaFilter
  | [], f => f
  | o :: os, f => applyJaOptions os (o f)

/-- ja/filter.go:45-54 `NewFilter`. -/
def newJaFilter (tags words : Bytes) (opts : List JaOption) : Except String JaFilter :=
  match defaultJaFilter tags words with
  | .error e => .error e
  | .ok f => .ok (applyJaOptions opts f)

/-- ja/filter.go:108-126 `Yield`. `POS` is called a second time for the base form. -/
def yieldWords (f : JaFilter) : List Token → Option (List Bytes)
  | [] => some []
  | v :: vs =>
    match tokenPOS v with
    | none => none
    | some p =>
      if posMatch f.stopTags p then yieldWords f vs
      else if wordMatch f.stopWords v.surface then yieldWords f vs
      else
        match tokenPOS v with
        | none => none
        | some p =>
          if posMatch f.baseForm p then
            match baseForm v with
            | none => none
            | some (b, ok) => if ok then (yieldWords f vs).map (b :: ·) else yieldWords f vs
          else (yieldWords f vs).map (v.surface :: ·)

/-- ja/filter.go:129-132 `Drop`. -/
def jaDrop (f : JaFilter) (tokens : Option (List Token × Nat)) : Option (Option (List Token × Nat)) :=
  match posDrop f.stopTags tokens with
  | none => none
  | some tokens => wordDrop f.stopWords tokens

end Kagome
