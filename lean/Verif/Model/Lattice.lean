import Verif.Model.Dict

/-!
`/repo/tokenizer/lattice/lattice.go` and `node.go`, sequential model. A `*Node` in the lattice is its coordinate
(column, index); the pools are modelled separately (`Verif/Model/Prog.lean`, `Verif/Model/Machine.lean`). `none` is a run-time panic (or, for `walk`,
running out of fuel).
-/

namespace Kagome

/-- node.go:8 `BosEosID`. -/
def bosEosID : Int := -1

/-- node.go:10-19 `NodeClass`. -/
inductive NodeClass where
  | dummy
  | known
  | unknown
  | user
deriving DecidableEq, Repr

/-- lattice.go:15 `maximumCost`. -/
def maximumCost : Int := 2147483647
/-- lattice.go:16. -/
def maximumUnknownWordLength : Nat := 1024
/-- lattice.go:17. -/
def searchModeKanjiLength : Nat := 2
/-- lattice.go:18. -/
def searchModeKanjiPenalty : Nat := 3000
/-- lattice.go:19. -/
def searchModeOtherLength : Nat := 7
/-- lattice.go:20. -/
def searchModeOtherPenalty : Nat := 1700

/-- lattice.go:24-33 `TokenizeMode`. The Go type is an integer; `Forward` and `Backward` only ask whether it is `Normal` (lattice.go:228) and `Extended`
(lattice.go:250), so any other value does what `Search` does. -/
inductive LMode where
  | normal
  | search
  | extended
deriving DecidableEq, Repr

/-- node.go:37-48 `Node`. `prev` is the coordinate (column, index) of the node pointed to. `Cost` is an `int32`, kept in range
by `int32` below; `Left`, `Right`, `Weight` are converted from `int16`. -/
structure Node where
  id : Int
  position : Nat
  start : Nat
  cls : NodeClass
  cost : Int
  left : Int
  right : Int
  weight : Int
  surface : Bytes
  prev : Option (Nat × Nat)
deriving DecidableEq, Repr

/-- `la.list`, lattice.go:43. -/
abbrev Cols := List (List Node)

/-- Go conversion `int32(x)` of an `int64`: wraps around. Used at lattice.go:234-235. -/
def int32 (x : Int) : Int := (x + 2147483648) % 4294967296 - 2147483648

/-- lattice.go:76-86, the `switch class` of `addNode`. -/
def morphOf (d : Dict) (cls : NodeClass) (id : Int) : Option Morph :=
  match cls with
  | .dummy => some Morph.zero
  | .known => goGet d.morphs id
  | .unknown => goGet d.unk.morphs id
  | .user => some Morph.zero

/-- The node `addNode` fills in, lattice.go:87-95 (the node comes from the pool; every field is overwritten). -/
def newNode (m : Morph) (id : Int) (position start : Nat) (cls : NodeClass) (surface : Bytes) : Node :=
  { id := id, position := position, start := start, cls := cls, cost := 0,
    left := m.left.toInt, right := m.right.toInt, weight := m.weight.toInt, surface := surface, prev := none }

/-- lattice.go:75-98 `addNode`. -/
def addNode (d : Dict) (cols : Cols) (pos : Nat) (id : Int) (position start : Nat) (cls : NodeClass) (surface : Bytes) :
    Option Cols :=
  match morphOf d cls id with
  | none => none
  | some m =>
    let p := pos + runeCount surface
    if p < cols.length then
      some (cols.modify p (· ++ [newNode m id position start cls surface]))
    else none

/-- The callbacks lattice.go:120-125 and 131-136: one node per hit of the common-prefix search. -/
def addHits (d : Dict) (inp : Bytes) (runePos pos : Nat) (cls : NodeClass) : List (Nat × Nat) → Cols → Option Cols
  | [], cols => some cols
  | (id, l) :: hits, cols =>
    match slice inp pos (pos + l) with
    | none => none
    | some surface =>
      match addNode d cols runePos id pos runePos cls surface with
      | none => none
      | some cols => addHits d inp runePos pos cls hits cols

/-- lattice.go:148-159, the grouping loop over the runes after the first one: returns the end position. The list is what
decoding `inp[i:]` step by step yields; `endPos` and `i` move together. -/
def groupLoop (d : Dict) (cls : Nat) : List (Nat × Nat) → Nat → Nat → Nat
  | [], endPos, _ => endPos
  | (c, w) :: rest, endPos, unkWordLen =>
    if d.category c ≠ cls then endPos
    else if unkWordLen + 1 ≥ maximumUnknownWordLength then endPos + w
    else groupLoop d cls rest (endPos + w) (unkWordLen + 1)

/-- lattice.go:140-160: end of the unknown word that starts at `pos` with rune `ch`; `none` if `GroupList` is too short. -/
def unkEnd (d : Dict) (inp : Bytes) (pos ch : Nat) : Option Nat :=
  let endPos := if ch ≠ runeError then pos + runeLen ch else pos + 1
  match d.groupList[d.category ch]? with
  | none => none
  | some true => some (groupLoop d (d.category ch) (runes (inp.drop endPos)) endPos 1)
  | some false => some endPos

/-- lattice.go:162-165: where the word ends when its last character is cut off (`pos` if that is not to be tried). -/
def unkPrev (pos endPos : Nat) (word : Bytes) : Nat :=
  let d := decodeLastRune word
  if d.1 ≠ runeError then endPos - d.2 else pos

/-- lattice.go:168-174, the loop over the entries of the unknown-word dictionary; the list is the sequence of ids. -/
def addUnks (d : Dict) (inp : Bytes) (runePos pos prev endPos : Nat) : List Int → Cols → Option Cols
  | [], cols => some cols
  | id :: ids, cols =>
    let cols? :=
      if pos < prev then
        match slice inp pos prev with
        | none => none
        | some s => addNode d cols runePos id pos runePos .unknown s
      else some cols
    match cols?, slice inp pos endPos with
    | some cols, some s =>
      match addNode d cols runePos id pos runePos .unknown s with
      | none => none
      | some cols => addUnks d inp runePos pos prev endPos ids cols
    | _, _ => none

/-- lattice.go:166-168: the ids `id + x` for `x = 0 .. dup`. -/
def unkIds (d : Dict) (cls : Nat) : List Int :=
  (List.range (d.unk.indexDup cls + 1).toNat).map (fun (x : Nat) => d.unk.index cls + (x : Int))

/-- lattice.go:140-174, unknown words at one position. -/
def addUnknown (d : Dict) (inp : Bytes) (runePos pos ch : Nat) (cols : Cols) : Option Cols :=
  match unkEnd d inp pos ch with
  | none => none
  | some endPos =>
    match slice inp pos endPos with
    | none => none
    | some word => addUnks d inp runePos pos (unkPrev pos endPos word) endPos (unkIds d (d.category ch)) cols

/-- The hits of the user dictionary at a position, lattice.go:119-120 (no hits without user dictionary). -/
def userHits (u : Option UserDict) (s : Bytes) : List (Nat × Nat) :=
  match u with
  | none => []
  | some u => u.prefixSearch s

/-- lattice.go:115-175, the body of the loop over the input. -/
def buildAt (d : Dict) (u : Option UserDict) (inp : Bytes) (runePos pos ch : Nat) (cols : Cols) : Option Cols :=
  let uh := userHits u (inp.drop pos)
  match addHits d inp runePos pos .user uh cols with
  | none => none
  | some cols =>
    if uh ≠ [] then some cols
    else
      let kh := d.prefixSearch (inp.drop pos)
      match addHits d inp runePos pos .known kh cols with
      | none => none
      | some cols =>
        if kh = [] then addUnknown d inp runePos pos ch cols
        else
          match d.invokeList[d.category ch]? with
          | none => none
          | some true => addUnknown d inp runePos pos ch cols
          | some false => some cols

/-- lattice.go:113-176, the loop over the input. -/
def buildLoop (d : Dict) (u : Option UserDict) (inp : Bytes) : Nat → List (Nat × Nat) → Cols → Option Cols
  | _, [], cols => some cols
  | runePos, (pos, ch) :: rest, cols =>
    match buildAt d u inp runePos pos ch cols with
    | none => none
    | some cols => buildLoop d u inp (runePos + 1) rest cols

/-- lattice.go:102-177 `Build` on a lattice fresh from the pool (all columns empty: see the pool model). -/
def build (d : Dict) (u : Option UserDict) (inp : Bytes) : Option Cols :=
  let rc := runeCount inp
  let cols := List.replicate (rc + 2) []
  match addNode d cols 0 bosEosID 0 0 .dummy [] with
  | none => none
  | some cols =>
    match slice inp rc rc with
    | none => none
    | some e =>
      match addNode d cols (rc + 1) bosEosID inp.length rc .dummy e with
      | none => none
      | some cols => buildLoop d u inp 0 (rangeString inp) cols

/-- lattice.go:192-199 `kanjiOnly`; `ideo` is `unicode.In(·, unicode.Ideographic)`. -/
def kanjiOnly (ideo : Nat → Bool) (s : Bytes) : Bool :=
  (runes s).all (fun r => ideo r.1) && s ≠ []

/-- lattice.go:201-210 `additionalCost`. -/
def additionalCost (ideo : Nat → Bool) (n : Node) : Int :=
  let l := runeCount n.surface
  if l > searchModeKanjiLength ∧ kanjiOnly ideo n.surface then
    ((l - searchModeKanjiLength) * searchModeKanjiPenalty : Nat)
  else if l > searchModeOtherLength then
    ((l - searchModeOtherLength) * searchModeOtherPenalty : Nat)
  else 0

/-- lattice.go:223-226, the connection cost (0 next to a user word). -/
def connCost (d : Dict) (n target : Node) : Option Int :=
  if n.cls ≠ .user ∧ target.cls ≠ .user then
    (d.connection n.right target.left).map Int16.toInt
  else some 0

/-- lattice.go:227-233, the total cost before the conversion to `int32`. -/
def totalCost (ideo : Nat → Bool) (m : LMode) (c : Int) (n target : Node) : Int :=
  let t := c + target.weight + n.cost
  let t := if m ≠ .normal then t + additionalCost ideo n else t
  if t > maximumCost then maximumCost else t

/-- Read `la.list[i][j]`. lattice.go:216, 219, 234-236. -/
def getNode (cols : Cols) (i j : Nat) : Option Node := cols[i]?.bind (·[j]?)

/-- Write through the pointer `la.list[i][j]`. lattice.go:219, 235-236. -/
def setNode (cols : Cols) (i j : Nat) (n : Node) : Cols := cols.modify i (·.set j n)

/-- lattice.go:222-238, the inner loop over the predecessors; `js` are the remaining indices. -/
def relax (d : Dict) (ideo : Nat → Bool) (m : LMode) (i idx : Nat) : List Nat → Cols → Option Cols
  | [], cols => some cols
  | j :: js, cols =>
    match getNode cols i idx with
    | none => none
    | some target =>
      match getNode cols target.start j with
      | none => none
      | some n =>
        match connCost d n target with
        | none => none
        | some c =>
          let t := int32 (totalCost ideo m c n target)
          if j = 0 ∨ t < target.cost then
            relax d ideo m i idx js (setNode cols i idx { target with cost := t, prev := some (target.start, j) })
          else relax d ideo m i idx js cols

/-- lattice.go:216-239, one target node. -/
def forwardNode (d : Dict) (ideo : Nat → Bool) (m : LMode) (i idx : Nat) (cols : Cols) : Option Cols :=
  match getNode cols i idx with
  | none => none
  | some target =>
    match cols[target.start]? with
    | none => none
    | some prevList =>
      if prevList.length = 0 then
        some (setNode cols i idx { target with cost := maximumCost })
      else relax d ideo m i idx (List.range prevList.length) cols

/-- lattice.go:215-240, the loop over one column. -/
def forwardCol (d : Dict) (ideo : Nat → Bool) (m : LMode) (i : Nat) : List Nat → Cols → Option Cols
  | [], cols => some cols
  | idx :: rest, cols =>
    match forwardNode d ideo m i idx cols with
    | none => none
    | some cols => forwardCol d ideo m i rest cols

/-- lattice.go:214-241, the loop over the columns. -/
def forwardLoop (d : Dict) (ideo : Nat → Bool) (m : LMode) : List Nat → Cols → Option Cols
  | [], cols => some cols
  | i :: rest, cols =>
    match cols[i]? with
    | none => none
    | some col =>
      match forwardCol d ideo m i (List.range col.length) cols with
      | none => none
      | some cols => forwardLoop d ideo m rest cols

/-- lattice.go:213-241 `Forward`: columns `1 .. len-1`. -/
def forward (d : Dict) (ideo : Nat → Bool) (m : LMode) (cols : Cols) : Option Cols :=
  forwardLoop d ideo m (List.range' 1 (cols.length - 1)) cols

/-- lattice.go:257-266: the single characters of an unknown word, in the order of the text. -/
def explode (p : Node) : Nat → List (Nat × Nat) → List Node
  | _, [] => []
  | i, (k, r) :: rest =>
    { id := p.id, position := p.position + k, start := p.start + i, cls := .dummy, cost := 0, left := 0, right := 0,
      weight := 0, surface := encodeRune r, prev := none } :: explode p (i + 1) rest

/-- lattice.go:250-270: what one node of the best path appends to `Output` (last character first). -/
def emit (m : LMode) (p : Node) : List Node :=
  if m ≠ .extended ∨ p.cls ≠ .unknown then [p]
  else (explode p 0 (rangeString p.surface)).reverse

/-- lattice.go:249-271, following `prev`. The fuel bounds the number of steps; `none` when it runs out. -/
def walk (m : LMode) (cols : Cols) : Nat → Option (Nat × Nat) → Option (List Node)
  | _, none => some []
  | 0, some _ => none
  | fuel + 1, some (i, j) =>
    match getNode cols i j with
    | none => none
    | some p => (walk m cols fuel p.prev).map (emit m p ++ ·)

/-- lattice.go:244-271 `Backward` on an empty `Output`: the new `Output`. Every step goes to another node, so the number of
columns is enough fuel unless the walk runs in a circle. -/
def backward (m : LMode) (cols : Cols) : Option (List Node) :=
  if cols.length = 0 then some []
  else walk m cols (cols.length + 1) (some (cols.length - 1, 0))

end Kagome
