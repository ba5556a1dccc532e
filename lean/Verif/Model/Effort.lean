import Verif.Model.Tokenizer

/-!
`/repo/tokenizer/lattice/lattice.go` with counters: how often the inner loops run. The functions are those of `Verif/Model/Lattice.lean` with a
number added for every round; `Verif/Proof/Effort.lean` shows that without the numbers they are those functions.
-/

namespace Kagome

/-- lattice.go:148-159, `groupLoop` with the number of rounds (decoded characters). -/
def groupLoopN (d : Dict) (cls : Nat) : List (Nat × Nat) → Nat → Nat → Nat → Nat × Nat
  | [], endPos, _, k => (endPos, k)
  | (c, w) :: rest, endPos, unkWordLen, k =>
    if d.category c ≠ cls then (endPos, k + 1)
    else if unkWordLen + 1 ≥ maximumUnknownWordLength then (endPos + w, k + 1)
    else groupLoopN d cls rest (endPos + w) (unkWordLen + 1) (k + 1)

/-- lattice.go:140-160: `unkEnd` with the number of rounds of the grouping loop. -/
def unkEndN (d : Dict) (inp : Bytes) (pos ch : Nat) : Option (Nat × Nat) :=
  let endPos := if ch ≠ runeError then pos + runeLen ch else pos + 1
  match d.groupList[d.category ch]? with
  | none => none
  | some true => some (groupLoopN d (d.category ch) (runes (inp.drop endPos)) endPos 1 0)
  | some false => some (endPos, 0)

/-- lattice.go:119-160: the rounds of the grouping loop in the body of the loop over the input (none when the unknown words are not looked at). -/
def roundsAt (d : Dict) (u : Option UserDict) (inp : Bytes) (pos ch : Nat) : Nat :=
  if userHits u (inp.drop pos) ≠ [] then 0
  else if d.prefixSearch (inp.drop pos) = [] ∨ d.invokeList[d.category ch]? = some true then ((unkEndN d inp pos ch).map (·.2)).getD 0
  else 0

/-- lattice.go:113-176: the rounds of the grouping loop in all of `Build`. -/
def buildRounds (d : Dict) (u : Option UserDict) (inp : Bytes) : Nat :=
  ((rangeString inp).map (fun p => roundsAt d u inp p.1 p.2)).sum

/-- The number of nodes in the lattice: the calls of `addNode`, lattice.go:75-98. -/
def nodeCount (cols : Cols) : Nat := (cols.map List.length).sum

/-- lattice.go:222-238 `relax` with the number of rounds. -/
def relaxN (d : Dict) (ideo : Nat → Bool) (m : LMode) (i idx : Nat) : List Nat → Cols × Nat → Option (Cols × Nat)
  | [], r => some r
  | j :: js, (cols, k) =>
    match getNode cols i idx with
    | none => none
    | some target =>
      match getNode cols target.start j with
      | none => none
      | some n =>
        match connCost d n target with
        | none => none
        | some c =>
          let t := int32 (totalCost ideo m c n target)
          if j = 0 ∨ t < target.cost then
            relaxN d ideo m i idx js (setNode cols i idx { target with cost := t, prev := some (target.start, j) }, k + 1)
          else relaxN d ideo m i idx js (cols, k + 1)

/-- lattice.go:216-239 `forwardNode` with the number of rounds. -/
def forwardNodeN (d : Dict) (ideo : Nat → Bool) (m : LMode) (i idx : Nat) (r : Cols × Nat) : Option (Cols × Nat) :=
  match getNode r.1 i idx with
  | none => none
  | some target =>
    match r.1[target.start]? with
    | none => none
    | some prevList =>
      if prevList.length = 0 then
        some (setNode r.1 i idx { target with cost := maximumCost }, r.2)
      else relaxN d ideo m i idx (List.range prevList.length) r

/-- lattice.go:215-240 `forwardCol` with the number of rounds. -/
def forwardColN (d : Dict) (ideo : Nat → Bool) (m : LMode) (i : Nat) : List Nat → Cols × Nat → Option (Cols × Nat)
  | [], r => some r
  | idx :: rest, r =>
    match forwardNodeN d ideo m i idx r with
    | none => none
    | some r => forwardColN d ideo m i rest r

/-- lattice.go:214-241 `forwardLoop` with the number of rounds. -/
def forwardLoopN (d : Dict) (ideo : Nat → Bool) (m : LMode) : List Nat → Cols × Nat → Option (Cols × Nat)
  | [], r => some r
  | i :: rest, r =>
    match r.1[i]? with
    | none => none
    | some col =>
      match forwardColN d ideo m i (List.range col.length) r with
      | none => none
      | some r => forwardLoopN d ideo m rest r

/-- lattice.go:213-241 `Forward` with the number of rounds of its innermost loop. -/
def forwardN (d : Dict) (ideo : Nat → Bool) (m : LMode) (cols : Cols) : Option (Cols × Nat) :=
  forwardLoopN d ideo m (List.range' 1 (cols.length - 1)) (cols, 0)

/-- lattice.go:249-271 `walk` with the number of nodes visited. -/
def walkN (m : LMode) (cols : Cols) : Nat → Option (Nat × Nat) → Option (List Node × Nat)
  | _, none => some ([], 0)
  | 0, some _ => none
  | fuel + 1, some (i, j) =>
    match getNode cols i j with
    | none => none
    | some p => (walkN m cols fuel p.prev).map (fun r => (emit m p ++ r.1, r.2 + 1))

/-- lattice.go:244-271 `Backward` with the number of nodes visited. -/
def backwardN (m : LMode) (cols : Cols) : Option (List Node × Nat) :=
  if cols.length = 0 then some ([], 0)
  else walkN m cols (cols.length + 1) (some (cols.length - 1, 0))

/-- What one call of `Analyze` did. tokenizer.go:83-126. -/
structure Effort where
  /-- rounds of the grouping loop for unknown words -/
  grouping : Nat
  /-- nodes made -/
  nodes : Nat
  /-- pairs of neighbouring nodes compared -/
  pairs : Nat
  /-- nodes visited on the way back -/
  visited : Nat
  /-- nodes put into `Output` -/
  output : Nat
deriving DecidableEq, Repr

/-- tokenizer.go:84-99: `Build`, `Forward` and `Backward` of `Analyze`, counted. -/
def effort (t : Tokenizer) (ideo : Nat → Bool) (inp : Bytes) (mode : Int) : Option Effort :=
  match build t.dict t.userDict inp with
  | none => none
  | some cols =>
    match forwardN t.dict ideo (latticeMode mode) cols with
    | none => none
    | some (cols', pairs) =>
      (backwardN (latticeMode mode) cols').map (fun r => ⟨buildRounds t.dict t.userDict inp, nodeCount cols, pairs, r.2, r.1.length⟩)

end Kagome
