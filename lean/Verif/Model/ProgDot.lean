import Verif.Model.Prog
import Verif.Model.Dot

/-!
`AnalyzeGraph` and `Dot` on shared memory, see `Verif/Model/Prog.lean`. What is written to `w` is kept as a graph whose nodes are named by their
addresses; `dotText` gives the text for any rendering of addresses (`%p`). Errors of `w` are ignored by the code (`fmt.Fprintf` without a check). A `w`
that panics does so after any number of steps of `Dot`. The fields of a node that one iteration of a loop needs are read in one step.
-/

namespace Kagome

open Prog

/-- tokenizer.go:150-170: the tokens of `AnalyzeGraph`, from the end of `Output`. -/
def graphTokensP (t : Tokenizer) (la : Addr) (size : Nat) : Nat → Nat → Prog (List Token)
  | 0, _ => pure []
  | rest + 1, i => do
    let l ← readLatP la
    let p ← must (l.output.get? (size - 1 - i))
    let n ← must p
    let v ← readNodeP n
    let ts ← graphTokensP t la size rest (i + 1)
    return mkGraphToken t i v.toNode :: ts

/-- lattice.go:325-329, 335-339, 351-355: unknown words that are not on the best path are left out. -/
def hiddenP (bests : List Addr) (a : Addr) (v : PNode) : Bool := decide (v.cls = .unknown) && !bests.contains a

/-- lattice.go:334-341, the loop over `prevs`. -/
def edgesFromP (la : Addr) (bests : List Addr) (dst : Addr) (start : Nat) : List Nat → Prog (List (Addr × Addr))
  | [] => pure []
  | j :: js => do
    let p ← atP la start j
    let src ← must p
    let v ← readNodeP src
    if hiddenP bests src v then edgesFromP la bests dst start js
    else
      let es ← edgesFromP la bests dst start js
      return (src, dst) :: es

/-- lattice.go:324-342, the loop over one column. -/
def edgesColP (la : Addr) (bests : List Addr) (i : Nat) : List Nat → Prog (List (Addr × Addr))
  | [] => pure []
  | j :: js => do
    let p ← atP la i j
    let dst ← must p
    let v ← readNodeP dst
    if hiddenP bests dst v then edgesColP la bests i js
    else
      let l ← readLatP la
      let prevs ← must (l.list.get? v.start)
      let es ← edgesFromP la bests dst v.start (List.range' 0 prevs.len)
      let es' ← edgesColP la bests i js
      return es ++ es'

/-- lattice.go:322-343, the loop over the columns. -/
def edgesColsP (la : Addr) (bests : List Addr) : List Nat → Prog (List (Addr × Addr))
  | [] => pure []
  | i :: is => do
    let l ← readLatP la
    let currents ← must (l.list.get? i)
    let es ← edgesColP la bests i (List.range' 0 currents.len)
    let es' ← edgesColsP la bests is
    return es ++ es'

/-- lattice.go:350-370, the loop over one column. -/
def nodesColP (la : Addr) (bests : List Addr) (i : Nat) : List Nat → Prog (List (GNodeOf Addr))
  | [] => pure []
  | j :: js => do
    let p ← atP la i j
    let n ← must p
    let v ← readNodeP n
    if hiddenP bests n v then nodesColP la bests i js
    else
      let l ← readLatP la
      let d ← must l.dic
      let pos ← must (posFeature d l.udic v.toNode)
      if bests.contains n then
        let ns ← nodesColP la bests i js
        return ⟨n, dotSurface i v.toNode, pos, v.weight, true⟩ :: ns
      else if v.cls ≠ .unknown then
        let ns ← nodesColP la bests i js
        return ⟨n, dotSurface i v.toNode, pos, v.weight, false⟩ :: ns
      else nodesColP la bests i js

/-- lattice.go:349-371, the loop over the columns. -/
def nodesColsP (la : Addr) (bests : List Addr) : List Nat → Prog (List (GNodeOf Addr))
  | [] => pure []
  | i :: is => do
    let l ← readLatP la
    let list ← must (l.list.get? i)
    let ns ← nodesColP la bests i (List.range' 0 list.len)
    let ns' ← nodesColsP la bests is
    return ns ++ ns'

/-- lattice.go:372-386, the loop over the edges. -/
def dotEdgesP (la : Addr) (bests : List Addr) : List (Addr × Addr) → Prog (List (GEdgeOf Addr))
  | [] => pure []
  | e :: es => do
    let a ← readNodeP e.1
    let b ← readNodeP e.2
    let l ← readLatP la
    let d ← must l.dic
    let c ← must (connCost d a.toNode b.toNode)
    let gs ← dotEdgesP la bests es
    return ⟨e.1, e.2, c, bests.contains e.1 && bests.contains e.2⟩ :: gs

/-- lattice.go:312-389 `Dot`. -/
def dotP (la : Addr) : Prog (GraphOf Addr) := do
  let l ← readLatP la
  let bests := l.output.vis.filterMap id
  let l ← readLatP la
  let es ← edgesColsP la bests (List.range' 1 (l.list.len - 1))
  let l ← readLatP la
  let ns ← nodesColsP la bests (List.range' 0 l.list.len)
  let gs ← dotEdgesP la bests es
  return ⟨ns, gs⟩

/-- lattice.go:312-389 `Dot` to a writer that panics after `stop` steps (`none`: it does not panic). -/
def dotToP (la : Addr) : Option Nat → Prog (GraphOf Addr)
  | none => dotP la
  | some n => (dotP la).cut n

/-- tokenizer.go:136-172, what `AnalyzeGraph` does between `New` and `Free`. -/
def analyzeGraphBodyP (t : Tokenizer) (ideo : Nat → Bool) (inp : Bytes) (mode : Int) (stop : Option Nat) (la : Addr) : Prog (List Token × GraphOf Addr) := do
  buildP la inp
  let m := latticeMode mode
  forwardP la ideo m
  backwardP la m
  let l ← readLatP la
  let toks ← graphTokensP t la l.output.len l.output.len 0
  let g ← dotToP la stop
  return (toks, g)

/-- tokenizer.go:134-173 `AnalyzeGraph`; `Dot` (129-131) is this in normal mode. -/
def analyzeGraphP (t : Tokenizer) (ideo : Nat → Bool) (inp : Bytes) (mode : Int) (stop : Option Nat) : Prog (List Token × GraphOf Addr) := do
  let la ← newLatP t.dict t.userDict
  (analyzeGraphBodyP t ideo inp mode stop la).deferred (freeP la)

end Kagome
