import Verif.Model.ProgDot
import Verif.Model.LatticeApi

/-!
The exported lattice used directly, on shared memory: `New`, `Build`, any calls of `Forward` and `Backward`, maybe `Dot`, a look at `Output`, and `Free` by `defer`. See
`Verif/Model/Prog.lean` for the programs and `Verif/Model/LatticeApi.lean` for the same calls on one object that nobody else uses.
-/

namespace Kagome

open Prog

/-- A call after `Build`. lattice.go:213, 244. -/
inductive Move
  | forward (m : LMode)
  | backward (m : LMode)
deriving DecidableEq, Repr

/-- The call of `Verif/Model/LatticeApi.lean`. lattice.go:213, 244. -/
def Move.op : Move → LatOp
  | .forward m => .forward m
  | .backward m => .backward m

/-- One call. lattice.go:213-241 `Forward`, 244-271 `Backward`. -/
def moveP (la : Addr) (ideo : Nat → Bool) : Move → Prog Unit
  | .forward m => forwardP la ideo m
  | .backward m => backwardP la m

/-- Reading the nodes that some pointers of `Output` point to (lattice.go:42); their fields are read in one step, without `prev`, which is not exported
(node.go:47). -/
def readOutputP : List (Option Addr) → Prog (List Node)
  | [] => pure []
  | p :: ps => do
    let a ← must p
    let v ← readNodeP a
    let ns ← readOutputP ps
    return v.toNode :: ns

/-- What a client does between `New` and `Free`. The client's code, not in /repo; tokenizer.go:86-100 is such code. -/
def useBodyP (ideo : Nat → Bool) (inp : Bytes) (moves : List Move) (la : Addr) : Prog (List Node) := do
  buildP la inp
  each moves (moveP la ideo)
  let l ← readLatP la
  readOutputP l.output.vis

/-- `la := lattice.New(d, u); defer la.Free()` and the calls, lattice.go:49-73; as tokenizer.go:84-85. -/
def useP (d : Dict) (u : Option UserDict) (ideo : Nat → Bool) (inp : Bytes) (moves : List Move) : Prog (List Node) := do
  let la ← newLatP d u
  (useBodyP ideo inp moves la).deferred (freeP la)

/-- The same with a call of `Dot` behind the others; `stop`: after how many steps its writer panics. The client's code, not in /repo; tokenizer.go:136-171 is
such code. -/
def drawBodyP (ideo : Nat → Bool) (inp : Bytes) (moves : List Move) (stop : Option Nat) (la : Addr) : Prog (GraphOf Addr × List Node) := do
  buildP la inp
  each moves (moveP la ideo)
  let g ← dotToP la stop
  let l ← readLatP la
  let out ← readOutputP l.output.vis
  return (g, out)

/-- `la := lattice.New(d, u); defer la.Free()` and the calls, lattice.go:49-73, 312-389; as tokenizer.go:135-136. -/
def drawP (d : Dict) (u : Option UserDict) (ideo : Nat → Bool) (inp : Bytes) (moves : List Move) (stop : Option Nat) :
    Prog (GraphOf Addr × List Node) := do
  let la ← newLatP d u
  (drawBodyP ideo inp moves stop la).deferred (freeP la)

/-- What a client does with a lattice after `Build`: one of the calls, a look at `Output` (lattice.go:42), or `Dot` (lattice.go:312) on a writer that panics after
`stop` steps; the client recovers the panic and goes on. -/
inductive Deed
  | move (mv : Move)
  | look
  | dot (stop : Option Nat)
deriving DecidableEq, Repr

/-- What it gets to see: the nodes in `Output` (lattice.go:42), or the graph of `Dot` (lattice.go:344-388), `none` if the call panicked. -/
inductive SightOf (π : Type)
  | output (ns : List Node)
  | graph (g : Option (GraphOf π))
deriving DecidableEq, Repr

/-- The same with other names for the nodes of the graph. `%p`, lattice.go:366-384. -/
def SightOf.map {π ρ : Type} (f : π → ρ) : SightOf π → SightOf ρ
  | .output ns => .output ns
  | .graph g => .graph (g.map (GraphOf.map f))

/-- One of these. lattice.go:42, 213, 244, 312. -/
def actP (la : Addr) (ideo : Nat → Bool) : Deed → Prog (List (SightOf Addr))
  | .move mv => do
    moveP la ideo mv
    return []
  | .look => do
    let l ← readLatP la
    let ns ← readOutputP l.output.vis
    return [.output ns]
  | .dot stop => do
    let g ← (dotToP la stop).recovered
    return [.graph g]

/-- One after the other. The client's code, not in /repo; tokenizer.go:86-100 is such code. -/
def actsP (la : Addr) (ideo : Nat → Bool) : List Deed → Prog (List (SightOf Addr))
  | [] => pure []
  | a :: acts => do
    let v ← actP la ideo a
    let vs ← actsP la ideo acts
    return v ++ vs

/-- What such a client does between `New` and `Free`. The client's code, not in /repo; tokenizer.go:136-171 is such code. -/
def sessionBodyP (ideo : Nat → Bool) (inp : Bytes) (acts : List Deed) (la : Addr) : Prog (List (SightOf Addr)) := do
  buildP la inp
  actsP la ideo acts

/-- `la := lattice.New(d, u); defer la.Free()` and all that, lattice.go:49-73; as tokenizer.go:135-136. -/
def sessionP (d : Dict) (u : Option UserDict) (ideo : Nat → Bool) (inp : Bytes) (acts : List Deed) : Prog (List (SightOf Addr)) := do
  let la ← newLatP d u
  (sessionBodyP ideo inp acts la).deferred (freeP la)

end Kagome
