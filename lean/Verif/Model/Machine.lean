import Verif.Model.ProgLattice

/-!
Goroutines on shared memory: what the steps of a program (`Verif/Model/Prog.lean`) do, in any interleaving.

Memory is sequentially consistent. Go promises this only for programs without data races; that there are none is a theorem
(`Verif/Props/Pool.lean`). Nothing here says who may touch what: any goroutine can read and write any object it has a pointer to.
-/

namespace Kagome

/-- Change at one place. A store through a pointer: lattice.go:51-52, 57-71, 88-95, 219, 235-236, 251, 268. -/
def upd {α : Type} (f : Addr → α) (a : Addr) (v : α) : Addr → α := fun x => if x = a then v else f x

/-- The memory: the objects, the addresses handed out so far, and what lies in the two pools (`nodePool`, node.go:50-52, and `latticePool`,
lattice.go:35-37). -/
structure Mem where
  nodes : Addr → PNode
  lats : Addr → LatObj
  usedN : List Addr
  usedL : List Addr
  nodePool : List Addr
  latPool : List Addr

/-- Nothing has been allocated. Before the first call of `New`, lattice.go:35-37, node.go:50-52. -/
def Mem.empty : Mem := ⟨fun _ => .zero, fun _ => .zero, [], [], [], []⟩

/-- The two methods that use the pools. `Tokenize` and `Wakati` are `Analyze` and a function of its result, `Dot` is `AnalyzeGraph`.
`analyzeGraphTo n` is `AnalyzeGraph` on a writer that panics after `n` steps of the output. `lattice` is a lattice that the client itself takes, uses and
frees, `drawing` one on which it also calls `Dot` (with a writer that panics after `stop` steps), `session` one that it looks at in between as well.
tokenizer.go:66-83, 129-134, lattice.go:49-73, 312. -/
inductive Api
  | analyze
  | analyzeGraph
  | analyzeGraphTo (n : Nat)
  | lattice (moves : List Move)
  | drawing (moves : List Move) (stop : Option Nat)
  | session (acts : List Deed)
deriving DecidableEq

/-- One call of `Analyze` (tokenizer.go:83) or `AnalyzeGraph` (tokenizer.go:134) on some tokenizer, or one use of a lattice (lattice.go:49) with the
dictionaries of some tokenizer. -/
structure Call where
  api : Api
  t : Tokenizer
  inp : Bytes
  mode : Int

/-- What a call returns, the graph it has written, for a lattice the nodes the client has seen in `Output` at the end, and for a `session` all it has seen.
tokenizer.go:83, 134, lattice.go:42. -/
structure Reply where
  tokens : List Token
  graph : Option (GraphOf Addr)
  output : List Node
  seen : List (SightOf Addr)

/-- One call. tokenizer.go:83-126 or 134-173, or lattice.go:49-73 with the calls between. -/
def callP (ideo : Nat → Bool) (c : Call) : Prog Reply :=
  match c.api with
  | .analyze => do
    let toks ← analyzeP c.t ideo c.inp c.mode
    return ⟨toks, none, [], []⟩
  | .analyzeGraph => do
    let r ← analyzeGraphP c.t ideo c.inp c.mode none
    return ⟨r.1, some r.2, [], []⟩
  | .analyzeGraphTo n => do
    let r ← analyzeGraphP c.t ideo c.inp c.mode (some n)
    return ⟨r.1, some r.2, [], []⟩
  | .lattice moves => do
    let out ← useP c.t.dict c.t.userDict ideo c.inp moves
    return ⟨[], none, out, []⟩
  | .drawing moves stop => do
    let r ← drawP c.t.dict c.t.userDict ideo c.inp moves stop
    return ⟨[], some r.1, r.2, []⟩
  | .session acts => do
    let vs ← sessionP c.t.dict c.t.userDict ideo c.inp acts
    return ⟨[], none, [], vs⟩

/-- The calls that have been made (tokenizer.go:83, 134) and what they have returned; `none`: the call panicked. -/
abbrev Trace := List (Call × Option Reply)

/-- Code that runs inside a call and makes calls of its own: the `Write` of the writer given to `AnalyzeGraph` (tokenizer.go:134, lattice.go:344-388), or
what a client does between its calls on a lattice (lattice.go:49-73). Inside these calls more such code can run: `visit i tr` before step `i`, when the
earlier visits have made the calls `tr`. How it goes on can depend on all that. -/
inductive Visitor where
  | done
  | call (c : Call) (visit : Nat → Trace → Visitor) (k : Option Reply → Trace → Visitor)

/-- Code that uses the library: it makes calls one after the other and computes something from the replies, which also decide how it goes on. `none` is
a call that panicked, the panic being recovered; code that does not recover does nothing more. `during`: a call inside which other code of the client runs.
The client's code, not in /repo; the handlers of cmd/server/api.go:28 and cmd/server/demo.go:113 are such code. -/
inductive Client (ρ : Type) where
  | done (r : ρ)
  | call (c : Call) (k : Option Reply → Client ρ)
  | during (c : Call) (visit : Nat → Trace → Visitor) (k : Option Reply → Trace → Client ρ)

/-- What the code that runs inside a call does to the shared memory: its calls. As `Visitor`; tokenizer.go:83, 134. -/
def visitorP (ideo : Nat → Bool) : Visitor → Prog Trace
  | .done => pure []
  | .call c visit k => do
    let r ← (callP ideo c).visited (fun i tr => visitorP ideo (visit i tr)) 0 []
    let tr ← visitorP ideo (k r.1 r.2)
    return r.2 ++ (c, r.1) :: tr

/-- What a client does to the shared memory: its calls. As `Client`; tokenizer.go:83, 134. -/
def clientP {ρ : Type} (ideo : Nat → Bool) : Client ρ → Prog (Trace × ρ)
  | .done r => pure ([], r)
  | .call c k => do
    let o ← (callP ideo c).recovered
    let x ← clientP ideo (k o)
    return ((c, o) :: x.1, x.2)
  | .during c visit k => do
    let r ← (callP ideo c).visited (fun i tr => visitorP ideo (visit i tr)) 0 []
    let x ← clientP ideo (k r.1 r.2)
    return (r.2 ++ (c, r.1) :: x.1, x.2)

/-- A goroutine: the client that it was started with, what is left to do, and, for the record only, the objects it got from each pool and has not given
back. No step depends on the record. As `clientP`: the calls of tokenizer.go:83, 134. -/
structure Thread (ρ : Type) where
  client : Client ρ
  prog : Prog (Trace × ρ)
  nodes : List Addr
  lats : List Addr

/-- One step of a goroutine.

`Get` on a pool (tokenizer/lattice/mem/pool.go:33-35, `sync.Pool.Get`) returns any object in the pool, as it was left, or a new one. -/
inductive TStep {ρ : Type} : Mem → Thread ρ → Mem → Thread ρ → Prop
  | getNodeOld {m c k ns ls} (a : Addr) (h : a ∈ m.nodePool) :
      TStep m ⟨c, .getNode k, ns, ls⟩ { m with nodePool := m.nodePool.erase a } ⟨c, k a, a :: ns, ls⟩
  | getNodeNew {m c k ns ls} (a : Addr) (h : a ∉ m.usedN) :
      TStep m ⟨c, .getNode k, ns, ls⟩ { m with nodes := upd m.nodes a .zero, usedN := a :: m.usedN } ⟨c, k a, a :: ns, ls⟩
  | putNode {m c a k ns ls} :
      TStep m ⟨c, .putNode a k, ns, ls⟩ { m with nodePool := a :: m.nodePool } ⟨c, k, ns.erase a, ls⟩
  | newNode {m c v k ns ls} (a : Addr) (h : a ∉ m.usedN) :
      TStep m ⟨c, .newNode v k, ns, ls⟩ { m with nodes := upd m.nodes a v, usedN := a :: m.usedN } ⟨c, k a, ns, ls⟩
  | readNode {m c a k ns ls} : TStep m ⟨c, .readNode a k, ns, ls⟩ m ⟨c, k (m.nodes a), ns, ls⟩
  | writeNode {m c a f k ns ls} :
      TStep m ⟨c, .writeNode a f k, ns, ls⟩ { m with nodes := upd m.nodes a (f (m.nodes a)) } ⟨c, k, ns, ls⟩
  | getLatOld {m c k ns ls} (a : Addr) (h : a ∈ m.latPool) :
      TStep m ⟨c, .getLat k, ns, ls⟩ { m with latPool := m.latPool.erase a } ⟨c, k a, ns, a :: ls⟩
  | getLatNew {m c k ns ls} (a : Addr) (h : a ∉ m.usedL) :
      TStep m ⟨c, .getLat k, ns, ls⟩ { m with lats := upd m.lats a .zero, usedL := a :: m.usedL } ⟨c, k a, ns, a :: ls⟩
  | putLat {m c a k ns ls} :
      TStep m ⟨c, .putLat a k, ns, ls⟩ { m with latPool := a :: m.latPool } ⟨c, k, ns, ls.erase a⟩
  | readLat {m c a k ns ls} : TStep m ⟨c, .readLat a k, ns, ls⟩ m ⟨c, k (m.lats a), ns, ls⟩
  | writeLat {m c a f k ns ls} :
      TStep m ⟨c, .writeLat a f k, ns, ls⟩ { m with lats := upd m.lats a (f (m.lats a)) } ⟨c, k, ns, ls⟩
  | choose {m c k ns ls} (n : Nat) : TStep m ⟨c, .choose k, ns, ls⟩ m ⟨c, k n, ns, ls⟩

/-- The process. All that run tokenizer.go:83-173 at the same time, and the pools of lattice.go:35-37 and node.go:50-52. -/
structure Sys (ρ : Type) where
  mem : Mem
  threads : List (Thread ρ)

/-- One step of the process: a goroutine makes a step, a new goroutine starts, or the garbage collector drops an object from a pool. `sync.Pool`
behind tokenizer/lattice/mem/pool.go:33-40. -/
inductive Step {ρ : Type} (ideo : Nat → Bool) : Sys ρ → Sys ρ → Prop
  | run {s : Sys ρ} {th th' : Thread ρ} {m' : Mem} (i : Nat) (hi : s.threads[i]? = some th) (h : TStep s.mem th m' th') :
      Step ideo s ⟨m', s.threads.set i th'⟩
  | spawn {s : Sys ρ} (cl : Client ρ) : Step ideo s ⟨s.mem, s.threads ++ [⟨cl, clientP ideo cl, [], []⟩]⟩
  | dropNode {s : Sys ρ} (a : Addr) : Step ideo s ⟨{ s.mem with nodePool := s.mem.nodePool.erase a }, s.threads⟩
  | dropLat {s : Sys ρ} (a : Addr) : Step ideo s ⟨{ s.mem with latPool := s.mem.latPool.erase a }, s.threads⟩

/-- The states a process can get into. Of any clients of tokenizer.go:83, 134. -/
inductive Reachable {ρ : Type} (ideo : Nat → Bool) : Sys ρ → Prop
  | init : Reachable ideo ⟨.empty, []⟩
  | step {s s'} (h : Reachable ideo s) (hs : Step ideo s s') : Reachable ideo s'

end Kagome
