import Verif.Model.Machine

/-!
What a call gives when it runs alone, in terms of the sequential model.
-/

namespace Kagome

/-- Different nodes of the graph get different names. -/
def KeepsApart (f : Ptr → Addr) (g : Graph) : Prop :=
  ∀ n ∈ g.nodes, ∀ n' ∈ g.nodes, f n.ptr = f n'.ptr → n.ptr = n'.ptr

/-- What is in `Output` at the end of some calls on a lattice that nobody else uses; `none` is a panic. -/
def outputAlone (t : Tokenizer) (ideo : Nat → Bool) (inp : Bytes) (moves : List Move) : Option (List Node) :=
  ((newLattice t.dict t.userDict).calls ideo (.build inp :: moves.map Move.op)).bind Lattice.nodes

/-- The graph `Dot` writes at the end of some calls on a lattice that nobody else uses. -/
def dotAlone (t : Tokenizer) (ideo : Nat → Bool) (inp : Bytes) (moves : List Move) : Option Graph :=
  ((newLattice t.dict t.userDict).calls ideo (.build inp :: moves.map Move.op)).bind Lattice.dot

/-- The calls of `Forward` and `Backward` among what a client does. -/
def movesOf : List Deed → List Move
  | [] => []
  | .move mv :: acts => mv :: movesOf acts
  | _ :: acts => movesOf acts

/-- How often a client looks: at `Output`, or by `Dot`. -/
def sightCount : List Deed → Nat
  | [] => 0
  | .move _ :: acts => sightCount acts
  | _ :: acts => sightCount acts + 1

/-- What a client sees when it does these things with a lattice that nobody else uses. `Dot` on a writer that can panic may show nothing. -/
inductive Sees (ideo : Nat → Bool) : Lattice → List Deed → List (SightOf Ptr) → Prop
  | done {o : Lattice} : Sees ideo o [] []
  | move {o o' : Lattice} {mv : Move} {acts vs} (h : o.call ideo mv.op = some o') (hs : Sees ideo o' acts vs) : Sees ideo o (.move mv :: acts) vs
  | look {o : Lattice} {ns : List Node} {acts vs} (h : o.nodes = some ns) (hs : Sees ideo o acts vs) :
      Sees ideo o (.look :: acts) (.output (ns.map fun n => { n with prev := none }) :: vs)
  | dot {o : Lattice} {stop : Option Nat} {acts vs} (hs : Sees ideo o acts vs) : Sees ideo o (.dot stop :: acts) (.graph o.dot :: vs)
  | cut {o : Lattice} {n : Nat} {acts vs} (hs : Sees ideo o acts vs) : Sees ideo o (.dot (some n) :: acts) (.graph none :: vs)

/-- Different nodes have different names in all the graphs, and a node has one name in all of them. -/
def KeepsAllApart (f : Ptr → Addr) (vs : List (SightOf Ptr)) : Prop :=
  ∀ g g', .graph (some g) ∈ vs → .graph (some g') ∈ vs → ∀ n ∈ g.nodes, ∀ n' ∈ g'.nodes, f n.ptr = f n'.ptr → n.ptr = n'.ptr

/-- The reply to a call: the tokens of the sequential model, and for `AnalyzeGraph` also its graph, under some names for the nodes (Go prints their
addresses). For a lattice: what a new lattice has in `Output` in the sequential model (without the unexported pointers), and the graph of `Dot`, at the end
or in between. -/
def Call.Gives (ideo : Nat → Bool) (c : Call) (r : Reply) : Prop :=
  match c.api with
  | .analyze => analyze c.t ideo c.inp c.mode = some r.tokens ∧ r.graph = none ∧ (r.output = [] ∧ r.seen = [])
  | .lattice moves =>
    (outputAlone c.t ideo c.inp moves).map (List.map fun n => { n with prev := none }) = some r.output ∧
      (r.tokens = [] ∧ r.seen = []) ∧ r.graph = none
  | .drawing moves _ =>
    (outputAlone c.t ideo c.inp moves).map (List.map fun n => { n with prev := none }) = some r.output ∧
      (r.tokens = [] ∧ r.seen = []) ∧ ∃ g f, dotAlone c.t ideo c.inp moves = some g ∧ KeepsApart f g ∧ r.graph = some (g.map f)
  | .session acts => (r.tokens = [] ∧ r.output = [] ∧ r.graph = none) ∧ ∃ o vs f, (newLattice c.t.dict c.t.userDict).build c.inp = some o ∧
      Sees ideo o acts vs ∧ KeepsAllApart f vs ∧ r.seen = vs.map (SightOf.map f)
  | _ => analyzeGraph c.t ideo c.inp c.mode = some r.tokens ∧ (r.output = [] ∧ r.seen = []) ∧
      ∃ g f, exportGraph c.t ideo c.inp c.mode = some g ∧ KeepsApart f g ∧ r.graph = some (g.map f)

/-- The call panics in the sequential model. -/
def Call.Fails (ideo : Nat → Bool) (c : Call) : Prop :=
  match c.api with
  | .analyze => analyze c.t ideo c.inp c.mode = none
  | .lattice moves => outputAlone c.t ideo c.inp moves = none
  | .drawing moves _ => outputAlone c.t ideo c.inp moves = none ∨ dotAlone c.t ideo c.inp moves = none
  | .session acts => (newLattice c.t.dict c.t.userDict).calls ideo (.build c.inp :: (movesOf acts).map Move.op) = none
  | _ => analyzeGraph c.t ideo c.inp c.mode = none ∨ exportGraph c.t ideo c.inp c.mode = none

/-- The writer of the call can panic. -/
def Call.Stopped (c : Call) : Prop := (∃ n, c.api = .analyzeGraphTo n) ∨ ∃ moves n, c.api = .drawing moves (some n)

/-- The writer of a `Dot` in between can panic, and nothing is seen then. -/
def Call.Cut (c : Call) : Prop := ∃ acts n, c.api = .session acts ∧ .dot (some n) ∈ acts

/-- What can come of a call: its reply, or a panic. -/
def Call.Outcome (ideo : Nat → Bool) (c : Call) : Option Reply → Prop
  | some r => c.Gives ideo r
  | none => c.Fails ideo ∨ c.Stopped

/-- Code that ran before each of `n` steps has made the calls `tr`; `P i tr tr'`: before step `i`, after the calls `tr`, it can make the calls `tr'`. -/
inductive Visits (P : Nat → Trace → Trace → Prop) : Nat → Trace → Prop
  | none : Visits P 0 []
  | more {n : Nat} {tr tr' : Trace} (h : Visits P n tr) (ht : P n tr tr') : Visits P (n + 1) (tr ++ tr')

/-- What code that runs inside a call does when each of its calls gives what it gives alone: the calls with their outcomes. A call comes behind those that
are made inside it. -/
def Visitor.Alone (ideo : Nat → Bool) : Visitor → Trace → Prop
  | .done, tr => tr = []
  | .call c visit k, tr => ∃ n vs o tr', Visits (fun i tr => Visitor.Alone ideo (visit i tr)) n vs ∧ c.Outcome ideo o ∧
      Visitor.Alone ideo (k o vs) tr' ∧ tr = vs ++ (c, o) :: tr'

/-- What a client does when each of its calls gives what it gives alone: the calls with their outcomes, and the result. -/
inductive Client.Alone {ρ : Type} (ideo : Nat → Bool) : Client ρ → Trace → ρ → Prop
  | done (r : ρ) : Client.Alone ideo (.done r) [] r
  | gives {c : Call} {k : Option Reply → Client ρ} {r : Reply} {tr : Trace} {x : ρ} (hg : c.Gives ideo r) (h : Client.Alone ideo (k (some r)) tr x) :
      Client.Alone ideo (.call c k) ((c, some r) :: tr) x
  | fails {c : Call} {k : Option Reply → Client ρ} {tr : Trace} {x : ρ} (hf : c.Fails ideo ∨ c.Stopped) (h : Client.Alone ideo (k none) tr x) :
      Client.Alone ideo (.call c k) ((c, none) :: tr) x
  | during {c : Call} {visit : Nat → Trace → Visitor} {k : Option Reply → Trace → Client ρ} {n : Nat} {vs : Trace} {o : Option Reply} {tr : Trace} {x : ρ}
      (hv : Visits (fun i tr => (visit i tr).Alone ideo) n vs) (ho : c.Outcome ideo o) (h : Client.Alone ideo (k o vs) tr x) :
      Client.Alone ideo (.during c visit k) (vs ++ (c, o) :: tr) x

/-- The client that makes the calls of a list, and nothing more once one has panicked; its result are the replies, behind those it has already. -/
def Client.each : List Call → List Reply → Client (List Reply)
  | [], rs => .done rs
  | c :: cs, rs => .call c (fun o => match o with
    | none => .done rs
    | some r => Client.each cs (rs ++ [r]))

/-- The replies to some calls, in order. -/
def Replies (ideo : Nat → Bool) (calls : List Call) (rs : List Reply) : Prop :=
  rs.length = calls.length ∧ ∀ (k : Nat) c r, calls[k]? = some c → rs[k]? = some r → c.Gives ideo r

end Kagome
