import Verif.Model.Dot
import Verif.Model.Tokenizer

/-!
The exported methods of `lattice.Lattice` as operations on one object, in any order. `la.list` is a slice: its backing array may be longer than the slice,
and what is behind the slice comes back when `Build` makes it longer (lattice.go:105-108).
-/

namespace Kagome

/-- A pointer in `Output`: a node in the lattice, or one that belongs to `Output` alone. lattice.go:42 (`Output []*Node`), 251, 258-268. -/
inductive OutRef
  | at (q : Ptr)
  | own (n : Node)
deriving DecidableEq, Repr

/-- lattice.go:39-46 `Lattice`. `store` is the backing array of `list` up to its capacity, `len` the length of `list`. -/
structure Lattice where
  dict : Dict
  udict : Option UserDict
  input : Bytes
  output : List OutRef
  store : Cols
  len : Nat

/-- lattice.go:48-54 `New` with an object that `sync.Pool` has just made. -/
def newLattice (d : Dict) (u : Option UserDict) : Lattice := ⟨d, u, [], [], [], 0⟩

/-- lattice.go:48-54 `New` with an object that was in the pool. -/
def Lattice.renew (o : Lattice) (d : Dict) (u : Option UserDict) : Lattice := { o with dict := d, udict := u }

/-- The node a pointer points to. lattice.go:251, 268, 314. -/
def OutRef.deref (store : Cols) : OutRef → Option Node
  | .at q => getNode store q.1 q.2
  | .own n => some n

/-- The nodes in `Output`. lattice.go:42. -/
def Lattice.nodes (o : Lattice) : Option (List Node) := o.output.mapM (OutRef.deref o.store)

/-- A node that stays in `Output` when `list` gets a new backing array. lattice.go:103-108. -/
def OutRef.detach (store : Cols) (r : OutRef) : OutRef :=
  match r.deref store with
  | some n => .own n
  | none => r

/-- lattice.go:110-176 `Build`, from columns that need not be empty. -/
def buildOn (d : Dict) (u : Option UserDict) (inp : Bytes) (cols : Cols) : Option Cols :=
  match addNode d cols 0 bosEosID 0 0 .dummy [] with
  | none => none
  | some cols =>
    match slice inp (runeCount inp) (runeCount inp) with
    | none => none
    | some e =>
      match addNode d cols (runeCount inp + 1) bosEosID inp.length (runeCount inp) .dummy e with
      | none => none
      | some cols => buildLoop d u inp 0 (rangeString inp) cols

/-- lattice.go:105-108: the backing array for `n` columns. -/
def Lattice.reserve (o : Lattice) (n : Nat) : Lattice :=
  if o.store.length < n then { o with store := List.replicate n [], output := o.output.map (OutRef.detach o.store) } else o

/-- lattice.go:102-177 `Build`. -/
def Lattice.build (o : Lattice) (inp : Bytes) : Option Lattice :=
  let n := runeCount inp + 2
  let o := o.reserve n
  (buildOn o.dict o.udict inp (o.store.take n)).map fun cols => { o with input := inp, store := cols ++ o.store.drop n, len := n }

/-- lattice.go:213-241 `Forward`. -/
def Lattice.forward (o : Lattice) (ideo : Nat → Bool) (m : LMode) : Option Lattice :=
  (Kagome.forward o.dict ideo m (o.store.take o.len)).map fun cols => { o with store := cols ++ o.store.drop o.len }

/-- lattice.go:250-270: what one node of the best path appends to `Output`. -/
def emitRef (m : LMode) (q : Ptr) (p : Node) : List OutRef :=
  if m ≠ .extended ∨ p.cls ≠ .unknown then [.at q] else ((explode p 0 (rangeString p.surface)).reverse).map .own

/-- lattice.go:249-271, following `prev` (which always leads to an earlier column). -/
def walkRef (m : LMode) (cols : Cols) : Nat → Option Ptr → Option (List OutRef)
  | _, none => some []
  | 0, some _ => none
  | fuel + 1, some (i, j) =>
    match getNode cols i j with
    | none => none
    | some p => (walkRef m cols fuel p.prev).map (emitRef m (i, j) p ++ ·)

/-- lattice.go:244-271 `Backward`: appends to `Output`. -/
def Lattice.backward (o : Lattice) (m : LMode) : Option Lattice :=
  if o.len = 0 then some o
  else (walkRef m (o.store.take o.len) (o.len + 1) (some (o.len - 1, 0))).map fun refs => { o with output := o.output ++ refs }

/-- Where a pointer of `Output` leads in the lattice, if it does. lattice.go:42, 314. -/
def OutRef.place : OutRef → Option Ptr
  | .at q => some q
  | .own _ => none

/-- lattice.go:312-389 `Dot`: the graph it writes. It changes nothing. -/
def Lattice.dot (o : Lattice) : Option Graph := dotGraph o.dict o.udict (o.store.take o.len) (o.output.map OutRef.place)

/-- lattice.go:57-73 `Free`: only the columns in `list` are emptied. -/
def Lattice.free (o : Lattice) : Lattice :=
  { o with input := [], output := [], store := (o.store.take o.len).map (fun _ => []) ++ o.store.drop o.len, len := 0, udict := none }

/-- A call of a method. `Build`, `Forward`, `Backward` of lattice.go:102, 213, 244. -/
inductive LatOp
  | build (inp : Bytes)
  | forward (m : LMode)
  | backward (m : LMode)
deriving DecidableEq, Repr

/-- One call, lattice.go:102, 213, 244. -/
def Lattice.call (ideo : Nat → Bool) (o : Lattice) : LatOp → Option Lattice
  | .build inp => o.build inp
  | .forward m => o.forward ideo m
  | .backward m => o.backward m

/-- Some calls one after the other, lattice.go:102-271. -/
def Lattice.calls (ideo : Nat → Bool) : Lattice → List LatOp → Option Lattice
  | o, [] => some o
  | o, op :: ops => (o.call ideo op).bind (·.calls ideo ops)

/-- tokenizer.go:84-124 `Analyze` on an object taken from the pool. -/
def analyzeOn (o : Lattice) (t : Tokenizer) (ideo : Nat → Bool) (inp : Bytes) (mode : Int) : Option (List Token) :=
  ((o.renew t.dict t.userDict).calls ideo [.build inp, .forward (latticeMode mode), .backward (latticeMode mode)]).bind fun o' =>
    o'.nodes.map fun out => tokenLoop t 0 0 out.reverse

/-- One use of an object: `New` (which gives back the pooled object), calls, a look at `Output`, `Free`. lattice.go:48-73; tokenizer.go:84-97. -/
def Lattice.use (ideo : Nat → Bool) (o : Lattice) (d : Dict) (u : Option UserDict) (ops : List LatOp) : Option (Lattice × List Node) :=
  ((o.renew d u).calls ideo ops).bind fun o' => o'.nodes.map fun out => (o'.free, out)

/-- One use after another of the same object; what `Output` held in each. lattice.go:35-37, 48-73. -/
def Lattice.uses (ideo : Nat → Bool) : Lattice → List (Dict × Option UserDict × List LatOp) → Option (List (List Node))
  | _, [] => some []
  | o, (d, u, ops) :: rest => (o.use ideo d u ops).bind fun r => (r.1.uses ideo rest).map (r.2 :: ·)

end Kagome
