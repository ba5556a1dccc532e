import Verif.Model.Tokenizer

/-!
Programs on shared memory, for the parts of the code that use the object pools (`/repo/tokenizer/lattice/mem/pool.go`).

A program is a tree of atomic steps on nodes and lattices: taking an object from a pool or giving it back, allocating one, reading and
writing one. Go values that are not shared (numbers, strings, slice headers in local variables) are ordinary values here. What the steps
do to the memory is in `Verif/Model/Machine.lean`.
-/

namespace Kagome

/-- The identity of a node or of a lattice. `*Node` (node.go:47) and `*Lattice` (lattice.go:49). -/
abbrev Addr := Nat

/-- node.go:37-48 `Node`, with `prev` as a pointer. -/
structure PNode where
  id : Int
  position : Nat
  start : Nat
  cls : NodeClass
  cost : Int
  left : Int
  right : Int
  weight : Int
  surface : Bytes
  prev : Option Addr

/-- node.go:50-52: `new(Node)`. -/
def PNode.zero : PNode := ⟨0, 0, 0, .dummy, 0, 0, 0, 0, [], none⟩

/-- The node without its pointer, as the functions of the sequential model take it. node.go:36-48 without line 47. -/
def PNode.toNode (n : PNode) : Node := ⟨n.id, n.position, n.start, n.cls, n.cost, n.left, n.right, n.weight, n.surface, none⟩

/-- A slice that is the only reference to its backing array: the array (its length is the capacity) and the length. `list`, its elements and
`Output` of lattice.go:39-46. -/
structure Slice (α : Type) where
  arr : List α
  len : Nat

namespace Slice

variable {α : Type}

/-- The nil slice. lattice.go:36. -/
def nil : Slice α := ⟨[], 0⟩

/-- `s[i]`; `none` is a run-time panic. lattice.go:65, 97, 215-219, 249. -/
def get? (s : Slice α) (i : Nat) : Option α := if i < s.len then s.arr[i]? else none

/-- `s[i] = x`. lattice.go:60, 66, 97. -/
def set (s : Slice α) (i : Nat) (x : α) : Slice α := ⟨s.arr.set i x, s.len⟩

/-- `append(s, x)`; where a new array is needed, `extra` is its unused capacity. lattice.go:97, 251, 268; tokenizer.go:123. -/
def append (s : Slice α) (x : α) (extra : Nat) (zero : α) : Slice α :=
  if s.len < s.arr.length then ⟨s.arr.set s.len x, s.len + 1⟩
  else ⟨s.arr.take s.len ++ x :: List.replicate extra zero, s.len + 1⟩

/-- `s[0:n]` (`s[:0]` for 0); `none` is a run-time panic. lattice.go:62, 68, 70, 108. -/
def reslice (s : Slice α) (n : Nat) : Option (Slice α) := if n ≤ s.arr.length then some ⟨s.arr, n⟩ else none

/-- `make([]T, 0, n)`. lattice.go:106. -/
def make (n : Nat) (zero : α) : Slice α := ⟨List.replicate n zero, 0⟩

/-- The elements. `range`, lattice.go:63-64, 216, 222; tokenizer.go:100. -/
def vis (s : Slice α) : List α := s.arr.take s.len

end Slice

/-- lattice.go:40-46 `Lattice`. -/
structure LatObj where
  input : Bytes
  output : Slice (Option Addr)
  list : Slice (Slice (Option Addr))
  dic : Option Dict
  udic : Option UserDict

/-- lattice.go:35-37: `new(Lattice)`. -/
def LatObj.zero : LatObj := ⟨[], .nil, .nil, none, none⟩

/-- Programs. `panic` is a run-time panic. `choose` stands for a choice of the run-time system (the capacity of a new array). What
tokenizer.go:83-173 and lattice.go:48-271 do to shared memory. -/
inductive Prog (α : Type) where
  | ret (a : α)
  | panic
  | getNode (k : Addr → Prog α)
  | putNode (a : Addr) (k : Prog α)
  | newNode (v : PNode) (k : Addr → Prog α)
  | readNode (a : Addr) (k : PNode → Prog α)
  | writeNode (a : Addr) (f : PNode → PNode) (k : Prog α)
  | getLat (k : Addr → Prog α)
  | putLat (a : Addr) (k : Prog α)
  | readLat (a : Addr) (k : LatObj → Prog α)
  | writeLat (a : Addr) (f : LatObj → LatObj) (k : Prog α)
  | choose (k : Nat → Prog α)

namespace Prog

variable {α β : Type}

/-- One program after the other. Sequential execution of the statements of tokenizer.go:83-173 and lattice.go:48-271. -/
def bind : Prog α → (α → Prog β) → Prog β
  | ret a, f => f a
  | panic, _ => panic
  | getNode k, f => getNode (fun a => (k a).bind f)
  | putNode a k, f => putNode a (k.bind f)
  | newNode v k, f => newNode v (fun a => (k a).bind f)
  | readNode a k, f => readNode a (fun v => (k v).bind f)
  | writeNode a g k, f => writeNode a g (k.bind f)
  | getLat k, f => getLat (fun a => (k a).bind f)
  | putLat a k, f => putLat a (k.bind f)
  | readLat a k, f => readLat a (fun v => (k v).bind f)
  | writeLat a g k, f => writeLat a g (k.bind f)
  | choose k, f => choose (fun n => (k n).bind f)

/-- Sequential execution, for `do` notation; e.g. tokenizer.go:84-97. -/
instance : Monad Prog where
  pure := ret
  bind := bind

/-- `defer fin()`: `fin` runs after `p`, also when `p` panics. tokenizer.go:85, 136. -/
def deferred : Prog α → Prog Unit → Prog α
  | ret a, fin => fin.bind (fun _ => ret a)
  | panic, fin => fin.bind (fun _ => panic)
  | getNode k, fin => getNode (fun a => (k a).deferred fin)
  | putNode a k, fin => putNode a (k.deferred fin)
  | newNode v k, fin => newNode v (fun a => (k a).deferred fin)
  | readNode a k, fin => readNode a (fun v => (k v).deferred fin)
  | writeNode a g k, fin => writeNode a g (k.deferred fin)
  | getLat k, fin => getLat (fun a => (k a).deferred fin)
  | putLat a k, fin => putLat a (k.deferred fin)
  | readLat a k, fin => readLat a (fun v => (k v).deferred fin)
  | writeLat a g k, fin => writeLat a g (k.deferred fin)
  | choose k, fin => choose (fun n => (k n).deferred fin)

/-- `recover()` around a call: a panic of `p` ends here, as `none`. The client's code, not in /repo; what `net/http` does around the handlers of
cmd/server/api.go:28 and cmd/server/demo.go:113. -/
def recovered : Prog α → Prog (Option α)
  | ret a => ret (some a)
  | panic => ret none
  | getNode k => getNode (fun a => (k a).recovered)
  | putNode a k => putNode a k.recovered
  | newNode v k => newNode v (fun a => (k a).recovered)
  | readNode a k => readNode a (fun v => (k v).recovered)
  | writeNode a g k => writeNode a g k.recovered
  | getLat k => getLat (fun a => (k a).recovered)
  | putLat a k => putLat a k.recovered
  | readLat a k => readLat a (fun v => (k v).recovered)
  | writeLat a g k => writeLat a g k.recovered
  | choose k => choose (fun n => (k n).recovered)

/-- The program panics after `n` steps, unless it has ended before. For a `Write` of the client that panics, lattice.go:344-388. -/
def cut : Nat → Prog α → Prog α
  | 0, _ => panic
  | _ + 1, ret a => ret a
  | _ + 1, panic => panic
  | n + 1, getNode k => getNode (fun a => cut n (k a))
  | n + 1, putNode a k => putNode a (cut n k)
  | n + 1, newNode v k => newNode v (fun a => cut n (k a))
  | n + 1, readNode a k => readNode a (fun v => cut n (k v))
  | n + 1, writeNode a g k => writeNode a g (cut n k)
  | n + 1, getLat k => getLat (fun a => cut n (k a))
  | n + 1, putLat a k => putLat a (cut n k)
  | n + 1, readLat a k => readLat a (fun v => cut n (k v))
  | n + 1, writeLat a g k => writeLat a g (cut n k)
  | n + 1, choose k => choose (fun m => cut n (k m))

/-- Before each step of `p` another program runs, told the number of the step and what has come of the earlier ones. A panic of `p` is recovered, as by
`recovered`. For code of the client that runs inside a call: the `Write` of the writer given to `AnalyzeGraph`, which is called between the reads of
lattice.go:344-388, and whatever a client does between its calls on a lattice it holds, lattice.go:49-73. -/
def visited {β : Type} (v : Nat → List β → Prog (List β)) : Prog α → Nat → List β → Prog (Option α × List β)
  | ret a, _, acc => ret (some a, acc)
  | panic, _, acc => ret (none, acc)
  | getNode k, i, acc => (v i acc).bind fun b => getNode fun a => visited v (k a) (i + 1) (acc ++ b)
  | putNode a k, i, acc => (v i acc).bind fun b => putNode a (visited v k (i + 1) (acc ++ b))
  | newNode w k, i, acc => (v i acc).bind fun b => newNode w fun a => visited v (k a) (i + 1) (acc ++ b)
  | readNode a k, i, acc => (v i acc).bind fun b => readNode a fun w => visited v (k w) (i + 1) (acc ++ b)
  | writeNode a g k, i, acc => (v i acc).bind fun b => writeNode a g (visited v k (i + 1) (acc ++ b))
  | getLat k, i, acc => (v i acc).bind fun b => getLat fun a => visited v (k a) (i + 1) (acc ++ b)
  | putLat a k, i, acc => (v i acc).bind fun b => putLat a (visited v k (i + 1) (acc ++ b))
  | readLat a k, i, acc => (v i acc).bind fun b => readLat a fun w => visited v (k w) (i + 1) (acc ++ b)
  | writeLat a g k, i, acc => (v i acc).bind fun b => writeLat a g (visited v k (i + 1) (acc ++ b))
  | choose k, i, acc => (v i acc).bind fun b => choose fun n => visited v (k n) (i + 1) (acc ++ b)

/-- A value that may be missing: a panic if it is. Index out of range, e.g. lattice.go:97, 217, 249. -/
def must : Option α → Prog α
  | some a => ret a
  | none => panic

/-- One program for each element, in order. `for … range`, lattice.go:63-67, 216, 222; tokenizer.go:100. -/
def each (l : List α) (f : α → Prog Unit) : Prog Unit :=
  match l with
  | [] => ret ()
  | a :: as => do f a; each as f

end Prog

open Prog

/-- `nodePool.Get()` lattice.go:87, tokenizer/lattice/mem/pool.go:33-35. -/
def getNodeP : Prog Addr := .getNode .ret
/-- `nodePool.Put(a)` lattice.go:65, tokenizer/lattice/mem/pool.go:38-40. -/
def putNodeP (a : Addr) : Prog Unit := .putNode a (.ret ())
/-- `&Node{...}` lattice.go:258-264. -/
def newNodeP (v : PNode) : Prog Addr := .newNode v .ret
/-- Reading through a `*Node`. lattice.go:217-234, 249-265; tokenizer.go:101-112. -/
def readNodeP (a : Addr) : Prog PNode := .readNode a .ret
/-- Writing through a `*Node`. lattice.go:88-95, 219, 235-236. -/
def writeNodeP (a : Addr) (f : PNode → PNode) : Prog Unit := .writeNode a f (.ret ())
/-- `latticePool.Get()` lattice.go:50. -/
def getLatP : Prog Addr := .getLat .ret
/-- `latticePool.Put(a)` lattice.go:72. -/
def putLatP (a : Addr) : Prog Unit := .putLat a (.ret ())
/-- Reading through a `*Lattice`. lattice.go:75-271. -/
def readLatP (a : Addr) : Prog LatObj := .readLat a .ret
/-- Writing through a `*Lattice`. lattice.go:51-52, 57-71, 97, 103-108, 251, 268. -/
def writeLatP (a : Addr) (f : LatObj → LatObj) : Prog Unit := .writeLat a f (.ret ())
/-- How much room an `append` reserves: the runtime decides. lattice.go:97, 251, 268. -/
def chooseP : Prog Nat := .choose .ret

/-- lattice.go:49-54 `New`. -/
def newLatP (d : Dict) (u : Option UserDict) : Prog Addr := do
  let la ← getLatP
  writeLatP la (fun l => { l with dic := some d })
  writeLatP la (fun l => { l with udic := u })
  return la

/-- The pointer `la.list[i][j]`. lattice.go:219, 235-236, 249. -/
def atP (la : Addr) (i j : Nat) : Prog (Option Addr) := do
  let l ← readLatP la
  let col ← must (l.list.get? i)
  must (col.get? j)

/-- lattice.go:62-68: the nodes of one column are given back. -/
def freeColP (la : Addr) (i : Nat) : Prog Unit := do
  let l ← readLatP la
  let col ← must (l.list.get? i)
  each (List.range col.len) (fun j => do
    let p ← atP la i j
    let n ← must p
    putNodeP n
    writeLatP la (fun l => { l with list := l.list.set i ((l.list.get? i).getD .nil |>.set j none) }))
  let l ← readLatP la
  let col ← must (l.list.get? i)
  let col ← must (col.reslice 0)
  writeLatP la (fun l => { l with list := l.list.set i col })

/-- lattice.go:57-73 `Free`. (`nodePool.Put(nil)` is not modelled: a missing node is a panic here.) -/
def freeP (la : Addr) : Prog Unit := do
  writeLatP la (fun l => { l with input := [] })
  let l ← readLatP la
  each (List.range l.output.len) (fun i => writeLatP la (fun l => { l with output := l.output.set i none }))
  let l ← readLatP la
  let out ← must (l.output.reslice 0)
  writeLatP la (fun l => { l with output := out })
  let l ← readLatP la
  each (List.range l.list.len) (freeColP la)
  let l ← readLatP la
  let list ← must (l.list.reslice 0)
  writeLatP la (fun l => { l with list := list })
  writeLatP la (fun l => { l with udic := none })
  putLatP la

/-- lattice.go:75-98 `addNode`. -/
def addNodeP (la : Addr) (pos : Nat) (id : Int) (position start : Nat) (cls : NodeClass) (surface : Bytes) : Prog Unit := do
  let l ← readLatP la
  let m ← must (l.dic.bind (fun d => morphOf d cls id))
  let n ← getNodeP
  writeNodeP n (fun n => { n with id := id })
  writeNodeP n (fun n => { n with position := position })
  writeNodeP n (fun n => { n with start := start })
  writeNodeP n (fun n => { n with cls := cls })
  writeNodeP n (fun n => { n with cost := 0 })
  writeNodeP n (fun n => { n with left := m.left.toInt, right := m.right.toInt, weight := m.weight.toInt })
  writeNodeP n (fun n => { n with surface := surface })
  writeNodeP n (fun n => { n with prev := none })
  let p := pos + runeCount surface
  let l ← readLatP la
  let col ← must (l.list.get? p)
  let extra ← chooseP
  writeLatP la (fun l => { l with list := l.list.set p (col.append (some n) extra none) })

/-- lattice.go:120-125 and 131-136: one node per hit. -/
def addHitsP (la : Addr) (inp : Bytes) (runePos pos : Nat) (cls : NodeClass) : List (Nat × Nat) → Prog Unit
  | [] => pure ()
  | (id, l) :: hits => do
    let s ← must (slice inp pos (pos + l))
    addNodeP la runePos id pos runePos cls s
    addHitsP la inp runePos pos cls hits

/-- lattice.go:168-174. -/
def addUnksP (la : Addr) (inp : Bytes) (runePos pos prev endPos : Nat) : List Int → Prog Unit
  | [] => pure ()
  | id :: ids => do
    if pos < prev then
      let s ← must (slice inp pos prev)
      addNodeP la runePos id pos runePos .unknown s
    let s ← must (slice inp pos endPos)
    addNodeP la runePos id pos runePos .unknown s
    addUnksP la inp runePos pos prev endPos ids

/-- lattice.go:140-174. -/
def addUnknownP (la : Addr) (inp : Bytes) (runePos pos ch : Nat) : Prog Unit := do
  let l ← readLatP la
  let d ← must l.dic
  let endPos ← must (unkEnd d inp pos ch)
  let word ← must (slice inp pos endPos)
  addUnksP la inp runePos pos (unkPrev pos endPos word) endPos (unkIds d (d.category ch))

/-- lattice.go:115-175, the body of the loop over the input. -/
def buildAtP (la : Addr) (inp : Bytes) (runePos pos ch : Nat) : Prog Unit := do
  let l ← readLatP la
  let uh := userHits l.udic (inp.drop pos)
  addHitsP la inp runePos pos .user uh
  if uh ≠ [] then pure ()
  else
    let l ← readLatP la
    let d ← must l.dic
    let kh := d.prefixSearch (inp.drop pos)
    addHitsP la inp runePos pos .known kh
    if kh = [] then addUnknownP la inp runePos pos ch
    else
      let invoke ← must (d.invokeList[d.category ch]?)
      if invoke then addUnknownP la inp runePos pos ch else pure ()

/-- lattice.go:113-176, the loop over the input. -/
def buildLoopP (la : Addr) (inp : Bytes) : Nat → List (Nat × Nat) → Prog Unit
  | _, [] => pure ()
  | runePos, (pos, ch) :: rest => do
    buildAtP la inp runePos pos ch
    buildLoopP la inp (runePos + 1) rest

/-- lattice.go:102-177 `Build`. -/
def buildP (la : Addr) (inp : Bytes) : Prog Unit := do
  let rc := runeCount inp
  writeLatP la (fun l => { l with input := inp })
  let l ← readLatP la
  if l.list.arr.length < rc + 2 then
    writeLatP la (fun l => { l with list := .make (rc + 2) .nil })
  let l ← readLatP la
  let list ← must (l.list.reslice (rc + 2))
  writeLatP la (fun l => { l with list := list })
  addNodeP la 0 bosEosID 0 0 .dummy []
  let e ← must (slice inp rc rc)
  addNodeP la (rc + 1) bosEosID inp.length rc .dummy e
  buildLoopP la inp 0 (rangeString inp)

/-- lattice.go:222-238, one predecessor. -/
def relaxP (la : Addr) (ideo : Nat → Bool) (m : LMode) (i index : Nat) (target : Addr) (prevList : Slice (Option Addr)) (j : Nat) :
    Prog Unit := do
  let p ← must (prevList.get? j)
  let n ← must p
  let nv ← readNodeP n
  let tv ← readNodeP target
  let l ← readLatP la
  let d ← must l.dic
  let c ← must (connCost d nv.toNode tv.toNode)
  let total := totalCost ideo m c nv.toNode tv.toNode
  let p ← atP la i index
  let cur ← must p
  let cv ← readNodeP cur
  if j = 0 ∨ int32 total < cv.cost then
    let p ← atP la i index
    let cur ← must p
    writeNodeP cur (fun v => { v with cost := int32 total })
    let p ← atP la i index
    let cur ← must p
    let tv ← readNodeP target
    let pre ← atP la tv.start j
    writeNodeP cur (fun v => { v with prev := pre })

/-- lattice.go:216-239, one target node. -/
def forwardNodeP (la : Addr) (ideo : Nat → Bool) (m : LMode) (i : Nat) (currentList : Slice (Option Addr)) (index : Nat) : Prog Unit := do
  let p ← must (currentList.get? index)
  let target ← must p
  let tv ← readNodeP target
  let l ← readLatP la
  let prevList ← must (l.list.get? tv.start)
  if prevList.len = 0 then
    let p ← atP la i index
    let cur ← must p
    writeNodeP cur (fun v => { v with cost := maximumCost })
  else each (List.range prevList.len) (relaxP la ideo m i index target prevList)

/-- lattice.go:213-241 `Forward`. -/
def forwardP (la : Addr) (ideo : Nat → Bool) (m : LMode) : Prog Unit := do
  let l ← readLatP la
  each (List.range' 1 (l.list.len - 1)) (fun i => do
    let l ← readLatP la
    let currentList ← must (l.list.get? i)
    each (List.range currentList.len) (forwardNodeP la ideo m i currentList))

/-- `la.Output = append(la.Output, p)` lattice.go:251, 268. -/
def outputP (la : Addr) (p : Addr) : Prog Unit := do
  let extra ← chooseP
  writeLatP la (fun l => { l with output := l.output.append (some p) extra none })

/-- lattice.go:257-266: the stack of single characters. -/
def explodeP (p : PNode) : Nat → List (Nat × Nat) → Prog (List Addr)
  | _, [] => pure []
  | i, (k, r) :: rest => do
    let a ← newNodeP { PNode.zero with id := p.id, start := p.start + i, cls := .dummy, surface := encodeRune r, position := p.position + k }
    let as ← explodeP p (i + 1) rest
    return a :: as

/-- lattice.go:249-271. The fuel bounds the number of steps as in the sequential model. -/
def walkP (la : Addr) (m : LMode) : Nat → Option Addr → Prog Unit
  | _, none => pure ()
  | 0, some _ => .panic
  | fuel + 1, some p => do
    let v ← readNodeP p
    if m ≠ .extended ∨ v.cls ≠ .unknown then outputP la p
    else
      let stack ← explodeP v 0 (rangeString v.surface)
      each stack.reverse (outputP la)
    let v ← readNodeP p
    walkP la m fuel v.prev

/-- lattice.go:244-271 `Backward`. -/
def backwardP (la : Addr) (m : LMode) : Prog Unit := do
  let l ← readLatP la
  if l.list.len = 0 then pure ()
  else
    let p ← atP la (l.list.len - 1) 0
    walkP la m (l.list.len + 1) p

/-- tokenizer.go:100-124: the tokens, from the end of `Output`; `i` is the loop variable, `k` is `len(tokens)`. -/
def tokensP (t : Tokenizer) (la : Addr) (size : Nat) : Nat → Nat → Nat → Prog (List Token)
  | 0, _, _ => pure []
  | rest + 1, i, k => do
    let l ← readLatP la
    let p ← must (l.output.get? (size - 1 - i))
    let n ← must p
    let v ← readNodeP n
    if t.omitBosEos ∧ v.id = bosEosID then tokensP t la size rest (i + 1) k
    else
      let ts ← tokensP t la size rest (i + 1) (k + 1)
      return mkToken t i k v.toNode :: ts

/-- tokenizer.go:86-125, what `Analyze` does between `New` and `Free`. -/
def analyzeBodyP (t : Tokenizer) (ideo : Nat → Bool) (inp : Bytes) (mode : Int) (la : Addr) : Prog (List Token) := do
  buildP la inp
  let m := latticeMode mode
  forwardP la ideo m
  backwardP la m
  let l ← readLatP la
  tokensP t la l.output.len l.output.len 0 0

/-- tokenizer.go:83-126 `Analyze`. -/
def analyzeP (t : Tokenizer) (ideo : Nat → Bool) (inp : Bytes) (mode : Int) : Prog (List Token) := do
  let la ← newLatP t.dict t.userDict
  (analyzeBodyP t ideo inp mode la).deferred (freeP la)

end Kagome
