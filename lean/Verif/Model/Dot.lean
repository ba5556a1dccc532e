import Verif.Model.Token
import Verif.Go.Json

/-!
`/repo/tokenizer/lattice/lattice.go`, `Dot` and `posFeature`, and the part of `AnalyzeGraph` that calls it.

`Dot` tells nodes apart by their pointers. A pointer into the lattice is a coordinate (column, index); the nodes that `Backward`
allocates for single characters in Extended mode are not in the lattice. What `Dot` prints is kept as a graph (`Graph`) and turned into
text by `dotText`, with `%p` an arbitrary function of the pointer.
-/

namespace Kagome

/-- A pointer to a node of the lattice. `*Node` (node.go:36-48) in `la.list` and `la.Output`, lattice.go:39-46. -/
abbrev Ptr := Nat × Nat

/-- lattice.go:250-270: the pointers one node of the best path appends to `Output` (`none`: a node allocated there). -/
def emitPtr (m : LMode) (q : Ptr) (p : Node) : List (Option Ptr) :=
  if m ≠ .extended ∨ p.cls ≠ .unknown then [some q]
  else (rangeString p.surface).map (fun _ => none)

/-- lattice.go:249-271 once more: the pointers in `Output` (`walk` gives the nodes they point to). -/
def walkPtr (m : LMode) (cols : Cols) : Nat → Option Ptr → Option (List (Option Ptr))
  | _, none => some []
  | 0, some _ => none
  | fuel + 1, some (i, j) =>
    match getNode cols i j with
    | none => none
    | some p => (walkPtr m cols fuel p.prev).map (emitPtr m (i, j) p ++ ·)

/-- lattice.go:244-271 `Backward`: the pointers in `Output`. -/
def backwardPtr (m : LMode) (cols : Cols) : Option (List (Option Ptr)) :=
  if cols.length = 0 then some []
  else walkPtr m cols (cols.length + 1) (some (cols.length - 1, 0))

/-- lattice.go:277-281 and 295-299: the names that are not `*`. -/
def dropStars (l : List Bytes) : List Bytes := l.filter (fun v => v ≠ str "*")

/-- lattice.go:303-306. -/
def posText (ret : List Bytes) : Bytes := if ret.length = 0 then str "---" else join (str "/") ret

/-- lattice.go:273-307 `posFeature`; `none` is a panic. -/
def posFeature (d : Dict) (u : Option UserDict) (n : Node) : Option Bytes :=
  match n.cls with
  | .known =>
    match goGet d.poss n.id with
    | none => none
    | some ids => (posNames d ids).map (fun l => posText (dropStars l))
  | .unknown =>
    let r := unkPosRange d
    match goGet d.unk.contents n.id with
    | none => none
    | some feature =>
      if r.1 ≥ r.2 ∨ r.2 > feature.length then some (str "---")
      else (featureRange feature r.1 (r.2 - r.1).toNat).map (fun l => posText (dropStars l))
  | .user =>
    match u with
    | none => none
    | some u => (goGet u.contents n.id).map (fun c => posText [c.pos])
  | .dummy => some (posText [])

/-- A node statement of the output, lattice.go:365-369; `π` are the pointers. -/
structure GNodeOf (π : Type) where
  ptr : π
  surface : Bytes
  pos : Bytes
  weight : Int
  marked : Bool
deriving DecidableEq, Repr

/-- An edge statement of the output, lattice.go:372-386. -/
structure GEdgeOf (π : Type) where
  src : π
  dst : π
  label : Int
  bold : Bool
deriving DecidableEq, Repr

/-- What `Dot` prints. lattice.go:344-388. -/
structure GraphOf (π : Type) where
  nodes : List (GNodeOf π)
  edges : List (GEdgeOf π)
deriving DecidableEq, Repr

/-- The same graph with other names for its nodes. `%p`, lattice.go:366-384. -/
def GraphOf.map {π ρ : Type} (f : π → ρ) (g : GraphOf π) : GraphOf ρ :=
  ⟨g.nodes.map (fun n => ⟨f n.ptr, n.surface, n.pos, n.weight, n.marked⟩), g.edges.map (fun e => ⟨f e.src, f e.dst, e.label, e.bold⟩)⟩

/-- A node line of the graph, lattice.go:366-368. -/
abbrev GNode := GNodeOf Ptr
/-- An edge line of the graph, lattice.go:380-384. -/
abbrev GEdge := GEdgeOf Ptr
/-- The graph of lattice.go:344-388, with its nodes named by their places in `la.list`. -/
abbrev Graph := GraphOf Ptr

/-- lattice.go:325-329, 335-339, 351-355: unknown words that are not on the best path are left out. -/
def hidden (bests : List Ptr) (q : Ptr) (n : Node) : Bool := decide (n.cls = .unknown) && !bests.contains q

/-- lattice.go:334-341, the loop over `prevs`, from index `j` on. -/
def edgesFrom (bests : List Ptr) (dst : Ptr) (start : Nat) : Nat → List Node → List (Ptr × Ptr)
  | _, [] => []
  | j, n :: ns =>
    if hidden bests (start, j) n then edgesFrom bests dst start (j + 1) ns
    else ((start, j), dst) :: edgesFrom bests dst start (j + 1) ns

/-- lattice.go:324-342, the loop over one column `i`, from index `j` on. -/
def edgesCol (bests : List Ptr) (cols : Cols) (i : Nat) : Nat → List Node → Option (List (Ptr × Ptr))
  | _, [] => some []
  | j, n :: ns =>
    if hidden bests (i, j) n then edgesCol bests cols i (j + 1) ns
    else
      match cols[n.start]? with
      | none => none
      | some prevs => (edgesCol bests cols i (j + 1) ns).map (edgesFrom bests (i, j) n.start 0 prevs ++ ·)

/-- lattice.go:322-343, the loop over the columns from `i` on. -/
def edgesCols (bests : List Ptr) (cols : Cols) : Nat → List (List Node) → Option (List (Ptr × Ptr))
  | _, [] => some []
  | i, col :: rest =>
    match edgesCol bests cols i 0 col with
    | none => none
    | some es => (edgesCols bests cols (i + 1) rest).map (es ++ ·)

/-- lattice.go:356-363. -/
def dotSurface (i : Nat) (n : Node) : Bytes :=
  if n.id = bosEosID then (if i = 0 then str "BOS" else str "EOS") else n.surface

/-- lattice.go:350-370, the loop over one column `i`, from index `j` on. -/
def nodesCol (d : Dict) (u : Option UserDict) (bests : List Ptr) (i : Nat) : Nat → List Node → Option (List GNode)
  | _, [] => some []
  | j, n :: ns =>
    if hidden bests (i, j) n then nodesCol d u bests i (j + 1) ns
    else
      match posFeature d u n with
      | none => none
      | some pos =>
        if bests.contains (i, j) then (nodesCol d u bests i (j + 1) ns).map (⟨(i, j), dotSurface i n, pos, n.weight, true⟩ :: ·)
        else if n.cls ≠ .unknown then
          (nodesCol d u bests i (j + 1) ns).map (⟨(i, j), dotSurface i n, pos, n.weight, false⟩ :: ·)
        else nodesCol d u bests i (j + 1) ns

/-- lattice.go:349-371, the loop over the columns from `i` on. -/
def nodesCols (d : Dict) (u : Option UserDict) (bests : List Ptr) : Nat → List (List Node) → Option (List GNode)
  | _, [] => some []
  | i, col :: rest =>
    match nodesCol d u bests i 0 col with
    | none => none
    | some ns => (nodesCols d u bests (i + 1) rest).map (ns ++ ·)

/-- lattice.go:372-386, one edge. -/
def dotEdge (d : Dict) (bests : List Ptr) (cols : Cols) (e : Ptr × Ptr) : Option GEdge :=
  match getNode cols e.1.1 e.1.2, getNode cols e.2.1 e.2.2 with
  | some a, some b =>
    (connCost d a b).map (fun c => ⟨e.1, e.2, c, bests.contains e.1 && bests.contains e.2⟩)
  | _, _ => none

/-- lattice.go:372-386, the loop over the edges. -/
def dotEdges (d : Dict) (bests : List Ptr) (cols : Cols) : List (Ptr × Ptr) → Option (List GEdge)
  | [] => some []
  | e :: es =>
    match dotEdge d bests cols e with
    | none => none
    | some g => (dotEdges d bests cols es).map (g :: ·)

/-- lattice.go:312-389 `Dot`; `out` are the pointers in `la.Output`. -/
def dotGraph (d : Dict) (u : Option UserDict) (cols : Cols) (out : List (Option Ptr)) : Option Graph :=
  let bests := out.filterMap id
  match edgesCols bests cols 1 (cols.drop 1) with
  | none => none
  | some es =>
    match nodesCols d u bests 0 cols with
    | none => none
    | some ns => (dotEdges d bests cols es).map (fun es => ⟨ns, es⟩)

/-- lattice.go:366,368. -/
def nodeLine {π : Type} (addr : π → Bytes) (n : GNodeOf π) : Bytes :=
  str "\t\"" ++ addr n.ptr ++ str "\" [label=\"" ++ n.surface ++ str "\\n" ++ n.pos ++ str "\\n" ++ itoa n.weight ++
    (if n.marked then str "\",shape=ellipse, peripheries=2];\n" else str "\"];\n")

/-- lattice.go:380-385. -/
def edgeLine {π : Type} (addr : π → Bytes) (e : GEdgeOf π) : Bytes :=
  str "\t\"" ++ addr e.src ++ str "\" -- \"" ++ addr e.dst ++ str "\" [label=\"" ++ itoa e.label ++
    (if e.bold then str "\", style=bold, color=blue, fontcolor=blue];\n" else str "\"];\n")

/-- lattice.go:344-348. -/
def dotHead : Bytes :=
  str "graph lattice {\n" ++ str "dpi=48;\n" ++
  str "graph [style=filled, splines=true, overlap=false, fontsize=30, rankdir=LR]\n" ++
  str "edge [fontname=Helvetica, fontcolor=red, color=\"#606060\"]\n" ++
  str "node [shape=box, style=filled, fillcolor=\"#e8e8f0\", fontname=Helvetica]\n"

/-- lattice.go:344-389: the text written for a graph; `addr` is `%p`. -/
def dotText {π : Type} (addr : π → Bytes) (g : GraphOf π) : Bytes :=
  dotHead ++ g.nodes.flatMap (nodeLine addr) ++ g.edges.flatMap (edgeLine addr) ++ str "}\n"

/-- tokenizer.go:134-149,171 `AnalyzeGraph`: the graph it writes. -/
def exportGraph (t : Tokenizer) (ideo : Nat → Bool) (inp : Bytes) (mode : Int) : Option Graph :=
  match solve t ideo inp (latticeMode mode) with
  | none => none
  | some (cols, _) =>
    match backwardPtr (latticeMode mode) cols with
    | none => none
    | some out => dotGraph t.dict t.userDict cols out

end Kagome
