import Verif.Spec.Json
import Verif.Model.Dot

/-!
A reader for a part of the DOT language of Graphviz: undirected graphs, quoted and bare identifiers, attribute lists. Not covered (the reader
gives up): comments, numerals with a sign, ports, subgraphs, HTML strings, string concatenation. Of the model of `Dot` only the types `GNodeOf`,
`GEdgeOf`, `GraphOf` are used.
-/

namespace Kagome.Spec

open Kagome

/-- A symbol of the language. A quoted identifier is never a keyword. -/
inductive DotSym
  | id (quoted : Bool) (name : Bytes)
  | mark (b : UInt8)
  | link
deriving DecidableEq, Repr

/-- Where the scanner is; the text read so far is reversed. -/
inductive DotScan
  | between
  | bare (name : Bytes)
  | quoted (text : Bytes)
  | escape (text : Bytes)
  | dash
deriving DecidableEq, Repr

/-- White space. -/
def dotBlank (b : UInt8) : Bool := b = 0x20 ∨ b = 0x09 ∨ b = 0x0A ∨ b = 0x0D

/-- Letters, digits, underscores and the bytes of characters outside ASCII. -/
def dotLetter (b : UInt8) : Bool := (0x61 ≤ b ∧ b ≤ 0x7A) ∨ (0x41 ≤ b ∧ b ≤ 0x5A) ∨ (0x30 ≤ b ∧ b ≤ 0x39) ∨ b = 0x5F ∨ 0x80 ≤ b

/-- `{ } [ ] ; , =` -/
def dotMark (b : UInt8) : Bool := b = 0x7B ∨ b = 0x7D ∨ b = 0x5B ∨ b = 0x5D ∨ b = 0x3B ∨ b = 0x2C ∨ b = 0x3D

/-- A byte between two symbols. -/
def scanBetween (b : UInt8) : Option (List DotSym × DotScan) :=
  if dotBlank b then some ([], .between)
  else if dotLetter b then some ([], .bare [b])
  else if dotMark b then some ([.mark b], .between)
  else if b = 0x22 then some ([], .quoted [])
  else if b = 0x2D then some ([], .dash)
  else none

/-- One byte: the symbols it completes. In a quoted text a backslash takes the quotation mark or the line feed behind it away; in front of
anything else it stays. -/
def scanByte : DotScan → UInt8 → Option (List DotSym × DotScan)
  | .between, b => scanBetween b
  | .bare name, b => if dotLetter b then some ([], .bare (b :: name)) else (scanBetween b).map fun r => (.id false name.reverse :: r.1, r.2)
  | .quoted text, b =>
    if b = 0x22 then some ([.id true text.reverse], .between)
    else if b = 0x5C then some ([], .escape text)
    else some ([], .quoted (b :: text))
  | .escape text, b =>
    if b = 0x22 then some ([], .quoted (0x22 :: text))
    else if b = 0x0A then some ([], .quoted text)
    else some ([], .quoted (b :: 0x5C :: text))
  | .dash, b => if b = 0x2D then some ([.link], .between) else none

/-- The symbols of a text. -/
def dotSyms : DotScan → Bytes → Option (List DotSym)
  | .between, [] => some []
  | .bare name, [] => some [.id false name.reverse]
  | _, [] => none
  | s, b :: bs => (scanByte s b).bind fun r => (dotSyms r.2 bs).map (r.1 ++ ·)

/-- Attributes, up to the closing bracket. -/
def readAttrs : List DotSym → Option (List (Bytes × Bytes) × List DotSym)
  | .mark 0x5D :: rest => some ([], rest)
  | .mark 0x2C :: rest => readAttrs rest
  | .mark 0x3B :: rest => readAttrs rest
  | .id _ k :: .mark 0x3D :: .id _ v :: rest => (readAttrs rest).map fun r => ((k, v) :: r.1, r.2)
  | _ => none

/-- What a DOT file declares. -/
structure DotFile where
  nodes : List (Bytes × List (Bytes × Bytes))
  edges : List (Bytes × Bytes × List (Bytes × Bytes))
deriving DecidableEq, Repr

/-- The words that introduce defaults. -/
def dotKeyword (q : Bool) (name : Bytes) : Bool := !q && (name = Kagome.str "graph" || name = Kagome.str "node" || name = Kagome.str "edge")

/-- At most `n` statements, the closing brace, and nothing else. -/
def readStmts : Nat → List DotSym → Option DotFile
  | 0, _ => none
  | _, [.mark 0x7D] => some ⟨[], []⟩
  | n + 1, .mark 0x3B :: rest => readStmts n rest
  | n + 1, .id _ _ :: .mark 0x3D :: .id _ _ :: rest => readStmts n rest
  | n + 1, .id q a :: .mark 0x5B :: rest =>
    (readAttrs rest).bind fun r => (readStmts n r.2).map fun f => if dotKeyword q a then f else { f with nodes := (a, r.1) :: f.nodes }
  | n + 1, .id _ a :: .link :: .id _ b :: .mark 0x5B :: rest =>
    (readAttrs rest).bind fun r => (readStmts n r.2).map fun f => { f with edges := (a, b, r.1) :: f.edges }
  | _, _ => none

/-- An undirected graph with a name. -/
def readDot (text : Bytes) : Option DotFile :=
  match dotSyms .between text with
  | some (.id false kw :: .id _ _ :: .mark 0x7B :: rest) => if kw = Kagome.str "graph" then readStmts rest.length rest else none
  | _ => none

/-- The lines of a label: `\n` ends a line, and so does a line feed. -/
def labelLines : Bytes → Bytes → Option (List Bytes)
  | cur, [] => some [cur.reverse]
  | cur, 0x5C :: 0x6E :: rest => (labelLines [] rest).map (cur.reverse :: ·)
  | cur, 0x5C :: 0x5C :: rest => labelLines (0x5C :: cur) rest
  | _, 0x5C :: _ => none
  | cur, 0x0A :: rest => (labelLines [] rest).map (cur.reverse :: ·)
  | cur, b :: rest => labelLines (b :: cur) rest

/-- A number and nothing else. -/
def numberText (s : Bytes) : Option Int := (readInt s).bind fun r => if r.2 = [] then some r.1 else none

/-- A node as it is drawn: three lines, with a double border or without. -/
def drawnNode (n : Bytes × List (Bytes × Bytes)) : Option (GNodeOf Bytes) :=
  (n.2.lookup (Kagome.str "label")).bind fun label => (labelLines [] label).bind fun lines =>
    match lines with
    | [surface, pos, cost] => (numberText cost).map fun w => ⟨n.1, surface, pos, w, n.2.lookup (Kagome.str "peripheries") = some (Kagome.str "2")⟩
    | _ => none

/-- An edge as it is drawn: with a number, bold or not. -/
def drawnEdge (e : Bytes × Bytes × List (Bytes × Bytes)) : Option (GEdgeOf Bytes) :=
  (e.2.2.lookup (Kagome.str "label")).bind fun label => (numberText label).map fun c =>
    ⟨e.1, e.2.1, c, e.2.2.lookup (Kagome.str "style") = some (Kagome.str "bold")⟩

/-- The picture of a DOT text. -/
def drawn (text : Bytes) : Option (GraphOf Bytes) :=
  (readDot text).bind fun f => (f.nodes.mapM drawnNode).bind fun ns => (f.edges.mapM drawnEdge).map fun es => ⟨ns, es⟩

/-- No quotation mark, no backslash, no line feed. -/
def Harmless (s : Bytes) : Prop := ∀ b ∈ s, b ≠ 0x22 ∧ b ≠ 0x5C ∧ b ≠ 0x0A

instance (s : Bytes) : Decidable (Harmless s) := inferInstanceAs (Decidable (∀ b ∈ s, _))

/-- The part-of-speech names in the tables are harmless. -/
structure HarmlessTables (d : Dict) (u : Option UserDict) : Prop where
  names : ∀ v ∈ d.nameList, Harmless v
  unknown : ∀ row ∈ d.unk.contents, ∀ v ∈ row, Harmless v
  user : ∀ ud, u = some ud → ∀ c ∈ ud.contents, Harmless c.pos

end Kagome.Spec
