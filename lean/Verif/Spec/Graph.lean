import Verif.Spec.Words
import Verif.Model.Dot
import Verif.Spec.Tokens

/-! Vocabulary for statements about the exported graph. Of the model of `Dot` only the types `GNode`, `GEdge`, `Graph` are used. -/

namespace Kagome.Spec

open Kagome

/-- What a node of the graph stands for: the beginning of the text, its end, or a word that starts at a given character. -/
inductive Place
  | bos
  | eos
  | word (start : Nat) (w : Word)
deriving DecidableEq

/-- Where it starts, in characters. -/
def Place.start (inp : Bytes) : Place → Nat
  | .bos => 0
  | .eos => runeCount inp
  | .word k _ => k

/-- Where it ends, in characters. -/
def Place.stop (inp : Bytes) : Place → Nat
  | .bos => 0
  | .eos => runeCount inp
  | .word k w => k + runeCount w.surface

/-- As a word, for costs. -/
def Place.asWord : Place → Word
  | .bos => boundary
  | .eos => boundary
  | .word _ w => w

/-- What is written on the node. -/
def Place.text : Place → Bytes
  | .bos => str "BOS"
  | .eos => str "EOS"
  | .word _ w => w.surface

/-- The text behind its first `k` characters. -/
def afterChars (inp : Bytes) (k : Nat) : Bytes := inp.drop (firstChars inp k).length

/-- The tables behind the part-of-speech texts cover every entry: `Dot` looks them up without checks. -/
structure PosTables (d : Dict) (u : Option UserDict) : Prop where
  known : ∀ i, i < d.morphs.length → ∃ ids, d.poss[i]? = some ids ∧ ∀ id ∈ ids, id < d.nameList.length
  unknown : d.unk.morphs.length ≤ d.unk.contents.length
  start : ∀ v, d.unk.contentsMeta (str "_pos_start") = some v → 0 ≤ v.toInt

/-- Two elements of a list, one right after the other. -/
def Consecutive {α : Type} (l : List α) (a b : α) : Prop := ∃ x y, l = x ++ a :: b :: y

/-- The part-of-speech text of a node: the names of the part-of-speech levels other than `*`, or dashes if there is none. -/
def posLabel (pos : List Bytes) : Bytes :=
  if pos.filter (fun v => v ≠ str "*") = [] then str "---" else join (str "/") (pos.filter (fun v => v ≠ str "*"))

/-- The graph shows the words that may stand in the text: `place` says what its nodes stand for. -/
structure ShowsWords (d : Dict) (u : Option UserDict) (inp : Bytes) (g : Graph) (place : Ptr → Place) : Prop where
  /-- A node is declared once. -/
  once : (g.nodes.map (fun n => n.ptr)).Nodup
  /-- Its label has the text and the cost of what it stands for. -/
  node : ∀ n ∈ g.nodes, n.surface = (place n.ptr).text ∧ n.weight = (morphOfWord d (place n.ptr).asWord).weight.toInt
  /-- Its label has the part of speech of what it stands for (that of a user word as it is). -/
  pos : ∀ n ∈ g.nodes, ∀ tok : Token, tok.cls = (place n.ptr).asWord.cls → tok.id = (place n.ptr).asWord.id → tok.dict = some d →
    tok.udict = u → ∃ p, tokenPOS tok = some p ∧ n.pos = (if tok.cls = .user then join (str "/") (p.getD []) else posLabel (p.getD []))
  /-- Its word may stand there. -/
  real : ∀ n ∈ g.nodes, ∀ k w, place n.ptr = .word k w → k < runeCount inp ∧ Candidate d u (afterChars inp k) w
  bos : ∃ n ∈ g.nodes, place n.ptr = .bos
  eos : ∃ n ∈ g.nodes, place n.ptr = .eos
  /-- Every dictionary word that may stand somewhere is shown. -/
  full : ∀ k w, k < runeCount inp → Candidate d u (afterChars inp k) w → w.cls ≠ .unknown → ∃ n ∈ g.nodes, place n.ptr = .word k w
  /-- Edges join declared nodes. -/
  closed : ∀ e ∈ g.edges, (∃ a ∈ g.nodes, a.ptr = e.src) ∧ (∃ b ∈ g.nodes, b.ptr = e.dst)
  edgeOnce : (g.edges.map (fun e => (e.src, e.dst))).Nodup
  /-- There is an edge exactly where one node ends and the other starts. -/
  edge : ∀ a ∈ g.nodes, ∀ b ∈ g.nodes, (∃ e ∈ g.edges, e.src = a.ptr ∧ e.dst = b.ptr) ↔
    ((place a.ptr).stop inp = (place b.ptr).start inp ∧ place a.ptr ≠ .eos ∧ place b.ptr ≠ .bos)
  /-- The label of an edge is the cost of putting one word after the other. -/
  label : ∀ e ∈ g.edges, e.label = connect d (place e.src).asWord (place e.dst).asWord

/-- The graph marks the analysis `toks`: its words are the nodes `path`. -/
structure ShowsAnalysis (toks : List Token) (g : Graph) (place : Ptr → Place) (inp : Bytes) (path : List Ptr) : Prop where
  length : path.length = toks.length
  token : ∀ (i : Nat) q tok, path[i]? = some q → toks[i]? = some tok →
    (place q).text = tok.surface ∧ (place q).start inp = tok.start ∧ (place q).stop inp = tok.stop ∧
      (place q).asWord.cls = tok.cls ∧ (place q).asWord.id = tok.id
  declared : ∀ q ∈ path, ∃ n ∈ g.nodes, n.ptr = q
  marked : ∀ n ∈ g.nodes, n.marked = true ↔ n.ptr ∈ path
  bold : ∀ e ∈ g.edges, e.bold = true ↔ Consecutive path e.src e.dst
  linked : ∀ a b, Consecutive path a b → ∃ e ∈ g.edges, e.src = a ∧ e.dst = b

end Kagome.Spec
