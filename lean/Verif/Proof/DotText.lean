import Verif.Spec.DotText
import Verif.Proof.Json

/-! The text of a graph, read symbol by symbol. -/

namespace Kagome

open Spec

/-- The symbols a piece of text completes, and where the scanner is afterwards. -/
def scanRun : DotScan → Bytes → Option (List DotSym × DotScan)
  | s, [] => some ([], s)
  | s, b :: bs => (scanByte s b).bind fun r => (scanRun r.2 bs).map fun q => (r.1 ++ q.1, q.2)

theorem dotSyms_cons (s : DotScan) (b : UInt8) (bs : Bytes) :
    dotSyms s (b :: bs) = (scanByte s b).bind fun r => (dotSyms r.2 bs).map (r.1 ++ ·) := by
  cases s <;> rw [dotSyms]

theorem dotSyms_append (s : DotScan) (a b : Bytes) :
    dotSyms s (a ++ b) = (scanRun s a).bind fun r => (dotSyms r.2 b).map (r.1 ++ ·) := by
  induction a generalizing s with
  | nil => simp [scanRun]
  | cons c a ih =>
    rw [List.cons_append, dotSyms_cons, scanRun]
    cases scanByte s c with
    | none => rfl
    | some r =>
      simp only [Option.bind_some, ih]
      cases scanRun r.2 a with
      | none => rfl
      | some q =>
        simp only [Option.bind_some, Option.map_some, Option.map_map]
        congr 1
        funext x
        simp

theorem scanRun_append (s : DotScan) (a b : Bytes) :
    scanRun s (a ++ b) = (scanRun s a).bind fun r => (scanRun r.2 b).map fun q => (r.1 ++ q.1, q.2) := by
  induction a generalizing s with
  | nil => simp [scanRun]
  | cons c a ih =>
    rw [List.cons_append, scanRun, scanRun]
    cases scanByte s c with
    | none => rfl
    | some r =>
      simp only [Option.bind_some, ih]
      cases scanRun r.2 a with
      | none => rfl
      | some q =>
        simp only [Option.bind_some, Option.map_some, Option.map_map]
        congr 1
        funext x
        simp

/-- Inside quotation marks. -/
theorem scanRun_quoted {v : Bytes} (h : ∀ b ∈ v, b ≠ 0x22 ∧ b ≠ 0x5C) (text : Bytes) : scanRun (.quoted text) v = some ([], .quoted (v.reverse ++ text)) := by
  induction v generalizing text with
  | nil => rfl
  | cons b v ih =>
    have hb := h b (by simp)
    rw [scanRun, scanByte, if_neg hb.1, if_neg hb.2, Option.bind_some, ih (fun c hc => h c (by simp [hc]))]
    simp

theorem scan_step {s : DotScan} {a b : Bytes} {ts us : List DotSym} {s' s'' : DotScan} (h1 : scanRun s a = some (ts, s'))
    (h2 : scanRun s' b = some (us, s'')) : scanRun s (a ++ b) = some (ts ++ us, s'') := by
  rw [scanRun_append, h1, Option.bind_some, h2]; rfl

theorem scan_escape_n (text : Bytes) : scanRun (.quoted text) (str "\\n") = some ([], .quoted (0x6E :: 0x5C :: text)) := by
  rw [show str "\\n" = [0x5C, 0x6E] from by decide]
  rfl

/-- The symbols of `",shape=ellipse, peripheries=2];` or `"];`. -/
def nodeTail (marked : Bool) : List DotSym :=
  (if marked then [.mark 0x2C, .id false (str "shape"), .mark 0x3D, .id false (str "ellipse"), .mark 0x2C, .id false (str "peripheries"), .mark 0x3D,
    .id false (str "2")] else []) ++ [.mark 0x5D, .mark 0x3B]

/-- The symbols of `", style=bold, color=blue, fontcolor=blue];` or `"];`. -/
def edgeTail (bold : Bool) : List DotSym :=
  (if bold then [.mark 0x2C, .id false (str "style"), .mark 0x3D, .id false (str "bold"), .mark 0x2C, .id false (str "color"), .mark 0x3D,
    .id false (str "blue"), .mark 0x2C, .id false (str "fontcolor"), .mark 0x3D, .id false (str "blue")] else []) ++ [.mark 0x5D, .mark 0x3B]

/-- Behind the closing quotation mark. -/
theorem scan_close (text : Bytes) {rest : Bytes} {ts : List DotSym} {s : DotScan} (h : scanRun .between rest = some (ts, s)) :
    scanRun (.quoted text) (0x22 :: rest) = some (.id true text.reverse :: ts, s) := by
  rw [scanRun, scanByte, if_pos rfl, Option.bind_some, h]; rfl

theorem scan_nodeTail (text : Bytes) (m : Bool) :
    scanRun (.quoted text) (if m then str "\",shape=ellipse, peripheries=2];\n" else str "\"];\n") = some (.id true text.reverse :: nodeTail m, .between) := by
  cases m
  · rw [if_neg (by decide), show str "\"];\n" = 0x22 :: str "];\n" from by decide +kernel]
    exact scan_close _ (by decide +kernel)
  · rw [if_pos rfl, show str "\",shape=ellipse, peripheries=2];\n" = 0x22 :: str ",shape=ellipse, peripheries=2];\n" from by decide +kernel]
    exact scan_close _ (by decide +kernel)

theorem scan_edgeTail (text : Bytes) (m : Bool) :
    scanRun (.quoted text) (if m then str "\", style=bold, color=blue, fontcolor=blue];\n" else str "\"];\n") =
      some (.id true text.reverse :: edgeTail m, .between) := by
  cases m
  · rw [if_neg (by decide), show str "\"];\n" = 0x22 :: str "];\n" from by decide +kernel]
    exact scan_close _ (by decide +kernel)
  · rw [if_pos rfl, show str "\", style=bold, color=blue, fontcolor=blue];\n" = 0x22 :: str ", style=bold, color=blue, fontcolor=blue];\n" from by decide +kernel]
    exact scan_close _ (by decide +kernel)

theorem itoa_digits (x : Int) : ∀ b ∈ itoa x, b = 0x2D ∨ Spec.isDigit b = true := by
  have nat : ∀ n : Nat, ∀ b ∈ itoa (n : Int), Spec.isDigit b = true := by
    intro n b hb
    obtain ⟨d, ds, h1, h2, h3, _⟩ := digits_shape n
    rw [itoa_nat, h1] at hb
    rcases List.mem_cons.1 hb with rfl | hb
    · exact h2
    · exact h3 b hb
  intro b hb
  cases x with
  | ofNat n => exact Or.inr (nat n b hb)
  | negSucc n =>
    rw [itoa_neg] at hb
    rcases List.mem_cons.1 hb with rfl | hb
    · exact Or.inl rfl
    · exact Or.inr (nat _ b hb)

theorem itoa_harmless (x : Int) : Harmless (itoa x) := by
  intro b hb
  rcases itoa_digits x b hb with rfl | h1
  · decide
  · refine ⟨?_, ?_, ?_⟩ <;> rintro rfl <;> revert h1 <;> decide

theorem harmless_quoted {v : Bytes} (h : Harmless v) : ∀ b ∈ v, b ≠ 0x22 ∧ b ≠ 0x5C := fun b hb => ⟨(h b hb).1, (h b hb).2.1⟩

variable {π : Type} {addr : π → Bytes}

/-- The label of a node. -/
def nodeLabel (n : GNodeOf π) : Bytes := n.surface ++ str "\\n" ++ n.pos ++ str "\\n" ++ itoa n.weight

def nodeSyms (addr : π → Bytes) (n : GNodeOf π) : List DotSym :=
  .id true (addr n.ptr) :: .mark 0x5B :: .id false (str "label") :: .mark 0x3D :: .id true (nodeLabel n) :: nodeTail n.marked

def edgeSyms (addr : π → Bytes) (e : GEdgeOf π) : List DotSym :=
  .id true (addr e.src) :: .link :: .id true (addr e.dst) :: .mark 0x5B :: .id false (str "label") :: .mark 0x3D :: .id true (itoa e.label) :: edgeTail e.bold

theorem scan_open : scanRun .between (str "\t\"") = some ([], .quoted []) := by decide
theorem scan_label (text : Bytes) : scanRun (.quoted text) (str "\" [label=\"") =
    some ([.id true text.reverse, .mark 0x5B, .id false (str "label"), .mark 0x3D], .quoted []) := by
  rw [show str "\" [label=\"" = 0x22 :: str " [label=\"" from by decide]
  exact scan_close _ (by decide)
theorem scan_link (text : Bytes) : scanRun (.quoted text) (str "\" -- \"") = some ([.id true text.reverse, .link], .quoted []) := by
  rw [show str "\" -- \"" = 0x22 :: str " -- \"" from by decide]
  exact scan_close _ (by decide)

theorem scan_node (ha : ∀ p, Harmless (addr p)) {n : GNodeOf π} (hs : Harmless n.surface) (hp : Harmless n.pos) :
    scanRun .between (nodeLine addr n) = some (nodeSyms addr n, .between) := by
  have h := scan_step (scan_step (scan_step (scan_step (scan_step (scan_step (scan_step (scan_step (scan_open) (scanRun_quoted (harmless_quoted (ha n.ptr)) _))
    (scan_label _)) (scanRun_quoted (harmless_quoted hs) _)) (scan_escape_n _)) (scanRun_quoted (harmless_quoted hp) _)) (scan_escape_n _))
    (scanRun_quoted (harmless_quoted (itoa_harmless n.weight)) _)) (scan_nodeTail _ n.marked)
  unfold nodeLine
  rw [h, nodeSyms, nodeLabel, show str "\\n" = [0x5C, 0x6E] from by decide]
  simp

theorem scan_edge (ha : ∀ p, Harmless (addr p)) (e : GEdgeOf π) : scanRun .between (edgeLine addr e) = some (edgeSyms addr e, .between) := by
  have h := scan_step (scan_step (scan_step (scan_step (scan_step (scan_step (scan_open) (scanRun_quoted (harmless_quoted (ha e.src)) _))
    (scan_link _)) (scanRun_quoted (harmless_quoted (ha e.dst)) _)) (scan_label _))
    (scanRun_quoted (harmless_quoted (itoa_harmless e.label)) _)) (scan_edgeTail _ e.bold)
  unfold edgeLine
  rw [h, edgeSyms]
  simp

theorem scan_dotLines {α : Type} {f : α → Bytes} {g : α → List DotSym} {l : List α} (h : ∀ x ∈ l, scanRun .between (f x) = some (g x, .between)) :
    scanRun .between (l.flatMap f) = some (l.flatMap g, .between) := by
  induction l with
  | nil => rfl
  | cons x l ih =>
    rw [List.flatMap_cons, List.flatMap_cons]
    exact scan_step (h x (by simp)) (ih (fun y hy => h y (by simp [hy])))

/-- The symbols of `k=v, k=v, …`. -/
def attrSyms : List (Bytes × Bool × Bytes) → List DotSym
  | [] => []
  | [(k, q, v)] => [.id false k, .mark 0x3D, .id q v]
  | (k, q, v) :: rest => .id false k :: .mark 0x3D :: .id q v :: .mark 0x2C :: attrSyms rest

/-- The symbols of the lines in front, behind the opening brace. -/
def headSyms : List DotSym :=
  [.id false (str "dpi"), .mark 0x3D, .id false (str "48"), .mark 0x3B] ++
  [.id false (str "graph"), .mark 0x5B] ++
    attrSyms [(str "style", false, str "filled"), (str "splines", false, str "true"), (str "overlap", false, str "false"), (str "fontsize", false, str "30"),
      (str "rankdir", false, str "LR")] ++ [.mark 0x5D] ++
  [.id false (str "edge"), .mark 0x5B] ++
    attrSyms [(str "fontname", false, str "Helvetica"), (str "fontcolor", false, str "red"), (str "color", true, str "#606060")] ++ [.mark 0x5D] ++
  [.id false (str "node"), .mark 0x5B] ++
    attrSyms [(str "shape", false, str "box"), (str "style", false, str "filled"), (str "fillcolor", true, str "#e8e8f0"), (str "fontname", false, str "Helvetica")] ++
    [.mark 0x5D]

theorem scan_head : scanRun .between dotHead = some ([.id false (str "graph"), .id false (str "lattice"), .mark 0x7B] ++ headSyms, .between) := by
  decide +kernel

theorem dotSyms_text (ha : ∀ p, Harmless (addr p)) {g : GraphOf π} (hn : ∀ n ∈ g.nodes, Harmless n.surface ∧ Harmless n.pos) :
    dotSyms .between (dotText addr g) = some (.id false (str "graph") :: .id false (str "lattice") :: .mark 0x7B ::
      (headSyms ++ (g.nodes.flatMap (nodeSyms addr) ++ (g.edges.flatMap (edgeSyms addr) ++ [.mark 0x7D])))) := by
  have h := scan_step (scan_step (scan_step scan_head (scan_dotLines (fun n hm => scan_node ha (hn n hm).1 (hn n hm).2)))
    (scan_dotLines (l := g.edges) (fun e _ => scan_edge ha e))) (show scanRun .between (str "}\n") = some ([.mark 0x7D], .between) from by decide)
  unfold dotText
  rw [← List.append_nil (_ ++ str "}\n"), dotSyms_append, h]
  simp [dotSyms]

/-- The attributes a node or an edge has. -/
def nodeAttrs (n : GNodeOf π) : List (Bytes × Bytes) :=
  (str "label", nodeLabel n) :: (if n.marked then [(str "shape", str "ellipse"), (str "peripheries", str "2")] else [])

def edgeAttrs (e : GEdgeOf π) : List (Bytes × Bytes) :=
  (str "label", itoa e.label) :: (if e.bold then [(str "style", str "bold"), (str "color", str "blue"), (str "fontcolor", str "blue")] else [])

theorem readStmts_node (n : GNodeOf π) (rest : List DotSym) (k : Nat) :
    readStmts (k + 1 + 1) (nodeSyms addr n ++ rest) = (readStmts k rest).map fun f => { f with nodes := (addr n.ptr, nodeAttrs n) :: f.nodes } := by
  unfold nodeSyms nodeTail nodeAttrs
  cases n.marked <;> simp [readStmts, readAttrs, dotKeyword]

theorem readStmts_edge (e : GEdgeOf π) (rest : List DotSym) (k : Nat) :
    readStmts (k + 1 + 1) (edgeSyms addr e ++ rest) = (readStmts k rest).map fun f => { f with edges := (addr e.src, addr e.dst, edgeAttrs e) :: f.edges } := by
  unfold edgeSyms edgeTail edgeAttrs
  cases e.bold <;> simp [readStmts, readAttrs]

theorem readStmts_nodes (ns : List (GNodeOf π)) (rest : List DotSym) (m : Nat) {f : DotFile} (h : ∀ k, m ≤ k → readStmts k rest = some f) :
    ∀ k, 2 * ns.length + m ≤ k →
      readStmts k (ns.flatMap (nodeSyms addr) ++ rest) = some { f with nodes := ns.map (fun n => (addr n.ptr, nodeAttrs n)) ++ f.nodes } := by
  induction ns with
  | nil => intro k hk; simpa using h k (by simpa using hk)
  | cons n ns ih =>
    intro k hk
    rw [List.length_cons] at hk
    obtain ⟨j, rfl⟩ : ∃ j, k = j + 1 + 1 := ⟨k - 2, by omega⟩
    rw [List.flatMap_cons, List.append_assoc, readStmts_node, ih j (by omega)]
    rfl

theorem readStmts_edges (es : List (GEdgeOf π)) (rest : List DotSym) (m : Nat) {f : DotFile} (h : ∀ k, m ≤ k → readStmts k rest = some f) :
    ∀ k, 2 * es.length + m ≤ k →
      readStmts k (es.flatMap (edgeSyms addr) ++ rest) = some { f with edges := es.map (fun e => (addr e.src, addr e.dst, edgeAttrs e)) ++ f.edges } := by
  induction es with
  | nil => intro k hk; simpa using h k (by simpa using hk)
  | cons n ns ih =>
    intro k hk
    rw [List.length_cons] at hk
    obtain ⟨j, rfl⟩ : ∃ j, k = j + 1 + 1 := ⟨k - 2, by omega⟩
    rw [List.flatMap_cons, List.append_assoc, readStmts_edge, ih j (by omega)]
    rfl

theorem readStmts_head (rest : List DotSym) (k : Nat) : readStmts (k + 5) (headSyms ++ rest) = readStmts k rest := by
  have kw1 : dotKeyword false (str "graph") = true := by decide
  have kw2 : dotKeyword false (str "edge") = true := by decide
  have kw3 : dotKeyword false (str "node") = true := by decide
  rw [show k + 5 = k + 1 + 1 + 1 + 1 + 1 from rfl]
  unfold headSyms
  simp [attrSyms, readStmts, readAttrs, kw1, kw2, kw3]

theorem readStmts_end (k : Nat) (h : 1 ≤ k) : readStmts k [.mark 0x7D] = some ⟨[], []⟩ := by
  obtain ⟨j, rfl⟩ : ∃ j, k = j + 1 := ⟨k - 1, by omega⟩
  simp [readStmts]

theorem nodeSyms_length (ns : List (GNodeOf π)) : 2 * ns.length ≤ (ns.flatMap (nodeSyms addr)).length := by
  induction ns with
  | nil => simp
  | cons n ns ih => simp only [List.flatMap_cons, List.length_append, List.length_cons, nodeSyms]; omega

theorem edgeSyms_length (es : List (GEdgeOf π)) : 2 * es.length ≤ (es.flatMap (edgeSyms addr)).length := by
  induction es with
  | nil => simp
  | cons n ns ih => simp only [List.flatMap_cons, List.length_append, List.length_cons, edgeSyms]; omega

theorem readDot_text (ha : ∀ p, Harmless (addr p)) {g : GraphOf π} (hn : ∀ n ∈ g.nodes, Harmless n.surface ∧ Harmless n.pos) :
    readDot (dotText addr g) = some ⟨g.nodes.map (fun n => (addr n.ptr, nodeAttrs n)), g.edges.map (fun e => (addr e.src, addr e.dst, edgeAttrs e))⟩ := by
  unfold readDot
  rw [dotSyms_text ha hn]
  simp only [if_true]
  have hh : headSyms.length = 5 + (headSyms.length - 5) := by decide
  have h1 := readStmts_edges (addr := addr) g.edges [.mark 0x7D] 1 readStmts_end
  have h2 := readStmts_nodes (addr := addr) g.nodes _ _ h1
  have hl1 := nodeSyms_length (addr := addr) g.nodes
  have hl2 := edgeSyms_length (addr := addr) g.edges
  obtain ⟨j, hj⟩ : ∃ j, (headSyms ++ (g.nodes.flatMap (nodeSyms addr) ++ (g.edges.flatMap (edgeSyms addr) ++ [DotSym.mark 0x7D]))).length = j + 5 ∧
      2 * g.nodes.length + (2 * g.edges.length + 1) ≤ j := by
    refine ⟨(headSyms ++ (g.nodes.flatMap (nodeSyms addr) ++ (g.edges.flatMap (edgeSyms addr) ++ [DotSym.mark 0x7D]))).length - 5, ?_, ?_⟩
    all_goals simp only [List.length_append, List.length_cons, List.length_nil]; omega
  rw [hj.1, readStmts_head, h2 j hj.2]
  simp

theorem labelLines_plain {v : Bytes} (h : Harmless v) (cur rest : Bytes) : labelLines cur (v ++ rest) = labelLines (v.reverse ++ cur) rest := by
  induction v generalizing cur with
  | nil => rfl
  | cons b v ih =>
    have hb := h b (by simp)
    rw [List.cons_append, labelLines.eq_6, ih (fun c hc => h c (by simp [hc]))]
    · simp
    · intro _ h1; exact absurd h1 hb.2.1
    · intro _ h1; exact absurd h1 hb.2.1
    · intro h1; exact absurd h1 hb.2.1
    · intro h1; exact absurd h1 hb.2.2

theorem labelLines_nodeLabel {n : GNodeOf π} (hs : Harmless n.surface) (hp : Harmless n.pos) :
    labelLines [] (nodeLabel n) = some [n.surface, n.pos, itoa n.weight] := by
  unfold nodeLabel
  rw [show str "\\n" = [0x5C, 0x6E] from by decide]
  simp only [List.append_assoc, List.cons_append, List.nil_append]
  rw [labelLines_plain hs, labelLines, labelLines_plain hp, labelLines]
  have := labelLines_plain (itoa_harmless n.weight) [] []
  rw [List.append_nil] at this
  rw [this, labelLines]
  simp

theorem numberText_itoa (x : Int) : numberText (itoa x) = some x := by
  unfold numberText
  have := readInt_itoa x (t := []) (by unfold NumEnd; simp)
  rw [List.append_nil] at this
  rw [this, Option.bind_some, if_pos rfl]

theorem drawnNode_eq {n : GNodeOf π} (hs : Harmless n.surface) (hp : Harmless n.pos) :
    drawnNode (addr n.ptr, nodeAttrs n) = some ⟨addr n.ptr, n.surface, n.pos, n.weight, n.marked⟩ := by
  have h1 : (nodeAttrs n).lookup (str "label") = some (nodeLabel n) := by
    unfold nodeAttrs; rw [List.lookup_cons_self]
  have h2 : decide ((nodeAttrs n).lookup (str "peripheries") = some (str "2")) = n.marked := by
    have hk : (str "peripheries" == str "label") = false := by decide
    unfold nodeAttrs
    rw [List.lookup_cons, hk]
    have h : ∀ m : Bool, decide ((if m = true then [(str "shape", str "ellipse"), (str "peripheries", str "2")] else []).lookup (str "peripheries") =
      some (str "2")) = m := by decide
    exact h _
  unfold drawnNode
  simp only [h1, Option.bind_some, labelLines_nodeLabel hs hp, numberText_itoa, Option.map_some, h2]

theorem drawnEdge_eq (e : GEdgeOf π) : drawnEdge (addr e.src, addr e.dst, edgeAttrs e) = some ⟨addr e.src, addr e.dst, e.label, e.bold⟩ := by
  have h1 : (edgeAttrs e).lookup (str "label") = some (itoa e.label) := by
    unfold edgeAttrs; rw [List.lookup_cons_self]
  have h2 : decide ((edgeAttrs e).lookup (str "style") = some (str "bold")) = e.bold := by
    have hk : (str "style" == str "label") = false := by decide
    unfold edgeAttrs
    rw [List.lookup_cons, hk]
    have h : ∀ m : Bool, decide ((if m = true then [(str "style", str "bold"), (str "color", str "blue"), (str "fontcolor", str "blue")] else []).lookup
      (str "style") = some (str "bold")) = m := by decide
    exact h _
  unfold drawnEdge
  simp only [h1, Option.bind_some, numberText_itoa, Option.map_some, h2]

theorem mapM_map_some {α β γ : Type} {f : β → Option γ} {g : α → β} {h : α → γ} {l : List α} (hx : ∀ x ∈ l, f (g x) = some (h x)) :
    (l.map g).mapM f = some (l.map h) := by
  induction l with
  | nil => rfl
  | cons x l ih =>
    rw [List.map_cons, List.mapM_cons, hx x (by simp), ih (fun y hy => hx y (by simp [hy]))]
    rfl

/-- A graph with harmless texts can be read from its text. -/
theorem drawn_text (ha : ∀ p, Harmless (addr p)) {g : GraphOf π} (hn : ∀ n ∈ g.nodes, Harmless n.surface ∧ Harmless n.pos) :
    drawn (dotText addr g) = some (g.map addr) := by
  unfold drawn
  rw [readDot_text ha hn, Option.bind_some]
  simp only
  rw [mapM_map_some (fun n hm => drawnNode_eq (hn n hm).1 (hn n hm).2), Option.bind_some, mapM_map_some (fun e _ => drawnEdge_eq e)]
  rfl

end Kagome
