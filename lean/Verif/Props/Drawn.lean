import Verif.Props.Pool
import Verif.Props.LatticeApi
import Verif.Props.Graph
import Verif.Example.Kansai

/-!
C87: `Dot` on a lattice used directly.

`Verif/Props/Graph.lean` (C17) is about the graph `AnalyzeGraph` writes. Here a client has called `Forward` and `Backward` itself, in any order and number.
-/

namespace Kagome

open Spec

/-- C87: after `Build` and any calls of `Forward` and `Backward`, `Dot` writes a graph of the words that may stand in the text. Marked are exactly the nodes
`Output` has pointers to, and all of these are shown; of the unknown words no others are. An edge is bold exactly if both its ends are marked. -/
theorem C87_dot {o : Lattice} (ho : o.Clean) (wf : WellFormed o.dict o.udict) (pt : PosTables o.dict o.udict) (ideo : Nat → Bool) {inp : Bytes}
    (hrep : ReplacementOk o.dict inp) (ops : List LatOp) (hops : ∀ s, LatOp.build s ∉ ops) :
    ∃ o' g place, o.calls ideo (.build inp :: ops) = some o' ∧ o'.dot = some g ∧ ShowsWords o.dict o.udict inp g place ∧
      (∀ n ∈ g.nodes, n.marked = true ↔ .at n.ptr ∈ o'.output) ∧
      (∀ q, .at q ∈ o'.output → ∃ n ∈ g.nodes, n.ptr = q) ∧
      (∀ n ∈ g.nodes, (place n.ptr).asWord.cls = .unknown → n.marked = true) ∧
      (∀ e ∈ g.edges, e.bold = true ↔ .at e.src ∈ o'.output ∧ .at e.dst ∈ o'.output) ∧
      (∀ q nd, .at q ∈ o'.output → OutRef.deref o'.store (.at q) = some nd →
        (place q).asWord.cls = nd.cls ∧ (place q).asWord.id = nd.id ∧ (place q).asWord.surface = nd.surface ∧ (place q).start inp = nd.start) := by
  obtain ⟨cols0, o', E', a, h1, h2, h3, h4, _⟩ := session_any ho wf ideo inp ops hops
  obtain ⟨cols, hsol, hdot, hval⟩ := h4.dot (ideo := ideo) wf h3
  obtain ⟨cols0', b1, hlat⟩ := build_lat wf hrep
  rw [h2] at b1
  obtain rfl := Option.some.inj b1
  obtain ⟨es, ns, gs, p1, p2, p3, p4⟩ := dotGraph_parts wf pt hsol (o'.output.map OutRef.place)
  obtain ⟨n1, n2, n3⟩ := mem_nodes p3
  refine ⟨o', ⟨ns, gs⟩, placeOf cols, h1, by rw [hdot, p1], shows_words wf pt hsol hlat hrep p2 p3 p4, ?_, ?_, ?_, ?_, ?_⟩
  · intro n hn
    obtain ⟨nd, pos, k1, k2, k3⟩ := (n1 n).mp hn
    have : n.marked = ((o'.output.map OutRef.place).filterMap id).contains n.ptr := congrArg GNodeOf.marked k3
    rw [this, List.contains_iff_mem, mem_places]
  · intro q hq
    obtain ⟨nd, _, v1, _⟩ := hval _ hq
    obtain ⟨n, hn, he⟩ := n2 q nd ⟨v1, fun _ => (mem_places _ _).mpr hq⟩
    exact ⟨n, hn, he⟩
  · intro n hn hc
    obtain ⟨nd, pos, k1, k2, k3⟩ := (n1 n).mp hn
    have : n.marked = ((o'.output.map OutRef.place).filterMap id).contains n.ptr := congrArg GNodeOf.marked k3
    rw [this, List.contains_iff_mem]
    refine k1.2 ?_
    rw [(hsol.kind wf k1.1).word_eq] at hc
    exact hc
  · intro e he
    obtain ⟨_, q2⟩ := dotEdges_spec p4
    obtain ⟨a, b, _, _, _, hb⟩ := q2 e he
    rw [hb, Bool.and_eq_true, List.contains_iff_mem, List.contains_iff_mem, mem_places, mem_places]
  · intro q nd hq hd
    obtain ⟨nd', nd'', v1, v2, v3⟩ := hval _ hq
    rw [v2] at hd
    obtain rfl := Option.some.inj hd
    have hk := hsol.kind wf v1
    have f1 : nd'.cls = nd''.cls := (congrArg Node.cls v3 : (skel nd').cls = (skel nd'').cls)
    have f2 : nd'.id = nd''.id := (congrArg Node.id v3 : (skel nd').id = (skel nd'').id)
    have f3 : nd'.surface = nd''.surface := (congrArg Node.surface v3 : (skel nd').surface = (skel nd'').surface)
    have f4 : nd'.start = nd''.start := (congrArg Node.start v3 : (skel nd').start = (skel nd'').start)
    rw [hk.word_eq, ← f1, ← f2, ← f3, ← f4]
    exact ⟨rfl, rfl, rfl, hk.start⟩

/-- C87: after `Build`, `Forward` and `Backward` in one mode, `Dot` writes the graph of `AnalyzeGraph` in that mode. -/
theorem C87_same {o : Lattice} (ho : o.Clean) {t : Tokenizer} (wf : WellFormed t.dict t.userDict) (ideo : Nat → Bool) (inp : Bytes) (mode : Int) :
    ((o.renew t.dict t.userDict).calls ideo [.build inp, .forward (latticeMode mode), .backward (latticeMode mode)]).bind Lattice.dot =
      exportGraph t ideo inp mode := by
  obtain ⟨cols0, o1, h1, h2, h3, h4⟩ := session_start (o := o.renew t.dict t.userDict) (renew_clean ho _ _) wf ideo inp (latticeMode mode)
  obtain ⟨cols, rest, s1, s2, s3, s4⟩ := h4.store
  replace s3 : forward t.dict ideo (latticeMode mode) cols0 = some cols := s3
  obtain ⟨cols', e1, hsol⟩ := forward_solved wf h3 ideo (latticeMode mode)
  rw [s3] at e1
  obtain rfl := Option.some.inj e1
  have hlen := hsol.len
  have hlen' : o1.len = cols.length := by rw [h4.len, hsol.len, h3.len]
  have htake : o1.store.take o1.len = cols := by rw [s1, hlen', List.take_left]
  have hout : o1.output = [] := by
    cases ho1 : o1.output with
    | nil => rfl
    | cons r rs =>
      rw [ho1, List.mapM_cons] at s4
      cases h5 : r.deref cols with
      | none => rw [h5] at s4; cases s4
      | some n =>
        cases h6 : rs.mapM (OutRef.deref cols) with
        | none => rw [h5, h6] at s4; cases s4
        | some ns => rw [h5, h6] at s4; cases s4
  obtain ⟨cols2, L, hf, hs, hL⟩ := path_exists wf h3 ideo (latticeMode mode)
  rw [s3] at hf
  obtain rfl := Option.some.inj hf
  have hback : backward (latticeMode mode) cols = some (L.flatMap (emit (latticeMode mode))) := by
    unfold backward at hL ⊢
    rw [if_neg (by omega)] at hL ⊢
    rw [walk_split, hL, Option.map_some]
  have hsolve : solve t ideo inp (latticeMode mode) = some (cols, L.flatMap (emit (latticeMode mode))) := by
    have hb : build t.dict t.userDict inp = some cols0 := h2
    have hf' : forward t.dict ideo (latticeMode mode) cols0 = some cols := s3
    unfold solve
    rw [hb]
    simp only [hf', hback, Option.map_some]
  have : ([.build inp, .forward (latticeMode mode), .backward (latticeMode mode)] : List LatOp) =
    [.build inp, .forward (latticeMode mode)] ++ [.backward (latticeMode mode)] := rfl
  rw [this, calls_append, h1, Option.bind_some, Lattice.calls, Lattice.call, Lattice.backward, if_neg (by omega), htake, hlen']
  unfold exportGraph
  rw [hsolve]
  simp only [backwardPtr]
  rw [if_neg (by omega), ← walkRef_place]
  cases hw : walkRef (latticeMode mode) cols (cols.length + 1) (some (cols.length - 1, 0)) with
  | none => rfl
  | some rs =>
    simp only [Option.map_some, Option.bind_some, Lattice.calls, Lattice.dot, hout, List.nil_append]
    rw [← hlen', htake, h4.dict, h4.udict]
    rfl

section
variable {ρ : Type} {ideo : Nat → Bool} {s : Sys ρ} {i : Nat} {th : Thread ρ} {tr : Trace} {x : ρ}

/-- C87: a client that uses a lattice and calls `Dot` on it, in any number of goroutines and beside any other calls, gets the graph it gets alone, with some
names for the nodes (Go prints their addresses), and sees in `Output` what it sees alone. -/
theorem C87_shared (hr : Reachable ideo s) (hi : s.threads[i]? = some th) (hd : th.prog = .ret (tr, x)) {c : Call} {o : Option Reply} (he : (c, o) ∈ tr)
    (wf : WellFormed c.t.dict c.t.userDict) (pt : PosTables c.t.dict c.t.userDict) {moves : List Move} (ha : c.api = .drawing moves none) :
    ∃ r o' g f, o = some r ∧ (newLattice c.t.dict c.t.userDict).calls ideo (.build c.inp :: moves.map Move.op) = some o' ∧ o'.dot = some g ∧
      KeepsApart f g ∧ r.graph = some (g.map f) ∧ o'.nodes.map (List.map fun n => { n with prev := none }) = some r.output := by
  have hok : c.Ok := ⟨wf, fun _ => pt, (by rintro (⟨n, h⟩ | ⟨_, n, h⟩) <;> (rw [ha] at h; cases h))⟩
  obtain ⟨r, rfl⟩ := Option.isSome_iff_exists.mp ((C13_no_panic hr hi).2 tr x hd c o he hok)
  have h : c.Gives ideo r := (C13_results hr hi hd).outcome he
  unfold Call.Gives outputAlone dotAlone at h
  simp only [ha] at h
  obtain ⟨h1, _, g, f, h2, h3, h4⟩ := h
  cases hc : (newLattice c.t.dict c.t.userDict).calls ideo (.build c.inp :: moves.map Move.op) with
  | none => rw [hc] at h2; cases h2
  | some o' =>
    rw [hc, Option.bind_some] at h1 h2
    exact ⟨r, o', g, f, rfl, rfl, h2, h3, h4, h1⟩

/-- C87: the same when the writer can panic, unless it does. -/
theorem C87_writer (hr : Reachable ideo s) (hi : s.threads[i]? = some th) (hd : th.prog = .ret (tr, x)) {c : Call} {r : Reply} (he : (c, some r) ∈ tr)
    {moves : List Move} {stop : Option Nat} (ha : c.api = .drawing moves stop) :
    ∃ o' g f, (newLattice c.t.dict c.t.userDict).calls ideo (.build c.inp :: moves.map Move.op) = some o' ∧ o'.dot = some g ∧
      KeepsApart f g ∧ r.graph = some (g.map f) ∧ o'.nodes.map (List.map fun n => { n with prev := none }) = some r.output := by
  have h : c.Gives ideo r := (C13_results hr hi hd).outcome he
  unfold Call.Gives outputAlone dotAlone at h
  simp only [ha] at h
  obtain ⟨h1, _, g, f, h2, h3, h4⟩ := h
  cases hc : (newLattice c.t.dict c.t.userDict).calls ideo (.build c.inp :: moves.map Move.op) with
  | none => rw [hc] at h2; cases h2
  | some o' =>
    rw [hc, Option.bind_some] at h1 h2
    exact ⟨o', g, f, rfl, h2, h3, h4, h1⟩

end

namespace Toy

/-- One goroutine draws a lattice, a second one's writer panics on the way, a third calls `Analyze`. -/
def drawers : Sys (List Reply) := ⟨.empty, [start (.each [⟨.drawing [.forward .normal, .backward .normal] none, tok, str "もab", 0⟩] []),
  start (.each [⟨.drawing [.forward .search, .backward .search] (some 9), tok, str "も", 0⟩] []), start (.each [⟨.analyze, tokUser, str "京", 1⟩] [])]⟩

theorem drawers_reachable : Reachable Toy.ideo drawers := .step (.step (.step .init (.spawn _)) (.spawn _)) (.spawn _)

/-- What a finished goroutine has drawn. -/
def drawn (th : Thread ρ) : List (Option (List (Bytes × Bool))) :=
  match th.prog with
  | .ret (tr, _) => tr.map (fun e => (e.2.bind (·.graph)).map fun g => g.nodes.map fun n => (n.surface, n.marked))
  | _ => []

/-- They take turns. -/
example : ((drawers.follow (List.replicate 1000 [0, 1, 2]).flatten).threads.map drawn) =
      [[some [(str "BOS", true), (str "も", true), (str "ab", true), (str "EOS", true)]], [none], [none]] ∧
    (drawers.follow (List.replicate 1000 [0, 1, 2]).flatten).threads.map Thread.surfaces = [some [some []], some [none], some [some [str "BOS", str "京", str "EOS"]]] := by
  constructor <;> decide +kernel

/-- The texts of the two ends of an edge. -/
def ends (g : Graph) (e : GEdge) : Option (Bytes × Bytes) :=
  (g.nodes.find? (·.ptr = e.src)).bind fun a => (g.nodes.find? (·.ptr = e.dst)).map fun b => (a.surface, b.surface)

/-- The edges in bold. -/
def boldEnds (g : Graph) : List (Bytes × Bytes) := (g.edges.filter (·.bold)).filterMap (ends g)

/-- The unknown word is in `Output` only as single characters. -/
def session : List LatOp := [.build (str "ももab"), .forward .normal, .backward .extended]

example : ∃ o' g place, (newLattice dict (some user)).calls ideo session = some o' ∧ o'.dot = some g ∧ ShowsWords dict (some user) (str "ももab") g place := by
  obtain ⟨o', g, place, h1, h2, h3, _⟩ := C87_dot (newLattice_clean dict (some user)) wellFormed toy_posTables ideo (replacementOk (str "ももab"))
    [.forward .normal, .backward .extended] (fun s hs => by simp at hs)
  exact ⟨o', g, place, h1, h2, h3⟩

/-- It is not shown. -/
example : (((newLattice dict (some user)).calls ideo session).bind Lattice.dot).map (fun g => g.nodes.map fun n => (n.ptr, n.surface, n.marked)) =
      some [((0, 0), str "BOS", true), ((1, 0), str "も", false), ((2, 0), str "もも", true), ((2, 1), str "も", false), ((5, 0), str "EOS", true)] ∧
    ((newLattice dict (some user)).calls ideo session).map (fun o => o.output.map OutRef.place) =
      some [some (5, 0), none, none, some (2, 0), some (0, 0)] := by
  constructor <;> decide +kernel

end Toy

/-- A text of two long words. -/
def Kansai.twice : Bytes := str "関西国際空港" ++ str "関西国際空港"

/-- C87: after two `Backward` an edge can be bold that no analysis takes: between a word of the one and a word of the other. -/
theorem C87_between : (((newLattice Kansai.dict none).calls Toy.ideo [.build Kansai.twice, .forward .normal, .backward .normal, .forward .search,
      .backward .search]).bind Lattice.dot).map (fun g =>
        (decide ((str "関西国際空港", str "関西") ∈ Toy.boldEnds g), decide ((str "空港", str "関西国際空港") ∈ Toy.boldEnds g))) = some (true, true) ∧
    (analyze Kansai.tok Toy.ideo Kansai.twice modeNormal).map (List.map (·.surface)) = some [str "BOS", str "関西国際空港", str "関西国際空港", str "EOS"] ∧
    (analyze Kansai.tok Toy.ideo Kansai.twice modeSearch).map (List.map (·.surface)) =
      some [str "BOS", str "関西", str "国際", str "空港", str "関西", str "国際", str "空港", str "EOS"] := by
  refine ⟨?_, ?_, ?_⟩ <;> decide +kernel

end Kagome
