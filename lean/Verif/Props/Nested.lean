import Verif.Props.Lattices

/-!
Property C86: code that runs inside a call may use the library itself.

`Client.during c visit k`: while the goroutine is in the call `c`, other code of the client runs before each step of it, for example the `Write` of the writer
given to `AnalyzeGraph`. This code is a `Visitor`: it makes calls, inside which more such code runs, to any depth. `tr` has all the calls of a goroutine, a
call behind those made inside it. C12, C13, C45 and C84 are about these clients too; here is what they say of the nested calls.
-/

namespace Kagome

open Spec

section
variable {ρ : Type} {ideo : Nat → Bool} {s : Sys ρ} {i : Nat} {th : Thread ρ} {tr : Trace} {x : ρ} {c : Call} {visit : Nat → Trace → Visitor}
  {k : Option Reply → Trace → Client ρ}

/-- C86: the call inside which other code ran has its own outcome, every call made inside it (at any depth) has its own, and all go on accordingly. -/
theorem C86_nested (hr : Reachable ideo s) (hi : s.threads[i]? = some th) (hc : th.client = .during c visit k) (hd : th.prog = .ret (tr, x)) :
    ∃ n vs o rest, tr = vs ++ (c, o) :: rest ∧ Visits (fun j tr => (visit j tr).Alone ideo) n vs ∧ (∀ e ∈ vs, e.1.Outcome ideo e.2) ∧
      c.Outcome ideo o ∧ (k o vs).Alone ideo rest x := by
  have h := C13_results hr hi hd
  rw [hc] at h
  cases h with
  | during hv ho h => exact ⟨_, _, _, _, rfl, hv, hv.outcome (fun j tr tr' h => h.outcome), ho, h⟩

/-- C86: whatever the writer does in between, `AnalyzeGraph` returns the tokens and writes the graph that it has with a writer that does nothing. -/
theorem C86_outer (hr : Reachable ideo s) (hi : s.threads[i]? = some th) (hc : th.client = .during c visit k) (hd : th.prog = .ret (tr, x))
    (ha : c.api = .analyzeGraph) (wf : WellFormed c.t.dict c.t.userDict) (pt : PosTables c.t.dict c.t.userDict) :
    ∃ vs r rest g f, tr = vs ++ (c, some r) :: rest ∧ analyzeGraph c.t ideo c.inp c.mode = some r.tokens ∧
      exportGraph c.t ideo c.inp c.mode = some g ∧ KeepsApart f g ∧ r.graph = some (g.map f) ∧ (k (some r) vs).Alone ideo rest x := by
  obtain ⟨n, vs, o, rest, h1, _, _, h4, h5⟩ := C86_nested hr hi hc hd
  have hok : c.Ok := ⟨wf, fun _ => pt, (by rintro (⟨n, h⟩ | ⟨_, n, h⟩) <;> (rw [ha] at h; cases h))⟩
  cases o with
  | none =>
    rcases h4 with h | h
    · exact absurd h hok.no_panic
    · exact absurd h hok.2.2
  | some r =>
    replace h4 : c.Gives ideo r := h4
    unfold Call.Gives at h4
    simp only [ha] at h4
    obtain ⟨g1, _, g, f, g2, g3, g4⟩ := h4
    exact ⟨vs, r, rest, g, f, h1, g1, g2, g3, g4, h5⟩

/-- C86: the same for a lattice the client holds: the other calls it makes meanwhile, on other lattices too, do not change what is in `Output`. -/
theorem C86_lattice (hr : Reachable ideo s) (hi : s.threads[i]? = some th) (hc : th.client = .during c visit k) (hd : th.prog = .ret (tr, x))
    {moves : List Move} (ha : c.api = .lattice moves) (wf : WellFormed c.t.dict c.t.userDict) :
    ∃ vs r later, tr = vs ++ (c, some r) :: later ∧
      answersNew c.t.dict c.t.userDict ideo c.inp (moves.map Move.op) = some (r.output.map nodeView) ∧ (k (some r) vs).Alone ideo later x := by
  obtain ⟨n, vs, o, later, h1, _, _, h4, h5⟩ := C86_nested hr hi hc hd
  have hm : (c, o) ∈ tr := by rw [h1]; simp
  obtain ⟨r, rfl, h⟩ := C85_output hr hi hd hm wf ha
  exact ⟨vs, r, later, h1, h, h5⟩

/-- C86: the calls made inside, at any depth: the tokens of `Analyze`, or a panic where the call panics alone; none on dictionaries in order. -/
theorem C86_inner (hr : Reachable ideo s) (hi : s.threads[i]? = some th) (hc : th.client = .during c visit k) (hd : th.prog = .ret (tr, x)) :
    ∃ vs o rest, tr = vs ++ (c, o) :: rest ∧ ∀ c' o', (c', o') ∈ vs →
      (c'.api = .analyze → o'.map (·.tokens) = analyze c'.t ideo c'.inp c'.mode) ∧ (c'.Ok → o'.isSome) := by
  obtain ⟨n, vs, o, rest, h1, _⟩ := C86_nested hr hi hc hd
  refine ⟨vs, o, rest, h1, fun c' o' he => ?_⟩
  have hm : (c', o') ∈ tr := by rw [h1]; exact List.mem_append_left _ he
  exact ⟨fun ha => C13_tokens hr hi hd hm ha, fun hok => (C13_no_panic hr hi).2 tr x hd c' o' hm hok⟩

/-- C86: nothing blocks, wherever the goroutine is in its nested calls, and whatever the others are in the middle of. -/
theorem C86_finishes (hr : Reachable ideo s) (hi : s.threads[i]? = some th) (hc : th.client = .during c visit k) :
    ∃ s' th' n vs o rest x, Alone i s s' ∧ s'.threads[i]? = some th' ∧ th'.prog = .ret (vs ++ (c, o) :: rest, x) ∧
      Visits (fun j tr => (visit j tr).Alone ideo) n vs ∧ c.Outcome ideo o ∧ (k o vs).Alone ideo rest x := by
  obtain ⟨s', th', tr, x, h1, h2, h3, h4⟩ := C13_progress hr hi
  rw [hc] at h4
  cases h4 with
  | during hv ho h => exact ⟨s', th', _, _, _, _, x, h1, h2, h3, hv, ho, h⟩

/-- C86: at the end every lattice is back in the pool, and every node too if no dictionary was broken. -/
theorem C86_returned (hr : Reachable ideo s) (hi : s.threads[i]? = some th) (_hc : th.client = .during c visit k) (hd : th.prog = .ret (tr, x)) :
    th.lats = [] ∧ ((∀ c o, (c, o) ∈ tr → o = none → ¬ c.Fails ideo) → th.nodes = []) := C45_returned hr hi hd

end

namespace Toy

/-- A writer that calls `Analyze` once and later `AnalyzeGraph`, on a text put together from what it has called before, with another writer, which uses a lattice
and panics. (Steps 91 to 131 of the call below write the graph.) -/
def busyWriter : Nat → Trace → Visitor := fun j vs =>
  if j = 95 then .call ⟨.analyze, tok, str "もA!", 3⟩ (fun _ _ => .done) fun _ _ => .done
  else if j = 120 then .call ⟨.analyzeGraphTo 30, tokUser, (vs.map (·.1.inp)).flatten, 1⟩
    (fun j _ => if j = 205 then .call ⟨.lattice [.forward .normal, .backward .normal], tok, str "も", 0⟩ (fun _ _ => .done) fun _ _ => .done else .done)
    fun _ _ => .done
  else .done

/-- A goroutine that draws the graph of one word on this writer, and another beside it. -/
def busy : Sys (List Reply) := ⟨.empty, [start (.during ⟨.analyzeGraph, tok, str "す", 2⟩ busyWriter fun o vs => .done (o.toList ++ vs.filterMap (·.2))),
  start (.each [⟨.analyze, tokUser, str "京", 1⟩] [])]⟩

theorem busy_reachable : Reachable Toy.ideo busy := .step (.step .init (.spawn _)) (.spawn _)

/-- The calls of a finished goroutine: the texts, and the surfaces of the tokens or the words in `Output`; `none` is a panic. -/
def story (th : Thread ρ) : List (Bytes × Option (List Bytes)) :=
  match th.prog with
  | .ret (tr, _) => tr.map fun e => (e.1.inp, e.2.map fun r => r.tokens.map (·.surface) ++ r.output.map (·.surface))
  | _ => []

/-- They take turns. Three lattices are in use at once, the other goroutine's aside; the graph is that of the one word; nothing is missing in the pools. -/
example : ((busy.follow (List.replicate 1000 [0, 1]).flatten).threads.map story) =
      [[(str "もA!", some [str "BOS", str "も", str "A", str "!", str "EOS"]), (str "も", some [[], str "も", []]), (str "もA!", none),
        (str "す", some [str "BOS", str "す", str "EOS"])],
       [(str "京", some [str "BOS", str "京", str "EOS"])]] ∧
    ((busy.follow (List.replicate 1000 [0, 1]).flatten).threads.flatMap graphs).map (fun g => g.nodes.map (fun n => n.surface)) =
      [[str "BOS", str "す", str "EOS"]] ∧
    (busy.follow (List.replicate 1000 [0, 1]).flatten).mem.latPool.length = 3 ∧
    (busy.follow (List.replicate 1000 [0, 1]).flatten).mem.usedL.length = 3 := by
  refine ⟨?_, ?_, ?_, ?_⟩ <;> decide +kernel

/-- It meets the hypotheses. -/
example : ∃ s' th' tr x, Alone 0 busy s' ∧ s'.threads[0]? = some th' ∧ th'.prog = .ret (tr, x) ∧
    ∃ vs r rest, tr = vs ++ (⟨.analyzeGraph, tok, str "す", 2⟩, some r) :: rest ∧ analyzeGraph tok Toy.ideo (str "す") 2 = some r.tokens := by
  obtain ⟨s', th', tr, x, h1, h2, h3, h4⟩ := C13_progress busy_reachable (i := 0) rfl
  refine ⟨s', th', tr, x, h1, h2, h3, ?_⟩
  cases h4 with
  | during hv ho h =>
    rename_i n vs o rest
    cases o with
    | none => exact absurd (ho.resolve_right (by rintro (⟨n, h⟩ | ⟨_, n, h⟩) <;> cases h)) (Call.Ok.no_panic ⟨wellFormed_none, fun _ => ⟨toy_posTables.known, toy_posTables.unknown, toy_posTables.start⟩, (by rintro (⟨n, h⟩ | ⟨_, n, h⟩) <;> cases h)⟩)
    | some r => exact ⟨vs, r, rest, rfl, ho.1⟩

end Toy

end Kagome
