import Verif.Props.Pool

/-!
C85: lattices used directly, in any number of goroutines and beside calls of `Analyze` and `AnalyzeGraph`.

A client may call `lattice.New` itself, call `Build`, then any of `Forward` and `Backward`, look at `Output`, and call `Free` by `defer` (`Api.lattice` in
`Verif/Model/Machine.lean`). C12, C13, C45 and C84 are about such clients too. Here: what is seen in `Output`, in the words of C54.
-/

namespace Kagome

open Spec

section
variable {ρ : Type} {ideo : Nat → Bool} {s : Sys ρ} {i : Nat} {th : Thread ρ} {tr : Trace} {x : ρ}

/-- C85: however the goroutines are interleaved and whatever has been in the pools before, a client that uses a lattice sees in `Output` what C54 promises of a
lattice nobody else uses: for each `Backward` the words that `Analyze` finds in its text with its dictionaries, for the mode of the last `Forward` (no words before the
first one). -/
theorem C85_output (hr : Reachable ideo s) (hi : s.threads[i]? = some th) (hd : th.prog = .ret (tr, x)) {c : Call} {o : Option Reply} (he : (c, o) ∈ tr)
    (wf : WellFormed c.t.dict c.t.userDict) {moves : List Move} (ha : c.api = .lattice moves) :
    ∃ r, o = some r ∧ answersNew c.t.dict c.t.userDict ideo c.inp (moves.map Move.op) = some (r.output.map nodeView) := by
  obtain ⟨out, h1, h2⟩ := outputAlone_answers wf ideo c.inp moves
  have h := (C13_results hr hi hd).outcome he
  cases o with
  | none =>
    rcases h with h | ⟨n, h⟩ | ⟨_, n, h⟩
    · unfold Call.Fails at h
      simp only [ha] at h
      rw [h] at h1; cases h1
    · rw [ha] at h; cases h
    · rw [ha] at h; cases h
  | some r =>
    refine ⟨r, rfl, ?_⟩
    replace h : c.Gives ideo r := h
    unfold Call.Gives at h
    simp only [ha] at h
    rw [h1, Option.map_some] at h
    rw [h2, ← Option.some.inj h.1, List.map_map]
    rfl

/-- C85: whatever the dictionaries and the order of the calls, the nodes of `Output` are, in all exported fields, those a lattice has that nobody else uses; where
that one panics, this one does. -/
theorem C85_alone (hr : Reachable ideo s) (hi : s.threads[i]? = some th) (hd : th.prog = .ret (tr, x)) {c : Call} {o : Option Reply} (he : (c, o) ∈ tr)
    {moves : List Move} (ha : c.api = .lattice moves) :
    o.map (·.output) = (((newLattice c.t.dict c.t.userDict).calls ideo (.build c.inp :: moves.map Move.op)).bind Lattice.nodes).map
      (List.map fun n => { n with prev := none }) := by
  have h := (C13_results hr hi hd).outcome he
  cases o with
  | none =>
    rcases h with h | ⟨n, h⟩ | ⟨_, n, h⟩
    · unfold Call.Fails outputAlone at h
      simp only [ha] at h
      rw [h]; rfl
    · rw [ha] at h; cases h
    · rw [ha] at h; cases h
  | some r =>
    replace h : c.Gives ideo r := h
    unfold Call.Gives outputAlone at h
    simp only [ha] at h
    rw [h.1]; rfl

end

namespace Toy

/-- One goroutine uses a lattice twice over, the other calls `Analyze`. -/
def beside : Sys (List Reply) := ⟨.empty, [start (.each [⟨.lattice [.forward .normal, .backward .normal, .forward .extended, .backward .extended], tok, str "もab", 0⟩] []),
  start (.each [⟨.analyze, tokUser, str "京", 1⟩] [])]⟩

theorem beside_reachable : Reachable Toy.ideo beside := .step (.step .init (.spawn _)) (.spawn _)

/-- What a finished goroutine has seen in `Output`. -/
def outputs (th : Thread ρ) : List (List View) :=
  match th.prog with
  | .ret (tr, _) => tr.filterMap (fun e => e.2.map fun r => r.output.map nodeView)
  | _ => []

/-- They take turns: the unknown word is one word for the first `Backward` and two characters for the second. -/
example : ((beside.follow (List.replicate 1500 [0, 1]).flatten).threads.map outputs) =
      [[[⟨-1, .dummy, 5, 3, []⟩, ⟨1, .unknown, 3, 1, str "ab"⟩, ⟨3, .known, 0, 0, str "も"⟩, ⟨-1, .dummy, 0, 0, []⟩,
         ⟨-1, .dummy, 5, 3, []⟩, ⟨1, .dummy, 4, 2, str "b"⟩, ⟨1, .dummy, 3, 1, str "a"⟩, ⟨3, .known, 0, 0, str "も"⟩, ⟨-1, .dummy, 0, 0, []⟩]], [[]]] ∧
    (beside.follow (List.replicate 1500 [0, 1]).flatten).threads.map Thread.surfaces = [some [some []], some [some [str "BOS", str "京", str "EOS"]]] := by
  constructor <;> decide +kernel

/-- A client that calls `Free` twice on a lattice (the machine of `Reachable` has no such clients). -/
def freesTwice : Prog (Trace × List Reply) := do
  let la ← newLatP Toy.dict none
  buildP la (str "も")
  freeP la
  freeP la
  return ([], [])

/-- It, and two goroutines that call `Analyze` after it. -/
def afterTwice : Sys (List Reply) := ⟨.empty, [⟨.done [], freesTwice, [], []⟩, start (.each [⟨.analyze, tok, str "も", 1⟩] []),
  start (.each [⟨.analyze, tok, str "京", 1⟩] [])]⟩

/-- C85: `Free` has to be called once. After a second call the lattice is in the pool twice, two goroutines that call `Analyze` can both get it, and the tokens
they return are not those of their texts. -/
theorem C85_free_twice : (afterTwice.follow (List.replicate 300 0)).mem.latPool = [0, 0] ∧
    (afterTwice.follow (List.replicate 300 0 ++ (List.replicate 400 [1, 2]).flatten)).threads.map Thread.surfaces =
      [some [], some [some [str "BOS", str "EOS", str "京", str "京", str "EOS", str "EOS"]],
        some [some [str "BOS", str "EOS", str "京", str "京", str "EOS", str "EOS"]]] ∧
    (analyze tok Toy.ideo (str "も") 1).map (List.map (·.surface)) = some [str "BOS", str "も", str "EOS"] := by
  refine ⟨?_, ?_, ?_⟩ <;> decide +kernel

/-- A client that keeps the pointers of `Output` and follows them after `Free` (the machine of `Reachable` has no such clients). -/
def readsLate : Prog (Trace × List Reply) := do
  let la ← newLatP Toy.dict none
  buildP la (str "も")
  forwardP la Toy.ideo .normal
  backwardP la .normal
  let l ← readLatP la
  freeP la
  let out ← readOutputP l.output.vis
  return ([], [⟨[], none, out, []⟩])

/-- It, and a goroutine that calls `Analyze`. -/
def beforeLate : Sys (List Reply) := ⟨.empty, [⟨.done [], readsLate, [], []⟩, start (.each [⟨.analyze, tok, str "京", 1⟩] [])]⟩

/-- The surfaces it has seen. -/
def seenLate (th : Thread (List Reply)) : List (List Bytes) :=
  match th.prog with
  | .ret (_, rs) => rs.map fun r => r.output.map (·.surface)
  | _ => []

/-- C85: `Output` has to be read before `Free`. After it the nodes belong to whoever takes them from the pool: the client can see a word of another text. -/
theorem C85_read_late : (beforeLate.follow (List.replicate 120 0 ++ List.replicate 300 1 ++ List.replicate 130 0)).threads.map seenLate =
      [[[[], [], str "京"]], [[]]] ∧
    (beforeLate.follow (List.replicate 250 0)).threads.map seenLate = [[[[], str "も", []]], []] := by
  constructor <;> decide +kernel

end Toy

end Kagome
