import Verif.Props.Lattices
import Verif.Props.Drawn

/-!
C89: a lattice that a client holds can be looked at any time.

C85 and C87 are about clients that look at the end. Here a client reads `Output` and calls `Dot` wherever it likes between its calls of `Forward` and
`Backward`, some of the `Dot` on writers that panic, and recovers these panics.
-/

namespace Kagome

open Spec

theorem Sees.split {ideo : Nat → Bool} {before rest : List Deed} : ∀ {o : Lattice} {vs : List (SightOf Ptr)}, Sees ideo o (before ++ rest) vs →
    ∃ o', o.calls ideo ((movesOf before).map Move.op) = some o' ∧ Sees ideo o' rest (vs.drop (sightCount before)) := by
  induction before with
  | nil => intro o vs h; exact ⟨o, rfl, h⟩
  | cons a before ih =>
    intro o vs h
    cases h with
    | move h hs =>
      obtain ⟨o', h1, h2⟩ := ih hs
      exact ⟨o', by rw [movesOf, List.map_cons, Lattice.calls, h]; exact h1, h2⟩
    | look h hs => exact ih hs
    | dot hs => exact ih hs
    | cut hs => exact ih hs

theorem Sees.count {ideo : Nat → Bool} {o : Lattice} {acts : List Deed} {vs : List (SightOf Ptr)} (h : Sees ideo o acts vs) : vs.length = sightCount acts := by
  induction h with
  | done => rfl
  | move _ _ ih => exact ih
  | look _ _ ih => simp [sightCount, ih]
  | dot _ ih => simp [sightCount, ih]
  | cut _ ih => simp [sightCount, ih]

theorem movesOf_append (a b : List Deed) : movesOf (a ++ b) = movesOf a ++ movesOf b := by
  induction a with
  | nil => rfl
  | cons x a ih => cases x <;> simp [movesOf, ih]

theorem sightCount_append (a b : List Deed) : sightCount (a ++ b) = sightCount a + sightCount b := by
  induction a with
  | nil => simp [sightCount]
  | cons x a ih => cases x <;> simp [sightCount, ih] <;> omega

section
variable {ρ : Type} {ideo : Nat → Bool} {s : Sys ρ} {i : Nat} {th : Thread ρ} {tr : Trace} {x : ρ} {c : Call} {o : Option Reply} {acts : List Deed}

/-- The session in the words of `Sees`. -/
theorem session_sees (hr : Reachable ideo s) (hi : s.threads[i]? = some th) (hd : th.prog = .ret (tr, x)) (he : (c, o) ∈ tr)
    (wf : WellFormed c.t.dict c.t.userDict) (ha : c.api = .session acts) :
    ∃ r o1 vs f, o = some r ∧ (newLattice c.t.dict c.t.userDict).build c.inp = some o1 ∧ Sees ideo o1 acts vs ∧ KeepsAllApart f vs ∧
      r.seen = vs.map (SightOf.map f) := by
  have h := (C13_results hr hi hd).outcome he
  cases o with
  | none =>
    rcases h with h | ⟨n, h⟩ | ⟨_, n, h⟩
    · exact absurd h (Call.Ok.no_panic ⟨wf, (by rintro (h | ⟨_, _, h⟩) <;> (rw [ha] at h; cases h)),
        (by rintro (⟨n, h⟩ | ⟨_, n, h⟩) <;> (rw [ha] at h; cases h))⟩)
    · rw [ha] at h; cases h
    · rw [ha] at h; cases h
  | some r =>
    replace h : c.Gives ideo r := h
    unfold Call.Gives at h
    simp only [ha] at h
    obtain ⟨_, o1, vs, f, h1, h2, h3, h4⟩ := h
    exact ⟨r, o1, vs, f, rfl, h1, h2, h3, h4⟩

/-- C89: in any number of goroutines and beside any other calls, whenever a client looks at `Output` of the lattice it holds it sees what C54 promises for the
calls it has made so far, and `Dot` gives the graph it gives alone at that point, for which see C87; only a `Dot` whose own writer can panic may give none. The
nodes of the lattice keep their names from one graph to the next. Looking changes nothing for what is seen later. -/
theorem C89_session (hr : Reachable ideo s) (hi : s.threads[i]? = some th) (hd : th.prog = .ret (tr, x)) (he : (c, o) ∈ tr)
    (wf : WellFormed c.t.dict c.t.userDict) (pt : PosTables c.t.dict c.t.userDict) (ha : c.api = .session acts) :
    ∃ r vs f, o = some r ∧ r.seen = vs.map (SightOf.map f) ∧ KeepsAllApart f vs ∧ vs.length = sightCount acts ∧
      ∀ before a after, acts = before ++ a :: after →
        (a = .look → ∃ ns, vs[sightCount before]? = some (.output ns) ∧
          answersNew c.t.dict c.t.userDict ideo c.inp ((movesOf before).map Move.op) = some (ns.map nodeView)) ∧
        (∀ stop, a = .dot stop → ∃ o' g, (newLattice c.t.dict c.t.userDict).calls ideo (.build c.inp :: (movesOf before).map Move.op) = some o' ∧
          o'.dot = some g ∧ (vs[sightCount before]? = some (.graph (some g)) ∨ stop ≠ none ∧ vs[sightCount before]? = some (.graph none))) := by
  obtain ⟨r, o1, vs, f, rfl, h1, h2, h3, h4⟩ := session_sees hr hi hd he wf ha
  refine ⟨r, vs, f, rfl, h4, h3, h2.count, ?_⟩
  intro before a after hsp
  rw [hsp] at h2
  obtain ⟨o', g1, g2⟩ := h2.split
  have hcalls : (newLattice c.t.dict c.t.userDict).calls ideo (.build c.inp :: (movesOf before).map Move.op) = some o' := by
    rw [Lattice.calls, Lattice.call, h1]; exact g1
  have hhead : ∀ v rest, vs.drop (sightCount before) = v :: rest → vs[sightCount before]? = some v := by
    intro v rest he
    have := congrArg List.head? he
    rw [List.head?_drop] at this
    exact this
  constructor
  · rintro rfl
    generalize hv : vs.drop (sightCount before) = ws at g2
    cases g2 with
    | look hn _ =>
      refine ⟨_, hhead _ _ hv, ?_⟩
      obtain ⟨out, k1, k2⟩ := outputAlone_answers wf ideo c.inp (movesOf before)
      unfold outputAlone at k1
      rw [hcalls, Option.bind_some, hn] at k1
      obtain rfl := Option.some.inj k1
      rw [k2, List.map_map]
      rfl
  · rintro stop rfl
    obtain ⟨g, hg⟩ := Option.isSome_iff_exists.mp (dotAlone_some wf pt ideo c.inp (movesOf before))
    unfold dotAlone at hg
    rw [hcalls, Option.bind_some] at hg
    refine ⟨o', g, hcalls, hg, ?_⟩
    generalize hv : vs.drop (sightCount before) = ws at g2
    cases g2 with
    | dot _ => exact .inl (by rw [← hg]; exact hhead _ _ hv)
    | cut _ => exact .inr ⟨(by simp), hhead _ _ hv⟩

/-- C89: what has been seen in `Output` is still there, at the beginning, whenever the client looks again. -/
theorem C89_kept (hr : Reachable ideo s) (hi : s.threads[i]? = some th) (hd : th.prog = .ret (tr, x)) (he : (c, o) ∈ tr)
    (wf : WellFormed c.t.dict c.t.userDict) {before between after : List Deed}
    (ha : c.api = .session (before ++ .look :: between ++ .look :: after)) :
    ∃ r ns ns', o = some r ∧ r.seen[sightCount before]? = some (.output ns) ∧
      r.seen[sightCount before + 1 + sightCount between]? = some (.output ns') ∧ (ns.map nodeView) <+: (ns'.map nodeView) := by
  obtain ⟨r, o1, vs, f, rfl, h1, h2, _, h4⟩ := session_sees hr hi hd he wf ha
  rw [List.append_assoc, List.cons_append] at h2
  obtain ⟨o2, g1, g2⟩ := h2.split
  generalize hv : vs.drop (sightCount before) = ws at g2
  cases g2 with
  | look hn hs =>
    rename_i ns ws
    obtain ⟨o3, k1, k2⟩ := hs.split
    generalize hw : ws.drop (sightCount between) = us at k2
    cases k2 with
    | look hn' hs' =>
      rename_i ns' us
      have e1 : vs[sightCount before]? = some (.output (ns.map fun n : Node => { n with prev := none })) := by
        have := congrArg List.head? hv
        rw [List.head?_drop] at this
        exact this
      have e2 : vs[sightCount before + 1 + sightCount between]? = some (.output (ns'.map fun n : Node => { n with prev := none })) := by
        have h5 : ws = vs.drop (sightCount before + 1) := by
          rw [← List.drop_drop, hv]; rfl
        rw [h5, List.drop_drop] at hw
        have := congrArg List.head? hw
        rw [List.head?_drop] at this
        exact this
      refine ⟨r, _, _, rfl, by rw [h4, List.getElem?_map, e1]; rfl, by rw [h4, List.getElem?_map, e2]; rfl, ?_⟩
      obtain ⟨out', more, m1, m2, _⟩ := C54_kept ideo _ k1 hn
      rw [hn'] at m1
      obtain rfl := Option.some.inj m1
      rw [List.map_map, List.map_map]
      change ns.map nodeView <+: (out' ++ more).map nodeView
      rw [← m2, List.map_append]
      exact List.prefix_append ..

end

namespace Toy

/-- A client that looks all the time, and once on a writer that panics. -/
def curiousActs : List Deed := [.dot none, .look, .move (.forward .normal), .move (.backward .normal), .look, .dot (some 5), .move (.backward .extended), .dot none, .look]

/-- It, and another beside it. -/
def lookers : Sys (List Reply) := ⟨.empty, [start (.each [⟨.session curiousActs, tok, str "もab", 0⟩] []), start (.each [⟨.analyze, tokUser, str "京", 1⟩] [])]⟩

theorem lookers_reachable : Reachable Toy.ideo lookers := .step (.step .init (.spawn _)) (.spawn _)

/-- What a finished goroutine has seen: surfaces, and the marked nodes of the graphs. -/
def sights (th : Thread ρ) : List (List (Option (List Bytes))) :=
  match th.prog with
  | .ret (tr, _) => tr.map fun e => (e.2.map (·.seen)).getD [] |>.map fun v => match v with
    | .output ns => some (ns.map (·.surface))
    | .graph g => g.map fun g => (g.nodes.filter (·.marked)).map (·.surface)
  | _ => []

/-- They take turns. -/
example : ((lookers.follow (List.replicate 1500 [0, 1]).flatten).threads.map sights) =
      [[[some [], some [], some [[], str "ab", str "も", []], none, some [str "BOS", str "も", str "ab", str "EOS"],
         some [[], str "ab", str "も", [], [], str "b", str "a", str "も", []]]], [[]]] ∧
    (lookers.follow (List.replicate 1500 [0, 1]).flatten).mem.latPool.length = 2 := by
  constructor <;> decide +kernel

/-- It meets the hypotheses: it runs to its end, and the fifth sight is the graph that `Dot` gives after the three calls before it. -/
example : ∃ s' th' tr x, ∃ (r : Reply) (vs : List (SightOf Ptr)) (f : Ptr → Addr), Alone 0 lookers s' ∧ s'.threads[0]? = some th' ∧ th'.prog = .ret (tr, x) ∧ (⟨.session curiousActs, tok, str "もab", 0⟩, some r) ∈ tr ∧
    r.seen = vs.map (SightOf.map f) ∧ ∃ o' g, (newLattice tok.dict tok.userDict).calls Toy.ideo
      [.build (str "もab"), .forward .normal, .backward .normal, .backward .extended] = some o' ∧ o'.dot = some g ∧ vs[4]? = some (.graph (some g)) := by
  obtain ⟨s', th', tr, x, h1, h2, h3, h4⟩ := C13_progress lookers_reachable (i := 0) rfl
  have hm : ∃ o, ((⟨.session curiousActs, tok, str "もab", 0⟩ : Call), o) ∈ tr := by
    cases h4 with
    | gives hg h => exact ⟨_, List.mem_cons_self ..⟩
    | fails hf h => exact ⟨_, List.mem_cons_self ..⟩
  obtain ⟨o, hm⟩ := hm
  obtain ⟨r, vs, f, rfl, g1, g2, g3, g4⟩ := C89_session (h1.reach lookers_reachable) h2 h3 hm wellFormed_none
    ⟨toy_posTables.known, toy_posTables.unknown, toy_posTables.start⟩ rfl
  obtain ⟨o', g, k1, k2, k3⟩ := (g4 (curiousActs.take 7) (.dot none) [.look] rfl).2 none rfl
  exact ⟨s', th', tr, x, r, vs, f, h1, h2, h3, hm, g1, o', g, k1, k2, k3.resolve_right (fun h => h.1 rfl)⟩

end Toy

end Kagome
