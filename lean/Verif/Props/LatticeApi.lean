import Verif.Proof.LatticeApi
import Verif.Proof.Kept
import Verif.Proof.InUse
import Verif.Props.DotText

/-!
C54: the exported lattice used directly.

The operations are those of `Verif/Model/LatticeApi.lean`; what `Output` has to hold is said in `Verif/Spec/LatticeApi.lean` in terms of the tokens of `Analyze`.
-/

namespace Kagome

open Spec

/-- C54: with a clean object (new, or freed after proper use) `Build` followed by `Forward` and then any calls of `Forward` and `Backward` goes through.
Each `Backward` appends the words `Analyze` finds in that text for the mode of the last `Forward`, last word first, unknown words cut into characters in
extended mode. `Free` leaves the object clean again. -/
theorem C54_session {o : Lattice} (ho : o.Clean) (wf : WellFormed o.dict o.udict) (ideo : Nat → Bool) (inp : Bytes) (m : LMode) (ops : List LatOp)
    (hops : ∀ s, LatOp.build s ∉ ops) :
    ∃ o' out, o.calls ideo (.build inp :: .forward m :: ops) = some o' ∧ o'.nodes = some out ∧
      answers o.dict o.udict ideo inp m ops = some (out.map nodeView) ∧ o'.free.Clean := by
  obtain ⟨cols0, o1, h1, h2, h3, h4⟩ := session_start ho wf ideo inp m
  obtain ⟨o', cur', E', a, g1, g2, g3, g4⟩ := session_calls wf h2 h3 ideo ops m [] o1 hops h4
  have hn := g2.nodes
  cases hx : o'.nodes with
  | none => rw [hx] at hn; cases hn
  | some out =>
    rw [hx] at hn
    simp only [Option.map_some, Option.some.injEq] at hn
    refine ⟨o', out, ?_, hx, ?_, g2.free wf h3⟩
    · have : LatOp.build inp :: .forward m :: ops = [.build inp, .forward m] ++ ops := rfl
      rw [this, calls_append, h1, Option.bind_some, g1]
    · rw [g3]
      simp only [List.map_nil, List.nil_append] at g4
      rw [← g4, ← hn, List.map_map]
      rfl

/-- C54: the calls of `Forward` and `Backward` may come in any order: a `Backward` before the first `Forward` appends the end of the text and nothing else, and
does no harm to what follows. -/
theorem C54_any {o : Lattice} (ho : o.Clean) (wf : WellFormed o.dict o.udict) (ideo : Nat → Bool) (inp : Bytes) (ops : List LatOp)
    (hops : ∀ s, LatOp.build s ∉ ops) :
    ∃ o' out, o.calls ideo (.build inp :: ops) = some o' ∧ o'.nodes = some out ∧
      answersNew o.dict o.udict ideo inp ops = some (out.map nodeView) ∧ o'.free.Clean := by
  obtain ⟨cols0, o', E', a, h1, h2, h3, h4, h5, h6⟩ := session_any ho wf ideo inp ops hops
  have hn := h4.nodes
  cases hx : o'.nodes with
  | none => rw [hx] at hn; cases hn
  | some out =>
    rw [hx] at hn
    simp only [Option.map_some, Option.some.injEq] at hn
    refine ⟨o', out, h1, hx, ?_, h4.free⟩
    rw [h5, ← h6, ← hn, List.map_map]
    rfl

/-- For instance here. -/
example : (((newLattice Toy.dict none).calls Toy.ideo [.build (str "も"), .backward .normal, .forward .normal, .backward .search]).bind (·.nodes)).map
    (List.map nodeView) = some [⟨-1, .dummy, 3, 1, []⟩, ⟨-1, .dummy, 3, 1, []⟩, ⟨3, .known, 0, 0, str "も"⟩, ⟨-1, .dummy, 0, 0, []⟩] := by decide +kernel

/-- C54: whatever is called on an object before `Free`, in any order and with any texts, what a reader has seen in `Output` stays there: only `Backward` adds
to it, at the end. (No condition on the dictionaries or on the object.) -/
theorem C54_kept (ideo : Nat → Bool) (ops : List LatOp) : ∀ {o o' : Lattice} {out : List Node}, o.calls ideo ops = some o' → o.nodes = some out →
    ∃ out' more, o'.nodes = some (out' ++ more) ∧ out'.map nodeView = out.map nodeView ∧ ((∀ m, LatOp.backward m ∉ ops) → more = []) := by
  induction ops with
  | nil => intro o o' out h hn; cases h; exact ⟨out, [], by rw [List.append_nil]; exact hn, rfl, fun _ => rfl⟩
  | cons op ops ih =>
    intro o o' out h hn
    rw [Lattice.calls] at h
    cases h1 : o.call ideo op with
    | none => rw [h1] at h; cases h
    | some o1 =>
      rw [h1, Option.bind_some] at h
      obtain ⟨out1, more1, e1, e2, e3⟩ := call_kept h1 hn
      obtain ⟨out2, more2, f1, f2, f3⟩ := ih h e1
      rw [List.map_append] at f2
      refine ⟨out2.take out1.length, out2.drop out1.length ++ more2, ?_, ?_, ?_⟩
      · rw [← List.append_assoc, List.take_append_drop]; exact f1
      · have hv := map_nodeView_skel e2
        rw [← hv, List.map_take, f2]
        simp
      · intro hb
        rw [f3 (fun m hm => hb m (by simp [hm])), List.append_nil]
        have : more1 = [] := e3 (fun m hm => hb m (by simp [hm]))
        subst this
        have hlen := congrArg List.length f2
        simp only [List.length_append, List.length_map, List.map_nil, List.length_nil] at hlen
        exact List.drop_eq_nil_of_le (by omega)

/-- For instance with a longer text, for which the columns need a new backing array. -/
example : (((newLattice Toy.dict none).calls Toy.ideo [.build (str "も"), .forward .normal, .backward .normal]).bind (·.nodes)).map (List.map nodeView) =
      some [⟨-1, .dummy, 3, 1, []⟩, ⟨3, .known, 0, 0, str "も"⟩, ⟨-1, .dummy, 0, 0, []⟩] ∧
    (((newLattice Toy.dict none).calls Toy.ideo [.build (str "も"), .forward .normal, .backward .normal, .build (str "すもも")]).bind (·.nodes)).map (List.map nodeView) =
      some [⟨-1, .dummy, 3, 1, []⟩, ⟨3, .known, 0, 0, str "も"⟩, ⟨-1, .dummy, 0, 0, []⟩] := by decide +kernel

theorem newLattice_clean (d : Dict) (u : Option UserDict) : (newLattice d u).Clean := ⟨rfl, rfl, fun c hc => by cases hc⟩

theorem renew_clean {o : Lattice} (h : o.Clean) (d : Dict) (u : Option UserDict) : (o.renew d u).Clean := h

/-- C54: `Build`, `Forward` and `Backward` in one mode, read from the end, are the tokens of `Analyze` in that mode. -/
theorem C54_analyze {o : Lattice} (ho : o.Clean) {t : Tokenizer} (wf : WellFormed t.dict t.userDict) (ideo : Nat → Bool) (inp : Bytes) (mode : Int) :
    analyzeOn o t ideo inp mode = analyze t ideo inp mode := by
  obtain ⟨cols0, o1, h1, h2, h3, h4⟩ := session_start (o := o.renew t.dict t.userDict) (renew_clean ho _ _) wf ideo inp (latticeMode mode)
  obtain ⟨cols, L, hf, hs, hL⟩ := path_exists wf h3 ideo (latticeMode mode)
  obtain ⟨o', b1, b2⟩ := h4.backward wf h3 (latticeMode mode) hf hL
  have hn := b2.nodes
  have hlen := hs.len
  have hback : backward (latticeMode mode) cols = some (L.flatMap (emit (latticeMode mode))) := by
    unfold backward at hL ⊢
    rw [if_neg (by omega)] at hL ⊢
    rw [walk_split, hL, Option.map_some]
  have hsol : solve t ideo inp (latticeMode mode) = some (cols, L.flatMap (emit (latticeMode mode))) := by
    have hb : build t.dict t.userDict inp = some cols0 := h2
    have hf' : forward t.dict ideo (latticeMode mode) cols0 = some cols := hf
    unfold solve
    rw [hb]
    simp only [hf', hback, Option.map_some]
  cases hx : o'.nodes with
  | none => rw [hx] at hn; cases hn
  | some out =>
    rw [hx] at hn
    simp only [Option.map_some, Option.some.injEq, List.nil_append] at hn
    unfold analyzeOn analyze
    have : ([.build inp, .forward (latticeMode mode), .backward (latticeMode mode)] : List LatOp) =
      [.build inp, .forward (latticeMode mode)] ++ [.backward (latticeMode mode)] := rfl
    rw [this, calls_append, h1, Option.bind_some, Lattice.calls, Lattice.call, b1, Option.bind_some, Lattice.calls, Option.bind_some, hx, hsol,
      Option.map_some, Option.map_some]
    congr 1
    rw [tokenLoop_skel, List.map_reverse, hn, ← List.map_reverse, ← tokenLoop_skel]

/-- A use of the object as intended: `Build` once, then any number of `Forward` and `Backward`. -/
def Proper (ops : List LatOp) : Prop := ∃ inp rest, ops = .build inp :: rest ∧ ∀ s, LatOp.build s ∉ rest

/-- What has to be in `Output` after a proper use. -/
def properAnswer (d : Dict) (u : Option UserDict) (ideo : Nat → Bool) : List LatOp → Option (List View)
  | .build inp :: rest => answersNew d u ideo inp rest
  | _ => none

/-- C54: uses of one object one after another do not disturb each other, whatever dictionaries and texts they are for. -/
theorem C54_sessions (ideo : Nat → Bool) (us : List (Dict × Option UserDict × List LatOp)) (hus : ∀ x ∈ us, WellFormed x.1 x.2.1 ∧ Proper x.2.2) {o : Lattice}
    (ho : o.Clean) : ∃ outs, o.uses ideo us = some outs ∧ outs.map (fun out => some (out.map nodeView)) = us.map (fun x => properAnswer x.1 x.2.1 ideo x.2.2) := by
  induction us generalizing o with
  | nil => exact ⟨[], rfl, rfl⟩
  | cons x us ih =>
    obtain ⟨d, u, ops⟩ := x
    obtain ⟨wf, inp, rest, hp, hrest⟩ := hus (d, u, ops) (by simp)
    change ops = _ at hp
    subst hp
    obtain ⟨o', out, h1, h2, h3, h4⟩ := C54_any (renew_clean ho d u) wf ideo inp rest hrest
    obtain ⟨outs, g1, g2⟩ := ih (fun y hy => hus y (by simp [hy])) h4
    refine ⟨out :: outs, ?_, ?_⟩
    · rw [Lattice.uses, Lattice.use, h1, Option.bind_some, h2, Option.map_some, Option.bind_some, g1, Option.map_some]
    · rw [List.map_cons, List.map_cons, g2]
      congr 1
      exact h3.symm

/-! ### What goes wrong otherwise -/

/-- The surfaces in `Output`. -/
def surfaces (ns : List Node) : List Bytes := ns.map (fun n => n.surface)

/-- C54: a second `Build` without `Free` between them does not start over: words of the first text are found in the second. -/
theorem C54_build_twice : WellFormed Toy.dict none ∧
    (((newLattice Toy.dict none).calls Toy.ideo [.build (str "すもももab"), .build (str "も"), .forward .normal, .backward .normal]).bind Lattice.nodes).map surfaces =
      some [str "も", str "も", []] :=
  ⟨Toy.wellFormed_none, by decide +kernel⟩

/-- C54: and the damage outlives `Free`: a later `Analyze` that gets the object from the pool returns words that are not in its text. -/
theorem C54_left_over :
    (((newLattice Toy.dict none).calls Toy.ideo [.build (str "すももも"), .build (str "も")]).bind fun o =>
      (analyzeOn o.free Toy.tok Toy.ideo (str "ab東京") 1).map fun toks => toks.map (fun k => k.surface)) =
      some [str "BOS", str "すもも", str "も", str "EOS"] ∧
    (analyze Toy.tok Toy.ideo (str "ab東京") 1).map (fun toks => toks.map (fun k => k.surface)) =
      some [str "BOS", str "ab", str "東", str "京", str "EOS"] := by
  constructor <;> decide +kernel

/-! ### The hypotheses can be met -/

example : (newLattice Toy.dict (some Toy.user)).Clean ∧ WellFormed Toy.dict (some Toy.user) ∧
    (((newLattice Toy.dict (some Toy.user)).calls Toy.ideo [.build (str "ab東京"), .forward .normal, .backward .normal, .forward .search, .backward .extended]).bind
      Lattice.nodes).map surfaces =
      some [[], str "東京", str "ab", [], [], str "東京", str "b", str "a", []] :=
  ⟨newLattice_clean _ _, Toy.wellFormed, by decide +kernel⟩

example : Proper [.build (str "ab東京"), .forward .normal, .backward .normal] := ⟨_, _, rfl, by simp⟩

example : ((newLattice Toy.dict none).uses Toy.ideo [(Toy.dict, some Toy.user, [.build (str "東京ab"), .forward .normal, .backward .normal]),
    (Toy.dict, none, [.build (str "東京"), .forward .normal, .backward .normal])]).map (List.map surfaces) =
    some [[[], str "ab", str "東京", []], [[], str "京", str "東", []]] := by decide +kernel

end Kagome
