import Verif.Proof.Drawn
import Verif.Proof.PoolInv
import Verif.Props.LatticeApi
import Verif.Props.Segmentation
import Verif.Props.Graph

/-!
Properties C12, C13 and C45: calls do not disturb each other, whatever was called before and however the goroutines are interleaved.

`Reachable ideo s`: the process can get into state `s` (`Verif/Model/Machine.lean`). A goroutine runs any code that makes calls, the next of which may
depend on the replies to the earlier ones and on panics it has recovered (`Client`). It is finished when what is left of it is `ret (tr, x)`: `tr` are its calls
with their outcomes, `x` is its result. `Client.Alone` (`Verif/Spec/Calls.lean`): each call has given what it gives on its own, in the sequential model the
other properties are about, and the client has gone on accordingly.
-/

namespace Kagome

open Spec

variable {ρ : Type} {ideo : Nat → Bool} {s : Sys ρ} {i : Nat} {th : Thread ρ} {tr : Trace} {x : ρ}

/-! ### C13: the results -/

/-- C13: in every state of every schedule, a goroutine that has finished has got from each of its calls what the call gives on its own, and has the result
that follows from that. -/
theorem C13_results (hr : Reachable ideo s) (hi : s.threads[i]? = some th) (hd : th.prog = .ret (tr, x)) :
    th.client.Alone ideo tr x := by
  obtain ⟨H, hI⟩ := hr.inv
  have := hI.run i th hi
  rw [hd] at this
  exact this.1

theorem Visits.outcome {P : Nat → Trace → Trace → Prop} {n : Nat} {tr : Trace} (hP : ∀ i tr tr', P i tr tr' → ∀ e ∈ tr', e.1.Outcome ideo e.2)
    (h : Visits P n tr) : ∀ e ∈ tr, e.1.Outcome ideo e.2 := by
  induction h with
  | none => intro e he; cases he
  | more _ ht ih =>
    intro e he
    rcases List.mem_append.mp he with he | he
    · exact ih e he
    · exact hP _ _ _ ht e he

theorem Visitor.Alone.outcome {v : Visitor} : ∀ {tr : Trace}, v.Alone ideo tr → ∀ e ∈ tr, e.1.Outcome ideo e.2 := by
  induction v with
  | done => rintro tr rfl e he; cases he
  | call c visit k ih1 ih2 =>
    rintro tr ⟨n, vs, o, tr', hv, ho, hk, rfl⟩ e he
    rcases List.mem_append.mp he with he | he
    · exact hv.outcome (fun i tr tr' h => ih1 i tr h) e he
    · rcases List.mem_cons.mp he with rfl | he
      · exact ho
      · exact ih2 o vs hk e he

theorem Client.Alone.outcome {cl : Client ρ} (h : cl.Alone ideo tr x) {c : Call} {o : Option Reply} (he : (c, o) ∈ tr) :
    c.Outcome ideo o := by
  induction h with
  | done => cases he
  | gives hg _ ih =>
    rcases List.mem_cons.mp he with h | h
    · cases h; exact hg
    · exact ih h
  | fails hf _ ih =>
    rcases List.mem_cons.mp he with h | h
    · cases h; exact hf
    · exact ih h
  | during hv ho _ ih =>
    rcases List.mem_append.mp he with h | h
    · exact hv.outcome (fun i tr tr' h => h.outcome) _ h
    · rcases List.mem_cons.mp h with h | h
      · cases h; exact ho
      · exact ih h

/-- For the calls of `Analyze`: the tokens, or a panic where the call panics alone. -/
theorem C13_tokens (hr : Reachable ideo s) (hi : s.threads[i]? = some th) (hd : th.prog = .ret (tr, x)) {c : Call} {o : Option Reply}
    (he : (c, o) ∈ tr) (ha : c.api = .analyze) : o.map (·.tokens) = analyze c.t ideo c.inp c.mode := by
  have h := (C13_results hr hi hd).outcome he
  cases o with
  | none =>
    rcases h with h | ⟨n, h⟩ | ⟨_, n, h⟩
    · unfold Call.Fails at h; rw [ha] at h; exact h.symm
    · rw [ha] at h; cases h
    · rw [ha] at h; cases h
  | some r => replace h : c.Gives ideo r := h; unfold Call.Gives at h; rw [ha] at h; exact h.1.symm

/-- The dictionaries of a call are in order: for a graph also the tables of the parts of speech, and its writer does not panic. -/
def Call.Ok (c : Call) : Prop :=
  WellFormed c.t.dict c.t.userDict ∧ (c.api = .analyzeGraph ∨ (∃ moves stop, c.api = .drawing moves stop) → PosTables c.t.dict c.t.userDict) ∧ ¬ c.Stopped

theorem no_build (moves : List Move) : ∀ s, LatOp.build s ∉ moves.map Move.op := by
  intro s hs
  obtain ⟨mv, _, h⟩ := List.mem_map.mp hs
  cases mv <;> cases h

/-- Alone, a lattice has in `Output` what C54 says. -/
theorem outputAlone_answers {t : Tokenizer} (wf : WellFormed t.dict t.userDict) (ideo : Nat → Bool) (inp : Bytes) (moves : List Move) :
    ∃ out, outputAlone t ideo inp moves = some out ∧ answersNew t.dict t.userDict ideo inp (moves.map Move.op) = some (out.map nodeView) := by
  obtain ⟨o', out, h1, h2, h3, _⟩ := C54_any (newLattice_clean t.dict t.userDict) wf ideo inp (moves.map Move.op) (no_build moves)
  exact ⟨out, by unfold outputAlone; rw [h1, Option.bind_some, h2], h3⟩

/-- Alone, `Dot` on a lattice writes a graph. -/
theorem dotAlone_some {t : Tokenizer} (wf : WellFormed t.dict t.userDict) (pt : PosTables t.dict t.userDict) (ideo : Nat → Bool) (inp : Bytes)
    (moves : List Move) : (dotAlone t ideo inp moves).isSome := by
  obtain ⟨o', g, h1, h2⟩ := session_dot (newLattice_clean t.dict t.userDict) wf pt ideo inp (moves.map Move.op) (no_build moves)
  unfold dotAlone
  rw [h1, Option.bind_some, h2]; rfl

theorem Call.Ok.no_panic {c : Call} (hc : c.Ok) : ¬ c.Fails ideo := by
  obtain ⟨wf, pt, hs⟩ := hc
  intro hn
  obtain ⟨t1, _, _, t2⟩ := C01_total wf ideo c.inp c.mode
  unfold Call.Fails at hn
  cases ha : c.api with
  | analyze =>
    rw [ha] at hn
    replace hn : analyze c.t ideo c.inp c.mode = none := hn
    rw [hn] at t1; cases t1
  | lattice moves =>
    rw [ha] at hn
    obtain ⟨out, h1, _⟩ := outputAlone_answers wf ideo c.inp moves
    replace hn : outputAlone c.t ideo c.inp moves = none := hn
    rw [hn] at h1; cases h1
  | analyzeGraph =>
    rw [ha] at hn
    replace hn : analyzeGraph c.t ideo c.inp c.mode = none ∨ exportGraph c.t ideo c.inp c.mode = none := hn
    rcases hn with hn | hn
    · rw [hn] at t2; cases t2
    · have := exportGraph_some wf (pt (.inl ha)) ideo c.inp c.mode
      rw [hn] at this; cases this
  | analyzeGraphTo n => exact hs (.inl ⟨n, ha⟩)
  | drawing moves stop =>
    rw [ha] at hn
    replace hn : outputAlone c.t ideo c.inp moves = none ∨ dotAlone c.t ideo c.inp moves = none := hn
    rcases hn with hn | hn
    · obtain ⟨out, h1, _⟩ := outputAlone_answers wf ideo c.inp moves
      rw [hn] at h1; cases h1
    · have := dotAlone_some wf (pt (.inr ⟨_, _, ha⟩)) ideo c.inp moves
      rw [hn] at this; cases this
  | session acts =>
    rw [ha] at hn
    replace hn : (newLattice c.t.dict c.t.userDict).calls ideo (.build c.inp :: (movesOf acts).map Move.op) = none := hn
    obtain ⟨out, h1, _⟩ := outputAlone_answers wf ideo c.inp (movesOf acts)
    unfold outputAlone at h1
    rw [hn] at h1; cases h1

theorem no_panic (hr : Reachable ideo s) (hi : s.threads[i]? = some th) : th.prog ≠ .panic := by
  intro hd
  obtain ⟨H, hI⟩ := hr.inv
  have := hI.run i th hi
  rw [hd] at this
  exact this

/-- C13: no call on a well-formed dictionary panics, in any schedule; a goroutine that recovers panics never ends in one. -/
theorem C13_no_panic (hr : Reachable ideo s) (hi : s.threads[i]? = some th) :
    th.prog ≠ .panic ∧ ∀ tr x, th.prog = .ret (tr, x) → ∀ c o, (c, o) ∈ tr → c.Ok → o.isSome := by
  constructor
  · exact no_panic hr hi
  · intro tr x hd c o he hc
    have h := (C13_results hr hi hd).outcome he
    cases o with
    | some r => rfl
    | none =>
      rcases h with h | h
      · exact absurd h hc.no_panic
      · exact absurd h hc.2.2

theorem each_alone {calls : List Call} : ∀ {pre rs : List Reply} {tr : Trace}, (Client.each calls pre).Alone ideo tr rs → (∀ c ∈ calls, c.Ok) →
    ∃ rs', rs = pre ++ rs' ∧ Replies ideo calls rs' := by
  induction calls with
  | nil =>
    intro pre rs tr h _
    cases h
    exact ⟨[], by simp, rfl, fun k c r hk => by simp at hk⟩
  | cons c cs ih =>
    intro pre rs tr h hok
    cases h with
    | gives hg h =>
      rename_i r _
      obtain ⟨rs', h1, h2, h3⟩ := ih h (fun c hc => hok c (List.mem_cons_of_mem _ hc))
      refine ⟨r :: rs', by rw [h1]; simp, by simp [h2], fun k c' r' hk hk' => ?_⟩
      cases k with
      | zero =>
        obtain rfl := Option.some.inj hk
        obtain rfl := Option.some.inj hk'
        exact hg
      | succ k => exact h3 k c' r' hk hk'
    | fails hf h =>
      rcases hf with hf | hf
      · exact absurd hf (hok c (List.mem_cons_self ..)).no_panic
      · exact absurd hf (hok c (List.mem_cons_self ..)).2.2

/-- C13, for a goroutine that makes the calls of a list: it has as many replies as calls, each what the call gives alone. -/
theorem C13_list {s : Sys (List Reply)} {th : Thread (List Reply)} {rs : List Reply} {calls : List Call} (hr : Reachable ideo s)
    (hi : s.threads[i]? = some th) (hc : th.client = .each calls []) (hd : th.prog = .ret (tr, rs)) (wf : ∀ c ∈ calls, c.Ok) :
    Replies ideo calls rs := by
  have h := C13_results hr hi hd
  rw [hc] at h
  obtain ⟨rs', h1, h2⟩ := each_alone h wf
  rw [h1]; exact h2

/-! ### C13: no data races -/

/-- The node that the next step of a program reads, writes or puts into the pool. -/
def touchesNode {α : Type} : Prog α → Option Addr
  | .putNode a _ => some a
  | .readNode a _ => some a
  | .writeNode a _ _ => some a
  | _ => none

/-- The lattice that the next step of a program reads, writes or puts into the pool. -/
def touchesLat {α : Type} : Prog α → Option Addr
  | .putLat a _ => some a
  | .readLat a _ => some a
  | .writeLat a _ _ => some a
  | _ => none

theorem wp_touchesNode {α : Type} {p : Prog α} {h : LHeap} {Q : Option α → LHeap → Prop} (hp : wp p h Q) {a : Addr} (ha : touchesNode p = some a) :
    ∃ x, h.n a = some x := by
  cases p <;> simp only [touchesNode, Option.some.injEq, reduceCtorEq] at ha <;> subst ha
  · obtain ⟨⟨v, hv⟩, _⟩ := hp; exact ⟨_, hv⟩
  · obtain ⟨b, v, hv, _⟩ := hp; exact ⟨_, hv⟩
  · obtain ⟨b, v, hv, _⟩ := hp; exact ⟨_, hv⟩

theorem wp_touchesLat {α : Type} {p : Prog α} {h : LHeap} {Q : Option α → LHeap → Prop} (hp : wp p h Q) {a : Addr} (ha : touchesLat p = some a) :
    ∃ x, h.l a = some x := by
  cases p <;> simp only [touchesLat, Option.some.injEq, reduceCtorEq] at ha <;> subst ha
  · obtain ⟨⟨v, hv, _⟩, _⟩ := hp; exact ⟨_, hv⟩
  · obtain ⟨v, hv, _⟩ := hp; exact ⟨_, hv⟩
  · obtain ⟨v, hv, _⟩ := hp; exact ⟨_, hv⟩

/-- C13: two goroutines are never both about to touch the same object, nor is one about to touch an object that lies in a pool. -/
theorem C13_no_race (hr : Reachable ideo s) {j : Nat} {th' : Thread ρ} (hi : s.threads[i]? = some th) (hj : s.threads[j]? = some th') (hne : i ≠ j) :
    (∀ a, touchesNode th.prog = some a → touchesNode th'.prog ≠ some a ∧ a ∉ s.mem.nodePool) ∧
    (∀ a, touchesLat th.prog = some a → touchesLat th'.prog ≠ some a ∧ a ∉ s.mem.latPool) := by
  obtain ⟨H, hI⟩ := hr.inv
  constructor
  · intro a ha
    obtain ⟨x, hx⟩ := wp_touchesNode (hI.run i th hi) ha
    refine ⟨fun hb => ?_, (hI.nval i a x.1 x.2 hx).2.2⟩
    obtain ⟨y, hy⟩ := wp_touchesNode (hI.run j th' hj) hb
    rw [hI.ndis i j a x hne hx] at hy; cases hy
  · intro a ha
    obtain ⟨x, hx⟩ := wp_touchesLat (hI.run i th hi) ha
    refine ⟨fun hb => ?_, (hI.lval i a x hx).2.2⟩
    obtain ⟨y, hy⟩ := wp_touchesLat (hI.run j th' hj) hb
    rw [hI.ldis i j a x hne hx] at hy; cases hy

/-! ### C13: every call returns -/

/-- Steps of one goroutine, the others standing still. -/
inductive Alone (j : Nat) : Sys ρ → Sys ρ → Prop
  | refl {s : Sys ρ} : Alone j s s
  | step {s s' : Sys ρ} {th th' : Thread ρ} {m' : Mem} (hi : s.threads[j]? = some th) (h : TStep s.mem th m' th')
      (hs : Alone j ⟨m', s.threads.set j th'⟩ s') : Alone j s s'

theorem Alone.reach {s s' : Sys ρ} (ha : Alone i s s') (hr : Reachable ideo s) : Reachable ideo s' := by
  induction ha with
  | refl => exact hr
  | step hi h _ ih => exact ih (.step hr (.run i hi h))

theorem Alone.trans {s s' s'' : Sys ρ} (h1 : Alone i s s') (h2 : Alone i s' s'') : Alone i s s'' := by
  induction h1 with
  | refl => exact h2
  | step hi h _ ih => exact .step hi h (ih h2)

/-- Finished. -/
def Done {α : Type} : Prog α → Prop
  | .ret _ => True
  | .panic => True
  | _ => False

theorem exists_fresh (l : List Addr) : ∃ a, a ∉ l := by
  have h : ∀ (l : List Nat), ∃ b, ∀ a ∈ l, a < b := by
    intro l
    induction l with
    | nil => exact ⟨0, fun a ha => by cases ha⟩
    | cons x l ih =>
      obtain ⟨b, hb⟩ := ih
      refine ⟨b + x + 1, fun a ha => ?_⟩
      rcases List.mem_cons.mp ha with rfl | ha
      · omega
      · have := hb a ha; omega
  obtain ⟨b, hb⟩ := h l
  exact ⟨b, fun hm => Nat.lt_irrefl _ (hb b hm)⟩

/-- From every state at all, a goroutine that is given the processor finishes. -/
theorem run_to_end (p : Prog (Trace × ρ)) : ∀ (s : Sys ρ) (th : Thread ρ), s.threads[i]? = some th → th.prog = p →
    ∃ s' th', Alone i s s' ∧ s'.threads[i]? = some th' ∧ th'.client = th.client ∧ Done th'.prog := by
  have next : ∀ {s : Sys ρ} {th th1 : Thread ρ} {m1 : Mem} {q : Prog (Trace × ρ)}, s.threads[i]? = some th → TStep s.mem th m1 th1 → th1.client = th.client →
      th1.prog = q → (∀ (s : Sys ρ) (th : Thread ρ), s.threads[i]? = some th → th.prog = q →
        ∃ s' th', Alone i s s' ∧ s'.threads[i]? = some th' ∧ th'.client = th.client ∧ Done th'.prog) →
      ∃ s' th', Alone i s s' ∧ s'.threads[i]? = some th' ∧ th'.client = th.client ∧ Done th'.prog := by
    intro s th th1 m1 q hi hs hc hq ih
    have hlt := (List.getElem?_eq_some_iff.mp hi).1
    obtain ⟨s', th', h1, h2, h3, h4⟩ := ih ⟨m1, s.threads.set i th1⟩ th1 (by simp [hlt]) hq
    exact ⟨s', th', .step hi hs h1, h2, h3.trans hc, h4⟩
  induction p with
  | ret a => intro s th hi hp; exact ⟨s, th, .refl, hi, rfl, by rw [hp]; trivial⟩
  | panic => intro s th hi hp; exact ⟨s, th, .refl, hi, rfl, by rw [hp]; trivial⟩
  | getNode k ih =>
    rintro s ⟨c, _, ns, ls⟩ hi rfl
    obtain ⟨a, ha⟩ := exists_fresh s.mem.usedN
    exact next hi (.getNodeNew a ha) rfl rfl (ih a)
  | putNode a k ih => rintro s ⟨c, _, ns, ls⟩ hi rfl; exact next hi .putNode rfl rfl ih
  | newNode v k ih =>
    rintro s ⟨c, _, ns, ls⟩ hi rfl
    obtain ⟨a, ha⟩ := exists_fresh s.mem.usedN
    exact next hi (.newNode a ha) rfl rfl (ih a)
  | readNode a k ih => rintro s ⟨c, _, ns, ls⟩ hi rfl; exact next hi .readNode rfl rfl (ih _)
  | writeNode a f k ih => rintro s ⟨c, _, ns, ls⟩ hi rfl; exact next hi .writeNode rfl rfl ih
  | getLat k ih =>
    rintro s ⟨c, _, ns, ls⟩ hi rfl
    obtain ⟨a, ha⟩ := exists_fresh s.mem.usedL
    exact next hi (.getLatNew a ha) rfl rfl (ih a)
  | putLat a k ih => rintro s ⟨c, _, ns, ls⟩ hi rfl; exact next hi .putLat rfl rfl ih
  | readLat a k ih => rintro s ⟨c, _, ns, ls⟩ hi rfl; exact next hi .readLat rfl rfl (ih _)
  | writeLat a f k ih => rintro s ⟨c, _, ns, ls⟩ hi rfl; exact next hi .writeLat rfl rfl ih
  | choose k ih => rintro s ⟨c, _, ns, ls⟩ hi rfl; exact next hi (.choose 0) rfl rfl (ih 0)

/-- C13: nothing blocks. From every reachable state every goroutine can run to its end on its own, whatever the others are in the middle of, and it
then has the right results. -/
theorem C13_progress (hr : Reachable ideo s) (hi : s.threads[i]? = some th) :
    ∃ s' th' tr x, Alone i s s' ∧ s'.threads[i]? = some th' ∧ th'.prog = .ret (tr, x) ∧ th.client.Alone ideo tr x := by
  obtain ⟨s', th', h1, h2, h3, h4⟩ := run_to_end (i := i) th.prog s th hi rfl
  have hr' := h1.reach hr
  cases hp : th'.prog with
  | ret rs => exact ⟨s', th', rs.1, rs.2, h1, h2, hp, by rw [← h3]; exact C13_results hr' h2 hp⟩
  | panic => exact (no_panic hr' h2 hp).elim
  | _ => rw [hp] at h4; exact h4.elim

/-- What a step leaves of a program is a part of it. -/
inductive Part {α : Type} : Prog α → Prog α → Prop
  | getNode {k} (a) : Part (k a) (.getNode k)
  | putNode {a k} : Part k (.putNode a k)
  | newNode {v k} (a) : Part (k a) (.newNode v k)
  | readNode {a k} (v) : Part (k v) (.readNode a k)
  | writeNode {a f k} : Part k (.writeNode a f k)
  | getLat {k} (a) : Part (k a) (.getLat k)
  | putLat {a k} : Part k (.putLat a k)
  | readLat {a k} (v) : Part (k v) (.readLat a k)
  | writeLat {a f k} : Part k (.writeLat a f k)
  | choose {k} (n) : Part (k n) (.choose k)

theorem part_acc {α : Type} (p : Prog α) : Acc Part p := by
  induction p with
  | ret => exact ⟨_, fun q h => by cases h⟩
  | panic => exact ⟨_, fun q h => by cases h⟩
  | getNode k ih => exact ⟨_, fun q h => by cases h; exact ih _⟩
  | putNode a k ih => exact ⟨_, fun q h => by cases h; exact ih⟩
  | newNode v k ih => exact ⟨_, fun q h => by cases h; exact ih _⟩
  | readNode a k ih => exact ⟨_, fun q h => by cases h; exact ih _⟩
  | writeNode a f k ih => exact ⟨_, fun q h => by cases h; exact ih⟩
  | getLat k ih => exact ⟨_, fun q h => by cases h; exact ih _⟩
  | putLat a k ih => exact ⟨_, fun q h => by cases h; exact ih⟩
  | readLat a k ih => exact ⟨_, fun q h => by cases h; exact ih _⟩
  | writeLat a f k ih => exact ⟨_, fun q h => by cases h; exact ih⟩
  | choose k ih => exact ⟨_, fun q h => by cases h; exact ih _⟩

theorem TStep.part {m m' : Mem} {th th' : Thread ρ} (h : TStep m th m' th') : Part th'.prog th.prog := by
  cases h <;> constructor

/-- Step `n` of an infinite run is a step of goroutine `i`. -/
def Moves (run : Nat → Sys ρ) (i n : Nat) : Prop :=
  ∃ th m' th', (run n).threads[i]? = some th ∧ TStep (run n).mem th m' th' ∧ run (n + 1) = ⟨m', (run n).threads.set i th'⟩

/-- C13: in an infinite run every goroutine makes only finitely many steps: none loops for ever, whatever the schedule. -/
theorem C13_terminates (run : Nat → Sys ρ) (hrun : ∀ n, Step ideo (run n) (run (n + 1))) {n0 : Nat} (hi : (run n0).threads[i]? = some th) :
    ∃ N, ∀ n ≥ N, ¬ Moves run i n := by
  have key : ∀ p : Prog (Trace × ρ), ∀ n0 th, (run n0).threads[i]? = some th → th.prog = p → ∃ N, ∀ n ≥ N, ¬ Moves run i n := by
    intro p
    induction part_acc p with
    | intro p _ ih =>
      intro n0 th hi hp
      by_cases hm : ∃ n ≥ n0, Moves run i n
      · obtain ⟨n, hn, th1, m', th', h1, h2, h3⟩ := hm
        -- until its next move the program of `i` does not change
        have hstay : ∀ k, ∃ thk, (run (n0 + k)).threads[i]? = some thk ∧ (thk.prog = p ∨ ∃ q, Part q p ∧ ∃ N, ∀ n ≥ N, ¬ Moves run i n) := by
          intro k
          induction k with
          | zero => exact ⟨th, hi, .inl hp⟩
          | succ k ihk =>
            obtain ⟨thk, g1, g2⟩ := ihk
            have hs := hrun (n0 + k)
            have hlt := (List.getElem?_eq_some_iff.mp g1).1
            have hgo : ∀ s', s' = run (n0 + k + 1) → Step ideo (run (n0 + k)) s' →
                ∃ thk, (run (n0 + (k + 1))).threads[i]? = some thk ∧ (thk.prog = p ∨ ∃ q, Part q p ∧ ∃ N, ∀ n ≥ N, ¬ Moves run i n) := by
              intro s' hs' hst
              cases hst with
              | run j hj h =>
                rename_i tha thb mb
                by_cases hji : j = i
                · subst hji
                  rw [g1] at hj
                  obtain rfl := Option.some.inj hj
                  have hth : (run (n0 + (k + 1))).threads[j]? = some thb := by
                    rw [← Nat.add_assoc, ← hs']; simp [hlt]
                  refine ⟨thb, hth, ?_⟩
                  rcases g2 with g2 | g2
                  · have hpart := h.part
                    rw [g2] at hpart
                    exact .inr ⟨thb.prog, hpart, ih _ hpart (n0 + (k + 1)) thb hth rfl⟩
                  · exact .inr g2
                · refine ⟨thk, ?_, g2⟩
                  rw [← Nat.add_assoc, ← hs']
                  simp only []
                  rw [List.getElem?_set, if_neg hji]; exact g1
              | spawn cl =>
                refine ⟨thk, ?_, g2⟩
                rw [← Nat.add_assoc, ← hs']
                simp only []
                rw [List.getElem?_append_left hlt]; exact g1
              | dropNode a => exact ⟨thk, by rw [← Nat.add_assoc, ← hs']; exact g1, g2⟩
              | dropLat a => exact ⟨thk, by rw [← Nat.add_assoc, ← hs']; exact g1, g2⟩
            exact hgo _ rfl hs
        obtain ⟨thk, g1, g2⟩ := hstay (n - n0)
        rw [show n0 + (n - n0) = n by omega] at g1
        rcases g2 with g2 | ⟨q, _, hN⟩
        · rw [h1] at g1
          obtain rfl := Option.some.inj g1
          have hlt := (List.getElem?_eq_some_iff.mp h1).1
          have hpart := h2.part
          rw [g2] at hpart
          exact ih _ hpart (n + 1) th' (by rw [h3]; simp [hlt]) rfl
        · exact hN
      · exact ⟨n0, fun n hn hmv => hm ⟨n, hn, hmv⟩⟩
  exact key th.prog n0 th hi rfl

/-! ### C12 -/

/-- The same reply, up to the names of the nodes of a graph. -/
def SameReply (r r' : Reply) : Prop :=
  r.tokens = r'.tokens ∧ r.output = r'.output ∧ (r.graph = none ∧ r'.graph = none ∨
    ∃ (g : Graph) (f f' : Ptr → Addr), KeepsApart f g ∧ KeepsApart f' g ∧ r.graph = some (g.map f) ∧ r'.graph = some (g.map f')) ∧
  ∃ (vs : List (SightOf Ptr)) (f f' : Ptr → Addr), KeepsAllApart f vs ∧ KeepsAllApart f' vs ∧ r.seen = vs.map (SightOf.map f) ∧ r'.seen = vs.map (SightOf.map f')

/-- Nothing was seen in between. -/
theorem same_unseen {r r' : Reply} (h : r.seen = []) (h' : r'.seen = []) : ∃ (vs : List (SightOf Ptr)) (f f' : Ptr → Addr), KeepsAllApart f vs ∧
    KeepsAllApart f' vs ∧ r.seen = vs.map (SightOf.map f) ∧ r'.seen = vs.map (SightOf.map f') :=
  ⟨[], fun _ => 0, fun _ => 0, (fun _ _ h => by cases h), (fun _ _ h => by cases h), h, h'⟩

/-- What a client sees of a lattice nobody else uses does not depend on anything else. -/
theorem Sees.unique {o : Lattice} {acts : List Deed} {vs vs' : List (SightOf Ptr)} (h : Sees ideo o acts vs) (h' : Sees ideo o acts vs')
    (hc : ∀ n, Deed.dot (some n) ∉ acts) : vs = vs' := by
  induction h generalizing vs' with
  | done => cases h'; rfl
  | move h _ ih =>
    cases h' with
    | move g hs =>
      rw [h] at g
      obtain rfl := Option.some.inj g
      exact ih hs (fun n hn => hc n (List.mem_cons_of_mem _ hn))
  | look h _ ih =>
    cases h' with
    | look g hs =>
      rw [h] at g
      obtain rfl := Option.some.inj g
      rw [ih hs (fun n hn => hc n (List.mem_cons_of_mem _ hn))]
  | dot _ ih =>
    cases h' with
    | dot hs => rw [ih hs (fun n hn => hc n (List.mem_cons_of_mem _ hn))]
    | cut hs => exact absurd (List.mem_cons_self ..) (hc _)
  | cut _ ih => exact absurd (List.mem_cons_self ..) (hc _)

theorem Sees.goes {o : Lattice} {acts : List Deed} {vs : List (SightOf Ptr)} (h : Sees ideo o acts vs) :
    ∃ o', o.calls ideo ((movesOf acts).map Move.op) = some o' := by
  induction h with
  | done => exact ⟨_, rfl⟩
  | move h _ ih =>
    obtain ⟨o', ih⟩ := ih
    exact ⟨o', by rw [movesOf, List.map_cons, Lattice.calls, h]; exact ih⟩
  | look _ _ ih => exact ih
  | dot _ ih => exact ih
  | cut _ ih => exact ih

/-- C12: the outcome of a call depends on nothing but its tokenizer, text and mode: two calls in any two processes, after any histories (calls that
panicked among them), agree. A call whose writer panics may have its reply in one process only, and a client whose writer panics in between may see a graph in one
process only. -/
theorem C12_history {ρ' : Type} {s' : Sys ρ'} {j : Nat} {th' : Thread ρ'} {tr' : Trace} {x' : ρ'} {c : Call} {o o' : Option Reply} (hr : Reachable ideo s)
    (hr' : Reachable ideo s') (hi : s.threads[i]? = some th) (hj : s'.threads[j]? = some th') (hd : th.prog = .ret (tr, x))
    (hd' : th'.prog = .ret (tr', x')) (hk : (c, o) ∈ tr) (hl : (c, o') ∈ tr') :
    (∃ r r', o = some r ∧ o' = some r' ∧ SameReply r r' ∧ c.Gives ideo r) ∨ (o = none ∧ o' = none ∧ (c.Fails ideo ∨ c.Stopped)) ∨ c.Stopped ∨ c.Cut := by
  have g1 := (C13_results hr hi hd).outcome hk
  have g2 := (C13_results hr' hj hd').outcome hl
  have clash : ∀ r, c.Gives ideo r → ¬ c.Fails ideo := by
    intro r hg hf
    unfold Call.Gives at hg
    unfold Call.Fails at hf
    cases ha : c.api with
    | analyze =>
      simp only [ha] at hg hf
      rw [hg.1] at hf; cases hf
    | lattice moves =>
      simp only [ha] at hg hf
      rw [hf] at hg; cases hg.1
    | drawing moves stop =>
      simp only [ha] at hg hf
      obtain ⟨h1, _, g, f, h, _⟩ := hg
      rw [h] at hf
      rcases hf with hf | hf
      · rw [hf] at h1; cases h1
      · cases hf
    | session acts =>
      simp only [ha] at hg hf
      obtain ⟨_, o, vs, f, h1, h2, _⟩ := hg
      obtain ⟨o', h3⟩ := h2.goes
      rw [Lattice.calls, Lattice.call, h1, Option.bind_some, h3] at hf
      cases hf
    | analyzeGraph | analyzeGraphTo =>
      simp only [ha] at hg hf
      obtain ⟨h1, _, g, f, h, _⟩ := hg
      rw [h1, h] at hf
      rcases hf with hf | hf <;> cases hf
  cases o with
  | none =>
    cases o' with
    | none => exact .inr (.inl ⟨rfl, rfl, g1⟩)
    | some r' =>
      rcases g1 with g1 | g1
      · exact absurd g1 (clash r' g2)
      · exact .inr (.inr (.inl g1))
  | some r =>
    cases o' with
    | none =>
      rcases g2 with g2 | g2
      · exact absurd g2 (clash r g1)
      · exact .inr (.inr (.inl g2))
    | some r' =>
      by_cases hcut : c.Cut
      · exact .inr (.inr (.inr hcut))
      refine .inl ⟨r, r', rfl, rfl, ?_, g1⟩
      replace g1 : c.Gives ideo r := g1
      replace g2 : c.Gives ideo r' := g2
      unfold Call.Gives at g1 g2
      cases ha : c.api with
      | analyze =>
        simp only [ha] at g1 g2
        exact ⟨Option.some.inj (g1.1.symm.trans g2.1), g1.2.2.1.trans g2.2.2.1.symm, .inl ⟨g1.2.1, g2.2.1⟩, same_unseen g1.2.2.2 g2.2.2.2⟩
      | lattice moves =>
        simp only [ha] at g1 g2
        exact ⟨g1.2.1.1.trans g2.2.1.1.symm, Option.some.inj (g1.1.symm.trans g2.1), .inl ⟨g1.2.2, g2.2.2⟩, same_unseen g1.2.1.2 g2.2.1.2⟩
      | session acts =>
        simp only [ha] at g1 g2
        obtain ⟨⟨a1, a2, a3⟩, o1, vs, f, a4, a5, a6, a7⟩ := g1
        obtain ⟨⟨b1, b2, b3⟩, o2, vs', f', b4, b5, b6, b7⟩ := g2
        rw [a4] at b4
        obtain rfl := Option.some.inj b4
        obtain rfl := a5.unique b5 (fun n hn => hcut ⟨acts, n, ha, hn⟩)
        exact ⟨a1.trans b1.symm, a2.trans b2.symm, .inl ⟨a3, b3⟩, vs, f, f', a6, b6, a7, b7⟩
      | drawing moves stop =>
        simp only [ha] at g1 g2
        obtain ⟨a1, a0, g, f, a2, a3, a4⟩ := g1
        obtain ⟨b1, b0, g', f', b2, b3, b4⟩ := g2
        rw [a2] at b2
        obtain rfl := Option.some.inj b2
        exact ⟨a0.1.trans b0.1.symm, Option.some.inj (a1.symm.trans b1), .inr ⟨g, f, f', a3, b3, a4, b4⟩, same_unseen a0.2 b0.2⟩
      | analyzeGraph | analyzeGraphTo =>
        simp only [ha] at g1 g2
        obtain ⟨a1, a0, g, f, a2, a3, a4⟩ := g1
        obtain ⟨b1, b0, g', f', b2, b3, b4⟩ := g2
        rw [a2] at b2
        obtain rfl := Option.some.inj b2
        exact ⟨Option.some.inj (a1.symm.trans b1), a0.1.trans b0.1.symm, .inr ⟨g, f, f', a3, b3, a4, b4⟩, same_unseen a0.2 b0.2⟩

/-- The text a graph call writes is that of the sequential model, under some names for the nodes; `%p` is any function. -/
theorem C12_text (hr : Reachable ideo s) (hi : s.threads[i]? = some th) (hd : th.prog = .ret (tr, x)) {c : Call} {r : Reply}
    (hk : (c, some r) ∈ tr) (ha : c.api = .analyzeGraph) (fmt : Addr → Bytes) :
    ∃ g f g', exportGraph c.t ideo c.inp c.mode = some g ∧ KeepsApart f g ∧ r.graph = some g' ∧ dotText fmt g' = dotText (fun q => fmt (f q)) g := by
  have hg : c.Gives ideo r := (C13_results hr hi hd).outcome hk
  unfold Call.Gives at hg
  rw [ha] at hg
  obtain ⟨_, _, g, f, h1, h2, h3⟩ := hg
  refine ⟨g, f, _, h1, h2, h3, ?_⟩
  simp only [dotText, GraphOf.map, List.flatMap_map]
  rfl

/-! ### C45 -/

/-- No address occurs twice among the lists. -/
theorem nodup_all {α : Type} (P : List Addr) (hP : P.Nodup) (l : List α) (f : α → List Addr)
    (h1 : ∀ (i : Nat) x, l[i]? = some x → (f x).Nodup ∧ ∀ a ∈ f x, a ∉ P)
    (h2 : ∀ (i j : Nat) x y, i ≠ j → l[i]? = some x → l[j]? = some y → ∀ a ∈ f x, a ∉ f y) : (P ++ l.flatMap f).Nodup := by
  induction l generalizing P with
  | nil => simpa using hP
  | cons x l ih =>
    rw [List.flatMap_cons, ← List.append_assoc]
    apply ih
    · rw [List.nodup_append]
      refine ⟨hP, (h1 0 x rfl).1, ?_⟩
      intro a ha b hb he
      subst he
      exact (h1 0 x rfl).2 a hb ha
    · intro i y hy
      refine ⟨(h1 (i + 1) y hy).1, fun a ha hm => ?_⟩
      rcases List.mem_append.mp hm with hm | hm
      · exact (h1 (i + 1) y hy).2 a ha hm
      · exact h2 (i + 1) 0 y x (by omega) hy rfl a ha hm
    · intro i j y z hij hy hz
      exact h2 (i + 1) (j + 1) y z (by omega) hy hz

/-- C45: in every state of every schedule the objects in a pool and the objects the goroutines have taken from it are all different: nothing is in the pool
twice, handed out twice, or free and in use. -/
theorem C45_one_owner (hr : Reachable ideo s) :
    (s.mem.nodePool ++ s.threads.flatMap Thread.nodes).Nodup ∧ (s.mem.latPool ++ s.threads.flatMap Thread.lats).Nodup := by
  obtain ⟨H, hI⟩ := hr.inv
  constructor
  · refine nodup_all _ hI.npool _ _ ?_ ?_
    · intro i th hi
      refine ⟨(hI.ngot i th hi).1, fun a ha => ?_⟩
      obtain ⟨v, hv⟩ := ((hI.ngot i th hi).2 a).mp ha
      exact (hI.nval i a _ v hv).2.2
    · intro i j x y hij hx hy a ha hb
      obtain ⟨v, hv⟩ := ((hI.ngot i x hx).2 a).mp ha
      obtain ⟨w, hw⟩ := ((hI.ngot j y hy).2 a).mp hb
      rw [hI.ndis i j a _ hij hv] at hw; cases hw
  · refine nodup_all _ hI.lpool _ _ ?_ ?_
    · intro i th hi
      refine ⟨(hI.lgot i th hi).1, fun a ha => ?_⟩
      obtain ⟨v, hv⟩ := ((hI.lgot i th hi).2 a).mp ha
      exact (hI.lval i a v hv).2.2
    · intro i j x y hij hx hy a ha hb
      obtain ⟨v, hv⟩ := ((hI.lgot i x hx).2 a).mp ha
      obtain ⟨w, hw⟩ := ((hI.lgot j y hy).2 a).mp hb
      rw [hI.ldis i j a _ hij hv] at hw; cases hw

/-- C45: a goroutine that has finished holds no lattice, even if calls of it have panicked (`Free` is deferred), and no node of the pool either unless a
dictionary was broken: a writer that panics costs nothing. -/
theorem C45_returned (hr : Reachable ideo s) (hi : s.threads[i]? = some th) (hd : th.prog = .ret (tr, x)) :
    th.lats = [] ∧ ((∀ c o, (c, o) ∈ tr → o = none → ¬ c.Fails ideo) → th.nodes = []) := by
  obtain ⟨H, hI⟩ := hr.inv
  have := hI.run i th hi
  rw [hd] at this
  obtain ⟨_, hl, hn⟩ := this
  constructor
  · apply List.eq_nil_iff_forall_not_mem.mpr
    intro a ha
    obtain ⟨v, hv⟩ := ((hI.lgot i th hi).2 a).mp ha
    rw [hl a] at hv; cases hv
  · intro hu
    apply List.eq_nil_iff_forall_not_mem.mpr
    intro a ha
    obtain ⟨v, hv⟩ := ((hI.ngot i th hi).2 a).mp ha
    cases (hn (fun e he h => hu e.1 e.2 he h)).n a v hv

/-- C45: when the dictionaries are in order, a goroutine that has finished holds nothing of the pools. -/
theorem C45_ok (hr : Reachable ideo s) (hi : s.threads[i]? = some th) (hd : th.prog = .ret (tr, x)) (wf : ∀ c o, (c, o) ∈ tr → c.Ok) :
    th.nodes = [] ∧ th.lats = [] :=
  have h := C45_returned hr hi hd
  ⟨h.2 (fun c o he _ => (wf c o he).no_panic), h.1⟩

/-- C45: a lattice in the pool has an empty output and empty columns, so the next call starts from scratch. -/
theorem C45_clean (hr : Reachable ideo s) {a : Addr} (ha : a ∈ s.mem.latPool) :
    (s.mem.lats a).output.len = 0 ∧ ∀ col ∈ (s.mem.lats a).list.arr, col.len = 0 := by
  obtain ⟨H, hI⟩ := hr.inv
  exact ⟨(hI.lclean a ha).out, (hI.lclean a ha).cols⟩

/-! ### Concrete schedules -/

/-- One step: objects come from the pool if there are any. -/
def Mem.next (m : Mem) (th : Thread ρ) : Option (Mem × Thread ρ) :=
  match th with
  | ⟨c, .getNode k, ns, ls⟩ =>
    match m.nodePool with
    | a :: _ => some ({ m with nodePool := m.nodePool.erase a }, ⟨c, k a, a :: ns, ls⟩)
    | [] => let a := m.usedN.length
      if a ∈ m.usedN then none else some ({ m with nodes := upd m.nodes a .zero, usedN := a :: m.usedN }, ⟨c, k a, a :: ns, ls⟩)
  | ⟨c, .putNode a k, ns, ls⟩ => some ({ m with nodePool := a :: m.nodePool }, ⟨c, k, ns.erase a, ls⟩)
  | ⟨c, .newNode v k, ns, ls⟩ => let a := m.usedN.length
      if a ∈ m.usedN then none else some ({ m with nodes := upd m.nodes a v, usedN := a :: m.usedN }, ⟨c, k a, ns, ls⟩)
  | ⟨c, .readNode a k, ns, ls⟩ => some (m, ⟨c, k (m.nodes a), ns, ls⟩)
  | ⟨c, .writeNode a f k, ns, ls⟩ => some ({ m with nodes := upd m.nodes a (f (m.nodes a)) }, ⟨c, k, ns, ls⟩)
  | ⟨c, .getLat k, ns, ls⟩ =>
    match m.latPool with
    | a :: _ => some ({ m with latPool := m.latPool.erase a }, ⟨c, k a, ns, a :: ls⟩)
    | [] => let a := m.usedL.length
      if a ∈ m.usedL then none else some ({ m with lats := upd m.lats a .zero, usedL := a :: m.usedL }, ⟨c, k a, ns, a :: ls⟩)
  | ⟨c, .putLat a k, ns, ls⟩ => some ({ m with latPool := a :: m.latPool }, ⟨c, k, ns, ls.erase a⟩)
  | ⟨c, .readLat a k, ns, ls⟩ => some (m, ⟨c, k (m.lats a), ns, ls⟩)
  | ⟨c, .writeLat a f k, ns, ls⟩ => some ({ m with lats := upd m.lats a (f (m.lats a)) }, ⟨c, k, ns, ls⟩)
  | ⟨c, .choose k, ns, ls⟩ => some (m, ⟨c, k 0, ns, ls⟩)
  | ⟨_, .ret _, _, _⟩ => none
  | ⟨_, .panic, _, _⟩ => none

theorem Mem.next_step {m m' : Mem} {th th' : Thread ρ} (h : m.next th = some (m', th')) : TStep m th m' th' := by
  obtain ⟨c, p, ns, ls⟩ := th
  cases p with
  | ret a => cases h
  | panic => cases h
  | getNode k =>
    simp only [Mem.next] at h
    split at h
    · rename_i a l hp; cases h; exact .getNodeOld a (by rw [hp]; exact List.mem_cons_self ..)
    · split at h
      · cases h
      · rename_i hn; cases h; exact .getNodeNew _ hn
  | putNode a k => cases h; exact .putNode
  | newNode v k =>
    simp only [Mem.next] at h
    split at h
    · cases h
    · rename_i hn; cases h; exact .newNode _ hn
  | readNode a k => cases h; exact .readNode
  | writeNode a f k => cases h; exact .writeNode
  | getLat k =>
    simp only [Mem.next] at h
    split at h
    · rename_i a l hp; cases h; exact .getLatOld a (by rw [hp]; exact List.mem_cons_self ..)
    · split at h
      · cases h
      · rename_i hn; cases h; exact .getLatNew _ hn
  | putLat a k => cases h; exact .putLat
  | readLat a k => cases h; exact .readLat
  | writeLat a f k => cases h; exact .writeLat
  | choose k => cases h; exact .choose 0

/-- A schedule: which goroutine makes the next step (if it can). -/
def Sys.follow (s : Sys ρ) : List Nat → Sys ρ
  | [] => s
  | i :: is =>
    match s.threads[i]? with
    | none => s.follow is
    | some th =>
      match s.mem.next th with
      | none => s.follow is
      | some (m', th') => Sys.follow ⟨m', s.threads.set i th'⟩ is

theorem follow_reachable (l : List Nat) : ∀ s : Sys ρ, Reachable ideo s → Reachable ideo (s.follow l) := by
  induction l with
  | nil => intro s h; exact h
  | cons i is ih =>
    intro s h
    unfold Sys.follow
    split
    · exact ih s h
    · rename_i th hi
      split
      · exact ih s h
      · rename_i m' th' hn
        exact ih _ (.step h (.run i hi (Mem.next_step hn)))

/-- The surfaces a finished goroutine has got; `none`: a call that panicked. -/
def Thread.surfaces (th : Thread ρ) : Option (List (Option (List Bytes))) :=
  match th.prog with
  | .ret (tr, _) => some (tr.map (fun e => e.2.map (fun r => r.tokens.map (·.surface))))
  | _ => none

namespace Toy

/-- A goroutine before its first step. -/
def start {ρ : Type} (cl : Client ρ) : Thread ρ := ⟨cl, clientP Toy.ideo cl, [], []⟩

/-- Two goroutines, started one after the other. -/
def two : Sys (List Reply) := ⟨.empty, [start (.each [⟨.analyze, tok, str "も", 1⟩] []), start (.each [⟨.analyze, tokUser, str "京", 1⟩] [])]⟩

theorem two_reachable : Reachable Toy.ideo two := .step (.step .init (.spawn _)) (.spawn _)

/-- They take turns. -/
example : (two.follow (List.replicate 400 [0, 1]).flatten).threads.map Thread.surfaces =
    [some [some [str "BOS", str "も", str "EOS"]], some [some [str "BOS", str "京", str "EOS"]]] := by decide +kernel

/-- A client that looks at the first reply to choose its second call, whose writer panics; it recovers the panic and goes on. -/
def curious : Client (List Reply) :=
  .call ⟨.analyze, tok, str "もA!", 3⟩ fun o => match o with
    | none => .done []
    | some r => .call ⟨.analyzeGraphTo 5, tok, (r.tokens.map (·.surface)).getLast?.getD [], 2⟩ fun o => match o with
      | some _ => .done []
      | none => .call ⟨.analyzeGraph, tok, str "す", 2⟩ fun o => .done (r :: o.toList)

/-- A third goroutine, started when the two are done. -/
def later : Sys (List Reply) := ⟨(two.follow (List.replicate 400 [0, 1]).flatten).mem, (two.follow (List.replicate 400 [0, 1]).flatten).threads ++ [start curious]⟩

theorem later_reachable : Reachable Toy.ideo later := .step (follow_reachable _ _ two_reachable) (.spawn _)

/-- The graphs a finished goroutine has written. -/
def graphs (th : Thread ρ) : List (GraphOf Addr) :=
  match th.prog with
  | .ret (tr, _) => tr.filterMap (fun e => e.2.bind (·.graph))
  | _ => []

/-- It finds what the others have left, dirty nodes among it, and takes from there what it needs: two lattices are enough for five calls. -/
example : later.mem.latPool.length = 2 ∧ later.mem.nodePool.length = 6 ∧
    later.mem.nodePool.map (fun a => (later.mem.nodes a).surface) ≠ List.replicate 6 [] ∧
    (later.follow (List.replicate 2500 2)).mem.usedL.length = 2 ∧
    (later.follow (List.replicate 2500 2)).threads.map Thread.surfaces =
      [some [some [str "BOS", str "も", str "EOS"]], some [some [str "BOS", str "京", str "EOS"]],
        some [some [str "BOS", str "も", str "A", str "!", str "EOS"], none, some [str "BOS", str "す", str "EOS"]]] := by
  refine ⟨?_, ?_, ?_, ?_, ?_⟩ <;> decide +kernel

/-- The graph it has written. -/
example : ((later.follow (List.replicate 2500 2)).threads.flatMap graphs).map (fun g => g.nodes.map (fun n => n.surface)) =
      [[str "BOS", str "す", str "EOS"]] ∧
    ((later.follow (List.replicate 2500 2)).threads.flatMap graphs).map (fun g => (g.edges.map (fun e => e.src) == (g.nodes.map (·.ptr)).take 2,
      g.edges.map (fun e => e.dst) == (g.nodes.map (·.ptr)).drop 1)) = [(true, true)] := by constructor <;> decide +kernel

/-- Calls in order. -/
example : ∀ c ∈ [(⟨.analyze, tok, str "もA!", 3⟩ : Call), ⟨.analyzeGraph, tokUser, str "す", 2⟩,
    ⟨.drawing [.forward .search, .backward .normal] none, tokUser, str "すも", 0⟩], c.Ok := by
  intro c hc
  rcases List.mem_cons.mp hc with rfl | hc
  · exact ⟨Toy.wellFormed_none, (fun h => by rcases h with h | ⟨_, _, h⟩ <;> cases h), (by rintro (⟨n, h⟩ | ⟨_, n, h⟩) <;> cases h)⟩
  rcases List.mem_cons.mp hc with rfl | hc
  · exact ⟨Toy.wellFormed, fun _ => toy_posTables, (by rintro (⟨n, h⟩ | ⟨_, n, h⟩) <;> cases h)⟩
  · obtain rfl := List.mem_singleton.mp hc
    exact ⟨Toy.wellFormed, fun _ => toy_posTables, (by rintro (⟨n, h⟩ | ⟨_, n, h⟩) <;> cases h)⟩

end Toy

end Kagome
