import Verif.Proof.PoolLattice

/-!
The invariant of all interleavings: every goroutine owns a part of the memory, and keeps to it.
-/

namespace Kagome

/-- Nothing of the pools but nodes that were owned before. -/
structure Back (h h' : LHeap) : Prop where
  l : ∀ x, h'.l x = none
  n : ∀ a pn, h'.n a = some (true, pn) → h.n a = some (true, pn)

/-- No call has panicked but for its writer. -/
def Unbroken (ideo : Nat → Bool) (tr : Trace) : Prop := ∀ e ∈ tr, e.2 = none → ¬ e.1.Fails ideo

/-- The outcome of a goroutine that owned `h`. -/
def Post {ρ : Type} (ideo : Nat → Bool) (cl : Client ρ) (h : LHeap) : Option (Trace × ρ) → LHeap → Prop
  | some x, h' => cl.Alone ideo x.1 x.2 ∧ (∀ x, h'.l x = none) ∧ (Unbroken ideo x.1 → Back h h')
  | none, _ => False

theorem wp_call (ideo : Nat → Bool) (c : Call) {h : LHeap} (hi : Idle h) (Q : Option Reply → LHeap → Prop)
    (ok : ∀ h' r, c.Gives ideo r → Idle h' → Q (some r) h') (bad : c.Fails ideo → ∀ h', (∀ x, h'.l x = none) → Q none h')
    (stopped : c.Stopped → ∀ h', Idle h' → Q none h') :
    wp (callP ideo c) h Q := by
  unfold callP
  unfold Call.Gives at ok
  unfold Call.Fails at bad
  cases hc : c.api with
  | analyze =>
    simp only [hc] at ok bad
    exact wp_bind (wp_analyze c.t ideo c.inp c.mode hi _ (fun h' toks he hi' => ok h' ⟨toks, none, [], []⟩ ⟨he, rfl, rfl, rfl⟩ hi') bad)
  | analyzeGraph =>
    simp only [hc] at ok bad
    exact wp_bind (wp_analyzeGraph c.t ideo c.inp c.mode none hi _
      (fun h' toks g f h1 h2 h3 hi' => ok h' ⟨toks, some (g.map f), [], []⟩ ⟨h1, ⟨rfl, rfl⟩, g, f, h2, h3, rfl⟩ hi') bad (fun n h => by cases h))
  | analyzeGraphTo n =>
    simp only [hc] at ok bad
    exact wp_bind (wp_analyzeGraph c.t ideo c.inp c.mode (some n) hi _
      (fun h' toks g f h1 h2 h3 hi' => ok h' ⟨toks, some (g.map f), [], []⟩ ⟨h1, ⟨rfl, rfl⟩, g, f, h2, h3, rfl⟩ hi') bad (fun n' _ h' hi' => stopped (.inl ⟨n, hc⟩) h' hi'))
  | lattice moves =>
    simp only [hc] at ok bad
    exact wp_bind (wp_use c.t ideo c.inp moves hi _
      (fun h' out he hi' => ok h' ⟨[], none, _, []⟩ ⟨by rw [he]; rfl, ⟨rfl, rfl⟩, rfl⟩ hi') bad)
  | drawing moves stop =>
    simp only [hc] at ok bad
    exact wp_bind (wp_draw c.t ideo c.inp moves stop hi _
      (fun h' out g f h1 h2 h3 hi' => ok h' ⟨[], some (g.map f), _, []⟩ ⟨by rw [h1]; rfl, ⟨rfl, rfl⟩, g, f, h2, h3, rfl⟩ hi') bad
      (fun n hn h' hi' => stopped (.inr ⟨moves, n, by rw [hc, hn]⟩) h' hi'))
  | session acts =>
    simp only [hc] at ok bad
    exact wp_bind (wp_session c.t ideo c.inp acts hi _
      (fun h' o vs f h1 h2 h3 hi' => ok h' ⟨[], none, [], _⟩ ⟨⟨rfl, rfl, rfl⟩, o, vs, f, h1, h2, h3, rfl⟩ hi') bad)

/-- A call whose panics are recovered, made by a goroutine that owns no lattice but maybe nodes that earlier panics have cost. -/
theorem wp_recoveredCall (ideo : Nat → Bool) (c : Call) {h : LHeap} (hl : ∀ x, h.l x = none) (Q : Option (Option Reply) → LHeap → Prop)
    (ok : ∀ h' r, c.Gives ideo r → Back h h' → Q (some (some r)) h') (bad : c.Fails ideo → ∀ h', (∀ x, h'.l x = none) → Q (some none) h')
    (stopped : c.Stopped → ∀ h', Back h h' → Q (some none) h') : wp (callP ideo c).recovered h Q := by
  apply wp_recovered
  have hh : h = LHeap.with ⟨fun _ => none, h.l⟩ h.n := rfl
  have back : ∀ h0 : LHeap, Idle h0 → Back h (h0.with h.n) := by
    intro h0 hi
    refine ⟨hi.l, fun a pn ha => ?_⟩
    simp only [LHeap.with] at ha
    cases hn : h0.n a with
    | none => rw [hn] at ha; exact ha
    | some x =>
      rw [hn] at ha
      obtain rfl := Option.some.inj ha
      exact absurd hn (hi.n a pn)
  rw [hh]
  refine wp_mono (wp_frame (wp_call ideo c (h := ⟨fun _ => none, h.l⟩) ⟨hl, fun a pn ha => by cases ha⟩
    (fun r h0 => Q (some r) (h0.with h.n)) ?_ ?_ ?_) (fun a x ha => by cases ha)) ?_
  · exact fun h' r hg hi => ok _ r hg (back h' hi)
  · exact fun hf h' hn => bad hf _ hn
  · exact fun hs h' hi => stopped hs _ (back h' hi)
  · rintro r h' ⟨h0, rfl, _, hq⟩
    exact hq

/-- The outcome of code that ran inside a call of a goroutine that owned `h`. -/
def VisitPost (ideo : Nat → Bool) (v : Visitor) (h : LHeap) (r : Option Trace) (h' : LHeap) : Prop :=
  ∃ tr, r = some tr ∧ v.Alone ideo tr ∧ (∀ x, h'.l x = none) ∧ (Unbroken ideo tr → Back h h')

theorem Unbroken.left {ideo : Nat → Bool} {tr tr' : Trace} (h : Unbroken ideo (tr ++ tr')) : Unbroken ideo tr :=
  fun e he => h e (List.mem_append_left _ he)

theorem Unbroken.right {ideo : Nat → Bool} {tr tr' : Trace} (h : Unbroken ideo (tr ++ tr')) : Unbroken ideo tr' :=
  fun e he => h e (List.mem_append_right _ he)

/-- A call inside which other code runs. -/
theorem wp_visitedCall (ideo : Nat → Bool) (c : Call) {visit : Nat → Trace → Visitor} {h : LHeap} (hl : ∀ x, h.l x = none)
    (hv : ∀ i tr (h : LHeap), (∀ x, h.l x = none) → wp (visitorP ideo (visit i tr)) h (VisitPost ideo (visit i tr) h))
    (Q : Option (Option Reply × Trace) → LHeap → Prop)
    (ok : ∀ n vs o h', Visits (fun i tr => (visit i tr).Alone ideo) n vs → c.Outcome ideo o → (∀ x, h'.l x = none) →
      (Unbroken ideo vs → (o = none → ¬ c.Fails ideo) → Back h h') → Q (some (o, vs)) h') :
    wp ((callP ideo c).visited (fun i tr => visitorP ideo (visit i tr)) 0 []) h Q := by
  have hh : h = LHeap.with ⟨fun _ => none, h.l⟩ h.n := rfl
  rw [hh]
  refine wp_mono (wp_visited (P := fun i tr g => Visits (fun i tr => (visit i tr).Alone ideo) i tr ∧
      (Unbroken ideo tr → ∀ a pn, g a = some (true, pn) → h.n a = some (true, pn))) ?_ (callP ideo c) ⟨fun _ => none, h.l⟩
      (fun r h' => c.Outcome ideo r ∧ (∀ x, h'.l x = none) ∧ ((r = none → ¬ c.Fails ideo) → Idle h')) 0 [] h.n ?_
      ⟨.none, fun _ a pn ha => ha⟩ (fun a x ha => by cases ha)) ?_
  · rintro i tr g ⟨hvs, hg⟩
    refine wp_mono (hv i tr ⟨fun _ => none, fun _ => none⟩ (fun _ => rfl)) ?_
    rintro r h' ⟨tr', rfl, ha, hl', hb⟩
    refine ⟨tr', rfl, hl', fun _ => ⟨.more hvs ha, fun hu a pn he => ?_⟩⟩
    replace he : (h'.n a).or (g a) = some (true, pn) := he
    cases hn : h'.n a with
    | none => rw [hn] at he; exact hg hu.left a pn he
    | some x =>
      rw [hn] at he
      obtain rfl := Option.some.inj he
      cases (hb hu.right).n a pn hn
  · refine wp_call ideo c (h := ⟨fun _ => none, h.l⟩) ⟨hl, fun a pn ha => by cases ha⟩ _ ?_ ?_ ?_
    · exact fun h' r hg hi => ⟨hg, hi.l, fun _ => hi⟩
    · exact fun hf h' hl' => ⟨.inl hf, hl', fun hn => absurd hf (hn rfl)⟩
    · exact fun hs h' hi => ⟨.inr hs, hi.l, fun _ => hi⟩
  · rintro r h' ⟨o, n, vs, h0, g', rfl, ⟨hvs, hg⟩, rfl, ho, hl0, hi⟩
    refine ok n vs o _ hvs ho hl0 (fun hu hn => ⟨hl0, fun a pn ha => ?_⟩)
    simp only [LHeap.with] at ha
    cases h1 : h0.n a with
    | none => rw [h1] at ha; exact hg hu a pn ha
    | some x =>
      rw [h1] at ha
      obtain rfl := Option.some.inj ha
      exact absurd h1 ((hi hn).n a pn)

theorem Unbroken.split {ideo : Nat → Bool} {vs tr : Trace} {c : Call} {o : Option Reply} (h : Unbroken ideo (vs ++ (c, o) :: tr)) :
    Unbroken ideo vs ∧ (o = none → ¬ c.Fails ideo) ∧ Unbroken ideo tr :=
  ⟨h.left, h.right _ (List.mem_cons_self ..), fun e he => h.right e (List.mem_cons_of_mem _ he)⟩

theorem wp_visitor (ideo : Nat → Bool) (v : Visitor) : ∀ (h : LHeap), (∀ x, h.l x = none) → wp (visitorP ideo v) h (VisitPost ideo v h) := by
  induction v with
  | done => intro h hl; exact ⟨[], rfl, rfl, hl, fun _ => ⟨hl, fun a pn ha => ha⟩⟩
  | call c visit k ih1 ih2 =>
    intro h hl
    refine wp_bind (wp_visitedCall ideo c hl ih1 _ ?_)
    intro n vs o h' hvs ho hl' hb
    refine wp_bind (wp_mono (ih2 o vs h' hl') ?_)
    rintro r h'' ⟨tr, rfl, h1, h2, h3⟩
    refine ⟨_, rfl, ⟨n, vs, o, tr, hvs, ho, h1, rfl⟩, h2, fun hu => ?_⟩
    obtain ⟨u1, u2, u3⟩ := hu.split
    exact ⟨h2, fun a pn ha => (hb u1 u2).n a pn ((h3 u3).n a pn ha)⟩

theorem wp_client {ρ : Type} (ideo : Nat → Bool) (cl : Client ρ) : ∀ (h : LHeap), (∀ x, h.l x = none) →
    wp (clientP ideo cl) h (Post ideo cl h) := by
  induction cl with
  | done r => intro h hl; exact ⟨.done r, hl, fun _ => ⟨hl, fun a pn ha => ha⟩⟩
  | call c k ih =>
    intro h hl
    refine wp_bind (wp_recoveredCall ideo c hl _ ?_ ?_ ?_)
    · intro h' r hg hb
      refine wp_bind (wp_mono (ih (some r) h' hb.l) ?_)
      rintro (_ | ⟨tr, x⟩) h'' hr
      · exact hr
      · obtain ⟨h1, h2, h3⟩ := hr
        exact ⟨.gives hg h1, h2, fun hu =>
          have hb' := h3 (fun e he => hu e (List.mem_cons_of_mem _ he))
          ⟨h2, fun a pn ha => hb.n a pn (hb'.n a pn ha)⟩⟩
    · intro hf h' hl'
      refine wp_bind (wp_mono (ih none h' hl') ?_)
      rintro (_ | ⟨tr, x⟩) h'' hr
      · exact hr
      · obtain ⟨h1, h2, h3⟩ := hr
        exact ⟨.fails (.inl hf) h1, h2, fun hu => absurd hf (hu _ (List.mem_cons_self ..) rfl)⟩
    · intro hs h' hb
      refine wp_bind (wp_mono (ih none h' hb.l) ?_)
      rintro (_ | ⟨tr, x⟩) h'' hr
      · exact hr
      · obtain ⟨h1, h2, h3⟩ := hr
        exact ⟨.fails (.inr hs) h1, h2, fun hu =>
          have hb' := h3 (fun e he => hu e (List.mem_cons_of_mem _ he))
          ⟨h2, fun a pn ha => hb.n a pn (hb'.n a pn ha)⟩⟩
  | during c visit k ih =>
    intro h hl
    refine wp_bind (wp_visitedCall ideo c hl (fun i tr h hl => wp_visitor ideo (visit i tr) h hl) _ ?_)
    intro n vs o h' hvs ho hl' hb
    refine wp_bind (wp_mono (ih o vs h' hl') ?_)
    rintro (_ | ⟨tr, x⟩) h'' hr
    · exact hr
    · obtain ⟨h1, h2, h3⟩ := hr
      refine ⟨.during hvs ho h1, h2, fun hu => ?_⟩
      obtain ⟨u1, u2, u3⟩ := Unbroken.split hu
      exact ⟨h2, fun a pn ha => (hb u1 u2).n a pn ((h3 u3).n a pn ha)⟩

/-- A goroutine starts with nothing. -/
def LHeap.none : LHeap := ⟨fun _ => Option.none, fun _ => Option.none⟩

/-- What is owned agrees with the memory and is not in the pools; nothing is owned twice. -/
structure Inv {ρ : Type} (ideo : Nat → Bool) (s : Sys ρ) (H : Nat → LHeap) : Prop where
  run : ∀ i th, s.threads[i]? = some th → wp th.prog (H i) (Post ideo th.client .none)
  rest : ∀ i, s.threads.length ≤ i → (∀ a, (H i).n a = none) ∧ ∀ a, (H i).l a = none
  nval : ∀ i a b v, (H i).n a = some (b, v) → s.mem.nodes a = v ∧ a ∈ s.mem.usedN ∧ a ∉ s.mem.nodePool
  ndis : ∀ i j a x, i ≠ j → (H i).n a = some x → (H j).n a = none
  ngot : ∀ i th, s.threads[i]? = some th → th.nodes.Nodup ∧ ∀ a, a ∈ th.nodes ↔ ∃ v, (H i).n a = some (true, v)
  npool : s.mem.nodePool.Nodup
  nused : ∀ a ∈ s.mem.nodePool, a ∈ s.mem.usedN
  lval : ∀ i a v, (H i).l a = some v → s.mem.lats a = v ∧ a ∈ s.mem.usedL ∧ a ∉ s.mem.latPool
  ldis : ∀ i j a x, i ≠ j → (H i).l a = some x → (H j).l a = none
  lgot : ∀ i th, s.threads[i]? = some th → th.lats.Nodup ∧ ∀ a, a ∈ th.lats ↔ ∃ v, (H i).l a = some v
  lpool : s.mem.latPool.Nodup
  lused : ∀ a ∈ s.mem.latPool, a ∈ s.mem.usedL
  lclean : ∀ a ∈ s.mem.latPool, Clean (s.mem.lats a)

theorem Inv.init {ρ : Type} (ideo : Nat → Bool) : Inv (ρ := ρ) ideo ⟨.empty, []⟩ (fun _ => ⟨fun _ => none, fun _ => none⟩) := by
  constructor <;> simp [Mem.empty]

/-- The parts of the memory the other goroutines own stay as they are. -/
def updH (H : Nat → LHeap) (i : Nat) (h : LHeap) : Nat → LHeap := fun k => if k = i then h else H k

theorem updH_same (H : Nat → LHeap) (i : Nat) (h : LHeap) : updH H i h i = h := by simp [updH]
theorem updH_other (H : Nat → LHeap) {i k : Nat} (h : LHeap) (hk : k ≠ i) : updH H i h k = H k := by simp [updH, hk]

theorem clean_zero : Clean LatObj.zero := ⟨⟨rfl, fun s hs => (by cases hs), fun p hp => (by cases hp), fun s hs => (by cases hs)⟩, rfl, rfl⟩

section
variable {ρ : Type} {ideo : Nat → Bool} {s : Sys ρ} {H : Nat → LHeap}

/-- To keep the invariant when goroutine `i` makes a step: what has to be checked. -/
theorem Inv.of_step (hI : Inv ideo s H) {i : Nat} {th th' : Thread ρ} {m' : Mem} {h' : LHeap} (hi : s.threads[i]? = some th)
    (run : wp th'.prog h' (Post ideo th'.client .none))
    (nval : ∀ a b v, h'.n a = some (b, v) → m'.nodes a = v ∧ a ∈ m'.usedN ∧ a ∉ m'.nodePool)
    (nfresh : ∀ a, h'.n a ≠ none → (H i).n a = none → a ∈ s.mem.nodePool ∨ a ∉ s.mem.usedN)
    (nother : ∀ j a x, j ≠ i → (H j).n a = some x → m'.nodes a = s.mem.nodes a ∧ a ∈ m'.usedN ∧ a ∉ m'.nodePool)
    (ngot : th'.nodes.Nodup ∧ ∀ a, a ∈ th'.nodes ↔ ∃ v, h'.n a = some (true, v))
    (npool : m'.nodePool.Nodup) (nused : ∀ a ∈ m'.nodePool, a ∈ m'.usedN)
    (lval : ∀ a v, h'.l a = some v → m'.lats a = v ∧ a ∈ m'.usedL ∧ a ∉ m'.latPool)
    (lfresh : ∀ a, h'.l a ≠ none → (H i).l a = none → a ∈ s.mem.latPool ∨ a ∉ s.mem.usedL)
    (lother : ∀ j a x, j ≠ i → (H j).l a = some x → m'.lats a = s.mem.lats a ∧ a ∈ m'.usedL ∧ a ∉ m'.latPool)
    (lgot : th'.lats.Nodup ∧ ∀ a, a ∈ th'.lats ↔ ∃ v, h'.l a = some v)
    (lpool : m'.latPool.Nodup) (lused : ∀ a ∈ m'.latPool, a ∈ m'.usedL) (lclean : ∀ a ∈ m'.latPool, Clean (m'.lats a)) :
    Inv ideo ⟨m', s.threads.set i th'⟩ (updH H i h') := by
  have hlt := (List.getElem?_eq_some_iff.mp hi).1
  have hth : ∀ k th'', (s.threads.set i th')[k]? = some th'' → (k = i ∧ th'' = th') ∨ (k ≠ i ∧ s.threads[k]? = some th'') := by
    intro k th'' hk
    rw [List.getElem?_set] at hk
    split at hk
    · rename_i he; subst he
      exact .inl ⟨rfl, (Option.some.inj (by simpa [hlt] using hk)).symm⟩
    · rename_i he; exact .inr ⟨Ne.symm he, hk⟩
  have nd1 : ∀ j a x, j ≠ i → h'.n a = some x → (H j).n a = none := by
    intro j a x hj hx
    cases hh : (H j).n a with
    | none => rfl
    | some y =>
      obtain ⟨b, v⟩ := y
      cases hi' : (H i).n a with
      | some z => rw [hI.ndis i j a z (Ne.symm hj) hi'] at hh; cases hh
      | none =>
        obtain ⟨_, h2, h3⟩ := hI.nval j a b v hh
        rcases nfresh a (by rw [hx]; simp) hi' with h | h
        · exact absurd h h3
        · exact absurd h2 h
  have ld1 : ∀ j a x, j ≠ i → h'.l a = some x → (H j).l a = none := by
    intro j a x hj hx
    cases hh : (H j).l a with
    | none => rfl
    | some y =>
      cases hi' : (H i).l a with
      | some z => rw [hI.ldis i j a z (Ne.symm hj) hi'] at hh; cases hh
      | none =>
        obtain ⟨_, h2, h3⟩ := hI.lval j a y hh
        rcases lfresh a (by rw [hx]; simp) hi' with h | h
        · exact absurd h h3
        · exact absurd h2 h
  constructor
  · intro k th'' hk
    rcases hth k th'' hk with ⟨rfl, rfl⟩ | ⟨hne, hk⟩
    · rw [updH_same]; exact run
    · rw [updH_other _ _ hne]; exact hI.run k th'' hk
  · intro k hk
    rw [List.length_set] at hk
    rw [updH_other _ _ (by omega)]
    exact hI.rest k hk
  · intro k a b v hk
    by_cases he : k = i
    · subst he; rw [updH_same] at hk; exact nval a b v hk
    · rw [updH_other _ _ he] at hk
      obtain ⟨h1, h2, h3⟩ := nother k a _ he hk
      exact ⟨h1.trans (hI.nval k a b v hk).1, h2, h3⟩
  · intro j k a x hjk hx
    by_cases he : j = i
    · subst he
      rw [updH_same] at hx
      rw [updH_other _ _ (Ne.symm hjk)]
      exact nd1 k a x (Ne.symm hjk) hx
    · rw [updH_other _ _ he] at hx
      by_cases he' : k = i
      · subst he'
        rw [updH_same]
        cases hh : h'.n a with
        | none => rfl
        | some y => rw [nd1 j a y he hh] at hx; cases hx
      · rw [updH_other _ _ he']; exact hI.ndis j k a x hjk hx
  · intro k th'' hk
    rcases hth k th'' hk with ⟨rfl, rfl⟩ | ⟨hne, hk⟩
    · rw [updH_same]; exact ngot
    · rw [updH_other _ _ hne]; exact hI.ngot k th'' hk
  · exact npool
  · exact nused
  · intro k a v hk
    by_cases he : k = i
    · subst he; rw [updH_same] at hk; exact lval a v hk
    · rw [updH_other _ _ he] at hk
      obtain ⟨h1, h2, h3⟩ := lother k a _ he hk
      exact ⟨h1.trans (hI.lval k a v hk).1, h2, h3⟩
  · intro j k a x hjk hx
    by_cases he : j = i
    · subst he
      rw [updH_same] at hx
      rw [updH_other _ _ (Ne.symm hjk)]
      exact ld1 k a x (Ne.symm hjk) hx
    · rw [updH_other _ _ he] at hx
      by_cases he' : k = i
      · subst he'
        rw [updH_same]
        cases hh : h'.l a with
        | none => rfl
        | some y => rw [ld1 j a y he hh] at hx; cases hx
      · rw [updH_other _ _ he']; exact hI.ldis j k a x hjk hx
  · intro k th'' hk
    rcases hth k th'' hk with ⟨rfl, rfl⟩ | ⟨hne, hk⟩
    · rw [updH_same]; exact lgot
    · rw [updH_other _ _ hne]; exact hI.lgot k th'' hk
  · exact lpool
  · exact lused
  · exact lclean

theorem Inv.tstep (hI : Inv ideo s H) {i : Nat} {th th' : Thread ρ} {m' : Mem} (hi : s.threads[i]? = some th) (hs : TStep s.mem th m' th') :
    ∃ H', Inv ideo ⟨m', s.threads.set i th'⟩ H' := by
  have hrun := hI.run i th hi
  have hng := hI.ngot i th hi
  have hlg := hI.lgot i th hi
  have hno : ∀ j a x, (H j).n a = some x → s.mem.nodes a = s.mem.nodes a ∧ a ∈ s.mem.usedN ∧ a ∉ s.mem.nodePool :=
    fun j a x hx => ⟨rfl, (hI.nval j a x.1 x.2 hx).2⟩
  have hlo : ∀ j a x, (H j).l a = some x → s.mem.lats a = s.mem.lats a ∧ a ∈ s.mem.usedL ∧ a ∉ s.mem.latPool :=
    fun j a x hx => ⟨rfl, (hI.lval j a x hx).2⟩
  cases hs with
  | choose n =>
    exact ⟨_, hI.of_step (h' := H i) hi (hrun n) (fun a b v => hI.nval i a b v) (fun a h1 h2 => absurd h2 h1) (fun j a x _ => hno j a x) hng
      hI.npool hI.nused (fun a v => hI.lval i a v) (fun a h1 h2 => absurd h2 h1) (fun j a x _ => hlo j a x) hlg hI.lpool hI.lused hI.lclean⟩
  | readNode =>
    rename_i c a k ns ls
    obtain ⟨b, v, h1, h2⟩ := hrun
    rw [(hI.nval i a b v h1).1]
    exact ⟨_, hI.of_step (h' := H i) hi h2 (fun a b v => hI.nval i a b v) (fun a h1 h2 => absurd h2 h1) (fun j a x _ => hno j a x) hng
      hI.npool hI.nused (fun a v => hI.lval i a v) (fun a h1 h2 => absurd h2 h1) (fun j a x _ => hlo j a x) hlg hI.lpool hI.lused hI.lclean⟩
  | readLat =>
    rename_i c a k ns ls
    obtain ⟨v, h1, h2⟩ := hrun
    rw [(hI.lval i a v h1).1]
    exact ⟨_, hI.of_step (h' := H i) hi h2 (fun a b v => hI.nval i a b v) (fun a h1 h2 => absurd h2 h1) (fun j a x _ => hno j a x) hng
      hI.npool hI.nused (fun a v => hI.lval i a v) (fun a h1 h2 => absurd h2 h1) (fun j a x _ => hlo j a x) hlg hI.lpool hI.lused hI.lclean⟩
  | writeNode =>
    rename_i c a f k ns ls
    obtain ⟨b, v, h1, h2⟩ := hrun
    obtain ⟨g1, g2, g3⟩ := hI.nval i a b v h1
    refine ⟨_, hI.of_step (h' := (H i).setN a (some (b, f v))) hi h2 ?_ ?_ ?_ ?_
      hI.npool hI.nused (fun a v => hI.lval i a v) (fun a h1 h2 => absurd h2 h1) (fun j a x _ => hlo j a x) hlg hI.lpool hI.lused hI.lclean⟩
    · intro x b' v' hx
      simp only [LHeap.setN] at hx
      by_cases he : x = a
      · subst he
        rw [upd_same] at hx
        cases hx
        refine ⟨?_, g2, g3⟩
        dsimp only
        rw [upd_same, g1]
      · rw [upd_other _ _ he] at hx
        dsimp only
        rw [upd_other _ _ he]
        exact hI.nval i x b' v' hx
    · intro x h3 h4
      by_cases he : x = a
      · subst he; rw [h1] at h4; cases h4
      · simp only [LHeap.setN] at h3; rw [upd_other _ _ he] at h3; exact absurd h4 h3
    · intro j x y hj hx
      have : x ≠ a := by rintro rfl; rw [hI.ndis i j x _ (Ne.symm hj) h1] at hx; cases hx
      refine ⟨?_, (hno j x y hx).2⟩
      dsimp only
      rw [upd_other _ _ this]
    · refine ⟨hng.1, fun x => ?_⟩
      rw [hng.2 x]
      simp only [LHeap.setN]
      by_cases he : x = a
      · subst he
        rw [h1, upd_same]
        constructor
        · rintro ⟨v', hv'⟩; cases hv'; exact ⟨_, rfl⟩
        · rintro ⟨v', hv'⟩; cases hv'; exact ⟨_, rfl⟩
      · rw [upd_other _ _ he]
  | writeLat =>
    rename_i c a f k ns ls
    obtain ⟨v, h1, h2⟩ := hrun
    obtain ⟨g1, g2, g3⟩ := hI.lval i a v h1
    refine ⟨_, hI.of_step (h' := (H i).setL a (some (f v))) hi h2 (fun a b v => hI.nval i a b v) (fun a h1 h2 => absurd h2 h1) (fun j a x _ => hno j a x) hng
      hI.npool hI.nused ?_ ?_ ?_ ?_ hI.lpool hI.lused ?_⟩
    · intro x v' hx
      simp only [LHeap.setL] at hx
      by_cases he : x = a
      · subst he
        rw [upd_same] at hx
        cases hx
        refine ⟨?_, g2, g3⟩
        dsimp only
        rw [upd_same, g1]
      · rw [upd_other _ _ he] at hx
        dsimp only
        rw [upd_other _ _ he]
        exact hI.lval i x v' hx
    · intro x h3 h4
      by_cases he : x = a
      · subst he; rw [h1] at h4; cases h4
      · simp only [LHeap.setL] at h3; rw [upd_other _ _ he] at h3; exact absurd h4 h3
    · intro j x y hj hx
      have : x ≠ a := by rintro rfl; rw [hI.ldis i j x _ (Ne.symm hj) h1] at hx; cases hx
      refine ⟨?_, (hlo j x y hx).2⟩
      dsimp only
      rw [upd_other _ _ this]
    · refine ⟨hlg.1, fun x => ?_⟩
      rw [hlg.2 x]
      simp only [LHeap.setL]
      by_cases he : x = a
      · subst he
        rw [h1, upd_same]
        constructor
        · rintro ⟨v', hv'⟩; exact ⟨_, rfl⟩
        · rintro ⟨v', hv'⟩; exact ⟨_, rfl⟩
      · rw [upd_other _ _ he]
    · intro x hx
      have : x ≠ a := by rintro rfl; exact g3 hx
      dsimp only
      rw [upd_other _ _ this]
      exact hI.lclean x hx
  | getNodeOld a ha =>
    rename_i c k ns ls
    have hfr : (H i).n a = none := by
      cases hh : (H i).n a with
      | none => rfl
      | some x => exact absurd ha (hI.nval i a x.1 x.2 hh).2.2
    refine ⟨_, hI.of_step (h' := (H i).setN a (some (true, s.mem.nodes a))) hi (hrun a _ hfr) ?_ ?_ ?_ ?_
      (hI.npool.erase a) (fun x hx => hI.nused x (List.mem_of_mem_erase hx)) (fun a v => hI.lval i a v) (fun a h1 h2 => absurd h2 h1) (fun j a x _ => hlo j a x) hlg hI.lpool hI.lused hI.lclean⟩
    · intro x b v hx
      simp only [LHeap.setN] at hx
      by_cases he : x = a
      · subst he
        rw [upd_same] at hx
        cases hx
        exact ⟨rfl, hI.nused x ha, fun hm => (List.Nodup.mem_erase_iff hI.npool).mp hm |>.1 rfl⟩
      · rw [upd_other _ _ he] at hx
        obtain ⟨g1, g2, g3⟩ := hI.nval i x b v hx
        exact ⟨g1, g2, fun hm => g3 (List.mem_of_mem_erase hm)⟩
    · intro x h3 h4
      by_cases he : x = a
      · subst he; exact .inl ha
      · simp only [LHeap.setN] at h3; rw [upd_other _ _ he] at h3; exact absurd h4 h3
    · intro j x y hj hx
      obtain ⟨g1, g2, g3⟩ := hno j x y hx
      exact ⟨rfl, g2, fun hm => g3 (List.mem_of_mem_erase hm)⟩
    · refine ⟨?_, fun x => ?_⟩
      · refine List.nodup_cons.mpr ⟨fun hm => ?_, hng.1⟩
        obtain ⟨v, hv⟩ := (hng.2 a).mp hm
        rw [hfr] at hv; cases hv
      · rw [List.mem_cons]
        simp only [LHeap.setN]
        by_cases he : x = a
        · subst he; rw [upd_same]; exact ⟨fun _ => ⟨_, rfl⟩, fun _ => .inl rfl⟩
        · rw [upd_other _ _ he, ← hng.2 x]; simp [he]
  | getNodeNew a ha =>
    rename_i c k ns ls
    have hfr : (H i).n a = none := by
      cases hh : (H i).n a with
      | none => rfl
      | some x => exact absurd (hI.nval i a x.1 x.2 hh).2.1 ha
    refine ⟨_, hI.of_step (h' := (H i).setN a (some (true, .zero))) hi (hrun a _ hfr) ?_ ?_ ?_ ?_
      hI.npool (fun x hx => List.mem_cons_of_mem _ (hI.nused x hx)) (fun a v => hI.lval i a v) (fun a h1 h2 => absurd h2 h1) (fun j a x _ => hlo j a x) hlg hI.lpool hI.lused hI.lclean⟩
    · intro x b v hx
      simp only [LHeap.setN] at hx
      dsimp only
      by_cases he : x = a
      · subst he
        rw [upd_same] at hx
        cases hx
        exact ⟨upd_same _ _ _, List.mem_cons_self .., fun hm => ha (hI.nused x hm)⟩
      · rw [upd_other _ _ he] at hx ⊢
        obtain ⟨g1, g2, g3⟩ := hI.nval i x b v hx
        exact ⟨g1, List.mem_cons_of_mem _ g2, g3⟩
    · intro x h3 h4
      by_cases he : x = a
      · subst he; exact .inr ha
      · simp only [LHeap.setN] at h3; rw [upd_other _ _ he] at h3; exact absurd h4 h3
    · intro j x y hj hx
      obtain ⟨g1, g2, g3⟩ := hno j x y hx
      have : x ≠ a := by rintro rfl; exact ha g2
      exact ⟨upd_other _ _ this, List.mem_cons_of_mem _ g2, g3⟩
    · refine ⟨?_, fun x => ?_⟩
      · refine List.nodup_cons.mpr ⟨fun hm => ?_, hng.1⟩
        obtain ⟨v, hv⟩ := (hng.2 a).mp hm
        rw [hfr] at hv; cases hv
      · rw [List.mem_cons]
        simp only [LHeap.setN]
        by_cases he : x = a
        · subst he; rw [upd_same]; exact ⟨fun _ => ⟨_, rfl⟩, fun _ => .inl rfl⟩
        · rw [upd_other _ _ he, ← hng.2 x]; simp [he]
  | newNode a ha =>
    rename_i c v0 k ns ls
    have hfr : (H i).n a = none := by
      cases hh : (H i).n a with
      | none => rfl
      | some x => exact absurd (hI.nval i a x.1 x.2 hh).2.1 ha
    refine ⟨_, hI.of_step (h' := (H i).setN a (some (false, v0))) hi (hrun a hfr) ?_ ?_ ?_ ?_
      hI.npool (fun x hx => List.mem_cons_of_mem _ (hI.nused x hx)) (fun a v => hI.lval i a v) (fun a h1 h2 => absurd h2 h1) (fun j a x _ => hlo j a x) hlg hI.lpool hI.lused hI.lclean⟩
    · intro x b v hx
      simp only [LHeap.setN] at hx
      dsimp only
      by_cases he : x = a
      · subst he
        rw [upd_same] at hx
        cases hx
        exact ⟨upd_same _ _ _, List.mem_cons_self .., fun hm => ha (hI.nused x hm)⟩
      · rw [upd_other _ _ he] at hx ⊢
        obtain ⟨g1, g2, g3⟩ := hI.nval i x b v hx
        exact ⟨g1, List.mem_cons_of_mem _ g2, g3⟩
    · intro x h3 h4
      by_cases he : x = a
      · subst he; exact .inr ha
      · simp only [LHeap.setN] at h3; rw [upd_other _ _ he] at h3; exact absurd h4 h3
    · intro j x y hj hx
      obtain ⟨g1, g2, g3⟩ := hno j x y hx
      have : x ≠ a := by rintro rfl; exact ha g2
      exact ⟨upd_other _ _ this, List.mem_cons_of_mem _ g2, g3⟩
    · refine ⟨hng.1, fun x => ?_⟩
      rw [hng.2 x]
      simp only [LHeap.setN]
      by_cases he : x = a
      · subst he
        rw [upd_same, hfr]
        constructor
        · rintro ⟨v, hv⟩; cases hv
        · rintro ⟨v, hv⟩; cases hv
      · rw [upd_other _ _ he]
  | putNode =>
    rename_i c a k ns ls
    obtain ⟨⟨v, h1⟩, h2⟩ := hrun
    obtain ⟨g1, g2, g3⟩ := hI.nval i a _ v h1
    refine ⟨_, hI.of_step (h' := (H i).setN a none) hi h2 ?_ ?_ ?_ ?_
      (List.nodup_cons.mpr ⟨g3, hI.npool⟩) ?_ (fun a v => hI.lval i a v) (fun a h1 h2 => absurd h2 h1) (fun j a x _ => hlo j a x) hlg hI.lpool hI.lused hI.lclean⟩
    · intro x b v hx
      simp only [LHeap.setN] at hx
      by_cases he : x = a
      · subst he; rw [upd_same] at hx; cases hx
      · rw [upd_other _ _ he] at hx
        obtain ⟨e1, e2, e3⟩ := hI.nval i x b v hx
        refine ⟨e1, e2, fun hm => ?_⟩
        rcases List.mem_cons.mp hm with h | h
        · exact he h
        · exact e3 h
    · intro x h3 h4
      by_cases he : x = a
      · subst he; rw [h1] at h4; cases h4
      · simp only [LHeap.setN] at h3; rw [upd_other _ _ he] at h3; exact absurd h4 h3
    · intro j x y hj hx
      obtain ⟨e1, e2, e3⟩ := hno j x y hx
      have : x ≠ a := by rintro rfl; rw [hI.ndis i j x _ (Ne.symm hj) h1] at hx; cases hx
      refine ⟨e1, e2, fun hm => ?_⟩
      rcases List.mem_cons.mp hm with h | h
      · exact this h
      · exact e3 h
    · refine ⟨hng.1.erase a, fun x => ?_⟩
      rw [List.Nodup.mem_erase_iff hng.1, hng.2 x]
      simp only [LHeap.setN]
      by_cases he : x = a
      · subst he
        rw [upd_same]
        constructor
        · rintro ⟨h, _⟩; exact absurd rfl h
        · rintro ⟨v, hv⟩; cases hv
      · rw [upd_other _ _ he]; simp [he]
    · intro x hx
      rcases List.mem_cons.mp hx with rfl | hx
      · exact g2
      · exact hI.nused x hx
  | getLatOld a ha =>
    rename_i c k ns ls
    have hfr : (H i).l a = none := by
      cases hh : (H i).l a with
      | none => rfl
      | some x => exact absurd ha (hI.lval i a x hh).2.2
    refine ⟨_, hI.of_step (h' := (H i).setL a (some (s.mem.lats a))) hi (hrun a _ hfr (hI.lclean a ha)) (fun a b v => hI.nval i a b v)
      (fun a h1 h2 => absurd h2 h1) (fun j a x _ => hno j a x) hng hI.npool hI.nused ?_ ?_ ?_ ?_ (hI.lpool.erase a)
      (fun x hx => hI.lused x (List.mem_of_mem_erase hx)) (fun x hx => hI.lclean x (List.mem_of_mem_erase hx))⟩
    · intro x v hx
      simp only [LHeap.setL] at hx
      by_cases he : x = a
      · subst he
        rw [upd_same] at hx
        cases hx
        exact ⟨rfl, hI.lused x ha, fun hm => (List.Nodup.mem_erase_iff hI.lpool).mp hm |>.1 rfl⟩
      · rw [upd_other _ _ he] at hx
        obtain ⟨g1, g2, g3⟩ := hI.lval i x v hx
        exact ⟨g1, g2, fun hm => g3 (List.mem_of_mem_erase hm)⟩
    · intro x h3 h4
      by_cases he : x = a
      · subst he; exact .inl ha
      · simp only [LHeap.setL] at h3; rw [upd_other _ _ he] at h3; exact absurd h4 h3
    · intro j x y hj hx
      obtain ⟨g1, g2, g3⟩ := hlo j x y hx
      exact ⟨rfl, g2, fun hm => g3 (List.mem_of_mem_erase hm)⟩
    · refine ⟨?_, fun x => ?_⟩
      · refine List.nodup_cons.mpr ⟨fun hm => ?_, hlg.1⟩
        obtain ⟨v, hv⟩ := (hlg.2 a).mp hm
        rw [hfr] at hv; cases hv
      · rw [List.mem_cons]
        simp only [LHeap.setL]
        by_cases he : x = a
        · subst he; rw [upd_same]; exact ⟨fun _ => ⟨_, rfl⟩, fun _ => .inl rfl⟩
        · rw [upd_other _ _ he, ← hlg.2 x]; simp [he]
  | getLatNew a ha =>
    rename_i c k ns ls
    have hfr : (H i).l a = none := by
      cases hh : (H i).l a with
      | none => rfl
      | some x => exact absurd (hI.lval i a x hh).2.1 ha
    refine ⟨_, hI.of_step (h' := (H i).setL a (some .zero)) hi (hrun a _ hfr clean_zero) (fun a b v => hI.nval i a b v)
      (fun a h1 h2 => absurd h2 h1) (fun j a x _ => hno j a x) hng hI.npool hI.nused ?_ ?_ ?_ ?_ hI.lpool
      (fun x hx => List.mem_cons_of_mem _ (hI.lused x hx)) ?_⟩
    · intro x v hx
      simp only [LHeap.setL] at hx
      dsimp only
      by_cases he : x = a
      · subst he
        rw [upd_same] at hx
        cases hx
        exact ⟨upd_same _ _ _, List.mem_cons_self .., fun hm => ha (hI.lused x hm)⟩
      · rw [upd_other _ _ he] at hx ⊢
        obtain ⟨g1, g2, g3⟩ := hI.lval i x v hx
        exact ⟨g1, List.mem_cons_of_mem _ g2, g3⟩
    · intro x h3 h4
      by_cases he : x = a
      · subst he; exact .inr ha
      · simp only [LHeap.setL] at h3; rw [upd_other _ _ he] at h3; exact absurd h4 h3
    · intro j x y hj hx
      obtain ⟨g1, g2, g3⟩ := hlo j x y hx
      have : x ≠ a := by rintro rfl; exact ha g2
      exact ⟨upd_other _ _ this, List.mem_cons_of_mem _ g2, g3⟩
    · refine ⟨?_, fun x => ?_⟩
      · refine List.nodup_cons.mpr ⟨fun hm => ?_, hlg.1⟩
        obtain ⟨v, hv⟩ := (hlg.2 a).mp hm
        rw [hfr] at hv; cases hv
      · rw [List.mem_cons]
        simp only [LHeap.setL]
        by_cases he : x = a
        · subst he; rw [upd_same]; exact ⟨fun _ => ⟨_, rfl⟩, fun _ => .inl rfl⟩
        · rw [upd_other _ _ he, ← hlg.2 x]; simp [he]
    · intro x hx
      have : x ≠ a := by rintro rfl; exact ha (hI.lused x hx)
      dsimp only
      rw [upd_other _ _ this]
      exact hI.lclean x hx
  | putLat =>
    rename_i c a k ns ls
    obtain ⟨⟨v, h1, hc⟩, h2⟩ := hrun
    obtain ⟨g1, g2, g3⟩ := hI.lval i a v h1
    refine ⟨_, hI.of_step (h' := (H i).setL a none) hi h2 (fun a b v => hI.nval i a b v)
      (fun a h1 h2 => absurd h2 h1) (fun j a x _ => hno j a x) hng hI.npool hI.nused ?_ ?_ ?_ ?_ (List.nodup_cons.mpr ⟨g3, hI.lpool⟩) ?_ ?_⟩
    · intro x v hx
      simp only [LHeap.setL] at hx
      by_cases he : x = a
      · subst he; rw [upd_same] at hx; cases hx
      · rw [upd_other _ _ he] at hx
        obtain ⟨e1, e2, e3⟩ := hI.lval i x v hx
        refine ⟨e1, e2, fun hm => ?_⟩
        rcases List.mem_cons.mp hm with h | h
        · exact he h
        · exact e3 h
    · intro x h3 h4
      by_cases he : x = a
      · subst he; rw [h1] at h4; cases h4
      · simp only [LHeap.setL] at h3; rw [upd_other _ _ he] at h3; exact absurd h4 h3
    · intro j x y hj hx
      obtain ⟨e1, e2, e3⟩ := hlo j x y hx
      have : x ≠ a := by rintro rfl; rw [hI.ldis i j x _ (Ne.symm hj) h1] at hx; cases hx
      refine ⟨e1, e2, fun hm => ?_⟩
      rcases List.mem_cons.mp hm with h | h
      · exact this h
      · exact e3 h
    · refine ⟨hlg.1.erase a, fun x => ?_⟩
      rw [List.Nodup.mem_erase_iff hlg.1, hlg.2 x]
      simp only [LHeap.setL]
      by_cases he : x = a
      · subst he
        rw [upd_same]
        constructor
        · rintro ⟨h, _⟩; exact absurd rfl h
        · rintro ⟨v, hv⟩; cases hv
      · rw [upd_other _ _ he]; simp [he]
    · intro x hx
      rcases List.mem_cons.mp hx with rfl | hx
      · exact g2
      · exact hI.lused x hx
    · intro x hx
      rcases List.mem_cons.mp hx with rfl | hx
      · rw [g1]; exact hc
      · exact hI.lclean x hx

theorem Inv.step (hI : Inv ideo s H) {s' : Sys ρ} (hs : Step ideo s s') : ∃ H', Inv ideo s' H' := by
  cases hs with
  | run i hi h => exact hI.tstep hi h
  | spawn cl =>
    have hth : ∀ (k : Nat) th, (s.threads ++ [(⟨cl, clientP ideo cl, [], []⟩ : Thread ρ)])[k]? = some th →
        s.threads[k]? = some th ∨ (k = s.threads.length ∧ th = ⟨cl, clientP ideo cl, [], []⟩) := by
      intro k th hk
      by_cases hlt : k < s.threads.length
      · rw [List.getElem?_append_left hlt] at hk; exact .inl hk
      · rw [List.getElem?_append_right (by omega)] at hk
        obtain ⟨h1, h2⟩ := List.getElem?_eq_some_iff.mp hk
        simp only [List.length_singleton] at h1
        refine .inr ⟨by omega, ?_⟩
        rw [← h2]; simp
    have hr := hI.rest s.threads.length (Nat.le_refl _)
    refine ⟨H, ⟨?_, ?_, hI.nval, hI.ndis, ?_, hI.npool, hI.nused, hI.lval, hI.ldis, ?_, hI.lpool, hI.lused, hI.lclean⟩⟩
    · intro k th hk
      rcases hth k th hk with h | ⟨rfl, rfl⟩
      · exact hI.run k th h
      · have he : H s.threads.length = .none := by
          have e1 : (H s.threads.length).n = fun _ => none := funext hr.1
          have e2 : (H s.threads.length).l = fun _ => none := funext hr.2
          cases hH : H s.threads.length with
          | mk n l => rw [hH] at e1 e2; subst e1; subst e2; rfl
        rw [he]
        exact wp_client ideo cl _ (fun _ => rfl)
    · intro k hk
      rw [List.length_append] at hk
      exact hI.rest k (by omega)
    · intro k th hk
      rcases hth k th hk with h | ⟨rfl, rfl⟩
      · exact hI.ngot k th h
      · exact ⟨List.nodup_nil, fun a => by simp [hr.1 a]⟩
    · intro k th hk
      rcases hth k th hk with h | ⟨rfl, rfl⟩
      · exact hI.lgot k th h
      · exact ⟨List.nodup_nil, fun a => by simp [hr.2 a]⟩
  | dropNode a =>
    refine ⟨H, ⟨hI.run, hI.rest, ?_, hI.ndis, hI.ngot, hI.npool.erase a, fun x hx => hI.nused x (List.mem_of_mem_erase hx), hI.lval, hI.ldis, hI.lgot, hI.lpool,
      hI.lused, hI.lclean⟩⟩
    intro i x b v hx
    obtain ⟨e1, e2, e3⟩ := hI.nval i x b v hx
    exact ⟨e1, e2, fun hm => e3 (List.mem_of_mem_erase hm)⟩
  | dropLat a =>
    refine ⟨H, ⟨hI.run, hI.rest, hI.nval, hI.ndis, hI.ngot, hI.npool, hI.nused, ?_, hI.ldis, hI.lgot, hI.lpool.erase a,
      fun x hx => hI.lused x (List.mem_of_mem_erase hx), fun x hx => hI.lclean x (List.mem_of_mem_erase hx)⟩⟩
    intro i x v hx
    obtain ⟨e1, e2, e3⟩ := hI.lval i x v hx
    exact ⟨e1, e2, fun hm => e3 (List.mem_of_mem_erase hm)⟩

theorem Reachable.inv (hr : Reachable ideo s) : ∃ H, Inv ideo s H := by
  induction hr with
  | init => exact ⟨_, Inv.init ideo⟩
  | step _ hs ih =>
    obtain ⟨H, hI⟩ := ih
    exact hI.step hs

end

end Kagome
