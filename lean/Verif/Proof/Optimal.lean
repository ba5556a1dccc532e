import Verif.Proof.Solved

/-! While costs stay within 32 bits, the chain that ends at EOS is a cheapest analysis. -/

namespace Kagome

open Spec (WellFormed ReplacementOk Candidate Word Analysis morphOfWord connect penalty stepCost chainCost boundary Fits)

/-- Nodes connected to BOS. -/
inductive Reach (cols : Cols) : Nat → Nat → Prop
  | bos : Reach cols 0 0
  | step {i j j' : Nat} {n p : Node} : 1 ≤ i → getNode cols i j = some n → getNode cols n.start j' = some p →
      Reach cols n.start j' → Reach cols i j

section
variable {d : Dict} {u : Option UserDict} {ideo : Nat → Bool} {m : LMode} {inp : Bytes} {cols0 cols : Cols}

theorem step_bounds {lo hi : Int}
    (hb : ∀ c : Int16, (c = 0 ∨ ∃ x y, d.connection x y = some c) → ∀ m, m ∈ Morph.zero :: d.morphs ++ d.unk.morphs →
      -lo ≤ c.toInt + m.weight.toInt ∧ c.toInt + m.weight.toInt ≤ hi) (a b : Word) :
    -lo ≤ connect d a b + (morphOfWord d b).weight.toInt ∧ connect d a b + (morphOfWord d b).weight.toInt ≤ hi := by
  have hm := morphOfWord_mem d b
  have h0 := hb 0 (Or.inl rfl) _ hm
  unfold connect
  split
  · simpa using h0
  · split
    · rename_i c hc
      exact hb c (Or.inr ⟨_, _, hc⟩) _ hm
    · simpa using h0

/-- The column of a node is its start plus its length (not EOS). -/
theorem Solved.column (h : Solved d u ideo m inp cols0 cols) {i j : Nat} {n : Node}
    (hi : i ≤ runeCount inp) (hn : getNode cols i j = some n) : i = n.start + runeCount n.surface := by
  by_cases h1 : 1 ≤ i
  · obtain ⟨k, pos, rest, w, hat, hw, hik, hsk⟩ := h.weak_mid h1 hi hn
    have e1 : n.start = k := by have := congrArg Node.start hsk; exact this
    have e2 : n.surface = w.surface := by have := congrArg Node.surface hsk; exact this
    rw [e1, e2]; exact hik
  · have : i = 0 := by omega
    subst this
    obtain ⟨_, rfl⟩ := h.bos_node hn
    rfl

/-- What `Forward` establishes at node `n` of column `i` when costs fit. -/
structure Best (d : Dict) (ideo : Nat → Bool) (m : LMode) (cols : Cols) (lo hi : Int) (i j : Nat) (n : Node) : Prop where
  lower : -(lo * i) ≤ n.cost
  upper : n.cost ≤ hi * i + 3000 * n.start
  pred : 1 ≤ i → ∃ j' p, n.prev = some (n.start, j') ∧ getNode cols n.start j' = some p ∧ Reach cols n.start j' ∧
    n.cost = p.cost + stepCost d ideo m (wordOf p) (wordOf n)
  opt : 1 ≤ i → ∀ j' q, getNode cols n.start j' = some q → Reach cols n.start j' →
    n.cost ≤ q.cost + stepCost d ideo m (wordOf q) (wordOf n)

theorem best (wf : WellFormed d u) (h : Solved d u ideo m inp cols0 cols) {lo hi : Int} (hlo : 0 ≤ lo) (hhi : 0 ≤ hi)
    (hb : ∀ c : Int16, (c = 0 ∨ ∃ x y, d.connection x y = some c) → ∀ m, m ∈ Morph.zero :: d.morphs ++ d.unk.morphs →
      -lo ≤ c.toInt + m.weight.toInt ∧ c.toInt + m.weight.toInt ≤ hi)
    (hfit : ((runeCount inp : Int) + 1) * (lo + hi + 3000) < 2147483647) (i : Nat) :
    ∀ j n, getNode cols i j = some n →
      (Reach cols i j → Best d ideo m cols lo hi i j n) ∧
      (¬ Reach cols i j → 2147483647 - lo * i ≤ n.cost ∧ n.cost ≤ 2147483647) := by
  induction i using Nat.strongRecOn with
  | _ i ih =>
    intro j n hn
    have hiN : i ≤ runeCount inp + 1 := by
      have h1 := h.len
      unfold getNode at hn
      cases hc : cols[i]? with
      | none => simp [hc] at hn
      | some c =>
        have := (List.getElem?_eq_some_iff.mp hc).1
        omega
    by_cases hi1 : 1 ≤ i
    · obtain ⟨hst, heq⟩ := h.eqn wf hi1 hn
      -- arithmetic facts
      have hnn : (0 : Int) ≤ n.start := Int.natCast_nonneg _
      have f1 : lo * ((n.start : Int) + 1) ≤ lo * i := Int.mul_le_mul_of_nonneg_left (by omega) hlo
      have f2 : hi * ((n.start : Int) + 1) ≤ hi * i := Int.mul_le_mul_of_nonneg_left (by omega) hhi
      have f3 : (lo + hi + 3000) * (i : Int) ≤ (lo + hi + 3000) * ((runeCount inp : Int) + 1) :=
        Int.mul_le_mul_of_nonneg_left (by omega) (by omega)
      have f4 : 0 ≤ lo * (i : Int) := Int.mul_nonneg hlo (by omega)
      have f5 : 0 ≤ hi * (i : Int) := Int.mul_nonneg hhi (by omega)
      have f6 : 0 ≤ lo * (n.start : Int) := Int.mul_nonneg hlo (by omega)
      rw [Int.mul_comm (lo + hi + 3000) ((runeCount inp : Int) + 1)] at f3
      simp only [Int.mul_add, Int.add_mul, Int.mul_one] at f1 f2 f3 hfit
      have htn := h.table wf hn
      -- the step into `n` from a node of its predecessor column
      have hstep : ∀ j' p, getNode cols n.start j' = some p →
          -lo ≤ stepCost d ideo m (wordOf p) (wordOf n) ∧
          stepCost d ideo m (wordOf p) (wordOf n) ≤ hi + 3000 * ((n.start : Int) - p.start) ∧
          candCost d ideo m p n = int32 (min maximumCost (p.cost + stepCost d ideo m (wordOf p) (wordOf n))) := by
        intro j' p hp
        have hcol := h.column (i := n.start) (by omega) hp
        have h1 := step_bounds hb (wordOf p) (wordOf n)
        have h2 := penalty_bounds ideo (wordOf p)
        change 0 ≤ _ ∧ _ ≤ 3000 * (runeCount p.surface : Int) at h2
        have h3 := totalCost_eq (m := m) (ideo := ideo) wf (h.table wf hp) htn
        refine ⟨?_, ?_, h3⟩
        · unfold stepCost; split <;> omega
        · unfold stepCost; split <;> omega
      have hreach : ∀ j' p, getNode cols n.start j' = some p → Reach cols n.start j' →
          candCost d ideo m p n = p.cost + stepCost d ideo m (wordOf p) (wordOf n) ∧
          -(lo * i) ≤ p.cost + stepCost d ideo m (wordOf p) (wordOf n) ∧
          p.cost + stepCost d ideo m (wordOf p) (wordOf n) ≤ hi * i + 3000 * n.start := by
        intro j' p hp hr
        obtain ⟨s1, s2, s3⟩ := hstep j' p hp
        have hbst := (ih n.start hst j' p hp).1 hr
        have b1 := hbst.lower
        have b2 := hbst.upper
        generalize stepCost d ideo m (wordOf p) (wordOf n) = v at *
        have l1 : -(lo * i) ≤ p.cost + v := by omega
        have l2 : p.cost + v ≤ hi * i + 3000 * n.start := by omega
        refine ⟨?_, l1, l2⟩
        rw [s3, int32_id]
        · unfold maximumCost; omega
        · unfold maximumCost; omega
        · unfold maximumCost; omega
      have hunreach : ∀ j' p, getNode cols n.start j' = some p → ¬ Reach cols n.start j' →
          2147483647 - lo * i ≤ candCost d ideo m p n ∧ candCost d ideo m p n ≤ 2147483647 := by
        intro j' p hp hr
        obtain ⟨s1, s2, s3⟩ := hstep j' p hp
        have hbst := (ih n.start hst j' p hp).2 hr
        generalize stepCost d ideo m (wordOf p) (wordOf n) = v at *
        rw [s3, int32_id]
        · unfold maximumCost; omega
        · unfold maximumCost; omega
        · unfold maximumCost; omega
      constructor
      · intro hr
        -- some predecessor is connected
        obtain ⟨j0, q0, hq0, hr0⟩ : ∃ j0 q0, getNode cols n.start j0 = some q0 ∧ Reach cols n.start j0 := by
          cases hr with
          | bos => omega
          | step _ hn' hp hr =>
            rw [hn] at hn'
            simp only [Option.some.injEq] at hn'
            subst hn'
            exact ⟨_, _, hp, hr⟩
        rcases heq with ⟨he, _, _⟩ | ⟨j', p, hp, hprev, hcost, hmin⟩
        · unfold getNode at hq0; rw [he] at hq0; simp at hq0
        · have hq := hreach j0 q0 hq0 hr0
          have hle := hmin j0 q0 hq0
          have hpr : Reach cols n.start j' := by
            apply Classical.byContradiction
            intro hnr
            have := hunreach j' p hp hnr
            omega
          have hpc := hreach j' p hp hpr
          refine ⟨by omega, by omega, fun _ => ⟨j', p, hprev, hp, hpr, by omega⟩, ?_⟩
          intro _ j'' q hq' hr'
          have h1 := hmin j'' q hq'
          have h2 := hreach j'' q hq' hr'
          omega
      · intro hnr
        rcases heq with ⟨_, _, hc⟩ | ⟨j', p, hp, hprev, hcost, hmin⟩
        · rw [hc]; unfold maximumCost; omega
        · have hpn : ¬ Reach cols n.start j' := fun hr => hnr (Reach.step hi1 hn hp hr)
          have := hunreach j' p hp hpn
          omega
    · have : i = 0 := by omega
      subst this
      obtain ⟨rfl, rfl⟩ := h.bos_node hn
      constructor
      · intro _
        refine ⟨by simp [bosNode, newNode], by simp [bosNode, newNode], fun h => by omega, fun h => by omega⟩
      · intro hnr
        exact absurd Reach.bos hnr

theorem chainCost_snoc (d : Dict) (ideo : Nat → Bool) (m : LMode) (xs : List Word) (a b : Word) :
    chainCost d ideo m (xs ++ [a, b]) = chainCost d ideo m (xs ++ [a]) + stepCost d ideo m a b := by
  induction xs with
  | nil => simp [chainCost]
  | cons x xs ih =>
    cases xs with
    | nil => simp [chainCost]
    | cons y ys =>
      simp only [List.cons_append, chainCost] at ih ⊢
      rw [ih]; omega

/-- A chain from a connected node goes back to BOS and its cost is the cost stored in the node. -/
theorem prevChain_cost {lo hi : Int} (h : Solved d u ideo m inp cols0 cols)
    (hbest : ∀ i j n, getNode cols i j = some n → Reach cols i j → Best d ideo m cols lo hi i j n)
    {i j : Nat} {L : List Node} (hL : PrevChain cols i j L) (hr : Reach cols i j) :
    L.getLast? = some bosNode ∧ ∃ n L', L = n :: L' ∧ getNode cols i j = some n ∧
      n.cost = chainCost d ideo m (L.reverse.map wordOf) := by
  induction hL with
  | @last i j n hn hp =>
    by_cases hi : 1 ≤ i
    · obtain ⟨j', p, hprev, _⟩ := (hbest i j n hn hr).pred hi
      rw [hp] at hprev; simp at hprev
    · have : i = 0 := by omega
      subst this
      obtain ⟨rfl, rfl⟩ := h.bos_node hn
      exact ⟨rfl, bosNode, [], rfl, hn, rfl⟩
  | @step i j i' j' n L hn hp hL ih =>
    have hi : 1 ≤ i := by
      apply Decidable.byContradiction
      intro hcon
      have : i = 0 := by omega
      subst this
      obtain ⟨rfl, rfl⟩ := h.bos_node hn
      simp [bosNode, newNode] at hp
    obtain ⟨j'', p, hprev, hpn, hpr, hcost⟩ := (hbest i j n hn hr).pred hi
    rw [hp] at hprev
    simp only [Option.some.injEq, Prod.mk.injEq] at hprev
    obtain ⟨rfl, rfl⟩ := hprev
    obtain ⟨hlast, p', L', rfl, hp', hpc⟩ := ih hpr
    rw [hpn] at hp'
    simp only [Option.some.injEq] at hp'
    subst hp'
    refine ⟨by simpa using hlast, n, _, rfl, hn, ?_⟩
    rw [hcost, hpc]
    simp only [List.reverse_cons, List.map_append, List.map_cons, List.map_nil, List.append_assoc, List.cons_append,
      List.nil_append]
    rw [chainCost_snoc]

/-- EOS. -/
theorem Solved.eos (h : Solved d u ideo m inp cols0 cols) :
    ∃ e, getNode cols (runeCount inp + 1) 0 = some e ∧ skel e = eosNode inp := by
  have := h.col (runeCount inp + 1) (by omega) _ h.lat.eos
  refine ⟨_, by unfold getNode; rw [this]; rfl, ?_⟩
  rw [skel_solve1]; rfl

/-- The node of a candidate exists in the solved lattice. -/
theorem Solved.cand (wf : WellFormed d u) (h : Solved d u ideo m inp cols0 cols) (hl : Lat d u inp cols0) {k pos : Nat} {rest : Bytes}
    (hat : At inp k pos rest) {w : Word} (hw : Candidate d u rest w) :
    ∃ j n, getNode cols (k + runeCount w.surface) j = some n ∧ skel n = mkNode d w.cls w.id pos k w.surface := by
  have hr := cand_range hat (cand_ok wf hw)
  obtain ⟨c, hc, hmem⟩ := hl.mid _ hr.1 hr.2
  obtain ⟨j, hj⟩ := List.getElem?_of_mem ((hmem _).mpr ⟨k, pos, rest, w, hat, hw, rfl, rfl⟩)
  have := h.col _ hr.1 _ hc
  refine ⟨j, solve1 d ideo m cols (mkNode d w.cls w.id pos k w.surface), ?_, ?_⟩
  · unfold getNode; rw [this]; simp [hj]
  · rw [skel_solve1]; rfl

theorem wordOf_skel {n n' : Node} (h : skel n = skel n') : wordOf n = wordOf n' := by
  obtain ⟨a, b, c, e, f, g, h1, i, j, k⟩ := n
  obtain ⟨a', b', c', e', f', g', h1', i', j', k'⟩ := n'
  simp only [skel, Node.mk.injEq] at h
  obtain ⟨rfl, rfl, rfl, rfl, _, rfl, rfl, rfl, rfl, _⟩ := h
  rfl

/-- Any analysis of the remaining text continues a connected node to EOS, at no less cost than EOS has. -/
theorem eos_le (wf : WellFormed d u) (h : Solved d u ideo m inp cols0 cols) (hl : Lat d u inp cols0) {rest : Bytes} {ws : List Word}
    (ha : Analysis d u rest ws) : ∀ {k pos j : Nat} {n : Node}, At inp k pos rest → getNode cols k j = some n → Reach cols k j →
    Reach cols (runeCount inp + 1) 0 ∧
    ∀ {lo hi : Int}, (∀ i j n, getNode cols i j = some n → Reach cols i j → Best d ideo m cols lo hi i j n) →
      ∀ e, getNode cols (runeCount inp + 1) 0 = some e →
        e.cost ≤ n.cost + chainCost d ideo m (wordOf n :: ws ++ [boundary]) := by
  induction ha with
  | nil =>
    intro k pos j n hat hn hr
    have hk : k = runeCount inp := by
      have := at_count hat
      simpa using this
    subst hk
    obtain ⟨e, he, hske⟩ := h.eos
    have hest : e.start = runeCount inp := by have := congrArg Node.start hske; exact this
    have hr' : Reach cols (runeCount inp + 1) 0 := Reach.step (by omega) he (by rw [hest]; exact hn) (by rw [hest]; exact hr)
    refine ⟨hr', ?_⟩
    intro lo hi hbest e' he'
    rw [he] at he'
    simp only [Option.some.injEq] at he'
    subst he'
    have := (hbest _ _ _ he hr').opt (by omega) j n (by rw [hest]; exact hn) (by rw [hest]; exact hr)
    have hw : wordOf e = boundary := by
      have : wordOf e = wordOf (eosNode inp) := wordOf_skel (by rw [hske]; rfl)
      rw [this]; rfl
    rw [hw] at this
    simpa [chainCost] using this
  | cons w rest ws hw ha ih =>
    intro k pos j n hat hn hr
    obtain ⟨j', n', hn', hsk⟩ := h.cand wf hl hat hw
    have hst : n'.start = k := by have := congrArg Node.start hsk; exact this
    have hcnt := (cand_ok wf hw).cnt
    have hr' : Reach cols (k + runeCount w.surface) j' :=
      Reach.step (by omega) hn' (by rw [hst]; exact hn) (by rw [hst]; exact hr)
    have hat' := at_step hat (cand_ok wf hw)
    rw [List.drop_left] at hat'
    obtain ⟨r1, r2⟩ := ih hat' hn' hr'
    refine ⟨r1, ?_⟩
    intro lo hi hbest e he
    have h1 := r2 hbest e he
    have h2 := (hbest _ _ _ hn' hr').opt (by omega) j n (by rw [hst]; exact hn) (by rw [hst]; exact hr)
    have hwd : wordOf n' = w := by
      have : wordOf n' = wordOf (mkNode d w.cls w.id pos k w.surface) := wordOf_skel (by rw [hsk]; rfl)
      rw [this]; rfl
    rw [hwd] at h1 h2
    simp only [List.cons_append, chainCost] at h1 ⊢
    omega

theorem analysis_exists (wf : WellFormed d u) (s : Bytes) : ∃ ws, Analysis d u s ws := by
  induction h : s.length using Nat.strongRecOn generalizing s with
  | _ n ih =>
    by_cases hs : s = []
    · subst hs; exact ⟨[], Analysis.nil⟩
    · obtain ⟨w, hw⟩ := cand_exists wf hs
      have hok := cand_ok wf hw
      have hlen : 1 ≤ w.surface.length := by
        have h1 := hok.cnt
        have h2 := runeCount_le_length w.surface
        omega
      have hl : w.surface.length ≤ s.length := by
        have := congrArg List.length hok.app
        simp only [List.length_append] at this
        omega
      obtain ⟨ws, hws⟩ := ih (s.drop w.surface.length).length (by simp; omega) _ rfl
      have happ := hok.app
      generalize s.drop w.surface.length = r at *
      subst happ
      exact ⟨w :: ws, Analysis.cons w _ ws hw hws⟩

end

end Kagome
