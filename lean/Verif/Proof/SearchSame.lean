import Verif.Props.Modes
import Verif.Proof.First

/-! Where the best path of Normal mode has no long word, Search mode takes the same path. -/

namespace Kagome

open Spec

section
variable {d : Dict} {u : Option UserDict} {ideo : Nat → Bool} {inp : Bytes} {cols0 colsN colsS : Cols}

/-- The same node in two solved lattices. -/
theorem Solved.twin {m m' : LMode} {cols cols' : Cols} (h : Solved d u ideo m inp cols0 cols) (h' : Solved d u ideo m' inp cols0 cols') {i j : Nat} {n : Node}
    (hn : getNode cols i j = some n) : ∃ n', getNode cols' i j = some n' ∧ skel n' = skel n := by
  by_cases hi : 1 ≤ i
  · obtain ⟨c, t, hc, ht, rfl⟩ := h.node hi hn
    refine ⟨solve1 d ideo m' cols' t, ?_, by rw [skel_solve1, skel_solve1]⟩
    unfold getNode
    rw [h'.col i hi c hc]
    simp [ht]
  · have : i = 0 := by omega
    subst this
    obtain ⟨rfl, rfl⟩ := h.bos_node hn
    exact ⟨bosNode, h'.get_bos, rfl⟩

/-- Costs of Search mode are not below those of Normal mode. -/
theorem cost_mono (wf : WellFormed d u) (hf : Fits d (runeCount inp)) (hN : Solved d u ideo .normal inp cols0 colsN) (hS : Solved d u ideo .search inp cols0 colsS)
    (i : Nat) : ∀ j n s, getNode colsN i j = some n → getNode colsS i j = some s → n.cost ≤ s.cost := by
  induction i using Nat.strongRecOn with
  | ind i ih =>
    intro j n s hn hs
    by_cases hi : 1 ≤ i
    · obtain ⟨s', hs', hsk⟩ := hN.twin hS hn
      rw [hs] at hs'
      simp only [Option.some.injEq] at hs'
      subst hs'
      have hst := start_of_skel hsk
      obtain ⟨hlt, hcN⟩ := hN.eqn wf hi hn
      obtain ⟨_, hcS⟩ := hS.eqn wf hi hs
      rcases hcS with ⟨_, _, e⟩ | ⟨j', p, hp, _, e, _⟩
      · rw [e]
        rcases hcN with ⟨_, _, e'⟩ | ⟨j', p, hp, _, e', _⟩
        · rw [e']; exact Int.le_refl _
        · rw [e', cand_exact wf hf hN hi hn hp]
          exact Int.min_le_left ..
      · rw [hst] at hp
        obtain ⟨q, hq, hqk⟩ := hS.twin hN hp
        have hmono := ih n.start hlt j' q p hq hp
        have hle : n.cost ≤ candCost d ideo .normal q n := by
          rcases hcN with ⟨he, _, _⟩ | ⟨_, _, _, _, _, hmin⟩
          · unfold getNode at hq
            rw [he] at hq
            simp at hq
          · exact hmin j' q hq
        refine Int.le_trans hle ?_
        rw [e, cand_exact wf hf hN hi hn hq, cand_exact wf hf hS hi hs (by rw [hst]; exact hp), wordOf_skel hqk, wordOf_skel hsk]
        have hpen := (penalty_bounds ideo (wordOf p)).1
        unfold stepCost
        simp only [if_true, reduceCtorEq, if_false]
        omega
    · have : i = 0 := by omega
      subst this
      obtain ⟨_, rfl⟩ := hN.bos_node hn
      obtain ⟨_, rfl⟩ := hS.bos_node hs
      exact Int.le_refl _

/-- Along the best path of Normal mode, if no word on it is penalised, both modes agree. -/
theorem path_same (wf : WellFormed d u) (hf : Fits d (runeCount inp)) (hN : Solved d u ideo .normal inp cols0 colsN) (hS : Solved d u ideo .search inp cols0 colsS)
    {i j : Nat} {L : List Node} (hL : PrevChain colsN i j L) (hpen : ∀ n ∈ L, penalty ideo (wordOf n) = 0) :
    ∃ L', PrevChain colsS i j L' ∧ L'.map skel = L.map skel ∧ ∀ n s, getNode colsN i j = some n → getNode colsS i j = some s → n.cost = s.cost := by
  induction hL with
  | @last i j n hn hp =>
    obtain ⟨s, hs, hsk⟩ := hN.twin hS hn
    by_cases hi : 1 ≤ i
    · have hst := start_of_skel hsk
      obtain ⟨hlt, hcN⟩ := hN.eqn wf hi hn
      obtain ⟨_, hcS⟩ := hS.eqn wf hi hs
      rcases hcN with ⟨he, _, e'⟩ | ⟨j', p, hp', e, _⟩
      · rcases hcS with ⟨_, hpS, e⟩ | ⟨j', p, hp', _⟩
        · refine ⟨[s], PrevChain.last hs hpS, by simp [hsk], ?_⟩
          intro n' s' hn' hs'
          rw [hn] at hn'
          rw [hs] at hs'
          simp only [Option.some.injEq] at hn' hs'
          subst hn'
          subst hs'
          rw [e, e']
        · rw [hst] at hp'
          obtain ⟨q, hq, _⟩ := hS.twin hN hp'
          unfold getNode at hq
          rw [he] at hq
          simp at hq
      · rw [hp] at e; cases e
    · have : i = 0 := by omega
      subst this
      obtain ⟨_, rfl⟩ := hN.bos_node hn
      obtain ⟨_, rfl⟩ := hS.bos_node hs
      refine ⟨[bosNode], PrevChain.last hs rfl, rfl, ?_⟩
      intro n' s' hn' hs'
      rw [hn] at hn'
      rw [hs] at hs'
      simp only [Option.some.injEq] at hn' hs'
      rw [← hn', ← hs']
  | @step i j i' j' n L hn hprev hL ih =>
    obtain ⟨L', hL', hLs, hcost⟩ := ih (fun x hx => hpen x (by simp [hx]))
    obtain ⟨s, hs, hsk⟩ := hN.twin hS hn
    have hi : 1 ≤ i := by
      apply Classical.byContradiction
      intro hi
      have : i = 0 := by omega
      subst this
      obtain ⟨_, rfl⟩ := hN.bos_node hn
      cases hprev
    have hst := start_of_skel hsk
    obtain ⟨hlt, hcN⟩ := hN.first wf hi hn
    obtain ⟨_, hcS⟩ := hS.first wf hi hs
    rcases hcN with ⟨_, e, _⟩ | ⟨jN, p, hp, ePrev, eCost, hminN, hfirstN⟩
    · rw [hprev] at e; cases e
    rw [hprev] at ePrev
    simp only [Option.some.injEq, Prod.mk.injEq] at ePrev
    obtain ⟨rfl, rfl⟩ := ePrev
    obtain ⟨p', hp', hpk⟩ := hN.twin hS hp
    have hpc := hcost p p' hp hp'
    have hpL : p ∈ L := by
      cases hL with
      | last hn' _ => rw [hp] at hn'; simp only [Option.some.injEq] at hn'; simp [hn']
      | step hn' _ _ => rw [hp] at hn'; simp only [Option.some.injEq] at hn'; simp [hn']
    have hpen0 : penalty ideo (wordOf p) = 0 := hpen p (by simp [hpL])
    -- the chosen predecessor costs the same in both modes
    have hsame : candCost d ideo .search p' s = n.cost := by
      rw [eCost, cand_exact wf hf hN hi hn hp, cand_exact wf hf hS hi hs (by rw [hst]; exact hp'), wordOf_skel hpk, wordOf_skel hsk, hpc]
      unfold stepCost
      simp only [if_true, reduceCtorEq, if_false, hpen0]
    -- the others cost at least as much
    have hother : ∀ j q q', getNode colsN n.start j = some q → getNode colsS n.start j = some q' → candCost d ideo .normal q n ≤ candCost d ideo .search q' s := by
      intro j q q' hq hq'
      obtain ⟨q2, hq2, hqk⟩ := hN.twin hS hq
      rw [hq'] at hq2
      simp only [Option.some.injEq] at hq2
      subst hq2
      have hm := cost_mono wf hf hN hS _ j q q' hq hq'
      rw [cand_exact wf hf hN hi hn hq, cand_exact wf hf hS hi hs (by rw [hst]; exact hq'), wordOf_skel hqk, wordOf_skel hsk]
      have hpen := (penalty_bounds ideo (wordOf q)).1
      unfold stepCost
      simp only [if_true, reduceCtorEq, if_false]
      omega
    rcases hcS with ⟨he, _, _⟩ | ⟨jS, pS, hpS, sPrev, sCost, hminS, hfirstS⟩
    · rw [hst] at he
      unfold getNode at hp'
      rw [he] at hp'
      simp at hp'
    rw [hst] at hpS sPrev
    simp only [hst] at hminS hfirstS
    obtain ⟨q, hq, _⟩ := hS.twin hN hpS
    have hjj : jS = j' := by
      rcases Nat.lt_trichotomy jS j' with hlt' | heq | hgt
      · have h1 := hfirstN jS q hlt' hq
        have h2 := hother jS q pS hq hpS
        have h3 := hminS j' p' hp'
        rw [hsame] at h3
        rw [← sCost] at h2
        omega
      · exact heq
      · have h1 := hfirstS j' p' hgt hp'
        rw [hsame, sCost] at h1
        have h2 := hother jS q pS hq hpS
        have h3 := hminN jS q hq
        omega
    subst hjj
    rw [hpS] at hp'
    simp only [Option.some.injEq] at hp'
    subst hp'
    refine ⟨s :: L', PrevChain.step hs sPrev hL', by simp [hsk, hLs], ?_⟩
    intro n' s' hn' hs'
    rw [hn] at hn'
    rw [hs] at hs'
    simp only [Option.some.injEq] at hn' hs'
    subst hn'
    subst hs'
    rw [sCost, hsame]

end

end Kagome
