import Verif.Spec.FilterChain
import Verif.Props.FilterExact

/-! C59: filters applied one after the other. -/

namespace Kagome

open Spec

/-- One call leaves the tokens that stay, in their order, at the front of the same array. -/
theorem filterCall_spec (c : FilterCall) {arr : List Token} {len : Nat} (hl : len ≤ arr.length)
    (h : ∀ t ∈ arr.take len, (tokenPOS t).isSome) :
    ∃ (p : Token → Bool) (arr' : List Token) (n : Nat), (∀ t, p t = true ↔ Stays t.surface (posOf t) c) ∧
      (∀ cs, runFilters (c :: cs) (arr, len) = runFilters cs (arr', n)) ∧
      arr'.take n = (arr.take len).filter p ∧ n ≤ len ∧ arr'.length = arr.length ∧ arr'.drop n = arr.drop n := by
  cases c with
  | wordDrop ws =>
    obtain ⟨⟨a, n, e, h1, h2, _, h4, h5⟩, _⟩ := C29_word (newWordFilter ws) hl
    refine ⟨_, a, n, ?_, ?_, h1, h2, h4, h5⟩
    · intro t
      simp only [decide_eq_true_eq, Stays, ← C28_words ws t.surface]
      simp
    · intro cs; rw [runFilters]; simp only [e]
  | wordKeep ws =>
    obtain ⟨_, ⟨a, n, e, h1, h2, _, h4, h5⟩⟩ := C29_word (newWordFilter ws) hl
    refine ⟨_, a, n, ?_, ?_, h1, h2, h4, h5⟩
    · intro t
      simp only [decide_eq_true_eq, Stays, ← C28_words ws t.surface]
    · intro cs; rw [runFilters]; simp only [e]
  | posDrop ps =>
    obtain ⟨⟨a, n, e, h1, h2, _, h4, h5⟩, _⟩ := C29_pos (newFeaturesFilter ps) hl h
    refine ⟨_, a, n, ?_, ?_, h1, h2, h4, h5⟩
    · intro t
      simp only [decide_eq_true_eq, Stays, ← C26_exact ps]
      simp
    · intro cs; rw [runFilters]; simp only [e]
  | posKeep ps =>
    obtain ⟨_, ⟨a, n, e, h1, h2, _, h4, h5⟩⟩ := C29_pos (newFeaturesFilter ps) hl h
    refine ⟨_, a, n, ?_, ?_, h1, h2, h4, h5⟩
    · intro t
      simp only [decide_eq_true_eq, Stays, ← C26_exact ps]
    · intro cs; rw [runFilters]; simp only [e]

open Classical in
/-- C59: any number of word and POS filters in a row leave exactly the tokens that every one of them lets stay, in their order. The
slice never grows, and the cells of its array beyond the old length are never written. -/
theorem C59_chain (cs : List FilterCall) {arr : List Token} {len : Nat} (hl : len ≤ arr.length)
    (h : ∀ t ∈ arr.take len, (tokenPOS t).isSome) :
    ∃ arr' n, runFilters cs (arr, len) = some (arr', n) ∧
      arr'.take n = (arr.take len).filter (fun t => decide (∀ c ∈ cs, Stays t.surface (posOf t) c)) ∧
      n ≤ len ∧ arr'.length = arr.length ∧ arr'.drop len = arr.drop len := by
  induction cs generalizing arr len with
  | nil =>
    refine ⟨arr, len, rfl, ?_, Nat.le_refl _, rfl, rfl⟩
    rw [List.filter_eq_self.mpr]
    simp
  | cons c cs ih =>
    obtain ⟨p, a1, n1, hp, e1, h1, h2, h4, h5⟩ := filterCall_spec c hl h
    obtain ⟨a2, n2, e2, g1, g2, g3, g4⟩ := ih (arr := a1) (len := n1) (by omega) (by
      intro t ht
      rw [h1] at ht
      exact h t (List.mem_filter.mp ht).1)
    refine ⟨a2, n2, by rw [e1, e2], ?_, by omega, by omega, ?_⟩
    · rw [g1, h1, List.filter_filter]
      congr 1
      funext t
      rw [Bool.eq_iff_iff]
      simp only [Bool.and_eq_true, decide_eq_true_eq, hp, List.mem_cons, forall_eq_or_imp]
      exact And.comm
    · have : ∀ (l : List Token), l.drop len = (l.drop n1).drop (len - n1) := by
        intro l; rw [List.drop_drop]; congr 1; omega
      rw [this arr, ← h5, ← this a1]
      have : ∀ (l : List Token), l.drop len = (l.drop n1).drop (len - n1) := by
        intro l; rw [List.drop_drop]; congr 1; omega
      rw [this a2, this a1, g4]

/-- C59: neither the order of the filters nor repeating one of them makes a difference to the tokens that are left. -/
theorem C59_order {cs cs' : List FilterCall} (hs : ∀ c, c ∈ cs ↔ c ∈ cs')
    {arr : List Token} {len : Nat} (hl : len ≤ arr.length) (h : ∀ t ∈ arr.take len, (tokenPOS t).isSome) :
    ∃ a a' n, runFilters cs (arr, len) = some (a, n) ∧ runFilters cs' (arr, len) = some (a', n) ∧ a.take n = a'.take n := by
  obtain ⟨a, n, e, h1, h2, h3, _⟩ := C59_chain cs hl h
  obtain ⟨a', n', e', g1, g2, g3, _⟩ := C59_chain cs' hl h
  have hf : a.take n = a'.take n' := by
    rw [h1, g1]
    congr 1
    funext t
    exact decide_eq_decide.mpr ⟨fun g c hm => g c ((hs c).mpr hm), fun g c hm => g c ((hs c).mp hm)⟩
  have hn : n = n' := by
    have := congrArg List.length hf
    rw [List.length_take, List.length_take] at this
    omega
  subst hn
  exact ⟨a, a', n, e, e', hf⟩

/-- C59: dropping some words and then others is dropping all of them; keeping some and then others is keeping those in both lists. -/
theorem C59_words (ws vs us : List Bytes) (hu : ∀ w, w ∈ us ↔ w ∈ ws ∧ w ∈ vs) {arr : List Token} {len : Nat} (hl : len ≤ arr.length)
    (h : ∀ t ∈ arr.take len, (tokenPOS t).isSome) :
    (∃ a a' n, runFilters [.wordDrop ws, .wordDrop vs] (arr, len) = some (a, n) ∧ runFilters [.wordDrop (ws ++ vs)] (arr, len) = some (a', n) ∧
      a.take n = a'.take n) ∧
    (∃ a a' n, runFilters [.wordKeep ws, .wordKeep vs] (arr, len) = some (a, n) ∧ runFilters [.wordKeep us] (arr, len) = some (a', n) ∧
      a.take n = a'.take n) := by
  have key : ∀ (cs cs' : List FilterCall),
      (∀ t : Token, (∀ c ∈ cs, Stays t.surface (posOf t) c) ↔ (∀ c ∈ cs', Stays t.surface (posOf t) c)) →
      ∃ a a' n, runFilters cs (arr, len) = some (a, n) ∧ runFilters cs' (arr, len) = some (a', n) ∧ a.take n = a'.take n := by
    intro cs cs' hs
    obtain ⟨a, n, e, h1, h2, h3, _⟩ := C59_chain cs hl h
    obtain ⟨a', n', e', g1, g2, g3, _⟩ := C59_chain cs' hl h
    have hf : a.take n = a'.take n' := by
      rw [h1, g1]
      congr 1
      funext t
      exact decide_eq_decide.mpr (hs t)
    have hn : n = n' := by
      have := congrArg List.length hf
      rw [List.length_take, List.length_take] at this
      omega
    subst hn
    exact ⟨a, a', n, e, e', hf⟩
  refine ⟨key _ _ ?_, key _ _ ?_⟩
  · intro t; simp [Stays, not_or]
  · intro t; simp [Stays, hu]

open Classical in
/-- C59: `Drop` and `Keep` of the same filter share the tokens out: every token of the slice is left by exactly one of the two. -/
theorem C59_share (ps : List (List Bytes)) (ws : List Bytes) {arr : List Token} {len : Nat} (hl : len ≤ arr.length)
    (h : ∀ t ∈ arr.take len, (tokenPOS t).isSome) :
    (∃ a n b m, runFilters [.posDrop ps] (arr, len) = some (a, n) ∧ runFilters [.posKeep ps] (arr, len) = some (b, m) ∧
      n + m = len ∧ (a.take n ++ b.take m).Perm (arr.take len)) ∧
    (∃ a n b m, runFilters [.wordDrop ws] (arr, len) = some (a, n) ∧ runFilters [.wordKeep ws] (arr, len) = some (b, m) ∧
      n + m = len ∧ (a.take n ++ b.take m).Perm (arr.take len)) := by
  have key : ∀ (c c' : FilterCall),
      (∀ t : Token, Stays t.surface (posOf t) c ↔ ¬ Stays t.surface (posOf t) c') →
      ∃ a n b m, runFilters [c] (arr, len) = some (a, n) ∧ runFilters [c'] (arr, len) = some (b, m) ∧
      n + m = len ∧ (a.take n ++ b.take m).Perm (arr.take len) := by
    intro c c' hs
    obtain ⟨a, n, e, h1, h2, h3, _⟩ := C59_chain [c] hl h
    obtain ⟨b, m, e', g1, g2, g3, _⟩ := C59_chain [c'] hl h
    have hp : (a.take n ++ b.take m).Perm (arr.take len) := by
      rw [h1, g1]
      have : (fun t : Token => decide (∀ x ∈ [c], Stays t.surface (posOf t) x)) =
          fun t => !(decide (∀ x ∈ [c'], Stays t.surface (posOf t) x)) := by
        funext t
        rw [Bool.eq_iff_iff]
        simp [hs]
      rw [this]
      exact (List.perm_append_comm).trans (List.filter_append_perm _ _)
    refine ⟨a, n, b, m, e, e', ?_, hp⟩
    have := hp.length_eq
    rw [List.length_append, List.length_take, List.length_take, List.length_take] at this
    omega
  refine ⟨key _ _ ?_, key _ _ ?_⟩
  · intro t; simp [Stays]
  · intro t; simp [Stays]

/-- Three filters on the first three cells of an array of four: the premises hold, and either order leaves
the one token that stays through all three. -/
example : (∀ t ∈ Toy.slice.take 3, (tokenPOS t).isSome) ∧
    (runFilters [.wordDrop [str "の"], .posKeep [[str "助詞"]], .wordKeep [str "も", str "の"]] (Toy.slice, 3)).map
      (fun r => (r.1.map (·.surface), r.2)) = some ([str "も", str "も", str "も", str "うち"], 1) ∧
    (runFilters [.wordKeep [str "も", str "の"], .posKeep [[str "助詞"]], .wordDrop [str "の"]] (Toy.slice, 3)).map
      (fun r => (r.1.map (·.surface), r.2)) = some ([str "も", str "も", str "も", str "うち"], 1) := by
  refine ⟨by decide +kernel, by decide +kernel, by decide +kernel⟩

end Kagome
