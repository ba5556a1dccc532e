import Verif.Props.Segmentation
import Verif.Example.Tie

/-! C58: which of several cheapest analyses is the result. -/

namespace Kagome

open Spec

variable {t : Tokenizer} {ideo : Nat → Bool} {inp : Bytes} {mode : Int} {toks : List Token}

/-- C58: the words offered are the words that may stand there. -/
theorem C58_offers {d : Dict} {u : Option UserDict} {s : Bytes} (hs : s ≠ []) (w : Word) : w ∈ offers d u s ↔ Candidate d u s w := by
  unfold offers
  by_cases hu : userEntries u s = []
  · rw [if_neg (fun h => h hu), List.mem_append]
    constructor
    · rintro (h | h)
      · obtain ⟨e, he, rfl⟩ := List.mem_map.mp h
        exact Candidate.known e.1 e.2 hu he
      · split at h
        · rename_i hk
          obtain ⟨x, hx, h⟩ := List.mem_flatMap.mp h
          rw [List.mem_range] at hx
          unfold unknownOffers at h
          rcases List.mem_append.mp h with h | h
          · split at h
            · rename_i hsh
              rw [← shortOk_iff] at hsh
              simp only [List.mem_singleton] at h
              subst h
              exact Candidate.unknown x _ hu hs hk (by omega) (Or.inr ⟨hsh.1, hsh.2, rfl⟩)
            · simp at h
          · simp only [List.mem_singleton] at h
            subst h
            exact Candidate.unknown x _ hu hs hk (by omega) (Or.inl rfl)
        · simp at h
    · intro h
      cases h with
      | user id l hh => rw [hu] at hh; simp at hh
      | known id l _ hh => exact Or.inl (List.mem_map.mpr ⟨(id, l), hh, rfl⟩)
      | unknown x w _ _ hk hx hw =>
        right
        rw [if_pos hk, List.mem_flatMap]
        refine ⟨x, List.mem_range.mpr (by omega), ?_⟩
        unfold unknownOffers
        rcases hw with rfl | ⟨h1, h2, rfl⟩
        · simp
        · rw [if_pos ((shortOk_iff d s).mp ⟨h1, h2⟩)]; simp
  · rw [if_pos hu]
    constructor
    · intro h
      obtain ⟨e, he, rfl⟩ := List.mem_map.mp h
      exact Candidate.user e.1 e.2 he
    · intro h
      cases h with
      | user id l hh => exact List.mem_map.mpr ⟨(id, l), hh, rfl⟩
      | known id l h _ => exact absurd h hu
      | unknown x w h _ _ _ _ => exact absurd h hu

/-- C58: the result is the analysis that is chosen: it costs less than any other, or as much as the other and, read from the end of the text, has the
longer word where the two first differ, or the one the dictionaries offer earlier. -/
theorem C58_chosen (h : Tame t inp) (ha : analyze t ideo inp mode = some toks) :
    ∃ ws, Chosen t.dict t.userDict ideo (latticeMode mode) inp ws ∧
      (inner toks).map wordOfToken = (if mode = modeExtended then ws.flatMap splitUnknown else ws) := by
  obtain ⟨ws, ps, hana, hopt, _, hw, _, _, _⟩ := analyze_inner h ideo ha
  refine ⟨ws, hopt, ?_⟩
  rw [hw, latticeMode_ext]
  by_cases hm : mode = modeExtended
  · simp only [hm, decide_true, if_true]; rfl
  · simp only [hm, decide_false, if_false]
    exact List.flatMap_singleton' ws

theorem suffix_split {α : Type} {a b tail tail2 : List α} {w v : α} (h : a ++ w :: tail = b ++ v :: tail2) (hlt : tail.length < tail2.length) :
    ∃ y, tail2 = y ++ w :: tail := by
  rcases List.append_eq_append_iff.mp h with ⟨z, h1, h2⟩ | ⟨z, h1, h2⟩
  · exfalso
    have := congrArg List.length h2
    simp only [List.length_append, List.length_cons] at this
    omega
  · cases z with
    | nil =>
      simp only [List.nil_append, List.cons.injEq] at h2
      rw [h2.2] at hlt
      omega
    | cons x z =>
      simp only [List.cons_append, List.cons.injEq] at h2
      exact ⟨z, h2.2⟩

theorem preferred_asymm {d : Dict} {u : Option UserDict} {ws ws' : List Word} (h : Preferred d u ws ws') (h' : Preferred d u ws' ws) : False := by
  obtain ⟨a, w, a', w', tail, h1, h2, h3⟩ := h
  obtain ⟨b, v, b', v', tail2, g1, g2, g3⟩ := h'
  have hw : w ≠ w' := by
    rintro rfl
    rcases h3 with h3 | ⟨_, h3⟩ <;> omega
  have hv : v ≠ v' := by
    rintro rfl
    rcases g3 with g3 | ⟨_, g3⟩ <;> omega
  have e1 : a ++ w :: tail = b' ++ v' :: tail2 := by rw [← h1, g2]
  have e2 : a' ++ w' :: tail = b ++ v :: tail2 := by rw [← h2, g1]
  rcases Nat.lt_trichotomy tail.length tail2.length with hl | hl | hl
  · obtain ⟨y, hy⟩ := suffix_split e1 hl
    obtain ⟨y', hy'⟩ := suffix_split e2 hl
    rw [hy] at hy'
    have hlen := congrArg List.length hy'
    simp only [List.length_append, List.length_cons] at hlen
    have := List.append_inj_right hy' (by omega)
    simp only [List.cons.injEq, and_true] at this
    exact hw this
  · obtain ⟨_, f1⟩ := List.append_inj' e1 (by simp [hl])
    obtain ⟨_, f2⟩ := List.append_inj' e2 (by simp [hl])
    simp only [List.cons.injEq] at f1 f2
    obtain ⟨rfl, rfl⟩ := f1
    obtain ⟨rfl, _⟩ := f2
    rcases h3 with h3 | ⟨hs, h3⟩
    · rcases g3 with g3 | ⟨hs', _⟩
      · omega
      · rw [hs'] at h3; omega
    · rcases g3 with g3 | ⟨_, g3⟩
      · rw [hs] at g3; omega
      · rw [hs] at g3; omega
  · obtain ⟨y, hy⟩ := suffix_split e1.symm hl
    obtain ⟨y', hy'⟩ := suffix_split e2.symm hl
    rw [hy] at hy'
    have hlen := congrArg List.length hy'
    simp only [List.length_append, List.length_cons] at hlen
    have := List.append_inj_right hy' (by omega)
    simp only [List.cons.injEq, and_true] at this
    exact hv this.symm

/-- C58: only one analysis is chosen. -/
theorem C58_unique {d : Dict} {u : Option UserDict} {m : LMode} {ws ws' : List Word} (h : Chosen d u ideo m inp ws) (h' : Chosen d u ideo m inp ws') :
    ws = ws' := by
  apply Classical.byContradiction
  intro hne
  rcases h.2 ws' h'.1 (fun e => hne e.symm) with h1 | ⟨h1, h2⟩
  · have := h'.cheapest ws h.1
    omega
  · rcases h'.2 ws h.1 hne with g1 | ⟨_, g2⟩
    · omega
    · exact preferred_asymm h2 g2

/-- C58: so the dictionaries, the costs and the text determine the result. -/
theorem C58_determined (h : Tame t inp) (ha : analyze t ideo inp mode = some toks) {ws : List Word}
    (hc : Chosen t.dict t.userDict ideo (latticeMode mode) inp ws) :
    (inner toks).map wordOfToken = (if mode = modeExtended then ws.flatMap splitUnknown else ws) := by
  obtain ⟨ws0, h1, h2⟩ := C58_chosen h ha
  rw [h2, C58_unique h1 hc]

/-- Three analyses of "abc" cost the same: a|bc with either entry for "bc", and ab|c. The result has the longer last word, and the first entry. -/
theorem C58_tie : Tame Tie.tok (str "abc") ∧
    (∀ ws ∈ [[⟨.known, 0, str "a"⟩, ⟨.known, 2, str "bc"⟩], [⟨.known, 0, str "a"⟩, ⟨.known, 3, str "bc"⟩], [⟨.known, 1, str "ab"⟩, ⟨.known, 4, str "c"⟩]],
      Analysis Tie.dict none (str "abc") ws ∧ cost Tie.dict Toy.ideo .normal ws = 200) ∧
    (analyze Tie.tok Toy.ideo (str "abc") modeNormal).map (fun toks => (inner toks).map wordOfToken) =
      some [⟨.known, 0, str "a"⟩, ⟨.known, 2, str "bc"⟩] := by
  refine ⟨⟨Tie.wellFormed, Or.inl rfl, fits_short _ (by decide +kernel)⟩, ?_, by decide +kernel⟩
  · intro ws hws
    simp only [List.mem_cons, List.not_mem_nil, or_false] at hws
    rcases hws with rfl | rfl | rfl
    · exact ⟨Analysis.cons ⟨.known, 0, str "a"⟩ (str "bc") _ (Candidate.known 0 1 rfl (by decide +kernel))
        (Analysis.cons ⟨.known, 2, str "bc"⟩ [] [] (Candidate.known 2 2 rfl (by decide +kernel)) Analysis.nil), by decide +kernel⟩
    · exact ⟨Analysis.cons ⟨.known, 0, str "a"⟩ (str "bc") _ (Candidate.known 0 1 rfl (by decide +kernel))
        (Analysis.cons ⟨.known, 3, str "bc"⟩ [] [] (Candidate.known 3 2 rfl (by decide +kernel)) Analysis.nil), by decide +kernel⟩
    · exact ⟨Analysis.cons ⟨.known, 1, str "ab"⟩ (str "c") _ (Candidate.known 1 2 rfl (by decide +kernel))
        (Analysis.cons ⟨.known, 4, str "c"⟩ [] [] (Candidate.known 4 1 rfl (by decide +kernel)) Analysis.nil), by decide +kernel⟩

end Kagome
