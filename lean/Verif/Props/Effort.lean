import Verif.Proof.Effort
import Verif.Props.Modes

/-! C57: the work for a text grows in proportion to its length. -/

namespace Kagome

open Spec

variable {t : Tokenizer} {ideo : Nat → Bool} {inp : Bytes} {mode : Int} {toks : List Token} {hits entries : Nat}

/-- C57: for fixed dictionaries every count of work is at most proportional to the number of characters. -/
theorem C57_linear (wf : WellFormed t.dict t.userDict) (h : Answers t.dict t.userDict hits entries) (ideo : Nat → Bool) (inp : Bytes) (mode : Int) :
    ∃ e, effort t ideo inp mode = some e ∧
      e.grouping ≤ 1023 * runeCount inp ∧
      e.nodes ≤ 2 + (hits + 2 * entries) * runeCount inp ∧
      e.pairs ≤ (hits + 2 * entries + 2) * e.nodes ∧
      e.visited ≤ runeCount inp + 2 ∧
      e.output ≤ runeCount inp + 2 := by
  obtain ⟨cols0, cols, L, hsol, hb, hf, hL, hs⟩ := solve_weak wf ideo inp (latticeMode mode)
  obtain ⟨k, hk, hle⟩ := forwardN_eq t.dict ideo (latticeMode mode) cols0
  rw [hf] at hk
  have hback : ∃ r, backwardN (latticeMode mode) cols = some r := by
    have h1 := effort_solve t ideo inp mode
    rw [hs] at h1
    unfold effort at h1
    rw [hb] at h1
    simp only [hk, Option.map_some] at h1
    cases hr : backwardN (latticeMode mode) cols with
    | none => rw [hr] at h1; cases h1
    | some r => exact ⟨r, rfl⟩
  obtain ⟨r, hr⟩ := hback
  obtain ⟨b1, b2⟩ := back_le wf hsol (latticeMode mode) hr
  refine ⟨⟨buildRounds t.dict t.userDict inp, nodeCount cols0, k, r.2, r.1.length⟩, ?_, buildRounds_le _ _ _, ?_, ?_, b1, b2⟩
  · unfold effort
    rw [hb]
    simp only [hk, Option.map_some, hr]
  · have := (build_count wf h hb).2.1
    rw [Nat.mul_comm]
    exact this
  · refine Nat.le_trans hle (Nat.le_trans (pairs_le wf h hb) ?_)
    rw [Nat.mul_comm]
    exact Nat.le_refl _

theorem tokenLoop_length (t : Tokenizer) (ns : List Node) (i k : Nat) : (tokenLoop t i k ns).length ≤ ns.length := by
  induction ns generalizing i k with
  | nil => simp [tokenLoop]
  | cons n ns ih =>
    unfold tokenLoop
    split
    · have := ih (i + 1) k
      simp only [List.length_cons]
      omega
    · have := ih (i + 1) (k + 1)
      simp only [List.length_cons]
      omega

/-- C57: there are at most two tokens more than characters, in every mode and even for texts that are not UTF-8. -/
theorem C57_tokens (wf : WellFormed t.dict t.userDict) (ha : analyze t ideo inp mode = some toks) : toks.length ≤ runeCount inp + 2 := by
  obtain ⟨cols0, cols, L, hsol, hb, hf, hL, hs⟩ := solve_weak wf ideo inp (latticeMode mode)
  unfold analyze at ha
  rw [hs] at ha
  simp only [Option.map_some, Option.some.injEq] at ha
  subst ha
  have hlen := hsol.len
  have hback : backwardN (latticeMode mode) cols = some (L.flatMap (emit (latticeMode mode)), L.length) := by
    have h1 := walk_split (latticeMode mode) cols (cols.length + 1) (some (cols.length - 1, 0))
    unfold solve backward at hs
    rw [hb] at hs
    simp only [hf, Option.map_eq_some_iff, Prod.mk.injEq] at hs
    obtain ⟨o, h2, _, rfl⟩ := hs
    rw [if_neg (by omega), h1] at h2
    unfold backwardN
    rw [if_neg (by omega), walkN_eq]
    simp only [Option.map_eq_some_iff] at h2 ⊢
    obtain ⟨L', h3, h4⟩ := h2
    have e : cols.length - 1 = runeCount inp + 1 := by omega
    have hc := walk_chain _ _ _ _ h3
    rw [e] at hc
    have := prevChain_unique hL hc
    subst this
    exact ⟨L, h3, rfl⟩
  have h1 := (back_le wf hsol (latticeMode mode) hback).2
  have h2 := tokenLoop_length t (L.flatMap (emit (latticeMode mode))).reverse 0 0
  rw [List.length_reverse] at h2
  simp only at h1
  omega

/-- The counted functions are those of the analysis. -/
theorem C57_counts (t : Tokenizer) (ideo : Nat → Bool) (inp : Bytes) (mode : Int) (cols : Cols) (pos ch : Nat) :
    (unkEndN t.dict inp pos ch).map (·.1) = unkEnd t.dict inp pos ch ∧
    (forwardN t.dict ideo (latticeMode mode) cols).map (·.1) = forward t.dict ideo (latticeMode mode) cols ∧
    (backwardN (latticeMode mode) cols).map (·.1) = backward (latticeMode mode) cols ∧
    (effort t ideo inp mode).map (·.output) = (solve t ideo inp (latticeMode mode)).map (·.2.length) := by
  refine ⟨unkEndN_fst _ _ _ _, ?_, ?_, effort_solve t ideo inp mode⟩
  · obtain ⟨k, hk, _⟩ := forwardN_eq t.dict ideo (latticeMode mode) cols
    rw [hk]
    cases forward t.dict ideo (latticeMode mode) cols <;> rfl
  · unfold backwardN backward
    split
    · rfl
    · rw [walkN_eq, walk_split (latticeMode mode)]
      cases walk .normal cols (cols.length + 1) (some (cols.length - 1, 0)) <;> rfl

theorem searchFrom_length (i : Nat) (ks : List String) (s : Bytes) : (Toy.searchFrom i ks s).length ≤ ks.length := by
  induction ks generalizing i with
  | nil => simp [Toy.searchFrom]
  | cons k ks ih =>
    have := ih (i + 1)
    simp only [Toy.searchFrom, List.length_append, List.length_cons]
    split
    · simp only [List.length_cons, List.length_nil]
      omega
    · simp only [List.length_nil]
      omega

/-- The hypotheses are met: the toy dictionary has at most eight words at any place. -/
theorem C57_toy : WellFormed Toy.tokUser.dict Toy.tokUser.userDict ∧ Answers Toy.tokUser.dict Toy.tokUser.userDict 8 2 := by
  refine ⟨Toy.wellFormed, ⟨?_, ?_, ?_⟩⟩
  · intro s
    exact searchFrom_length 0 Toy.keys s
  · intro s
    exact Nat.le_trans (searchFrom_length 0 ["東京"] s) (by decide)
  · intro r
    have h := Toy.category_lt r
    change (Toy.unk.indexDup (Toy.category r) + 1).toNat ≤ 2
    generalize Toy.category r = c at h
    have hc : c = 0 ∨ c = 1 ∨ c = 2 ∨ c = 3 := by omega
    rcases hc with rfl | rfl | rfl | rfl <;> decide

example : effort Toy.tokUser Toy.ideo (str "すももabcの東京") modeExtended = some ⟨6, 20, 34, 6, 8⟩ := by decide +kernel

/-- The characters the grouping loop decodes: those of the class, and the one that ends the run, up to the limit. -/
theorem groupLoopN_count (d : Dict) (cls : Nat) : ∀ (rs : List (Nat × Nat)) (e n k : Nat), n < 1024 →
    (groupLoopN d cls rs e n k).2 =
      k + min ((rs.takeWhile (fun c => d.category c.1 == cls)).length + 1) (min rs.length (1024 - n)) := by
  have hmax : maximumUnknownWordLength = 1024 := rfl
  intro rs
  induction rs with
  | nil => intro e n k _; simp [groupLoopN]
  | cons c rs ih =>
    intro e n k hn
    rw [groupLoopN, hmax, List.takeWhile_cons]
    by_cases hc : d.category c.1 = cls
    · rw [if_neg (fun h => h hc), if_pos (beq_iff_eq.mpr hc)]
      simp only [List.length_cons]
      by_cases hl : n + 1 ≥ 1024
      · rw [if_pos hl]
        simp only
        omega
      · rw [if_neg hl, ih _ _ _ (by omega)]
        omega
    · rw [if_pos hc, if_neg (fun h => hc (beq_iff_eq.mp h))]
      simp only [List.length_nil, List.length_cons]
      omega

/-- C57: the first number is what it is said to be: at a position where a user word begins, or a word of the dictionary of a class that is not
to be looked at then, or of a class that is not grouped, nothing is decoded ahead; otherwise the characters of the same class that follow and one
more, at most 1023, as far as the input goes. -/
theorem C57_rounds (t : Tokenizer) (inp : Bytes) (pos ch : Nat) :
    roundsAt t.dict t.userDict inp pos ch =
      if userHits t.userDict (inp.drop pos) = [] ∧ (t.dict.prefixSearch (inp.drop pos) = [] ∨ t.dict.invokeList[t.dict.category ch]? = some true) ∧
          t.dict.groupList[t.dict.category ch]? = some true
      then
        let rest := runes (inp.drop (pos + (if ch = runeError then 1 else runeLen ch)))
        min ((rest.takeWhile (fun c => t.dict.category c.1 == t.dict.category ch)).length + 1) (min rest.length 1023)
      else 0 := by
  unfold roundsAt
  by_cases h1 : userHits t.userDict (inp.drop pos) = []
  · rw [if_neg (by simpa using h1)]
    by_cases h2 : t.dict.prefixSearch (inp.drop pos) = [] ∨ t.dict.invokeList[t.dict.category ch]? = some true
    · rw [if_pos h2]
      unfold unkEndN
      cases h3 : t.dict.groupList[t.dict.category ch]? with
      | none => simp
      | some b =>
        cases b with
        | false => simp
        | true =>
          have he : (if ch ≠ runeError then pos + runeLen ch else pos + 1) = pos + (if ch = runeError then 1 else runeLen ch) := by
            by_cases hr : ch = runeError <;> simp [hr]
          have hall : userHits t.userDict (inp.drop pos) = [] ∧
              (t.dict.prefixSearch (inp.drop pos) = [] ∨ t.dict.invokeList[t.dict.category ch]? = some true) ∧ some true = some true := ⟨h1, h2, rfl⟩
          rw [if_pos hall, he]
          show (groupLoopN _ _ _ _ 1 0).2 = _
          rw [groupLoopN_count _ _ _ _ _ _ (by omega), Nat.zero_add]
    · rw [if_neg h2, if_neg (fun h => h2 h.2.1)]
  · rw [if_pos h1, if_neg (fun h => h1 h.1)]

end Kagome
