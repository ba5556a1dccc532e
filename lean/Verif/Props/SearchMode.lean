import Verif.Spec.LongWords
import Verif.Example.Kansai
import Verif.Proof.SearchSame
import Verif.Proof.LatticeApi

/-! C55: Search mode differs from Normal mode only on account of long words. -/

namespace Kagome

open Spec

variable {t : Tokenizer} {ideo : Nat → Bool} {inp : Bytes} {toks ts : List Token}

theorem penalty_short {w : Word} (h : ¬ LongWord ideo w.surface) : penalty ideo w = 0 := by
  unfold LongWord at h
  unfold penalty
  rw [if_neg (fun h' => h (Or.inl h')), if_neg (fun h' => h (Or.inr h'))]

theorem tokenLoop_inner (t : Tokenizer) {n : Node} (hid : n.id ≠ -1) : ∀ (ns : List Node) (i k : Nat), n ∈ ns →
    ∃ tok ∈ inner (tokenLoop t i k ns), tok.surface = n.surface := by
  intro ns
  induction ns with
  | nil => intro i k h; cases h
  | cons x ns ih =>
    intro i k h
    unfold tokenLoop
    by_cases hx : n = x
    · subst hx
      rw [if_neg (fun h' => hid h'.2)]
      refine ⟨mkToken t i k n, ?_, ?_⟩
      · unfold inner
        rw [List.mem_filter]
        refine ⟨by simp, ?_⟩
        exact decide_eq_true hid
      · have : n.id ≠ bosEosID := hid
        simp [mkToken, this]
    · have hm : n ∈ ns := by simpa [hx] using h
      split
      · exact ih _ _ hm
      · obtain ⟨tok, h1, h2⟩ := ih (i + 1) (k + 1) hm
        refine ⟨tok, ?_, h2⟩
        unfold inner at h1 ⊢
        rw [List.mem_filter] at h1 ⊢
        exact ⟨List.mem_cons_of_mem _ h1.1, h1.2⟩

/-- C55: if no word of the result of Normal mode is long, Search mode has the same result. -/
theorem C55_same (wf : WellFormed t.dict t.userDict) (hf : Fits t.dict (runeCount inp)) (ha : analyze t ideo inp modeNormal = some toks)
    (hshort : ∀ tok ∈ inner toks, ¬ LongWord ideo tok.surface) : analyze t ideo inp modeSearch = some toks := by
  obtain ⟨cols0, cols, L, hsol, hb, hfw, hL, hs⟩ := solve_weak wf ideo inp .normal
  obtain ⟨cols0', cols', L', hsol', hb', hfw', hL', hs'⟩ := solve_weak wf ideo inp .search
  rw [hb] at hb'
  simp only [Option.some.injEq] at hb'
  subst hb'
  have e1 : latticeMode modeNormal = .normal := rfl
  have e2 : latticeMode modeSearch = .search := rfl
  have f1 : ∀ M : List Node, M.flatMap (emit .normal) = M := by
    intro M
    induction M with
    | nil => rfl
    | cons x M ih => rw [List.flatMap_cons, ih]; rfl
  have f2 : ∀ M : List Node, M.flatMap (emit .search) = M := by
    intro M
    induction M with
    | nil => rfl
    | cons x M ih => rw [List.flatMap_cons, ih]; rfl
  rw [f1] at hs
  rw [f2] at hs'
  have hback : backward .normal cols = some L := by
    unfold solve at hs
    rw [hb] at hs
    simp only [hfw, Option.map_eq_some_iff, Prod.mk.injEq] at hs
    obtain ⟨o, h1, _, h2⟩ := hs
    rw [h1, h2]
  unfold analyze at ha ⊢
  rw [e1, hs] at ha
  rw [e2, hs']
  simp only [Option.map_some, Option.some.injEq] at ha ⊢
  have hpen : ∀ n ∈ L, penalty ideo (wordOf n) = 0 := by
    intro n hn
    apply penalty_short
    by_cases hid : n.id = -1
    · have := (path_boundary wf hsol hback n hn hid).1
      change ¬ LongWord ideo n.surface
      rw [this]
      unfold LongWord
      simp [runeCount]
    · obtain ⟨tok, h1, h2⟩ := tokenLoop_inner t hid L.reverse 0 0 (by simpa using hn)
      rw [ha] at h1
      have := hshort tok h1
      rw [h2] at this
      exact this
  obtain ⟨L2, hL2, hsk, _⟩ := path_same wf hf hsol hsol' hL hpen
  rw [prevChain_unique hL' hL2, ← ha, tokenLoop_skel t 0 0 L.reverse, tokenLoop_skel t 0 0 L2.reverse, List.map_reverse, List.map_reverse, hsk]

/-- C55: and Extended mode the same with the unknown words cut into characters. -/
theorem C55_extended (wf : WellFormed t.dict t.userDict) (hf : Fits t.dict (runeCount inp)) (ha : analyze t ideo inp modeNormal = some toks)
    (hshort : ∀ tok ∈ inner toks, ¬ LongWord ideo tok.surface) : analyze t ideo inp modeExtended = some (renumber (toks.flatMap cutToken)) := by
  rw [C15_extended wf, C55_same wf hf ha hshort]
  rfl

theorem chainCost_search (d : Dict) (ideo : Nat → Bool) : ∀ (ws : List Word) (b : Word),
    chainCost d ideo .search (ws ++ [b]) = chainCost d ideo .normal (ws ++ [b]) + (ws.map (penalty ideo)).sum := by
  intro ws
  induction ws with
  | nil => intro b; simp [chainCost]
  | cons a ws ih =>
    intro b
    have := ih b
    cases ws with
    | nil =>
      simp only [List.cons_append, List.nil_append, chainCost, List.map_cons, List.map_nil, List.sum_cons, List.sum_nil, stepCost, reduceCtorEq, if_true, if_false]
      omega
    | cons c ws =>
      simp only [List.cons_append, chainCost, List.map_cons, List.sum_cons, stepCost, reduceCtorEq, if_true, if_false] at this ⊢
      omega

theorem cost_search (d : Dict) (ideo : Nat → Bool) (ws : List Word) :
    cost d ideo .search ws = cost d ideo .normal ws + (ws.map (penalty ideo)).sum := by
  unfold cost
  rw [chainCost_search]
  have : penalty ideo boundary = 0 := by unfold penalty boundary; simp [runeCount]
  simp only [List.map_cons, List.sum_cons, this]
  omega

/-- C55: Search mode never has more long words than Normal mode: its surplus of characters, weighted, is at most that of Normal mode, and if
the two are equal then so are the costs by the dictionary. -/
theorem C55_surplus (h : Tame t inp) (hn : analyze t ideo inp modeNormal = some toks) (hs : analyze t ideo inp modeSearch = some ts) :
    surplus ideo ts ≤ surplus ideo toks ∧
    (surplus ideo ts = surplus ideo toks → cost t.dict ideo .normal ((inner ts).map wordOfToken) = cost t.dict ideo .normal ((inner toks).map wordOfToken)) := by
  obtain ⟨ws, h1, h2, h3⟩ := C07_minimal_cost h hn
  obtain ⟨ws', h1', h2', h3'⟩ := C07_minimal_cost h hs
  rw [if_neg (by decide)] at h2 h2'
  have g1 := h3 ws' h1'
  have g2 := h3' ws h1
  have e1 : latticeMode modeNormal = .normal := rfl
  have e2 : latticeMode modeSearch = .search := rfl
  rw [e1] at g1
  rw [e2, cost_search, cost_search] at g2
  have s1 : surplus ideo toks = (ws.map (penalty ideo)).sum := by rw [← h2, List.map_map]; rfl
  have s2 : surplus ideo ts = (ws'.map (penalty ideo)).sum := by rw [← h2', List.map_map]; rfl
  rw [s1, s2, h2, h2']
  omega

/-- The hypotheses are met, with words that are known, unknown and from the user's dictionary. -/
example : WellFormed Toy.tokUser.dict Toy.tokUser.userDict ∧ Fits Toy.tokUser.dict (runeCount (str "すももabの東京")) ∧
    ((analyze Toy.tokUser Toy.ideo (str "すももabの東京") modeNormal).map (fun toks => (inner toks).map (·.surface)) =
      some [str "すもも", str "ab", str "の", str "東京"]) ∧
    ∀ s ∈ [str "すもも", str "ab", str "の", str "東京"], ¬ LongWord Toy.ideo s := by
  refine ⟨Toy.wellFormed, fits_short _ (by decide +kernel), by decide +kernel, ?_⟩
  intro s hs
  simp only [List.mem_cons, List.not_mem_nil, or_false] at hs
  rcases hs with rfl | rfl | rfl | rfl <;> (unfold LongWord; decide +kernel)

/-- The example of the README: the long word of Normal mode is three words in Search mode, and it is a long word. -/
theorem C55_differs : Tame Kansai.tok (str "関西国際空港") ∧ LongWord Toy.ideo (str "関西国際空港") ∧
    (analyze Kansai.tok Toy.ideo (str "関西国際空港") modeNormal).map (fun toks => (surplus Toy.ideo toks, (inner toks).map (·.surface))) =
      some (12000, [str "関西国際空港"]) ∧
    (analyze Kansai.tok Toy.ideo (str "関西国際空港") modeSearch).map (fun toks => (surplus Toy.ideo toks, (inner toks).map (·.surface))) =
      some (0, [str "関西", str "国際", str "空港"]) := by
  refine ⟨⟨Kansai.wellFormed, Or.inl rfl, fits_short _ (by decide +kernel)⟩, ?_, by decide +kernel, by decide +kernel⟩
  unfold LongWord
  decide +kernel

end Kagome
