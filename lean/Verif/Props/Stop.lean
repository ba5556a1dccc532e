import Verif.Asset.Stop
import Verif.Props.Filter

/-! C31: the default stop tags and stop words. -/

namespace Kagome

open Spec

/-! ### C31 -/

/-- The embedded files. -/
def stopTagsAsset : Bytes := (stopTagsLines).flatMap (· ++ [0x0A])
@[inherit_doc stopTagsAsset] def stopWordsAsset : Bytes := (stopWordsLines).flatMap (· ++ [0x0A])

theorem load_asset {ls : List Bytes} (h : (ls).all (fun l => decide ((0x0A : UInt8) ∉ l ∧ l.length ≤ 65535)) = true) :
    loadConfig ((ls).flatMap (· ++ [0x0A])) = .ok ((ls).filterMap entry) := by
  rw [List.all_eq_true] at h
  have := C32_load (lines := ls) (last := []) (fun l hl => (of_decide_eq_true (h l hl)).1) (by simp) (by
    intro l hl
    simp only [List.mem_cons] at hl
    rcases hl with rfl | hl
    · simp
    · exact (of_decide_eq_true (h l hl)).2)
  rw [List.append_nil] at this
  rw [this, List.filterMap_append]
  simp [entry, withoutCR]

theorem tags_entries : ((stopTagsLines).filterMap entry).map (fun v => padPOS (splitDash [] v)) = stopTags.map fourLevels := by
  decide +kernel

theorem words_entries : (stopWordsLines).filterMap entry = stopWords.map str := by decide +kernel

theorem load_tags : loadConfig stopTagsAsset = .ok ((stopTagsLines).filterMap entry) := load_asset (by decide +kernel)
theorem load_words : loadConfig stopWordsAsset = .ok ((stopWordsLines).filterMap entry) := load_asset (by decide +kernel)

theorem tags_shape : ∀ p ∈ stopTags.map fourLevels, any ∉ p ∧ p.length = 4 := by decide +kernel

/-- C31: loading the embedded files succeeds; the default filter stops a token iff the first four levels of its POS are one of the
listed tags (filled up with `*`), or its surface is one of the listed words. -/
theorem C31_default : ∃ f, newJaFilter stopTagsAsset stopWordsAsset [] = .ok f ∧
    (∀ p, f.stopTags.matchFeatures p = true ↔ ∃ tag ∈ stopTags, p.take 4 = fourLevels tag) ∧
    (∀ w, wordMatch f.stopWords w = true ↔ ∃ word ∈ stopWords, w = str word) ∧
    (∀ p, f.baseForm.matchFeatures p = true ↔ ∃ c, p.head? = some c ∧ (c = str "動詞" ∨ c = str "形容詞" ∨ c = str "形容動詞")) ∧
    (∀ t, passes f t = false ↔ (∃ tag ∈ stopTags, (posOf t).take 4 = fourLevels tag) ∨ ∃ word ∈ stopWords, t.surface = str word) := by
  refine ⟨{ baseForm := newFeaturesFilter [[str "動詞"], [str "形容詞"], [str "形容動詞"]],
            stopTags := newFeaturesFilter (stopTags.map fourLevels), stopWords := newWordFilter (stopWords.map str) }, ?_, ?_, ?_, ?_, ?_⟩
  · simp only [newJaFilter, defaultJaFilter, defaultStopTags, defaultStopWords, load_tags, load_words, tags_entries, words_entries,
      applyJaOptions]
  case refine_4 =>
    intro p
    rw [C26_literal (by decide +kernel)]
    simp only [List.mem_cons, List.not_mem_nil, or_false]
    constructor
    · rintro ⟨q, hq, _, hp⟩
      rcases hq with rfl | rfl | rfl <;> obtain ⟨r, rfl⟩ := hp <;> simp
    · rintro ⟨c, hc, h⟩
      cases p with
      | nil => simp at hc
      | cons d p =>
        simp only [List.head?_cons, Option.some.injEq] at hc
        subst hc
        refine ⟨[d], ?_, by simp, by simp⟩
        simpa using h
  all_goals
    have htags : ∀ p, (newFeaturesFilter (stopTags.map fourLevels)).matchFeatures p = true ↔ ∃ tag ∈ stopTags, p.take 4 = fourLevels tag := by
      intro p
      rw [C26_literal (fun p hp => (tags_shape p hp).1)]
      constructor
      · rintro ⟨q, hq, _, hp⟩
        have hlen := (tags_shape q hq).2
        rw [List.mem_map] at hq
        obtain ⟨tag, ht, rfl⟩ := hq
        refine ⟨tag, ht, ?_⟩
        rw [← hlen]
        exact (List.prefix_iff_eq_take.mp hp).symm
      · rintro ⟨tag, ht, he⟩
        have hm : fourLevels tag ∈ stopTags.map fourLevels := List.mem_map_of_mem ht
        have hlen := (tags_shape _ hm).2
        refine ⟨_, hm, by intro h; rw [h] at hlen; simp at hlen, ?_⟩
        rw [← he]
        exact List.take_prefix 4 p
    have hwords : ∀ w, wordMatch (newWordFilter (stopWords.map str)) w = true ↔ ∃ word ∈ stopWords, w = str word := by
      intro w
      rw [C28_words, List.mem_map]
      constructor
      · rintro ⟨a, h1, h2⟩; exact ⟨a, h1, h2.symm⟩
      · rintro ⟨a, h1, h2⟩; exact ⟨a, h1, h2.symm⟩
  · exact htags
  · exact hwords
  · intro t
    simp only [passes]
    rw [← htags, ← hwords]
    cases (newFeaturesFilter (stopTags.map fourLevels)).matchFeatures (posOf t) <;>
      cases wordMatch (newWordFilter (stopWords.map str)) t.surface <;> simp

/-- C31: with other files in their place: there is no filter iff one of the two cannot be loaded; a file is never passed over. -/
theorem C31_broken (tags words : Bytes) (opts : List JaOption) :
    (∃ e, newJaFilter tags words opts = .error e) ↔ (∃ e, loadConfig tags = .error e) ∨ ∃ e, loadConfig words = .error e := by
  unfold newJaFilter defaultJaFilter defaultStopTags defaultStopWords
  cases loadConfig tags <;> cases loadConfig words <;> simp

/-- C31: the error says which of the two files it was (twice: every function on the way puts its own words in front); of the tags first. -/
theorem C31_broken_text (tags words : Bytes) (opts : List JaOption) (e : String) : newJaFilter tags words opts = .error e ↔
    (∃ e1, loadConfig tags = .error e1 ∧ e = "failed to load stop tags: " ++ ("failed to load stop tags: " ++ e1)) ∨
    (∃ l e2, loadConfig tags = .ok l ∧ loadConfig words = .error e2 ∧ e = "failed to load stop words: " ++ ("failed to load stop words: " ++ e2)) := by
  unfold newJaFilter defaultJaFilter defaultStopTags defaultStopWords
  cases loadConfig tags <;> cases loadConfig words <;> simp [eq_comm]

/-- Such a file: one line of 65536 bytes. -/
example : ∃ e, newJaFilter stopTagsAsset (List.replicate 65536 0x61) [] = .error e := by
  rw [C31_broken]
  refine Or.inr ?_
  have := C32_too_long (lines := []) (last := List.replicate 65536 0x61) (by simp) (by rw [List.mem_replicate]; decide) ⟨_, List.mem_singleton_self _, by
    rw [List.length_replicate]; decide⟩
  exact this

example : ∃ f, newJaFilter stopTagsAsset stopWordsAsset [] = .ok f ∧
    f.stopTags.matchFeatures [str "助詞", str "格助詞", str "一般", str "*", str "*"] = true ∧
    f.stopTags.matchFeatures [str "助詞", str "格助詞", str "一般"] = false ∧
    wordMatch f.stopWords (str "その後") = true ∧ wordMatch f.stopWords (str "その前") = false := by
  obtain ⟨f, h, h1, h2, _⟩ := C31_default
  refine ⟨f, h, (h1 _).mpr ⟨["助詞", "格助詞", "一般"], by decide +kernel⟩, ?_, (h2 _).mpr ⟨"その後", by decide +kernel⟩, ?_⟩
  · rw [Bool.eq_false_iff, Ne, h1]; decide +kernel
  · rw [Bool.eq_false_iff, Ne, h2]; decide +kernel

end Kagome
