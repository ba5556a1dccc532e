import Verif.Props.Chunks

/-!
# C37: where single line feeds split

`C37_single_violated` is one text that is split at line feeds which are not adjacent. Here is what happens to all such texts.
-/

namespace Kagome

open Spec

/-- A character that is not white space. -/
def inkPiece (c : Piece) : Bool := !isSpace c.1

theorem blank_inkPiece {s : Splitter} (hs : s.skipWhiteSpace = true) (c : Piece) : blank s c = !inkPiece c := by
  simp [blank, hs, inkPiece]

theorem body_no_feed {s : Splitter} (hs : s.skipWhiteSpace = true) (r : List Piece) (x : List Piece) : ∀ (n : Int),
    (∀ c ∈ x, c.1 ≠ 10) → (∀ c ∈ x, s.isDelim c.1 = false) → n + ((x.filter inkPiece).length : Int) < s.maxRuneLen →
    Spec.body s n false (x ++ r) =
      { Spec.body s (n + ((x.filter inkPiece).length : Int)) false r with
        body := x.filter inkPiece ++ (Spec.body s (n + ((x.filter inkPiece).length : Int)) false r).body } := by
  induction x with
  | nil => intro n _ _ _; simp
  | cons c x ih =>
    intro n hf hd hl
    have hc10 : c.1 ≠ 10 := hf c (List.mem_cons_self ..)
    have hfeed : feed s c = false := by simp [feed, hc10]
    have hdel := hd c (List.mem_cons_self ..)
    rw [List.cons_append, Spec.body]
    rw [blank_inkPiece hs, hfeed, hdel]
    by_cases hsh : inkPiece c = true
    · simp only [List.filter_cons, hsh, if_true, List.length_cons] at hl ⊢
      have hlt : ¬ s.maxRuneLen ≤ n + 1 := by omega
      simp only [Bool.not_true, Bool.false_eq_true, if_false, Bool.false_and, Bool.false_or, decide_eq_true_eq, hlt, Bool.or_false]
      rw [ih (n + 1) (fun d h => hf d (List.mem_cons_of_mem _ h)) (fun d h => hd d (List.mem_cons_of_mem _ h)) (by omega)]
      rw [show n + 1 + ((x.filter inkPiece).length : Int) = n + (((x.filter inkPiece).length + 1 : Nat) : Int) by omega]
      rfl
    · simp only [List.filter_cons, hsh, Bool.false_eq_true, if_false] at hl ⊢
      simp only [Bool.not_false, if_true]
      exact ih n (fun d h => hf d (List.mem_cons_of_mem _ h)) (fun d h => hd d (List.mem_cons_of_mem _ h)) hl

theorem body_after_feed {s : Splitter} (hs : s.skipWhiteSpace = true) (hf : s.doubleLineFeedSplit = true)
    (h10 : s.isDelim 10 = false) (y : List Piece) (m : List Piece) : ∀ (n : Int),
    (∀ c ∈ m, isSpace c.1 = false) → (∀ c ∈ m, s.isDelim c.1 = false) → n + (m.length : Int) < s.maxRuneLen →
    Spec.body s n true (m ++ lf :: y) = ⟨m, [], some y⟩ := by
  induction m with
  | nil =>
    intro n _ _ _
    have hb : blank s lf = true := by simp [blank, hs, lf, isSpace]
    have hfe : feed s lf = true := by simp [feed, hf, lf]
    rw [List.nil_append, Spec.body, if_pos hb, if_neg (by simp [lf, h10]), if_pos hfe, if_pos rfl]
  | cons c m ih =>
    intro n hsp hd hl
    have hcs : isSpace c.1 = false := hsp c (List.mem_cons_self ..)
    have hb : blank s c = false := by simp [blank, hcs]
    have hc10 : c.1 ≠ 10 := by intro h; rw [h] at hcs; exact absurd hcs (by decide)
    have hfe : feed s c = false := by simp [feed, hc10]
    simp only [List.length_cons] at hl
    have hlt : ¬ s.maxRuneLen ≤ n + 1 := by omega
    rw [List.cons_append, Spec.body]
    simp only [hb, hfe, hd c (List.mem_cons_self ..), Bool.false_eq_true, if_false, Bool.false_and, Bool.false_or,
      decide_eq_true_eq, hlt, Bool.or_false]
    rw [ih (n + 1) (fun d h => hsp d (List.mem_cons_of_mem _ h)) (fun d h => hd d (List.mem_cons_of_mem _ h)) (by omega)]
    rfl

theorem dropWhile_into (p : Piece → Bool) (r : List Piece) : ∀ x : List Piece, (∃ c ∈ x, p c = false) →
    (x ++ r).dropWhile p = x.dropWhile p ++ r := by
  intro x
  induction x with
  | nil => rintro ⟨c, hc, -⟩; cases hc
  | cons d x ih =>
    rintro ⟨c, hc, hp⟩
    rw [List.cons_append, List.dropWhile_cons, List.dropWhile_cons]
    by_cases hd : p d = true
    · rw [if_pos hd, if_pos hd]
      rcases List.mem_cons.mp hc with rfl | hc
      · rw [hp] at hd; cases hd
      · exact ih ⟨c, hc, hp⟩
    · rw [if_neg hd, if_neg hd]; rfl

theorem dropWhile_filter {s : Splitter} (hs : s.skipWhiteSpace = true) (x : List Piece) :
    (x.dropWhile (blank s)).filter inkPiece = x.filter inkPiece := by
  induction x with
  | nil => rfl
  | cons d x ih =>
    rw [List.dropWhile_cons]
    by_cases hd : blank s d = true
    · rw [if_pos hd, ih, List.filter_cons, if_neg]
      rw [blank_inkPiece hs] at hd
      simpa using hd
    · rw [if_neg hd]

theorem sentence_second_feed {s : Splitter} (hs : s.skipWhiteSpace = true) (hf : s.doubleLineFeedSplit = true)
    (h10 : s.isDelim 10 = false) (x m y : List Piece) (hstart : ∃ c ∈ x, isSpace c.1 = false)
    (hfirst : ∀ c ∈ x.dropWhile (fun c => isSpace c.1), c.1 ≠ 10) (hm : ∀ c ∈ m, isSpace c.1 = false)
    (hd : ∀ c ∈ x ++ m, s.isDelim c.1 = false) (hl : (((x ++ m).filter inkPiece).length : Int) < s.maxRuneLen) :
    sentence s (x ++ lf :: (m ++ lf :: y)) = ⟨(x ++ m).filter inkPiece, [], some y⟩ := by
  have hbl : blank s = fun c => isSpace c.1 := by funext c; simp [blank, hs]
  have hmf : m.filter inkPiece = m := List.filter_eq_self.mpr (fun c hc => by simp [inkPiece, hm c hc])
  have hsum : ((x ++ m).filter inkPiece).length = (x.filter inkPiece).length + m.length := by
    rw [List.filter_append, List.length_append, hmf]
  rw [hsum] at hl
  unfold sentence
  rw [dropWhile_into _ _ x (by obtain ⟨c, h1, h2⟩ := hstart; exact ⟨c, h1, by simp [blank, h2]⟩)]
  rw [body_no_feed hs _ _ 0 (by rw [hbl]; exact hfirst)
    (fun c hc => hd c (List.mem_append_left _ (List.dropWhile_sublist _ |>.subset hc)))
    (by rw [dropWhile_filter hs]; omega)]
  rw [dropWhile_filter hs]
  have hb : blank s lf = true := by simp [blank, hs, lf, isSpace]
  have hfe : feed s lf = true := by simp [feed, hf, lf]
  have hstep : ∀ n, Spec.body s n false (lf :: (m ++ lf :: y)) = Spec.body s n true (m ++ lf :: y) := by
    intro n
    conv => lhs; unfold Spec.body
    rw [if_pos hb, if_neg (by simp [lf, h10]), if_pos hfe, if_neg (by simp)]
  rw [hstep, body_after_feed hs hf h10 y m _ hm (fun c hc => hd c (List.mem_append_right _ hc)) (by omega)]
  rw [List.filter_append, hmf]

/-- C37, how the second half fails, for every such text: with white space skipped and `DoubleLineFeedSplit` on, let the first line
feed `after` the beginning of a sentence and the next one have only characters between them that are not white space (one or
many of them, or none). If neither a delimiter nor the maximal length ends the sentence before, it ends at the second line feed:
the call consumes the text up to and including it, and gives the characters before it without the white space. -/
theorem C37_second_feed (s : Splitter) (hs : s.skipWhiteSpace = true) (hf : s.doubleLineFeedSplit = true)
    (h10 : s.isDelim 10 = false) (data : Bytes) (atEOF : Bool) (x m y : List Piece)
    (hx : pieces data = x ++ lf :: (m ++ lf :: y)) (hstart : ∃ c ∈ x, isSpace c.1 = false)
    (hfirst : ∀ c ∈ x.dropWhile (fun c => isSpace c.1), c.1 ≠ 10) (hm : ∀ c ∈ m, isSpace c.1 = false)
    (hd : ∀ c ∈ x ++ m, s.isDelim c.1 = false)
    (hl : (((x ++ m).filter (fun c => !isSpace c.1)).length : Int) < s.maxRuneLen) :
    ∃ res a b, s.scanSentences data atEOF = some res ∧ res.token = some (a, b) ∧
      res.advance = (text (x ++ lf :: (m ++ [lf]))).length ∧
      (res.data.take b).drop a = text ((x ++ m).filter (fun c => !isSpace c.1)) := by
  have key := sentence_second_feed hs hf h10 x m y hstart hfirst hm hd hl
  rw [← hx] at key
  have hne : data ≠ [] := by rintro rfl; rw [pieces_nil] at hx; simp at hx
  have hA := scanSentences_spec s data atEOF (.inr hne)
  rw [key] at hA
  obtain ⟨G, l, e⟩ := hA
  refine ⟨_, _, _, e, returned_token _ _ _ _, ?_, ?_⟩
  · have hlen := congrArg (fun l => (text l).length) hx
    simp only [text_pieces, text_append, text_cons, text_nil, List.length_append, List.length_nil] at hlen
    rw [returned_advance]
    simp only [text_append, text_cons, text_nil, List.length_append, List.length_nil, List.append_nil, List.nil_append] at l ⊢
    omega
  · rw [returned_text, List.nil_append, List.append_nil]; rfl

/-- A text with an ordinary line break after each line: the first sentence has two lines. -/
example : ∃ res a b, defaultSplitter.scanSentences (str " ab\nc\nde f") false = some res ∧ res.token = some (a, b) ∧
    res.advance = 6 ∧ (res.data.take b).drop a = str "abc" := by
  have := C37_second_feed defaultSplitter rfl rfl (by decide) (str " ab\nc\nde f") false (pieces (str " ab"))
    (pieces (str "c")) (pieces (str "de f")) (by decide +kernel) ⟨(97, [97]), by decide +kernel, by decide⟩
    (by decide +kernel) (by decide +kernel) (by decide +kernel) (by decide +kernel)
  obtain ⟨res, a, b, h1, h2, h3, h4⟩ := this
  exact ⟨res, a, b, h1, h2, h3.trans (by decide +kernel), h4.trans (by decide +kernel)⟩

theorem sentences_lines {s : Splitter} (hs : s.skipWhiteSpace = true) (hf : s.doubleLineFeedSplit = true)
    (h10 : s.isDelim 10 = false) (ls : List (List Piece × List Piece))
    (hne : ∀ p ∈ ls, p.1 ≠ []) (hsp : ∀ p ∈ ls, ∀ c ∈ p.1 ++ p.2, isSpace c.1 = false ∧ s.isDelim c.1 = false)
    (hl : ∀ p ∈ ls, ((p.1 ++ p.2).length : Int) < s.maxRuneLen) : ∀ n, ls.length ≤ n →
    sentencesUpTo s n (ls.flatMap (fun p => p.1 ++ lf :: (p.2 ++ [lf]))) = ls.map (fun p => p.1 ++ p.2) := by
  induction ls with
  | nil => intro n _; cases n <;> rfl
  | cons p ls ih =>
    intro n hn
    cases n with
    | zero => simp at hn
    | succ n =>
      have hp := hsp p (List.mem_cons_self ..)
      have hpn := hne p (List.mem_cons_self ..)
      obtain ⟨c, hc⟩ := List.exists_mem_of_ne_nil _ hpn
      have hsh : (p.1 ++ p.2).filter inkPiece = p.1 ++ p.2 :=
        List.filter_eq_self.mpr (fun c hc => by simp [inkPiece, (hp c hc).1])
      have hc1 : isSpace c.1 = false := (hp c (List.mem_append_left _ hc)).1
      have key := sentence_second_feed hs hf h10 p.1 p.2 (ls.flatMap (fun p => p.1 ++ lf :: (p.2 ++ [lf]))) ⟨c, hc, hc1⟩
        (fun d hd h => by
          have := (hp d (List.mem_append_left _ (List.dropWhile_sublist _ |>.subset hd))).1
          rw [h] at this; exact absurd this (by decide))
        (fun d hd => (hp d (List.mem_append_right _ hd)).1) (fun d hd => (hp d hd).2)
        (by rw [hsh]; exact hl p (List.mem_cons_self ..))
      rw [hsh] at key
      rw [List.flatMap_cons, show (p.1 ++ lf :: (p.2 ++ [lf])) ++ ls.flatMap (fun p => p.1 ++ lf :: (p.2 ++ [lf])) =
        p.1 ++ lf :: (p.2 ++ lf :: ls.flatMap (fun p => p.1 ++ lf :: (p.2 ++ [lf]))) by simp]
      unfold sentencesUpTo
      rw [if_neg, key]
      · simp only [List.map_cons, List.append_nil]
        rw [ih (fun q h => hne q (List.mem_cons_of_mem _ h)) (fun q h => hsp q (List.mem_cons_of_mem _ h))
          (fun q h => hl q (List.mem_cons_of_mem _ h)) n (by simpa using hn)]
      · rw [dropWhile_into _ _ p.1 ⟨c, hc, by simp [blank, hc1]⟩]
        simp

theorem sentences_two_lines {s : Splitter} (hs : s.skipWhiteSpace = true) (hf : s.doubleLineFeedSplit = true)
    (h10 : s.isDelim 10 = false) (ls : List (List Char × List Char)) (hne : ∀ p ∈ ls, p.1 ≠ [])
    (hsp : ∀ p ∈ ls, ∀ c ∈ p.1 ++ p.2, nonSpace c = true ∧ s.isDelim c.val.toNat = false)
    (hl : ∀ p ∈ ls, ((p.1 ++ p.2).length : Int) < s.maxRuneLen) :
    sentences s (ls.flatMap (fun p => enc (p.1 ++ ['\n'] ++ p.2 ++ ['\n']))) = ls.map (fun p => enc (p.1 ++ p.2)) := by
  have hpc : pieces (ls.flatMap (fun p => enc (p.1 ++ ['\n'] ++ p.2 ++ ['\n']))) =
      (ls.map (fun p => (p.1.map charPiece, p.2.map charPiece))).flatMap (fun p => p.1 ++ lf :: (p.2 ++ [lf])) := by
    clear hne hsp hl
    induction ls with
    | nil => exact pieces_nil
    | cons p ls ih =>
      rw [List.flatMap_cons, pieces_enc_append, ih]
      simp only [List.map_append, List.map_cons, List.map_nil, List.flatMap_cons]
      rw [show charPiece '\n' = lf by decide]
      simp
  unfold sentences
  rw [hpc, sentences_lines hs hf h10]
  · rw [List.map_map, List.map_map]
    apply List.map_congr_left
    intro p _
    simp only [Function.comp]
    rw [← List.map_append, ← pieces_enc, text_pieces]
  · intro p hp
    obtain ⟨q, hq, rfl⟩ := List.mem_map.mp hp
    simpa using hne q hq
  · intro p hp c hc
    obtain ⟨q, hq, rfl⟩ := List.mem_map.mp hp
    rw [← List.map_append] at hc
    obtain ⟨d, hd, rfl⟩ := List.mem_map.mp hc
    have := hsp q hq d hd
    exact ⟨by simpa [nonSpace, charPiece] using this.1, this.2⟩
  · intro p hp
    obtain ⟨q, hq, rfl⟩ := List.mem_map.mp hp
    simpa using hl q hq
  · clear hpc hsp hl
    rw [List.length_map]
    induction ls with
    | nil => simp
    | cons p ls ih =>
      simp only [List.map_cons, List.flatMap_cons, List.length_append, List.length_cons]
      have := ih (fun q h => hne q (List.mem_cons_of_mem _ h))
      omega

/-- C37, how the second half fails for a text that is written in lines: a text of which each line ends with one line feed and no
line contains white space or a delimiter is cut behind every second line (if two lines together are shorter than the maximal
length), although no two line feeds are adjacent. Every second line may also be empty. -/
theorem C37_two_lines (s : Splitter) (hs : s.skipWhiteSpace = true) (hf : s.doubleLineFeedSplit = true)
    (h10 : s.isDelim 10 = false) (ls : List (List Char × List Char)) (hne : ∀ p ∈ ls, p.1 ≠ [])
    (hsp : ∀ p ∈ ls, ∀ c ∈ p.1 ++ p.2, nonSpace c = true ∧ s.isDelim c.val.toNat = false)
    (hl : ∀ p ∈ ls, ((p.1 ++ p.2).length : Int) < s.maxRuneLen) :
    ∃ out, scanAll s.scanSentences [⟨ls.flatMap (fun p => enc (p.1 ++ ['\n'] ++ p.2 ++ ['\n'])), true⟩] = some (out, .done) ∧
      nonEmpty out = ls.map (fun p => enc (p.1 ++ p.2)) := by
  obtain ⟨out, h1, h2⟩ := C38_at_once_partial s (ls.flatMap (fun p => enc (p.1 ++ ['\n'] ++ p.2 ++ ['\n'])))
  exact ⟨out, h1, h2.trans (sentences_two_lines hs hf h10 ls hne hsp hl)⟩

/-- Four lines of a poem become two sentences. -/
example : ∃ out, scanAll defaultSplitter.scanSentences [⟨str "ふるいけや\nかわず\nとびこむ\nみずのおと\n", true⟩] = some (out, .done) ∧
    nonEmpty out = [str "ふるいけやかわず", str "とびこむみずのおと"] := by
  have := C37_two_lines defaultSplitter rfl rfl (by decide)
    [("ふるいけや".toList, "かわず".toList), ("とびこむ".toList, "みずのおと".toList)] (by decide +kernel) (by decide +kernel) (by decide +kernel)
  obtain ⟨out, h1, h2⟩ := this
  refine ⟨out, ?_, h2.trans (by decide +kernel)⟩
  rw [show str "ふるいけや\nかわず\nとびこむ\nみずのおと\n" =
    [("ふるいけや".toList, "かわず".toList), ("とびこむ".toList, "みずのおと".toList)].flatMap
      (fun p => enc (p.1 ++ ['\n'] ++ p.2 ++ ['\n'])) by decide +kernel]
  exact h1

/-- C78, how the full claim fails, for all texts of paragraphs: paragraphs that are separated by empty lines and contain neither
white space nor a delimiter are one sentence each; these sentences, written on lines, are split into sentences of two
paragraphs each. -/
theorem C78_merged (s : Splitter) (hs : s.skipWhiteSpace = true) (hf : s.doubleLineFeedSplit = true) (h10 : s.isDelim 10 = false)
    (ls : List (List Char × List Char)) (hne : ∀ p ∈ ls, p.1 ≠ [] ∧ p.2 ≠ [])
    (hsp : ∀ p ∈ ls, ∀ c ∈ p.1 ++ p.2, nonSpace c = true ∧ s.isDelim c.val.toNat = false)
    (hl : ∀ p ∈ ls, ((p.1 ++ p.2).length : Int) < s.maxRuneLen) :
    let paragraphs := ls.flatMap (fun p => [p.1, p.2])
    let first := sentences s (paragraphs.flatMap (fun p => enc (p ++ ['\n', '\n'])))
    first = paragraphs.map enc ∧ sentences s (first.flatMap (· ++ str "\n")) = ls.map (fun p => enc (p.1 ++ p.2)) := by
  have hfirst : sentences s ((ls.flatMap (fun p => [p.1, p.2])).flatMap (fun p => enc (p ++ ['\n', '\n']))) =
      (ls.flatMap (fun p => [p.1, p.2])).map enc := by
    have := sentences_two_lines hs hf h10 ((ls.flatMap (fun p => [p.1, p.2])).map (fun p => (p, []))) ?_ ?_ ?_
    · rw [List.flatMap_map, List.map_map] at this
      simpa [Function.comp_def] using this
    · intro q hq
      obtain ⟨r, hr, rfl⟩ := List.mem_map.mp hq
      obtain ⟨p, hp, hr⟩ := List.mem_flatMap.mp hr
      simp only [List.mem_cons, List.not_mem_nil, or_false] at hr
      rcases hr with rfl | rfl
      · exact (hne p hp).1
      · exact (hne p hp).2
    · intro q hq c hc
      obtain ⟨r, hr, rfl⟩ := List.mem_map.mp hq
      obtain ⟨p, hp, hr⟩ := List.mem_flatMap.mp hr
      simp only [List.append_nil] at hc
      simp only [List.mem_cons, List.not_mem_nil, or_false] at hr
      rcases hr with rfl | rfl
      · exact hsp p hp c (List.mem_append_left _ hc)
      · exact hsp p hp c (List.mem_append_right _ hc)
    · intro q hq
      obtain ⟨r, hr, rfl⟩ := List.mem_map.mp hq
      obtain ⟨p, hp, hr⟩ := List.mem_flatMap.mp hr
      have := hl p hp
      simp only [List.mem_cons, List.not_mem_nil, or_false, List.length_append, List.append_nil] at hr this ⊢
      rcases hr with rfl | rfl <;> omega
  refine ⟨hfirst, ?_⟩
  rw [hfirst, ← sentences_two_lines hs hf h10 ls (fun p hp => (hne p hp).1) hsp hl]
  congr 1
  have hn : str "\n" = enc ['\n'] := by decide
  rw [hn]
  clear hfirst hne hsp hl
  induction ls with
  | nil => rfl
  | cons p ls ih =>
    rw [List.flatMap_cons, List.flatMap_cons, List.map_append, List.flatMap_append, ih]
    congr 1
    simp [enc]

example : sentences defaultSplitter (str "はる\n\nなつ\n\nあき\n\nふゆ\n\n") = [str "はる", str "なつ", str "あき", str "ふゆ"] ∧
    sentences defaultSplitter (str "はる\nなつ\nあき\nふゆ\n") = [str "はるなつ", str "あきふゆ"] := by
  have := C78_merged defaultSplitter rfl rfl (by decide) [("はる".toList, "なつ".toList), ("あき".toList, "ふゆ".toList)]
    (by decide +kernel) (by decide +kernel) (by decide +kernel)
  obtain ⟨h1, h2⟩ := this
  rw [h1] at h2
  constructor
  · rw [show str "はる\n\nなつ\n\nあき\n\nふゆ\n\n" =
      ([("はる".toList, "なつ".toList), ("あき".toList, "ふゆ".toList)].flatMap (fun p => [p.1, p.2])).flatMap
        (fun p => enc (p ++ ['\n', '\n'])) by decide +kernel]
    exact h1.trans (by decide +kernel)
  · rw [show str "はる\nなつ\nあき\nふゆ\n" =
      (([("はる".toList, "なつ".toList), ("あき".toList, "ふゆ".toList)].flatMap (fun p => [p.1, p.2])).map enc).flatMap
        (· ++ str "\n") by decide +kernel]
    exact h2.trans (by decide +kernel)

/-! ## C38: reads that end where a sentence ends -/

/-- The last character of a text, white space that is left out aside, is a delimiter. -/
def EndsSentence (s : Splitter) (cs : List Piece) : Prop :=
  ∀ c, (cs.filter (fun c => !blank s c)).getLast? = some c → s.isDelim c.1 = true

theorem getLast?_suffix {a b : List Piece} {c : Piece} (h : b.getLast? = some c) : (a ++ b).getLast? = some c := by
  rw [List.getLast?_append, h]; rfl

theorem takeWhile_rest {p : Piece → Bool} {cs used : List Piece} (h : cs = cs.takeWhile p ++ used) (hu : ∀ c ∈ used, p c = true) :
    used = [] := by
  have hd : used = cs.dropWhile p := by
    have := List.takeWhile_append_dropWhile (p := p) (l := cs)
    exact List.append_cancel_left (h.symm.trans this.symm)
  cases hc : cs.dropWhile p with
  | nil => rw [hd, hc]
  | cons c l =>
    have h1 := List.head?_dropWhile_not p cs
    rw [hc] at h1
    simp only [List.head?_cons] at h1
    rw [hu c (by rw [hd, hc]; simp)] at h1
    cases h1

theorem drain_ended {s : Splitter} {fuel : Nat} {buf : Bytes} {r : List Bytes × Bytes}
    (hr : drain s.scanSentences false fuel buf = some r) (h : EndsSentence s (pieces buf)) : r.2 = [] := by
  revert h
  refine drain_induct s false (fun buf _ left => EndsSentence s (pieces buf) → left = []) ?_ ?_ ?_ ?_ fuel buf r hr
  · intro _; rfl
  · intro data used rest toks left h1 h2 h3 hne ih he
    refine ih fun c hc => he c ?_
    rw [pieces_text_suffix h1] at hc
    rw [h1, List.filter_append]
    exact getLast?_suffix hc
  · intro h; cases h
  · intro _ data used n hne h1 h2 h3 h4 hl he
    have hunf := body_unfinished s _ 0 false h2
    change (∀ c ∈ (sentence s (pieces data)).body, _) ∧ _ at hunf
    rw [h3] at hunf
    cases hg : (used.filter (kept s)).getLast? with
    | some c =>
      have hc := he c (by rw [h1, List.filter_append]; exact getLast?_suffix hg)
      rw [(hunf.1 c (List.mem_of_getLast? hg))] at hc
      cases hc
    | none =>
      have hnil : used.filter (kept s) = [] := List.getLast?_eq_none_iff.mp hg
      have hu : used = [] := by
        refine takeWhile_rest h1 fun c hc => ?_
        have := List.filter_eq_nil_iff.mp hnil c hc
        simpa using this
      subst hu
      have := congrArg (fun l => (text l).length) h1
      simp only [text_pieces, List.append_nil] at this
      simp only [List.filter_nil, text_nil, List.length_nil] at hl
      have hn : n = 0 := by omega
      subst hn
      rfl

theorem drain_closed {s : Splitter} (hs : s.skipWhiteSpace = true) {fuel : Nat} {buf : Bytes} {r : List Bytes × Bytes}
    (hr : drain s.scanSentences false fuel buf = some r) (h : Quiet s (pieces buf)) : r.2 = [] := by
  revert h
  refine drain_induct s false (fun buf _ left => Quiet s (pieces buf) → left = []) ?_ ?_ ?_ ?_ fuel buf r hr
  · intro _; rfl
  · intro data used rest toks left h1 h2 h3 hne ih he
    rw [pieces_text_suffix h1] at ih
    exact ih (Quiet.next hs he h2)
  · intro h; cases h
  · intro _ data used n hne h1 h2 h3 h4 hl he
    have hd := Quiet.unfinished hs he h2
    have hu : used = [] := by
      have := List.takeWhile_append_dropWhile (p := blank s) (l := pieces data)
      rw [hd] at this
      exact List.append_cancel_left (h1.symm.trans this.symm)
    subst hu
    have := congrArg (fun l => (text l).length) h1
    simp only [text_pieces, List.append_nil] at this
    simp only [List.filter_nil, text_nil, List.length_nil] at hl
    have hn : n = 0 := by omega
    subst hn
    rfl

/-- C38, where the reads end like sentences: if each read delivers whole characters and its last character, white space aside, is a
delimiter, or (if white space is skipped) a follower behind one, every read is split on its own, whatever its length and whatever follows. (So a closing bracket at the beginning of the
next read is not attached to the sentence, as in `C38_violated`.) -/
theorem C38_each_read (s : Splitter) (hsp : s.isDelim 0x20 = false) (ts : List Bytes) (hv : ∀ t ∈ ts, ValidUtf8 t) (hne : ∀ t ∈ ts, t ≠ [])
    (he : ∀ t ∈ ts, EndsSentence s (pieces t) ∨ s.skipWhiteSpace = true ∧ EndsClosed s (pieces t)) :
    ∃ out, scanAll s.scanSentences (ts.map (⟨·, false⟩)) = some (out, .done) ∧ nonEmpty out = ts.flatMap (sentences s) := by
  suffices H : ∀ e, ∃ out, scanFrom s.scanSentences (ts.map (⟨·, false⟩)) e [] = some (out, .done) ∧
      nonEmpty out = ts.flatMap (sentences s) from H 0
  induction ts with
  | nil => intro e; exact ⟨[], rfl, rfl⟩
  | cons t ts ih =>
    intro e
    obtain ⟨out, h1, h2⟩ := ih (fun x hx => hv x (by simp [hx])) (fun x hx => hne x (by simp [hx])) (fun x hx => he x (by simp [hx])) 0
    obtain ⟨bs, hbs⟩ := hv t (by simp)
    obtain ⟨r, hr⟩ := drain_total s false (([] ++ t).length + 1) ([] ++ t) (by omega)
    have g1 := (drain_more_sentences hsp hr bs hbs).1
    have g2 : r.2 = [] := (he t (by simp)).elim (drain_ended hr) fun h => drain_closed h.1 hr (.inr h.2)
    rw [g2] at g1
    refine ⟨r.1 ++ out, ?_, ?_⟩
    · rw [List.map_cons]
      unfold scanFrom
      rw [if_neg (by simp), if_neg (by simp [hne t (by simp)]), hr]
      simp only [Option.bind_eq_bind, Option.bind_some]
      rw [g2, if_neg (by decide), h1]
      rfl
    · rw [nonEmpty_append, h2, List.flatMap_cons]
      congr 1
      rw [pieces_nil, show sentencesOf s [] = [] from rfl, List.append_nil] at g1
      exact g1

/-- The answer to a question that is followed by a bracket in the next read, and to one with a bracket of its own. -/
example : ∃ out, scanAll defaultSplitter.scanSentences ([str "a b?\n", str ")c。d！) "].map (⟨·, false⟩)) = some (out, .done) ∧
    nonEmpty out = [str "ab?", str ")c。", str "d！)"] := by
  have hv : ∀ t ∈ [str "a b?\n", str ")c。d！) "], ValidUtf8 t := by
    intro t ht
    simp only [List.mem_cons, List.not_mem_nil, or_false] at ht
    rcases ht with rfl | rfl
    · exact ⟨"a b?\n".toList, by decide +kernel⟩
    · exact ⟨")c。d！) ".toList, by decide +kernel⟩
  have he : ∀ t ∈ [str "a b?\n", str ")c。d！) "], EndsSentence defaultSplitter (pieces t) ∨
      defaultSplitter.skipWhiteSpace = true ∧ EndsClosed defaultSplitter (pieces t) := by
    intro t ht
    simp only [List.mem_cons, List.not_mem_nil, or_false] at ht
    rcases ht with rfl | rfl
    · left
      intro c hc
      rw [show ((pieces (str "a b?\n")).filter (fun c => !blank defaultSplitter c)).getLast? = some (0x3F, [0x3F]) by decide +kernel] at hc
      cases hc; decide
    · exact .inr ⟨rfl, pieces (str ")c。d"), (0xFF01, [0xEF, 0xBC, 0x81]), pieces (str ")"), pieces (str " "), by decide +kernel, by decide +kernel,
        by decide +kernel, by decide +kernel⟩
  obtain ⟨out, h1, h2⟩ := C38_each_read defaultSplitter (by decide) [str "a b?\n", str ")c。d！) "] hv (by decide +kernel) he
  exact ⟨out, h1, h2.trans (by decide +kernel)⟩

theorem closed_behind {s : Splitter} {a b : List Piece} (h : EndsClosed s b) : EndsClosed s (a ++ b) := by
  obtain ⟨u, d, fs, bl, rfl, h⟩ := h
  exact ⟨a ++ u, d, fs, bl, by rw [List.append_assoc], h⟩

theorem starts_front {s : Splitter} {a b : List Piece} (ha : StartsOrdinary s a) (hb : StartsOrdinary s b) : StartsOrdinary s (a ++ b) := by
  intro c hc
  rw [List.find?_append] at hc
  cases h : a.find? (fun c => !blank s c) with
  | none => rw [h] at hc; exact hb c hc
  | some d => rw [h] at hc; cases hc; exact ha _ h

theorem delivered_parts (ts : List Bytes) : delivered (ts.map (⟨·, false⟩)) = ts.flatten := by
  induction ts with
  | nil => rfl
  | cons t ts ih => rw [List.map_cons, delivered, if_neg (by simp), ih]; rfl

theorem parts_closed {s : Splitter} (ts : List Bytes) (hv : ∀ t ∈ ts, ValidUtf8 t) (he : ∀ t ∈ ts, EndsClosed s (pieces t)) :
    ts.flatten = [] ∨ EndsClosed s (pieces ts.flatten) := by
  induction ts with
  | nil => exact .inl rfl
  | cons t ts ih =>
    right
    obtain ⟨bs, hbs⟩ := hv t (by simp)
    change t = enc bs at hbs
    have h1 := he t (by simp)
    rw [List.flatten_cons]
    rcases ih (fun x hx => hv x (by simp [hx])) (fun x hx => he x (by simp [hx])) with h | h
    · rw [h, List.append_nil]; exact h1
    · rw [hbs, pieces_enc_append]; exact closed_behind h

theorem parts_start {s : Splitter} (ts : List Bytes) (hv : ∀ t ∈ ts, ValidUtf8 t) (hs : ∀ t ∈ ts, StartsOrdinary s (pieces t)) :
    StartsOrdinary s (pieces ts.flatten) := by
  induction ts with
  | nil => intro c hc; rw [List.flatten_nil, pieces_nil] at hc; cases hc
  | cons t ts ih =>
    obtain ⟨bs, hbs⟩ := hv t (by simp)
    change t = enc bs at hbs
    have h1 := hs t (by simp)
    rw [List.flatten_cons, hbs, pieces_enc_append, ← pieces_enc, ← hbs]
    exact starts_front h1 (ih (fun x hx => hv x (by simp [hx])) (fun x hx => hs x (by simp [hx])))

/-- C38, a text in parts: if white space is skipped and each part begins, white space aside, with an ordinary character and ends with a delimiter and its
followers, the reads that deliver the parts give the sentences of the text, and these are those of the first part, those of the second and so on. So the
parts can be split each on its own. -/
theorem C38_parts (s : Splitter) (hsp : s.isDelim 0x20 = false) (hk : s.skipWhiteSpace = true) (ts : List Bytes) (hv : ∀ t ∈ ts, ValidUtf8 t)
    (hs : ∀ t ∈ ts, StartsOrdinary s (pieces t)) (he : ∀ t ∈ ts, EndsClosed s (pieces t)) :
    ts.flatMap (sentences s) = sentences s ts.flatten ∧
      ∃ out, scanAll s.scanSentences (ts.map (⟨·, false⟩)) = some (out, .done) ∧ nonEmpty out = sentences s ts.flatten := by
  have hne : ∀ t ∈ ts, t ≠ [] := by
    intro t ht h0
    obtain ⟨u, d, fs, bl, h, -⟩ := he t ht
    rw [h0, pieces_nil] at h
    simp at h
  obtain ⟨out, h1, h2⟩ := C38_each_read s hsp ts hv hne fun t ht => .inr ⟨hk, he t ht⟩
  have hcut : CutsSafely s (ts.map (⟨·, false⟩)) := by
    intro before after h _
    obtain ⟨t1, t2, rfl, rfl, rfl⟩ := List.map_eq_append_iff.mp h
    rw [delivered_parts, delivered_parts]
    rcases parts_closed t1 (fun t ht => hv t (by simp [ht])) (fun t ht => he t (by simp [ht])) with h0 | h0
    · exact .inl h0
    · exact .inr (.inr ⟨.inl (parts_start t2 (fun t ht => hv t (by simp [ht])) (fun t ht => hs t (by simp [ht]))), fun _ _ => .inr h0⟩)
  have h3 := C38_safe_cuts_partial s hsp _ (by
    intro rd hrd
    obtain ⟨t, ht, rfl⟩ := List.mem_map.mp hrd
    exact hv t ht) hcut h1
  rw [delivered_parts] at h3
  exact ⟨h2.symm.trans h3, out, h1, h3⟩

/-- The hypotheses hold of two lines, the first with two sentences. -/
example : (∀ t ∈ [str "a! b?)\n", str "\nc。 "], ValidUtf8 t) ∧ (∀ t ∈ [str "a! b?)\n", str "\nc。 "], StartsOrdinary defaultSplitter (pieces t)) ∧
    (∀ t ∈ [str "a! b?)\n", str "\nc。 "], EndsClosed defaultSplitter (pieces t)) ∧
    [str "a! b?)\n", str "\nc。 "].flatMap (sentences defaultSplitter) = [str "a!", str "b?)", str "c。"] := by
  refine ⟨?_, ?_, ?_, by decide +kernel⟩ <;> intro t ht <;> simp only [List.mem_cons, List.not_mem_nil, or_false] at ht <;> rcases ht with rfl | rfl
  · exact ⟨"a! b?)\n".toList, by decide +kernel⟩
  · exact ⟨"\nc。 ".toList, by decide +kernel⟩
  · exact starts_at (k := (97, [97])) (by decide +kernel) ⟨by decide +kernel, by decide +kernel, by decide +kernel⟩
  · exact starts_at (k := (99, [99])) (by decide +kernel) ⟨by decide +kernel, by decide +kernel, by decide +kernel⟩
  · exact ⟨pieces (str "a! b"), (63, [63]), pieces (str ")"), pieces (str "\n"), by decide +kernel, by decide +kernel, by decide +kernel, by decide +kernel⟩
  · exact ⟨pieces (str "\nc"), (0x3002, [0xE3, 0x80, 0x82]), [], pieces (str " "), by decide +kernel, by decide +kernel, by simp, by decide +kernel⟩

end Kagome
