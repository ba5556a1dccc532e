import Verif.Props.Chunks
import Verif.Spec.Resplit

/-!
# C78: splitting again what has been split
-/

namespace Kagome

open Spec

theorem closing_again {s : Splitter} (l : List Piece) (h : ∀ c ∈ l, blank s c = false ∧ (s.isDelim c.1 || s.isFollower c.1) = true)
    (fed : Bool) : closing s fed l = (l, []) := by
  induction l with
  | nil => rfl
  | cons c l ih =>
    obtain ⟨h1, h2⟩ := h c (by simp)
    unfold closing
    rw [if_neg (by simp [h1]), if_pos h2, ih fun x hx => h x (by simp [hx])]

theorem closing_kinds (s : Splitter) (fed : Bool) (cs : List Piece) :
    ∀ c ∈ (closing s fed cs).1, blank s c = false ∧ (s.isDelim c.1 || s.isFollower c.1) = true := by
  obtain ⟨u, h1, h2, h3⟩ := closing_split s fed cs
  intro c hc
  refine ⟨?_, h3 c hc⟩
  rw [h2] at hc
  simpa using (List.mem_filter.mp hc).2

theorem feed_kept {s : Splitter} (hs : s.skipWhiteSpace = true) {c : Piece} (h : blank s c = false) : feed s c = false := by
  cases hf : feed s c with
  | false => rfl
  | true =>
    simp only [feed, Bool.and_eq_true, beq_iff_eq] at hf
    have : blank s c = true := by
      simp only [blank, hs, hf.2]; decide
    rw [h] at this; cases this

/-- The sentence cut off a text, read again on its own. -/
theorem body_again {s : Splitter} (cs : List Piece) : ∀ (n : Int) (fed fed' : Bool), (s.skipWhiteSpace = false → fed' = fed) →
    ∃ r, body s n fed' ((body s n fed cs).body ++ (body s n fed cs).closing) = ⟨(body s n fed cs).body, (body s n fed cs).closing, r⟩ ∧
      (r = none ∨ r = some []) := by
  induction cs with
  | nil => intro n fed fed' _; exact ⟨none, rfl, .inl rfl⟩
  | cons c cs ih =>
    intro n fed fed' hf
    have hff : blank s c = false → ¬ (feed s c = true ∧ fed = true) → (feed s c && fed') = false := by
      intro hb hn
      cases hs : s.skipWhiteSpace with
      | true => rw [feed_kept hs hb]; rfl
      | false =>
        rw [hf hs]
        cases h1 : feed s c with
        | false => rfl
        | true =>
          cases h2 : fed with
          | false => rfl
          | true => exact absurd ⟨h1, h2⟩ hn
    rcases body_cases s n fed c cs with ⟨hb, -, e⟩ | ⟨hb, -, -, e⟩ | ⟨hb, h1, h2, e⟩ | ⟨hb, hn, hd, e⟩ | ⟨hb, hn, hd, hm, e⟩ <;> rw [e]
    · exact ⟨none, rfl, .inl rfl⟩
    · refine ih n (feed s c) fed' ?_
      intro hs
      rw [blank_off hs] at hb; cases hb
    · refine ⟨some [], ?_, .inr rfl⟩
      have : fed' = true := by
        cases hs : s.skipWhiteSpace with
        | true => rw [feed_kept hs hb] at h1; cases h1
        | false => rw [hf hs, h2]
      simp [body, hb, h1, this]
    · refine ⟨some [], ?_, .inr rfl⟩
      have hd' : (s.isDelim c.1 || decide (s.maxRuneLen ≤ n + 1)) = true := by simpa using hd
      simp only [List.cons_append, List.nil_append]
      unfold body
      rw [if_neg (by simp [hb]), if_neg (by simp [hff hb hn]), if_pos hd', closing_again _ (closing_kinds s false cs)]
    · have hd' : (s.isDelim c.1 || decide (s.maxRuneLen ≤ n + 1)) = false := by
        simp only [Bool.or_eq_false_iff, decide_eq_false_iff_not]
        exact ⟨by simpa using hd, by omega⟩
      obtain ⟨r, hr, hr2⟩ := ih (n + 1) (fed || feed s c) (fed' || feed s c) (fun hs => by rw [hf hs])
      refine ⟨r, ?_, hr2⟩
      simp only [Cut.cons, List.cons_append]
      conv => lhs; unfold body
      rw [if_neg (by simp [hb]), if_neg (by simp [hff hb hn]), if_neg (by simp [hd']), hr]
      rfl

theorem body_kept {s : Splitter} (n : Int) (fed : Bool) (cs : List Piece) :
    ∀ c ∈ (body s n fed cs).body ++ (body s n fed cs).closing, blank s c = false := by
  obtain ⟨u, -, h2, -, -⟩ := body_split s cs n fed
  rw [h2]
  intro c hc
  simpa using (List.mem_filter.mp hc).2

theorem dropWhile_kept {s : Splitter} {x : List Piece} (h : ∀ c ∈ x, blank s c = false) : x.dropWhile (blank s) = x := by
  cases x with
  | nil => rfl
  | cons c x => rw [List.dropWhile_cons, if_neg (by simp [h c (by simp)])]

theorem sentencesOf_nil (s : Splitter) : sentencesOf s [] = [] := rfl

/-- The first sentence of a text, on its own, is one sentence. -/
theorem sentence_again (s : Splitter) (cs : List Piece) (hne : (sentence s cs).body ≠ []) :
    sentencesOf s ((sentence s cs).body ++ (sentence s cs).closing) = [text ((sentence s cs).body ++ (sentence s cs).closing)] := by
  have hk : ∀ c ∈ (sentence s cs).body ++ (sentence s cs).closing, blank s c = false := body_kept 0 false (cs.dropWhile (blank s))
  obtain ⟨r, hr, hr2⟩ := body_again (s := s) (cs.dropWhile (blank s)) 0 false false (fun _ => rfl)
  have hd := dropWhile_kept hk
  have hs : sentence s ((sentence s cs).body ++ (sentence s cs).closing) = ⟨(sentence s cs).body, (sentence s cs).closing, r⟩ := by
    have : sentence s ((sentence s cs).body ++ (sentence s cs).closing) =
        body s 0 false (((sentence s cs).body ++ (sentence s cs).closing).dropWhile (blank s)) := rfl
    rw [this, hd]; exact hr
  rcases hr2 with rfl | rfl
  · rw [sentencesOf_last (by rw [hs]), if_neg (by rw [hd]; simp [hne]), hs]
    have := (sentence_split s ((sentence s cs).body ++ (sentence s cs).closing)).choose_spec.2.2.2 (by rw [hs])
    rw [hs] at this
    rw [show (sentence s cs).closing = [] from this, List.append_nil]
  · rw [sentencesOf_cons (rest := []) (by rw [hs]), hs]; rfl

/-- What a token of the scan satisfies. -/
def Whole (s : Splitter) (x : Bytes) : Prop := ValidUtf8 x ∧ (x = [] ∨ sentencesOf s (pieces x) = [x])

theorem kept_valid {cs : List Char} {l : List Piece} {p : Piece → Bool} (h : ∃ a b, cs.map charPiece = a ++ l ++ b) :
    ValidUtf8 (text (l.filter p)) := by
  obtain ⟨a, b, h⟩ := h
  obtain ⟨c1, c2, -, h1, -⟩ := split_chars h
  obtain ⟨c3, c4, -, -, h2⟩ := split_chars h1.symm
  exact ⟨_, by rw [h2, List.filter_map, text_charPieces]⟩

theorem pieces_kept {cs : List Char} {l : List Piece} {p : Piece → Bool} (h : ∃ a b, cs.map charPiece = a ++ l ++ b) :
    pieces (text (l.filter p)) = l.filter p := by
  obtain ⟨a, b, h⟩ := h
  obtain ⟨c1, c2, -, h1, -⟩ := split_chars h
  obtain ⟨c3, c4, -, -, h2⟩ := split_chars h1.symm
  rw [h2, List.filter_map, text_charPieces, pieces_enc]

theorem drain_whole {s : Splitter} {atEOF : Bool} {fuel : Nat} {buf : Bytes} {r : List Bytes × Bytes}
    (hr : drain s.scanSentences atEOF fuel buf = some r) : ∀ bs, buf = enc bs → (∀ x ∈ r.1, Whole s x) ∧ ∃ ls, r.2 = enc ls := by
  refine drain_induct s atEOF (fun buf toks left => ∀ bs, buf = enc bs → (∀ x ∈ toks, Whole s x) ∧ ∃ ls, left = enc ls) ?_ ?_ ?_ ?_ fuel buf r hr
  · intro bs _; exact ⟨by simp, [], rfl⟩
  · intro data used rest toks left h1 h2 h3 hne ih bs hbs
    rw [hbs, pieces_enc] at h1
    obtain ⟨c1, c2, -, -, hc2⟩ := split_chars h1
    obtain ⟨i1, i2⟩ := ih c2 (by rw [hc2, text_charPieces])
    refine ⟨?_, i2⟩
    intro x hx
    rcases List.mem_cons.mp hx with rfl | hx
    · refine ⟨kept_valid (cs := bs) ⟨_, _, h1⟩, .inr ?_⟩
      rw [pieces_kept (cs := bs) ⟨_, _, h1⟩, ← h3]
      refine sentence_again s _ (sentence_body_ne ?_)
      intro h0; rw [sentence_empty h0] at h2; cases h2
    · exact i1 x hx
  · intro _ data used hne h1 h2 h3 h4 bs hbs
    refine ⟨?_, [], rfl⟩
    intro x hx
    rw [List.mem_singleton] at hx
    subst hx
    rw [hbs, pieces_enc] at h1
    refine ⟨kept_valid (cs := bs) ⟨_, [], by rw [List.append_nil]; exact h1⟩, ?_⟩
    by_cases hd : (pieces data).dropWhile (blank s) = []
    · left
      rw [sentence_empty hd] at h3
      rw [← h3]; rfl
    · right
      rw [pieces_kept (cs := bs) ⟨_, [], by rw [List.append_nil]; exact h1⟩, ← h3]
      have := sentence_again s (pieces data) (sentence_body_ne hd)
      rwa [h4, List.append_nil] at this
  · intro _ data used n hne h1 h2 h3 h4 hl bs hbs
    refine ⟨by simp, ?_⟩
    rw [hbs, pieces_enc] at h1
    obtain ⟨c1, c2, -, -, hc2⟩ := split_chars h1
    refine ⟨c2.filter (kept s ∘ charPiece) ++ List.replicate n ' ', ?_⟩
    rw [enc_append, ← enc_spaces, hc2, List.filter_map, text_charPieces]

theorem scan_whole {s : Splitter} (reader : List ReadResult) (hv : ∀ rd ∈ reader, ValidUtf8 rd.bytes) :
    ∀ (k : Nat) (bs : List Char) (toks : List Bytes) (ending : ScanEnd),
      scanFrom s.scanSentences reader k (enc bs) = some (toks, ending) → ∀ x ∈ toks, Whole s x := by
  induction reader with
  | nil =>
    intro k bs toks ending h
    unfold scanFrom at h
    cases hd : drain s.scanSentences true ((enc bs).length + 1) (enc bs) with
    | none => rw [hd] at h; cases h
    | some r => rw [hd] at h; cases h; exact (drain_whole hd bs rfl).1
  | cons rd rds ih =>
    intro k bs toks ending h
    have ih := ih fun x hx => hv x (by simp [hx])
    obtain ⟨rs, hrs⟩ := hv rd (by simp)
    have he : enc bs ++ rd.bytes = enc (bs ++ rs) := by rw [enc_append]; exact congrArg _ hrs
    unfold scanFrom at h
    split at h
    · cases hd : drain s.scanSentences true ((enc bs ++ rd.bytes).length + 1) (enc bs ++ rd.bytes) with
      | none => rw [hd] at h; cases h
      | some r => rw [hd] at h; cases h; exact (drain_whole hd _ he).1
    · split at h
      · split at h
        · cases hd : drain s.scanSentences true ((enc bs).length + 1) (enc bs) with
          | none => rw [hd] at h; cases h
          | some r => rw [hd] at h; cases h; exact (drain_whole hd bs rfl).1
        · exact ih _ _ _ _ h
      · cases hd : drain s.scanSentences false ((enc bs ++ rd.bytes).length + 1) (enc bs ++ rd.bytes) with
        | none => rw [hd] at h; cases h
        | some r =>
          rw [hd] at h
          simp only [Option.bind_eq_bind, Option.bind_some] at h
          obtain ⟨g1, ls, g2⟩ := drain_whole hd _ he
          split at h
          · cases h; exact g1
          · rw [g2] at h
            cases hm : scanFrom s.scanSentences rds 0 (enc ls) with
            | none => rw [hm] at h; cases h
            | some m =>
              rw [hm] at h
              cases h
              intro t ht
              rcases List.mem_append.mp ht with ht | ht
              · exact g1 t ht
              · exact ih _ _ _ _ hm t ht

/-- C78: whatever the reader, if it delivers whole characters, every sentence that is not empty is one sentence: the scanner, given that
sentence alone, gives it back as it is. -/
theorem C78_one (s : Splitter) (reader : List ReadResult) (hv : ∀ rd ∈ reader, ValidUtf8 rd.bytes) {out : List Bytes} {ending : ScanEnd}
    (h : scanAll s.scanSentences reader = some (out, ending)) (x : Bytes) (hx : x ∈ out) (hne : x ≠ []) :
    ∃ again, scanAll s.scanSentences [⟨x, true⟩] = some (again, .done) ∧ nonEmpty again = [x] := by
  obtain ⟨again, h1, h2⟩ := C38_at_once_partial s x
  refine ⟨again, h1, ?_⟩
  rw [h2]
  rcases (scan_whole reader hv 0 [] out ending h x hx).2 with h0 | h0
  · exact absurd h0 hne
  · exact h0

/-- A reader in two chunks, three sentences; the premises hold, and so does the conclusion for each. -/
example : scanAll defaultSplitter.scanSentences [⟨str "a b?) c", false⟩, ⟨str "d!\n\n e", false⟩] =
      some ([str "ab?)", str "cd!", str "e"], .done) ∧
    (∀ rd ∈ ([⟨str "a b?) c", false⟩, ⟨str "d!\n\n e", false⟩] : List ReadResult), ValidUtf8 rd.bytes) ∧
    scanAll defaultSplitter.scanSentences [⟨str "ab?)", true⟩] = some ([str "ab?)"], .done) := by
  refine ⟨by decide +kernel, ?_, by decide +kernel⟩
  intro rd h
  simp only [List.mem_cons, List.not_mem_nil, or_false] at h
  rcases h with rfl | rfl
  · exact ⟨['a', ' ', 'b', '?', ')', ' ', 'c'], by decide +kernel⟩
  · exact ⟨['d', '!', '\n', '\n', ' ', 'e'], by decide +kernel⟩

/-- Without whole characters it is false: the bytes of a full stop with white space between them come together. -/
example : scanAll defaultSplitter.scanSentences [⟨[0xE3, 0x20, 0x80, 0x20, 0x82, 0x61], true⟩] = some ([[0xE3, 0x80, 0x82, 0x61]], .done) ∧
    scanAll defaultSplitter.scanSentences [⟨[0xE3, 0x80, 0x82, 0x61], true⟩] = some ([[0xE3, 0x80, 0x82], [0x61]], .done) := by decide +kernel

/-! ## Texts put together from sentences -/

theorem closing_blanks {s : Splitter} (l w : List Piece) (hl : ∀ c ∈ l, blank s c = false ∧ (s.isDelim c.1 || s.isFollower c.1) = true)
    (hw : ∀ c ∈ w, blank s c = true) (fed : Bool) : ∃ r, closing s fed (l ++ w) = (l, r) ∧ ∀ c ∈ r, blank s c = true := by
  induction l with
  | cons c l ih =>
    obtain ⟨h1, h2⟩ := hl c (by simp)
    obtain ⟨r, hr, hr2⟩ := ih fun x hx => hl x (by simp [hx])
    refine ⟨r, ?_, hr2⟩
    rw [List.cons_append]
    unfold closing
    rw [if_neg (by simp [h1]), if_pos h2, hr]
  | nil =>
    rw [List.nil_append]
    clear hl
    induction w generalizing fed with
    | nil => exact ⟨[], rfl, by simp⟩
    | cons c w ih =>
      unfold closing
      rw [if_pos (hw c (by simp))]
      split
      · exact ⟨w, rfl, fun x hx => hw x (by simp [hx])⟩
      · exact ih (fun x hx => hw x (by simp [hx])) _

theorem body_blanks {s : Splitter} (w : List Piece) (hw : ∀ c ∈ w, blank s c = true ∧ s.isDelim c.1 = false) : ∀ (n : Int) (fed : Bool),
    ∃ r, body s n fed w = ⟨[], [], r⟩ ∧ ∀ c ∈ r.getD [], blank s c = true := by
  induction w with
  | nil => intro n fed; exact ⟨none, rfl, by simp⟩
  | cons c w ih =>
    intro n fed
    obtain ⟨h1, h2⟩ := hw c (by simp)
    rcases body_cases s n fed c w with ⟨_, -, e⟩ | ⟨_, -, -, e⟩ | ⟨hb, -⟩ | ⟨hb, -⟩ | ⟨hb, -⟩
    · exact ⟨some w, e, fun x hx => (hw x (by simp only [Option.getD_some] at hx; simp [hx])).1⟩
    · rw [e]; exact ih (fun x hx => hw x (by simp [hx])) n _
    · rw [h1] at hb; cases hb
    · rw [h1] at hb; cases hb
    · rw [h1] at hb; cases hb

theorem body_step {s : Splitter} {c : Piece} (hb : blank s c = false) (hf : feed s c = false) (n : Int) (fed : Bool) (cs : List Piece) :
    body s n fed (c :: cs) = if s.isDelim c.1 || decide (s.maxRuneLen ≤ n + 1) then
      ⟨[c], (closing s false cs).1, some (closing s false cs).2⟩ else (body s (n + 1) (fed || feed s c) cs).cons c := by
  conv => lhs; unfold body
  rw [if_neg (by simp [hb]), if_neg (by simp [hf])]

theorem dropWhile_all {p : Piece → Bool} {w : List Piece} (h : ∀ c ∈ w, p c = true) : w.dropWhile p = [] := by
  induction w with
  | nil => rfl
  | cons c w ih => rw [List.dropWhile_cons, if_pos (h c (by simp))]; exact ih fun x hx => h x (by simp [hx])

/-- A sentence with white space behind it. -/
theorem body_then_blanks {s : Splitter} (hs : s.skipWhiteSpace = true) (w : List Piece)
    (hw : ∀ c ∈ w, blank s c = true ∧ s.isDelim c.1 = false) (y : List Piece) (hy : ∀ c ∈ y, blank s c = false) :
    ∀ (n : Int) (fed : Bool) (b k : List Piece) (r : Option (List Piece)), body s n fed y = ⟨b, k, r⟩ → r.getD [] = [] →
    ∃ r', body s n fed (y ++ w) = ⟨b, k, r'⟩ ∧ (∀ c ∈ r'.getD [], blank s c = true) ∧ (r.isSome → r'.isSome) := by
  induction y with
  | nil =>
    intro n fed b k r h _
    obtain ⟨r', h1, h2⟩ := body_blanks w hw n fed
    cases h
    exact ⟨r', h1, h2, by simp⟩
  | cons c y ih =>
    intro n fed b k r
    have hb := hy c (by simp)
    have hy2 : ∀ x ∈ y, blank s x = false := fun x hx => hy x (by simp [hx])
    have hf := feed_kept hs hb
    rw [List.cons_append, body_step hb hf, body_step hb hf]
    by_cases hd : (s.isDelim c.1 || decide (s.maxRuneLen ≤ n + 1)) = true
    · rw [if_pos hd, if_pos hd]
      intro h hr
      cases h
      obtain ⟨u, h1, h2, h3⟩ := closing_split s false y
      rw [show (closing s false y).2 = [] from hr, List.append_nil] at h1
      subst h1
      have hk : y.filter (kept s) = y := List.filter_eq_self.mpr fun x hx => by simp [hy2 x hx]
      rw [hk] at h2
      have hkinds := closing_kinds s false y
      rw [h2] at hkinds
      obtain ⟨r', g1, g2⟩ := closing_blanks y w hkinds (fun x hx => (hw x hx).1) false
      refine ⟨some r', by rw [g1, h2], by simpa using g2, by simp⟩
    · rw [if_neg hd, if_neg hd]
      intro h hr
      cases hk : body s (n + 1) (fed || feed s c) y with
      | mk b' k' r2 =>
        rw [hk] at h
        simp only [Cut.cons] at h
        cases h
        obtain ⟨r', g1, g2, g3⟩ := ih hy2 _ _ _ _ _ hk hr
        exact ⟨r', by rw [g1]; rfl, g2, g3⟩

/-- Whether a sentence without white space has an end of its own. -/
theorem body_end {s : Splitter} (hs : s.skipWhiteSpace = true) (y : List Piece) (hy : ∀ c ∈ y, blank s c = false) (hne : y ≠ []) :
    ∀ (n : Int) (fed : Bool), (∃ c ∈ y, s.isDelim c.1 = true) ∨ s.maxRuneLen ≤ n + y.length → (body s n fed y).rest.isSome := by
  induction y with
  | nil => exact absurd rfl hne
  | cons c y ih =>
    intro n fed h
    have hb := hy c (by simp)
    have hf := feed_kept hs hb
    rw [body_step hb hf]
    by_cases hd : (s.isDelim c.1 || decide (s.maxRuneLen ≤ n + 1)) = true
    · rw [if_pos hd]; rfl
    · rw [if_neg hd]
      simp only [Bool.or_eq_true, decide_eq_true_eq, not_or] at hd
      simp only [Cut.cons]
      have hne2 : y ≠ [] := by
        rintro rfl
        rcases h with ⟨x, hx, hx2⟩ | h
        · rw [List.mem_singleton] at hx; subst hx; exact hd.1 hx2
        · simp at h; exact hd.2 h
      refine ih (fun x hx => hy x (by simp [hx])) hne2 _ _ ?_
      rcases h with ⟨x, hx, hx2⟩ | h
      · rcases List.mem_cons.mp hx with rfl | hx
        · exact absurd hx2 hd.1
        · exact .inl ⟨x, hx, hx2⟩
      · right; simp only [List.length_cons] at h; omega

/-- A sentence, white space, and a text that does not add to it. -/
theorem sentencesOf_part {s : Splitter} (hs : s.skipWhiteSpace = true) (x w m : List Piece) (hx : ∀ c ∈ x, blank s c = false) (hne : x ≠ [])
    (hw : ∀ c ∈ w, blank s c = true ∧ s.isDelim c.1 = false) (hone : sentencesOf s x = [text x])
    (hbytes : ∀ c ∈ x, c.2 ≠ [])
    (hm : m = [] ∨ (Fresh s m ∧ ((∃ c ∈ x, s.isDelim c.1 = true) ∨ s.maxRuneLen ≤ x.length))) :
    sentencesOf s (x ++ w ++ m) = text x :: sentencesOf s m := by
  have hdx := dropWhile_kept hx
  have hsx : sentence s x = body s 0 false x := by unfold sentence; rw [hdx]
  obtain ⟨u, h1, h2, h3, h4⟩ := sentence_split s x
  have hlead : leading s x = [] := by
    cases x with
    | nil => rfl
    | cons c x => simp [leading, hx c (by simp)]
  rw [hlead, List.nil_append] at h1
  have hu : u.filter (kept s) = u := List.filter_eq_self.mpr fun c hc => by
    have := hx c (by rw [h1]; simp [hc]); simp [this]
  rw [hu] at h2
  have hrest : (sentence s x).rest.getD [] = [] ∧ (sentence s x).body ++ (sentence s x).closing = x := by
    have key : text u = text x := by
      cases hr : (sentence s x).rest with
      | some r =>
        rw [sentencesOf_cons hr, h2] at hone
        exact (List.cons.inj hone).1
      | none =>
        rw [hr] at h1
        simp only [Option.getD_none, List.append_nil] at h1
        rw [← h1]
    have hux : u = x := by
      have h0 := congrArg text h1
      rw [text_append, ← key] at h0
      have h5 := congrArg List.length h0
      simp only [List.length_append] at h5
      have h6 : text ((sentence s x).rest.getD []) = [] := List.length_eq_zero_iff.mp (by omega)
      cases hr : (sentence s x).rest.getD [] with
      | nil => rw [hr, List.append_nil] at h1; exact h1.symm
      | cons c r =>
        rw [hr] at h6 h1
        have := hbytes c (by rw [h1]; simp)
        rw [text_cons] at h6
        exact absurd (List.append_eq_nil_iff.mp h6).1 this
    rw [hux] at h1 h2
    refine ⟨?_, h2⟩
    have := congrArg List.length h1
    simp only [List.length_append] at this
    exact List.length_eq_zero_iff.mp (by omega)
  have hsome : m ≠ [] → (body s 0 false x).rest.isSome := by
    intro h0
    rcases hm with hm | ⟨-, hm⟩
    · exact absurd hm h0
    · exact body_end hs x hx hne 0 false (by simpa using hm)
  obtain ⟨r', g1, g2, g3⟩ := body_then_blanks hs w hw x hx 0 false _ _ _ rfl (by rw [← hsx]; exact hrest.1)
  have hdxw : ∀ v, (x ++ v).dropWhile (blank s) = x ++ v := by
    intro v
    cases x with
    | nil => exact absurd rfl hne
    | cons c x => rw [List.cons_append, List.dropWhile_cons, if_neg (by simp [hx c (by simp)])]
  have hsxw : sentence s (x ++ w) = ⟨(sentence s x).body, (sentence s x).closing, r'⟩ := by
    have : sentence s (x ++ w) = body s 0 false (x ++ w) := by
      conv => lhs; unfold sentence
      rw [hdxw]
    rw [this, g1, hsx]
  by_cases hm0 : m = []
  · subst hm0
    rw [List.append_nil, sentencesOf_nil]
    cases r' with
    | none =>
      rw [sentencesOf_last (by rw [hsxw]), if_neg (by rw [hdxw]; simp [hne]), hsxw]
      have hc := (sentence_split s (x ++ w)).choose_spec.2.2.2 (by rw [hsxw])
      rw [hsxw] at hc
      have := hrest.2
      rw [show (sentence s x).closing = [] from hc, List.append_nil] at this
      rw [this]
    | some r =>
      rw [sentencesOf_cons (rest := r) (by rw [hsxw]), hsxw]
      have : sentencesOf s r = sentencesOf s [] := sentencesOf_congr (by
        rw [List.dropWhile_nil]
        have := g2
        simp only [Option.getD_some] at this
        exact dropWhile_all this)
      rw [this]
      simp only
      rw [hrest.2]; rfl
  · have hfresh : Fresh s m := by
      rcases hm with hm | ⟨hm, -⟩
      · exact absurd hm hm0
      · exact hm
    have hso := g3 (hsome hm0)
    cases r' with
    | none => cases hso
    | some r =>
      have ha := sentence_append (.inl hfresh) (cs := x ++ w) (r := r) (by rw [hsxw])
      rw [hsxw] at ha
      rw [sentencesOf_cons (rest := r ++ m) (by rw [ha]), ha]
      simp only
      rw [hrest.2]
      congr 1
      apply sentencesOf_congr
      simp only [Option.getD_some] at g2
      exact dropWhile_blanks m (dropWhile_all g2)

/-- A sentence, split again into itself, contains no white space. -/
theorem whole_no_space {s : Splitter} (hs : s.skipWhiteSpace = true) {cs : List Char} (h : sentences s (enc cs) = [enc cs]) :
    ∀ c ∈ cs, nonSpace c = true := by
  obtain ⟨out, h1, h2⟩ := C38_at_once_partial s (enc cs)
  obtain ⟨out', ending, ds, ks, g1, g2, g3, g4, g5⟩ := C34_whole_characters s hs [⟨enc cs, true⟩] (by
    intro rd hrd
    rw [List.mem_singleton] at hrd
    subst hrd
    exact ⟨cs, rfl⟩)
  rw [h1] at g1
  cases g1
  have hds : cs = ds := enc_injective (by rw [← g2]; simp [delivered])
  have hflat : out.flatten = (nonEmpty out).flatten := by
    clear h1 h2 g3
    induction out with
    | nil => rfl
    | cons x out ih =>
      cases x with
      | nil => simpa [nonEmpty] using ih
      | cons b x => simp only [nonEmpty] at ih; simp [nonEmpty, ih]
  rw [hflat, h2, h] at g3
  simp only [List.flatten_cons, List.flatten_nil, List.append_nil] at g3
  have hk := enc_injective g3
  rw [g5 rfl, ← hds] at hk
  intro c hc
  rw [hk] at hc
  exact (List.mem_filter.mp hc).2

theorem blank_char {s : Splitter} (hs : s.skipWhiteSpace = true) (c : Char) : blank s (charPiece c) = isSpace c.val.toNat := by
  simp [blank, charPiece, hs]

theorem blank_no_delim {s : Splitter} (hd : NoWhiteDelim s) {c : Piece} (h : blank s c = true) : s.isDelim c.1 = false := by
  simp only [blank, Bool.and_eq_true] at h
  exact hd c.1 ((C34_white_space c.1).mp h.2)

theorem white_blank {s : Splitter} (hs : s.skipWhiteSpace = true) {cs : List Char} (h : ∀ c ∈ cs, c.val.toNat ∈ whiteSpace) :
    ∀ c ∈ cs.map charPiece, blank s c = true := by
  intro c hc
  obtain ⟨d, hd, rfl⟩ := List.mem_map.mp hc
  rw [blank_char hs]
  exact (C34_white_space _).mpr (h d hd)

/-- How a text put together from sentences begins. -/
theorem putTogether_head {s : Splitter} (hs : s.skipWhiteSpace = true) (parts : List (Bytes × Bytes))
    (hx : ∀ p ∈ parts, ValidUtf8 p.1 ∧ (p.1 = [] ∨ sentences s p.1 = [p.1])) (hw : ∀ p ∈ parts, WhiteText p.2) :
    (pieces (putTogether parts)).dropWhile (blank s) = [] ∨
      ∃ y ys c r r', nonEmpty (parts.map (·.1)) = y :: ys ∧ pieces y = c :: r ∧ (pieces (putTogether parts)).dropWhile (blank s) = c :: r' ∧
        blank s c = false := by
  induction parts with
  | nil => exact .inl rfl
  | cons p parts ih =>
    obtain ⟨⟨a, ha⟩, hp⟩ := hx p (by simp)
    obtain ⟨b, hb, hbw⟩ := hw p (by simp)
    have e : pieces (putTogether (p :: parts)) = a.map charPiece ++ (b.map charPiece ++ pieces (putTogether parts)) := by
      rw [show putTogether (p :: parts) = enc a ++ (enc b ++ putTogether parts) by
        rw [← show p.1 = enc a from ha, ← hb]; simp [putTogether], pieces_enc_append, pieces_enc_append]
    cases a with
    | nil =>
      have hp1 : p.1 = [] := ha
      have hn : nonEmpty ((p :: parts).map (·.1)) = nonEmpty (parts.map (·.1)) := by simp [nonEmpty, hp1]
      rw [hn, e, List.map_nil, List.nil_append, dropWhile_blanks _ (dropWhile_all (white_blank hs hbw))]
      exact ih (fun q hq => hx q (by simp [hq])) (fun q hq => hw q (by simp [hq]))
    | cons c a =>
      right
      have hne : p.1 ≠ [] := by rw [ha]; simp
      have hone : sentences s p.1 = [p.1] := hp.resolve_left hne
      have hsp := whole_no_space hs (cs := c :: a) (by rw [show enc (c :: a) = p.1 from ha.symm]; exact hone)
      have hbl : blank s (charPiece c) = false := by
        rw [blank_char hs]
        have := hsp c (by simp)
        simpa using this
      refine ⟨p.1, nonEmpty (parts.map (·.1)), charPiece c, a.map charPiece, a.map charPiece ++ (b.map charPiece ++ pieces (putTogether parts)),
        by simp [nonEmpty, hne], by rw [ha]; exact pieces_enc (c :: a), ?_, hbl⟩
      rw [e, List.map_cons, List.cons_append, List.dropWhile_cons, if_neg (by simp [hbl])]

theorem dropWhile_idem {p : Piece → Bool} (l : List Piece) : (l.dropWhile p).dropWhile p = l.dropWhile p := by
  induction l with
  | nil => rfl
  | cons c l ih =>
    rw [List.dropWhile_cons]
    split
    · exact ih
    · rename_i h; rw [List.dropWhile_cons, if_neg h]

/-- C78: with white space left out, sentences written one after the other, with any white space (or none) behind each, are split into
these sentences again, if each but the last has an end of its own and none but the first could be the closing of the one before it. -/
theorem C78_reflow_partial (s : Splitter) (hs : s.skipWhiteSpace = true) (hd : NoWhiteDelim s) (parts : List (Bytes × Bytes))
    (hx : ∀ p ∈ parts, ValidUtf8 p.1 ∧ (p.1 = [] ∨ sentences s p.1 = [p.1])) (hw : ∀ p ∈ parts, WhiteText p.2)
    (hc : SelfContained s (nonEmpty (parts.map (·.1)))) : sentences s (putTogether parts) = nonEmpty (parts.map (·.1)) := by
  show sentencesOf s (pieces (putTogether parts)) = nonEmpty (parts.map (·.1))
  induction parts with
  | nil => rfl
  | cons p parts ih =>
    obtain ⟨⟨a, ha⟩, hp⟩ := hx p (by simp)
    obtain ⟨b, hb, hbw⟩ := hw p (by simp)
    have e : pieces (putTogether (p :: parts)) = a.map charPiece ++ (b.map charPiece ++ pieces (putTogether parts)) := by
      rw [show putTogether (p :: parts) = enc a ++ (enc b ++ putTogether parts) by
        rw [← show p.1 = enc a from ha, ← hb]; simp [putTogether], pieces_enc_append, pieces_enc_append]
    have hx' := fun q (hq : q ∈ parts) => hx q (by simp [hq])
    have hw' := fun q (hq : q ∈ parts) => hw q (by simp [hq])
    by_cases hne : p.1 = []
    · have hn : nonEmpty ((p :: parts).map (·.1)) = nonEmpty (parts.map (·.1)) := by simp [nonEmpty, hne]
      rw [hn] at hc ⊢
      rw [← ih hx' hw' hc, e]
      have ha0 : a = [] := by
        cases a with
        | nil => rfl
        | cons c a => rw [ha] at hne; simp at hne
      subst ha0
      rw [List.map_nil, List.nil_append]
      exact sentencesOf_congr (dropWhile_blanks _ (dropWhile_all (white_blank hs hbw)))
    · have hone : sentences s p.1 = [p.1] := hp.resolve_left hne
      have hn : nonEmpty ((p :: parts).map (·.1)) = p.1 :: nonEmpty (parts.map (·.1)) := by simp [nonEmpty, hne]
      rw [hn] at hc ⊢
      have hpa : p.1 = enc a := ha
      have hpieces : pieces p.1 = a.map charPiece := by rw [hpa, pieces_enc]
      have hsp := whole_no_space hs (cs := a) (by rw [← hpa]; exact hone)
      have hc' : SelfContained s (nonEmpty (parts.map (·.1))) := by
        refine ⟨fun x hxm => hc.1 x ?_, fun x hxm => hc.2 x (by rw [List.tail_cons]; exact List.mem_of_mem_tail hxm)⟩
        rw [List.dropLast_cons_of_ne_nil (by rintro h0; rw [h0] at hxm; cases hxm)]
        exact List.mem_cons_of_mem _ hxm
      have htext : text (a.map charPiece) = p.1 := by rw [text_charPieces, hpa]
      have hm1 : ∀ c ∈ (pieces (putTogether parts)).takeWhile (blank s), blank s c = true := fun c hc => by
        have := List.all_eq_true.mp (List.all_takeWhile (p := blank s) (l := pieces (putTogether parts))) c hc
        exact this
      have hwb := white_blank hs hbw
      have hpart := sentencesOf_part hs (a.map charPiece) (b.map charPiece ++ (pieces (putTogether parts)).takeWhile (blank s))
        ((pieces (putTogether parts)).dropWhile (blank s)) (by
          intro c hcm
          obtain ⟨d, hdm, rfl⟩ := List.mem_map.mp hcm
          rw [blank_char hs]
          simpa using hsp d hdm) (by intro h0; rw [h0] at htext; exact hne htext.symm) (by
          intro c hcm
          have hbc : blank s c = true := by
            rcases List.mem_append.mp hcm with h | h
            · exact hwb c h
            · exact hm1 c h
          exact ⟨hbc, blank_no_delim hd hbc⟩) (by rw [htext, ← hpieces]; exact hone) (by
          intro c hcm
          obtain ⟨d, hdm, rfl⟩ := List.mem_map.mp hcm
          exact encode_ne_nil d) (by
          rcases putTogether_head hs parts hx' hw' with h | ⟨y, ys, c, r, r', h1, h2, h3, h4⟩
          · exact .inl h
          · right
            rw [h1] at hc
            have hopen := hc.2 y (by simp) c r h2
            refine ⟨.inr ⟨c, r', h3, h4, hopen.1, hopen.2⟩, ?_⟩
            have hend := hc.1 p.1 (by simp)
            unfold HasEnd at hend
            rw [hpieces] at hend
            exact hend)
      rw [e, ← ih hx' hw' hc', ← htext]
      rw [sentencesOf_congr (dropWhile_idem (p := blank s) (pieces (putTogether parts)))] at hpart
      rw [← hpart]
      congr 1
      simp only [List.append_assoc, List.takeWhile_append_dropWhile]

/-- The hypotheses hold of three sentences written on two lines, and of an empty line between them. -/
example : let parts := [(str "ab?", str " "), (str "cd!)", str "\n\n"), ([], str "\n"), (str "e", str "")]
    (∀ p ∈ parts, ValidUtf8 p.1 ∧ (p.1 = [] ∨ sentences defaultSplitter p.1 = [p.1])) ∧ (∀ p ∈ parts, WhiteText p.2) ∧
    SelfContained defaultSplitter (nonEmpty (parts.map (·.1))) ∧ putTogether parts = str "ab? cd!)\n\n\ne" ∧
    NoWhiteDelim defaultSplitter := by
  refine ⟨?_, ?_, ⟨?_, ?_⟩, by decide +kernel, by unfold NoWhiteDelim; decide⟩
  · intro p hp
    simp only [List.mem_cons, List.not_mem_nil, or_false] at hp
    rcases hp with rfl | rfl | rfl | rfl
    · exact ⟨⟨['a', 'b', '?'], by decide +kernel⟩, .inr (by decide +kernel)⟩
    · exact ⟨⟨['c', 'd', '!', ')'], by decide +kernel⟩, .inr (by decide +kernel)⟩
    · exact ⟨⟨[], rfl⟩, .inl rfl⟩
    · exact ⟨⟨['e'], by decide +kernel⟩, .inr (by decide +kernel)⟩
  · intro p hp
    simp only [List.mem_cons, List.not_mem_nil, or_false] at hp
    rcases hp with rfl | rfl | rfl | rfl
    · exact ⟨[' '], by decide +kernel, by decide⟩
    · exact ⟨['\n', '\n'], by decide +kernel, by decide⟩
    · exact ⟨['\n'], by decide +kernel, by decide⟩
    · exact ⟨[], rfl, by simp⟩
  · intro x hx
    have e : (nonEmpty [str "ab?", str "cd!)", [], str "e"]).dropLast = [str "ab?", str "cd!)"] := by decide +kernel
    simp only [List.map_cons, List.map_nil, e, List.mem_cons, List.not_mem_nil, or_false] at hx
    rcases hx with rfl | rfl
    · exact .inl (by decide +kernel)
    · exact .inl (by decide +kernel)
  · intro x hx c r hc
    have e : (nonEmpty [str "ab?", str "cd!)", [], str "e"]).tail = [str "cd!)", str "e"] := by decide +kernel
    simp only [List.map_cons, List.map_nil, e, List.mem_cons, List.not_mem_nil, or_false] at hx
    rcases hx with rfl | rfl
    · rw [show pieces (str "cd!)") = (0x63, [0x63]) :: pieces (str "d!)") by decide +kernel] at hc
      obtain ⟨rfl, -⟩ := List.cons.inj hc
      decide
    · rw [show pieces (str "e") = [(0x65, [0x65])] by decide +kernel] at hc
      obtain ⟨rfl, -⟩ := List.cons.inj hc
      decide

/-! ## Texts without line feeds -/

theorem closing_fresh {s : Splitter} (cs : List Piece) (hf : ∀ c ∈ cs, feed s c = false) : ∀ fed, Fresh s (closing s fed cs).2 := by
  induction cs with
  | nil => intro fed; exact .inl rfl
  | cons c cs ih =>
    intro fed
    have ih := ih fun x hx => hf x (by simp [hx])
    unfold closing
    split
    · rw [if_neg (by simp [hf c (by simp)])]; exact ih _
    · rename_i hb
      split
      · exact ih _
      · rename_i hd
        simp only [Bool.or_eq_true, not_or] at hd
        exact .inr ⟨c, cs, rfl, by simpa using hb, by simpa using hd.1, by simpa using hd.2⟩

theorem body_finished {s : Splitter} (hd : NoWhiteDelim s) (cs : List Piece) (hf : ∀ c ∈ cs, feed s c = false) :
    ∀ (n : Int) (fed : Bool) (r : List Piece), (body s n fed cs).rest = some r →
      ((∃ c ∈ (body s n fed cs).body, s.isDelim c.1 = true) ∨ s.maxRuneLen ≤ n + (body s n fed cs).body.length) ∧ Fresh s r := by
  induction cs with
  | nil => intro n fed r h; cases h
  | cons c cs ih =>
    intro n fed r
    have ih := ih fun x hx => hf x (by simp [hx])
    have hfc := hf c (by simp)
    rcases body_cases s n fed c cs with ⟨hb, h, e⟩ | ⟨hb, -, -, e⟩ | ⟨hb, h, -, e⟩ | ⟨hb, -, h, e⟩ | ⟨hb, -, -, hm, e⟩
    · rcases h with h | ⟨h, -⟩
      · rw [blank_no_delim hd hb] at h; cases h
      · rw [hfc] at h; cases h
    · rw [e]; exact ih n _ r
    · rw [hfc] at h; cases h
    · rw [e]
      intro hr
      cases hr
      refine ⟨?_, closing_fresh cs (fun x hx => hf x (by simp [hx])) false⟩
      rcases h with h | h
      · exact .inl ⟨c, by simp, h⟩
      · right; simpa using h
    · rw [e]
      intro hr
      obtain ⟨h1, h2⟩ := ih (n + 1) (fed || feed s c) r hr
      refine ⟨?_, h2⟩
      simp only [Cut.cons, List.length_cons]
      rcases h1 with ⟨x, hx, hx2⟩ | h1
      · exact .inl ⟨x, by simp [hx], hx2⟩
      · right; omega

/-- A list of characters has an end of its own. -/
def EndsOff (s : Splitter) (y : List Piece) : Prop := (∃ c ∈ y, s.isDelim c.1 = true) ∨ s.maxRuneLen ≤ y.length
/-- A list of characters cannot be the closing of what is before it. -/
def StartsNew (s : Splitter) (y : List Piece) : Prop := ∀ c r, y = c :: r → s.isDelim c.1 = false ∧ s.isFollower c.1 = false

theorem sentencesUpTo_contained {s : Splitter} (hd : NoWhiteDelim s) : ∀ (n : Nat) (cs : List Piece), (∀ c ∈ cs, feed s c = false) →
    (∀ y ∈ (sentencesUpTo s n cs).dropLast, EndsOff s y) ∧ (∀ y ∈ (sentencesUpTo s n cs).tail, StartsNew s y) ∧
      (Fresh s cs → ∀ y ∈ sentencesUpTo s n cs, StartsNew s y) := by
  intro n
  induction n with
  | zero => intro cs _; simp [sentencesUpTo]
  | succ n ih =>
    intro cs hf
    unfold sentencesUpTo
    split
    · simp
    · rename_i hne
      have hfirst : Fresh s cs → StartsNew s ((sentence s cs).body ++ (sentence s cs).closing) := by
        rintro (rfl | ⟨c, cs', rfl, h1, h2, h3⟩)
        · exact absurd rfl hne
        · have hdw : (c :: cs').dropWhile (blank s) = c :: cs' := by rw [List.dropWhile_cons, if_neg (by simp [h1])]
          obtain ⟨b, hb⟩ := body_first s 0 false c cs' h1
          intro d r hr
          have : (sentence s (c :: cs')).body = c :: b := by unfold sentence; rw [hdw]; exact hb
          rw [this, List.cons_append] at hr
          obtain ⟨e1, -⟩ := List.cons.inj hr
          rw [← e1]; exact ⟨h2, h3⟩
      cases hr : (sentence s cs).rest with
      | none =>
        refine ⟨by simp, by simp, ?_⟩
        intro hF y hy
        rw [List.mem_singleton] at hy
        rw [hy]; exact hfirst hF
      | some r =>
        have hf' : ∀ c ∈ cs.dropWhile (blank s), feed s c = false := fun c hc => hf c ((List.dropWhile_sublist _).mem hc)
        obtain ⟨h1, h2⟩ := body_finished hd _ hf' 0 false r hr
        obtain ⟨u, g1, -, -, -⟩ := sentence_split s cs
        rw [hr] at g1
        have hfr : ∀ c ∈ r, feed s c = false := fun c hc => hf c (by rw [g1]; simp [hc])
        obtain ⟨i1, i2, i3⟩ := ih r hfr
        simp only
        refine ⟨?_, ?_, ?_⟩
        · intro y hy
          cases hl : sentencesUpTo s n r with
          | nil => rw [hl] at hy; simp at hy
          | cons z zs =>
            rw [hl, List.dropLast_cons_of_ne_nil (by simp)] at hy
            rcases List.mem_cons.mp hy with rfl | hy
            · rcases h1 with ⟨c, hc, hc2⟩ | h1
              · exact .inl ⟨c, List.mem_append_left _ hc, hc2⟩
              · right
                have : (sentence s cs).body = (body s 0 false (cs.dropWhile (blank s))).body := rfl
                rw [List.length_append, this]
                omega
            · exact i1 y (by rw [hl]; exact hy)
        · intro y hy
          exact i3 h2 y (by simpa using hy)
        · intro hF y hy
          rcases List.mem_cons.mp hy with rfl | hy
          · exact hfirst hF
          · exact i3 h2 y hy

theorem sentencesUpTo_chars {s : Splitter} : ∀ (n : Nat) (cs : List Char), ∀ y ∈ sentencesUpTo s n (cs.map charPiece), pieces (text y) = y := by
  intro n
  induction n with
  | zero => intro cs; simp [sentencesUpTo]
  | succ n ih =>
    intro cs
    unfold sentencesUpTo
    split
    · simp
    · obtain ⟨u, g1, g2, -, -⟩ := sentence_split s (cs.map charPiece)
      have hfirst : pieces (text ((sentence s (cs.map charPiece)).body ++ (sentence s (cs.map charPiece)).closing)) =
          (sentence s (cs.map charPiece)).body ++ (sentence s (cs.map charPiece)).closing := by
        rw [g2]; exact pieces_kept (cs := cs) ⟨_, _, g1⟩
      intro y hy
      rcases List.mem_cons.mp hy with rfl | hy
      · exact hfirst
      · cases hr : (sentence s (cs.map charPiece)).rest with
        | none => rw [hr] at hy; cases hy
        | some r =>
          rw [hr] at hy g1
          obtain ⟨c1, c2, -, -, h2⟩ := split_chars g1
          simp only [Option.getD_some] at h2
          rw [h2] at hy
          exact ih c2 y hy

theorem sentencesUpTo_valid {s : Splitter} : ∀ (n : Nat) (cs : List Char), ∀ y ∈ sentencesUpTo s n (cs.map charPiece), ValidUtf8 (text y) := by
  intro n
  induction n with
  | zero => intro cs; simp [sentencesUpTo]
  | succ n ih =>
    intro cs
    unfold sentencesUpTo
    split
    · simp
    · obtain ⟨u, g1, g2, -, -⟩ := sentence_split s (cs.map charPiece)
      have hfirst : ValidUtf8 (text ((sentence s (cs.map charPiece)).body ++ (sentence s (cs.map charPiece)).closing)) := by
        rw [g2]
        obtain ⟨c1, c2, -, h1, -⟩ := split_chars g1
        obtain ⟨c3, c4, -, -, h2⟩ := split_chars h1.symm
        exact ⟨_, by rw [h2, List.filter_map, text_charPieces]⟩
      intro y hy
      rcases List.mem_cons.mp hy with rfl | hy
      · exact hfirst
      · cases hr : (sentence s (cs.map charPiece)).rest with
        | none => rw [hr] at hy; cases hy
        | some r =>
          rw [hr] at hy g1
          obtain ⟨c1, c2, -, -, h2⟩ := split_chars g1
          simp only [Option.getD_some] at h2
          rw [h2] at hy
          exact ih c2 y hy

/-- C78: the sentences of a text have ends of their own if line feeds do not count or there is none. -/
theorem C78_contained (s : Splitter) (hd : NoWhiteDelim s) (cs : List Char) (hf : s.doubleLineFeedSplit = false ∨ '\n' ∉ cs) :
    SelfContained s (sentences s (enc cs)) := by
  have hfeed : ∀ c ∈ cs.map charPiece, feed s c = false := by
    intro c hc
    obtain ⟨d, hdm, rfl⟩ := List.mem_map.mp hc
    rcases hf with h | h
    · simp [feed, h]
    · have : d.val.toNat ≠ 10 := by
        intro h0
        have : d = '\n' := Char.ext (UInt32.toNat_inj.mp h0)
        exact h (this ▸ hdm)
      simp only [feed, charPiece, Bool.and_eq_false_iff, beq_eq_false_iff_ne]
      exact .inr this
  obtain ⟨h1, h2, -⟩ := sentencesUpTo_contained hd (pieces (enc cs)).length (cs.map charPiece) hfeed
  have hp := sentencesUpTo_chars (s := s) (pieces (enc cs)).length cs
  unfold sentences
  rw [pieces_enc] at *
  refine ⟨?_, ?_⟩
  · intro x hx
    rw [← List.map_dropLast] at hx
    obtain ⟨y, hy, rfl⟩ := List.mem_map.mp hx
    unfold HasEnd
    rw [hp y ((List.dropLast_sublist _).mem hy)]
    exact h1 y hy
  · intro x hx
    rw [← List.map_tail] at hx
    obtain ⟨y, hy, rfl⟩ := List.mem_map.mp hx
    unfold OpensNew
    rw [hp y ((List.tail_sublist _).mem hy)]
    exact h2 y hy

/-- C78: the sentences of a text, each split on its own. -/
theorem C78_each (s : Splitter) (cs : List Char) : ∀ x ∈ sentences s (enc cs), x ≠ [] ∧ sentences s x = [x] := by
  intro x hx
  obtain ⟨out, h1, h2⟩ := C38_at_once_partial s (enc cs)
  rw [← h2] at hx
  obtain ⟨hm, hne⟩ := List.mem_filter.mp hx
  have hne' : x ≠ [] := by simpa using hne
  obtain ⟨again, g1, g2⟩ := C78_one s [⟨enc cs, true⟩] (by
    intro rd hrd
    rw [List.mem_singleton] at hrd
    subst hrd
    exact ⟨cs, rfl⟩) h1 x hm hne'
  obtain ⟨again', k1, k2⟩ := C38_at_once_partial s x
  rw [g1] at k1
  cases k1
  exact ⟨hne', by rw [← k2, g2]⟩

/-- C78, the full claim for a splitter: the sentences of a text, written on lines, are split into the same sentences. -/
def C78_claim (s : Splitter) : Prop :=
  ∀ cs : List Char, sentences s ((sentences s (enc cs)).flatMap (· ++ str "\n")) = sentences s (enc cs)

/-- The claim is false of the default splitter: two paragraphs without a full stop become one sentence. -/
theorem C78_violated : sentences defaultSplitter (str "a\n\nb") = [str "a", str "b"] ∧
    sentences defaultSplitter (str "a\nb\n") = [str "ab"] := by decide +kernel

theorem C78_claim_false : ¬ C78_claim defaultSplitter := by
  intro h
  have h1 := h ['a', '\n', '\n', 'b']
  rw [show enc ['a', '\n', '\n', 'b'] = str "a\n\nb" by decide, C78_violated.1,
    show [str "a", str "b"].flatMap (· ++ str "\n") = str "a\nb\n" by decide, C78_violated.2] at h1
  exact absurd h1 (by decide)

theorem feed_white : WhiteText (str "\n") := ⟨['\n'], by decide, by decide⟩

/-- C78: with white space left out, the sentences of a text, written on lines, are split into the same sentences, if line feeds do not count
or the text contains none. -/
theorem C78_lines_partial (s : Splitter) (hs : s.skipWhiteSpace = true) (hd : NoWhiteDelim s) (cs : List Char)
    (hf : s.doubleLineFeedSplit = false ∨ '\n' ∉ cs) :
    sentences s ((sentences s (enc cs)).flatMap (· ++ str "\n")) = sentences s (enc cs) := by
  have hwhite := feed_white
  have heach := C78_each s cs
  revert hwhite
  generalize str "\n" = lf
  intro hwhite
  have hn : nonEmpty (((sentences s (enc cs)).map (fun x => (x, lf))).map (·.1)) = sentences s (enc cs) := by
    rw [List.map_map]
    have : ((fun p : Bytes × Bytes => p.1) ∘ fun x => (x, lf)) = id := rfl
    rw [this, List.map_id]
    apply List.filter_eq_self.mpr
    intro x hx
    have := (heach x hx).1
    simpa using this
  have hv : ∀ x ∈ sentences s (enc cs), ValidUtf8 x := by
    intro x hx
    obtain ⟨y, hy, rfl⟩ := List.mem_map.mp hx
    rw [pieces_enc] at hy
    exact sentencesUpTo_valid _ _ y hy
  have := C78_reflow_partial s hs hd ((sentences s (enc cs)).map (fun x => (x, lf))) (by
    intro p hp
    obtain ⟨x, hx, rfl⟩ := List.mem_map.mp hp
    exact ⟨hv x hx, .inr (heach x hx).2⟩) (by
    intro p hp
    obtain ⟨x, hx, rfl⟩ := List.mem_map.mp hp
    exact hwhite) (by rw [hn]; exact C78_contained s hd cs hf)
  rw [hn] at this
  rw [putTogether, List.flatMap_map] at this
  exact this

end Kagome
