import Verif.Spec.SplitFirst
import Verif.Props.Resplit
import Verif.Props.ReadJson
import Verif.Props.Long

/-!
C88: a text is split into sentences and these are analysed, one by one: with the API, by `tokenize -split`, by `sentence` and `tokenize` in a pipe.
-/

namespace Kagome

open Spec

variable {s : Splitter} {reader : List ReadResult} {cs : List Char} {sents : List Bytes} {ending : ScanEnd}

/-! ### The length of a sentence -/

theorem body_closing_kinds (s : Splitter) (cs : List Piece) : ∀ (n : Int) (fed : Bool), ∀ c ∈ (Spec.body s n fed cs).closing,
    s.isDelim c.1 = true ∨ s.isFollower c.1 = true := by
  induction cs with
  | nil => intro n fed; simp [Spec.body]
  | cons c cs ih =>
    intro n fed
    rcases body_cases s n fed c cs with ⟨-, -, e⟩ | ⟨-, -, -, e⟩ | ⟨-, -, -, e⟩ | ⟨-, -, -, e⟩ | ⟨-, -, -, -, e⟩ <;>
      rw [e]
    · simp
    · exact ih n _
    · simp
    · intro x hx
      obtain ⟨u, -, -, h3⟩ := closing_split s false cs
      simpa using h3 x hx
    · exact ih _ _

theorem whole_shape {x : Bytes} (h : Whole s x) : ∃ a b : List Char, x = enc (a ++ b) ∧ (a.length : Int) ≤ max 1 s.maxRuneLen ∧
    ∀ c ∈ b, s.isDelim c.val.toNat = true ∨ s.isFollower c.val.toNat = true := by
  obtain ⟨⟨cs, rfl⟩, h⟩ := h
  rcases h with h | h
  · exact ⟨[], [], h, by simp; omega, by simp⟩
  rw [show cs.flatMap String.utf8EncodeChar = enc cs from rfl, pieces_enc] at h
  obtain ⟨u, g1, g2, g3, g4⟩ := sentence_split s (cs.map charPiece)
  have hlen : ((sentence s (cs.map charPiece)).body.length : Int) ≤ max 1 s.maxRuneLen := by
    have := body_at_most s ((cs.map charPiece).dropWhile (blank s)) 0 false
    rwa [Int.sub_zero] at this
  have hsub : ((sentence s (cs.map charPiece)).body ++ (sentence s (cs.map charPiece)).closing).Sublist (cs.map charPiece) := by
    rw [g2]
    conv => rhs; rw [g1, List.append_assoc]
    exact (List.filter_sublist.trans (List.sublist_append_left _ _)).trans (List.sublist_append_right _ _)
  obtain ⟨l, -, hl⟩ := List.sublist_map_iff.mp hsub
  obtain ⟨a, b, rfl, ha, hb⟩ := split_chars hl.symm
  have hclose : ∀ c ∈ (sentence s (cs.map charPiece)).closing, s.isDelim c.1 = true ∨ s.isFollower c.1 = true := body_closing_kinds s _ 0 false
  refine ⟨a, b, ?_, ?_, ?_⟩
  · rw [← text_charPieces, ← hl]
    cases hr : (sentence s (cs.map charPiece)).rest with
    | none =>
      rw [sentencesOf_last hr] at h
      split at h
      · cases h
      · rw [g4 hr, List.append_nil]
        exact (List.cons.inj h).1.symm
    | some r =>
      rw [sentencesOf_cons hr] at h
      exact (List.cons.inj h).1.symm
  · rw [ha, List.length_map] at hlen
    exact hlen
  · intro c hc
    have := hclose (charPiece c) (by rw [hb]; exact List.mem_map.mpr ⟨c, hc, rfl⟩)
    exact this

/-- C88: whatever the reader, if it delivers whole characters, a sentence is a body of at most `MaxRuneLen` characters (but at least one may be there) with nothing but
delimiters and followers behind it. -/
theorem C88_short (hv : ∀ rd ∈ reader, ValidUtf8 rd.bytes) (h : scanAll s.scanSentences reader = some (sents, ending)) :
    ∀ x ∈ sents, ∃ a b : List Char, x = enc (a ++ b) ∧ (a.length : Int) ≤ max 1 s.maxRuneLen ∧
      ∀ c ∈ b, s.isDelim c.val.toNat = true ∨ s.isFollower c.val.toNat = true :=
  fun x hx => whole_shape (scan_whole reader hv 0 [] sents ending h x hx)

theorem enc_prefix {a b : List Char} {r : Bytes} (h : enc a ++ r = enc b) : a <+: b := by
  induction a generalizing b with
  | nil => exact List.nil_prefix
  | cons c a ih =>
    cases b with
    | nil =>
      have := congrArg List.length h
      have h1 := encode_ne_nil c
      rw [enc_cons] at this
      simp only [List.length_append, List.flatMap_nil, List.length_nil] at this
      have := List.length_pos_iff.mpr h1
      omega
    | cons d b =>
      rw [enc_cons, enc_cons, List.append_assoc] at h
      obtain ⟨rfl, h2⟩ := encode_injective h
      exact List.cons_prefix_cons.mpr ⟨rfl, ih h2⟩

theorem flatten_valid {l : List Bytes} (h : ∀ x ∈ l, ValidUtf8 x) : ∃ ks, l.flatten = enc ks := by
  induction l with
  | nil => exact ⟨[], rfl⟩
  | cons x l ih =>
    obtain ⟨a, ha⟩ := h x (by simp)
    obtain ⟨b, hb⟩ := ih fun y hy => h y (by simp [hy])
    exact ⟨a ++ b, by rw [List.flatten_cons, hb, ha, enc_append]⟩

/-- The sentences are made of the characters of the text. -/
theorem scan_kept (hv : ∀ rd ∈ reader, ValidUtf8 rd.bytes) (hcs : delivered reader = enc cs) (h : scanAll s.scanSentences reader = some (sents, ending)) :
    ∃ ks, sents.flatten = enc ks ∧ ks <+: keptChars s cs ∧ (ending = .done → ks = keptChars s cs) := by
  unfold keptChars
  cases hs : s.skipWhiteSpace with
  | true =>
    obtain ⟨sents', ending', cs', ks, h1, h2, h3, h4, h5⟩ := C34_whole_characters s hs reader hv
    rw [h] at h1
    cases h1
    rw [hcs] at h2
    obtain rfl := enc_injective h2
    exact ⟨ks, h3, h4, h5⟩
  | false =>
    obtain ⟨sents', ending', h1, h2, h3⟩ := C33_exact s hs reader
    rw [h] at h1
    cases h1
    obtain ⟨ks, hk⟩ := flatten_valid (fun x hx => (scan_whole reader hv 0 [] sents ending h x hx).1)
    rw [hk, hcs] at h2 h3
    obtain ⟨r, hr⟩ := h2
    refine ⟨ks, hk, enc_prefix hr, fun hd => enc_injective (h3 hd)⟩

theorem sentence_infix (hv : ∀ rd ∈ reader, ValidUtf8 rd.bytes) (hcs : delivered reader = enc cs) (h : scanAll s.scanSentences reader = some (sents, ending))
    {a : List Char} (hx : enc a ∈ sents) : a <:+: keptChars s cs := by
  obtain ⟨ks, h1, h2, -⟩ := scan_kept hv hcs h
  obtain ⟨l, r, rfl⟩ := List.append_of_mem hx
  have hw := scan_whole reader hv 0 [] _ ending h
  obtain ⟨l', hl⟩ := flatten_valid (l := l) (fun x hx => (hw x (by simp [hx])).1)
  obtain ⟨r', hr⟩ := flatten_valid (l := r) (fun x hx => (hw x (by simp [hx])).1)
  rw [List.flatten_append, List.flatten_cons, hl, hr, ← enc_append, ← enc_append] at h1
  obtain rfl := enc_injective h1
  obtain ⟨z, hz⟩ := h2
  exact ⟨l', r' ++ z, by rw [← hz]; simp⟩

theorem runeCount_enc (cs : List Char) : runeCount (enc cs) = cs.length := by
  unfold runeCount
  rw [runes_valid, List.length_map]

/-- C88: no sentence is too long for any dictionary, if delimiters and followers do not come in too long runs. So what C02 to C11 say holds of every sentence, however
long the text is. -/
theorem C88_tame (hv : ∀ rd ∈ reader, ValidUtf8 rd.bytes) (hcs : delivered reader = enc cs) {n : Nat} (hruns : RunsUpTo s n (keptChars s cs))
    (hn : max 1 s.maxRuneLen + n ≤ 16000) {t : Tokenizer} (wf : WellFormed t.dict t.userDict) (hrep : ReplacementOk t.dict (delivered reader))
    (h : scanAll s.scanSentences reader = some (sents, ending)) : ∀ x ∈ sents, Tame t x := by
  intro x hx
  obtain ⟨a, b, rfl, ha, hb⟩ := C88_short hv h x hx
  have hin := sentence_infix hv hcs h hx
  have hlen : b.length ≤ n := hruns b ((List.suffix_append a b).isInfix.trans hin) hb
  refine ⟨wf, ?_, fits_short _ ?_⟩
  · rcases hrep with hrep | hrep
    · exact .inl hrep
    · right
      rw [hcs, runes_valid] at hrep
      rw [runes_valid]
      intro hm
      apply hrep
      obtain ⟨c, hc, e⟩ := List.mem_map.mp hm
      have : c ∈ keptChars s cs := hin.subset hc
      refine List.mem_map.mpr ⟨c, ?_, e⟩
      unfold keptChars at this
      split at this
      · exact (List.mem_filter.mp this).1
      · exact this
  · rw [runeCount_enc, List.length_append]
    omega

/-- C88: split first, then analyse, in any mode: the words of all the sentences, joined, are the text (without white space if the splitter skips it), or the beginning of
it if the reader failed. -/
theorem C88_lossless (hv : ∀ rd ∈ reader, ValidUtf8 rd.bytes) (hcs : delivered reader = enc cs) {n : Nat} (hruns : RunsUpTo s n (keptChars s cs))
    (hn : max 1 s.maxRuneLen + n ≤ 16000) {t : Tokenizer} (wf : WellFormed t.dict t.userDict) (hrep : ReplacementOk t.dict (delivered reader))
    (ideo : Nat → Bool) (mode : Int) :
    ∃ sents ending tokss ks, scanAll s.scanSentences reader = some (sents, ending) ∧ sents.mapM (fun x => analyze t ideo x mode) = some tokss ∧
      (tokss.flatMap inner).flatMap (fun tok => tok.surface) = enc ks ∧ ks <+: keptChars s cs ∧ (ending = .done → ks = keptChars s cs) := by
  obtain ⟨sents, ending, h⟩ := C35_scan_ends s reader
  have ht := C88_tame hv hcs hruns hn wf hrep h
  have hw : ∀ x ∈ sents, ValidUtf8 x := fun x hx => (scan_whole reader hv 0 [] sents ending h x hx).1
  obtain ⟨ks, h1, h2, h3⟩ := scan_kept hv hcs h
  have key : ∃ tokss, sents.mapM (fun x => analyze t ideo x mode) = some tokss ∧ (tokss.flatMap inner).flatMap (fun tok => tok.surface) = sents.flatten := by
    clear h1 h2 h3 h
    induction sents with
    | nil => exact ⟨[], rfl, rfl⟩
    | cons x sents ih =>
      obtain ⟨tokss, g1, g2⟩ := ih (fun y hy => ht y (by simp [hy])) (fun y hy => hw y (by simp [hy]))
      obtain ⟨toks, ha⟩ := Option.isSome_iff_exists.mp (C01_total wf ideo x mode).1
      refine ⟨toks :: tokss, ?_, ?_⟩
      · rw [List.mapM_cons, ha, g1]; rfl
      · rw [List.flatMap_cons, List.flatMap_append, g2, List.flatten_cons]
        congr 1
        by_cases hm : mode = modeExtended
        · subst hm
          exact C03_lossless_valid (ht x (by simp)) (hw x (by simp)) ha
        · exact C02_lossless (ht x (by simp)) hm ha
  obtain ⟨tokss, g1, g2⟩ := key
  exact ⟨sents, ending, tokss, ks, h, g1, by rw [g2, h1], h2, h3⟩

/-- C88: if white space is kept, the place of a word in the text is its place in the sentence, counted from the end of the sentences before. -/
theorem C88_places (hs : s.skipWhiteSpace = false) (hv : ∀ rd ∈ reader, ValidUtf8 rd.bytes) (hcs : delivered reader = enc cs) {n : Nat}
    (hruns : RunsUpTo s n cs) (hn : max 1 s.maxRuneLen + n ≤ 16000) {t : Tokenizer} (wf : WellFormed t.dict t.userDict)
    (hrep : ReplacementOk t.dict (delivered reader)) (h : scanAll s.scanSentences reader = some (sents, ending)) {i : Nat} {x : Bytes}
    (hx : sents[i]? = some x) {ideo : Nat → Bool} {mode : Int} (hm : mode ≠ modeExtended) {toks : List Token} (ha : analyze t ideo x mode = some toks) :
    ∀ tok ∈ inner toks, ((delivered reader).drop ((sents.take i).flatten.length + tok.position)).take tok.surface.length = tok.surface := by
  have hk : keptChars s cs = cs := by unfold keptChars; rw [hs]; rfl
  have ht := C88_tame hv hcs (by rw [hk]; exact hruns) hn wf hrep h x (List.mem_of_getElem? hx)
  intro tok htok
  obtain ⟨e1, -, -, -, e2⟩ := (C04_slices ht hm ha).1 tok htok
  obtain ⟨sents', ending', h1, h2, -⟩ := C33_exact s hs reader
  rw [h] at h1
  cases h1
  obtain ⟨r, hr⟩ := h2
  have hsp : sents.flatten = (sents.take i).flatten ++ (x ++ (sents.drop (i + 1)).flatten) := by
    conv => lhs; rw [← List.take_append_drop i sents]
    rw [List.flatten_append, List.drop_eq_getElem?_toList_append, hx]
    simp
  rw [← hr, hsp, List.append_assoc, List.append_assoc, ← List.drop_drop, List.drop_left, List.drop_append_of_le_length (by omega),
    List.take_append_of_le_length (by rw [List.length_drop]; omega)]
  exact e1.symm

/-! ### `tokenize -split`, and `sentence` and `tokenize` in a pipe -/

theorem default_runs (h : RunsUpTo defaultSplitter n (cs.filter nonSpace)) : RunsUpTo defaultSplitter n (keptChars defaultSplitter cs) := h

section

variable (w : World) {args : List Bytes} {o : Tok.Opts} {m : Int} {t : Tokenizer} {src : Source}

/-- C88: `tokenize -split`, without any bound on the length of the text: the words on the lines it prints, joined, are the text without white space (C80). -/
theorem C88_command (hl : TokenizeLine args o) (hm : ModeText o.mode m) (ht : ChosenTokenizer w o t) (hi : ChosenInput w o src)
    (tab : FeatureTables t.dict) (ct : CellTexts t.dict t.userDict) (hj : o.json = false) (hsp : o.split = true) (hmx : m ≠ 3)
    (hv : ∀ rd ∈ src.reads, ValidUtf8 rd.bytes) (hcs : delivered src.reads = enc cs) {n : Nat} (hruns : RunsUpTo defaultSplitter n (cs.filter nonSpace)) (hn : n ≤ 15872)
    (wf : WellFormed t.dict t.userDict) (hrep : ReplacementOk t.dict (delivered src.reads)) :
    ∃ r ks, Tok.run w args = some r ∧ (wordsBack r.out).flatten.flatten = enc ks ∧ ks <+: cs.filter nonSpace ∧ (r.err = none → ks = cs.filter nonSpace) := by
  obtain ⟨r, cs', ks, h1, h2, h3, h4, h5⟩ := C80_split w hl hm ht hi tab ct hj hsp hmx hv wf
    (fun texts ending h => C88_tame hv hcs (default_runs hruns) (show max 1 (128 : Int) + n ≤ 16000 by omega) wf hrep h)
  rw [hcs] at h2
  obtain rfl := enc_injective h2
  exact ⟨r, ks, h1, h3, h4, h5⟩

/-- C88: the same for `tokenize -split -json` (C81). -/
theorem C88_json (hl : TokenizeLine args o) (hm : ModeText o.mode m) (ht : ChosenTokenizer w o t) (hi : ChosenInput w o src)
    (tab : FeatureTables t.dict) (hj : o.json = true) (hsp : o.split = true) (hmx : m ≠ 3)
    (hv : ∀ rd ∈ src.reads, ValidUtf8 rd.bytes) (hcs : delivered src.reads = enc cs) {n : Nat} (hruns : RunsUpTo defaultSplitter n (cs.filter nonSpace)) (hn : n ≤ 15872)
    (wf : WellFormed t.dict t.userDict) (hrep : ReplacementOk t.dict (delivered src.reads)) :
    ∃ r vs ks, Tok.run w args = some r ∧ readStream r.out = some vs ∧ (vs.flatMap surfaceTexts).flatten = enc ks ∧ ks <+: cs.filter nonSpace ∧
      (r.err = none → ks = cs.filter nonSpace) := by
  obtain ⟨r, vs, cs', ks, h1, h2, h3, h4, h5, h6⟩ := C81_split w hl hm ht hi tab hj hsp hmx hv wf
    (fun texts ending h => C88_tame hv hcs (default_runs hruns) (show max 1 (128 : Int) + n ≤ 16000 by omega) wf hrep h)
  rw [hcs] at h3
  obtain rfl := enc_injective h3
  exact ⟨r, vs, ks, h1, h2, h4, h5, h6⟩

theorem enc_length_le (cs : List Char) : (enc cs).length ≤ 4 * cs.length := by
  induction cs with
  | nil => simp
  | cons c cs ih =>
    have := (encode_length c).2
    rw [enc_cons, List.length_append, List.length_cons]
    omega

theorem lineLoop_stdin (src2 : Source) (m : Int) (json : Bool) (texts : List Bytes) :
    Tok.lineLoop { w with stdin := src2 } t m json texts = Tok.lineLoop w t m json texts := by
  induction texts with
  | nil => rfl
  | cons x xs ih =>
    have e : ∀ toks, Tok.printTokensJSON { w with stdin := src2 } toks = Tok.printTokensJSON w toks := fun toks => by
      unfold Tok.printTokensJSON
      rw [show Tok.jsonLoop { w with stdin := src2 } toks = Tok.jsonLoop w toks by
        induction toks with
        | nil => rfl
        | cons v ts iht => unfold Tok.jsonLoop; rw [iht]]
    unfold Tok.lineLoop
    rw [ih]
    simp only [e]

/-- C88: `kagome sentence | kagome tokenize` prints what `kagome tokenize -split` prints, byte for byte, with the same options otherwise. An error while reading the
input is an error of the first command of the pipe. -/
theorem C88_pipe {args1 args2 : List Bytes} (hl : TokenizeLine args o) (hm : ModeText o.mode m) (ht : ChosenTokenizer w o t) (hi : ChosenInput w o src)
    (hsp : o.split = true) (hl1 : SentenceLine args1 o.file) (hl2 : TokenizeLine args2 { o with split := false, file := [] })
    (hv : ∀ rd ∈ src.reads, ValidUtf8 rd.bytes) (hcs : delivered src.reads = enc cs) {n : Nat} (hruns : RunsUpTo defaultSplitter n (cs.filter nonSpace)) (hn : n ≤ 15872) :
    ∃ r1, Sen.run w args1 = some r1 ∧ (∀ r, Tok.run w args = some r → r.err = r1.err) ∧
      ∀ src2 : Source, delivered src2.reads = r1.out → Lively 0 src2.reads → src2.failure = none →
        Tok.run { w with stdin := src2 } args2 = (Tok.run w args).map (fun r => { r with err := none }) := by
  obtain ⟨sents, ending, hs⟩ := C35_scan_ends defaultSplitter src.reads
  have hi1 : SentenceInput w o.file src := by
    cases hi with
    | stdin h => exact .stdin h
    | file h hf => exact .file h hf
  have hs3 : scanAll (if o.split then defaultSplitter.scanSentences else scanLines) src.reads = some (sents, ending) := by rw [hsp]; exact hs
  have run3 := tokenize_run w hl hm ht hi hs3
  refine ⟨_, by rw [sentence_run w hl1 hi1, hs]; rfl, ?_, ?_⟩
  · intro r hr
    rw [run3] at hr
    obtain ⟨x, -, rfl⟩ := Option.map_eq_some_iff.mp hr
    rfl
  · intro src2 hd hlive hfail
    have hlf : ∀ x ∈ sents, (0x0A : UInt8) ∉ x := scan_no_white (x := 0x0A) (by decide) (by decide) (s := defaultSplitter) rfl _ _ _ _ _ hs
    have hcr : ∀ x ∈ sents, (0x0D : UInt8) ∉ x := scan_no_white (x := 0x0D) (by decide) (by decide) (s := defaultSplitter) rfl _ _ _ _ _ hs
    have hraw : rawLines (delivered src2.reads) = sents := by rw [hd]; exact rawLines_joined hlf
    have hlines : lines (delivered src2.reads) = sents := by
      unfold lines
      rw [hraw]
      conv => rhs; rw [← List.map_id sents]
      refine List.map_congr_left fun x hx => ?_
      unfold dropCR
      rw [if_neg]
      · rfl
      · intro h
        exact hcr x hx (List.mem_of_getLast? h)
    have hshort : ∀ l ∈ rawLines (delivered src2.reads), l.length < maxTokenSize := by
      rw [hraw]
      intro x hx
      obtain ⟨a, b, rfl, ha, hb⟩ := C88_short hv hs x hx
      have hin := sentence_infix hv hcs hs hx
      have h1 : b.length ≤ n := hruns b ((List.suffix_append a b).isInfix.trans hin) hb
      have h2 := enc_length_le (a ++ b)
      have h3 : (a.length : Int) ≤ max 1 128 := ha
      rw [List.length_append] at h2
      unfold maxTokenSize
      omega
    have hs2 : scanAll scanLines src2.reads = some (sents, .done) := by
      have := scan_lines src2.reads 0 [] hlive (by simp) hshort
      rw [List.nil_append, hlines] at this
      exact this
    have hdict : ∀ {d}, ChosenDict w o d → ChosenDict { w with stdin := src2 } { o with split := false, file := [] } d := by
      intro d h
      cases h with
      | file a b c => exact .file a b c
      | shrunkFile a b c => exact .shrunkFile a b c
      | ipa a b c => exact .ipa a b c
      | ipaShrink a b c => exact .ipaShrink a b c
      | uni a b c => exact .uni a b c
      | uniShrink a b c => exact .uniShrink a b c
    have ht2 : ChosenTokenizer { w with stdin := src2 } { o with split := false, file := [] } t := by
      cases ht with
      | plain a b => exact .plain (hdict a) b
      | user a b c => exact .user (hdict a) b c
    have run2 := tokenize_run { w with stdin := src2 } hl2 hm ht2 (.stdin rfl) hs2
    rw [run2, run3, lineLoop_stdin]
    cases Tok.lineLoop w t m o.json sents with
    | none => rfl
    | some out =>
      change some _ = some _
      simp only [scanError, hfail]

end

/-! ### Texts that are too long to be analysed at once -/

namespace Heavy

theorem text_chars (n : Nat) : text n = enc (List.replicate n 'a' ++ ['b', 'c']) := by
  induction n with
  | zero => decide
  | succ n ih =>
    have e : text (n + 1) = 0x61 :: text n := rfl
    rw [e, ih, List.replicate_succ, List.cons_append, enc_cons]
    rfl

theorem chars_plain (n : Nat) : ∀ c ∈ List.replicate n 'a' ++ ['b', 'c'], c = 'a' ∨ c = 'b' ∨ c = 'c' := by
  intro c hc
  simp only [List.mem_append, List.mem_replicate, List.mem_cons, List.not_mem_nil, or_false] at hc
  rcases hc with ⟨-, rfl⟩ | rfl | rfl <;> simp

/-- C88: the texts of C46, of which the analysis loses all but one letter: if they are split into sentences first — with the splitter of the package, there is no
delimiter in them, so they are cut every 128 characters — nothing is lost. -/
theorem C88_heavy (n : Nat) (hn : 32769 ≤ n) (ideo : Nat → Bool) (mode : Int) :
    (∃ toks, analyze tok ideo (text n) mode = some toks ∧ toks.map (fun t => t.surface) = [str "c", str "EOS"]) ∧
    ∃ sents tokss, scanAll defaultSplitter.scanSentences [⟨text n, true⟩] = some (sents, .done) ∧ sents.mapM (fun x => analyze tok ideo x mode) = some tokss ∧
      (tokss.flatMap inner).flatMap (fun t => t.surface) = text n := by
  refine ⟨C46_lost n hn ideo mode, ?_⟩
  have hcs : delivered [⟨text n, true⟩] = enc (List.replicate n 'a' ++ ['b', 'c']) := by rw [← text_chars]; rfl
  have hk : keptChars defaultSplitter (List.replicate n 'a' ++ ['b', 'c']) = List.replicate n 'a' ++ ['b', 'c'] := by
    refine List.filter_eq_self.mpr fun c hc => ?_
    rcases chars_plain n c hc with rfl | rfl | rfl <;> decide
  have hruns : RunsUpTo defaultSplitter 0 (keptChars defaultSplitter (List.replicate n 'a' ++ ['b', 'c'])) := by
    rw [hk]
    intro run hrun h
    rcases run with _ | ⟨c, run⟩
    · exact Nat.le_refl 0
    · have h1 := h c (by simp)
      have h2 := chars_plain n c (hrun.subset (by simp))
      exfalso
      revert h1
      rcases h2 with rfl | rfl | rfl <;> decide
  obtain ⟨sents, ending, tokss, ks, h1, h2, h3, h4, h5⟩ := C88_lossless (s := defaultSplitter) (reader := [⟨text n, true⟩]) (t := tok)
    (by intro rd hrd; rw [List.mem_singleton.mp hrd]; exact ⟨_, text_chars n⟩) hcs hruns (by decide) wellFormed (Or.inl rfl) ideo mode
  obtain ⟨out, g1, -⟩ := C38_at_once_partial defaultSplitter (text n)
  rw [h1] at g1
  cases g1
  exact ⟨sents, tokss, h1, h2, by rw [h3, h5 rfl, hk, ← text_chars]⟩

/-- A splitter for which "a", "b" and "c" are delimiters. -/
def letterSplitter : Splitter := { defaultSplitter with delim := [0x61, 0x62, 0x63] }

theorem closing_letters {cs : List Piece} (h : ∀ c ∈ cs, c.1 = 0x61 ∨ c.1 = 0x62 ∨ c.1 = 0x63) (fed : Bool) : closing letterSplitter fed cs = (cs, []) := by
  induction cs with
  | nil => rfl
  | cons c cs ih =>
    have e : blank letterSplitter c = false ∧ letterSplitter.isDelim c.1 = true := by
      unfold blank
      rcases h c (by simp) with e | e | e <;> rw [e] <;> decide
    unfold closing
    rw [e.1, e.2, ih fun x hx => h x (by simp [hx])]
    rfl

/-- C88: the bound on runs of delimiters is needed: a run of them is one sentence, however long it is. -/
theorem C88_runs_needed (n : Nat) (hn : 32769 ≤ n) (ideo : Nat → Bool) (mode : Int) :
    ∃ sents toks, scanAll letterSplitter.scanSentences [⟨text n, true⟩] = some (sents, .done) ∧ nonEmpty sents = [text n] ∧
      analyze tok ideo (text n) mode = some toks ∧ toks.map (fun t => t.surface) = [str "c", str "EOS"] := by
  obtain ⟨toks, g1, g2⟩ := C46_lost n hn ideo mode
  obtain ⟨sents, h1, h2⟩ := C38_at_once_partial letterSplitter (text n)
  refine ⟨sents, toks, h1, ?_, g1, g2⟩
  rw [h2]
  have hp : pieces (text n) = (List.replicate n 'a' ++ ['b', 'c']).map charPiece := by rw [text_chars, pieces_enc]
  have hall : ∀ c ∈ (List.replicate n 'a' ++ ['b', 'c']).map charPiece, c.1 = 0x61 ∨ c.1 = 0x62 ∨ c.1 = 0x63 := by
    intro c hc
    obtain ⟨d, hd, rfl⟩ := List.mem_map.mp hc
    rcases chars_plain n d hd with rfl | rfl | rfl <;> decide
  have key : ∀ ps : List Piece, ps ≠ [] → (∀ c ∈ ps, c.1 = 0x61 ∨ c.1 = 0x62 ∨ c.1 = 0x63) → sentencesUpTo letterSplitter ps.length ps = [ps] := by
    intro ps hne hps
    cases ps with
    | nil => exact absurd rfl hne
    | cons c ps =>
      have e : blank letterSplitter c = false ∧ letterSplitter.isDelim c.1 = true ∧ feed letterSplitter c = false := by
        unfold blank feed
        rcases hps c (by simp) with e | e | e <;> rw [e] <;> decide
      have hdw : (c :: ps).dropWhile (blank letterSplitter) = c :: ps := by rw [List.dropWhile_cons, e.1]; rfl
      have hse : sentence letterSplitter (c :: ps) = ⟨[c], ps, some []⟩ := by
        unfold sentence
        rw [hdw]
        unfold Spec.body
        rw [e.1, e.2.1, e.2.2, closing_letters fun x hx => hps x (by simp [hx])]
        rfl
      rw [List.length_cons]
      unfold sentencesUpTo
      rw [hdw, if_neg (by simp), hse]
      cases ps.length <;> rfl
  unfold sentences
  rw [hp, key _ (by simp) hall, List.map_singleton, text_charPieces, text_chars]

end Heavy

/-! ### Examples -/

namespace Toy

/-- Three sentences in two reads. -/
def splitReads : List ReadResult := [⟨str "すもも。」 も", false⟩, ⟨str "も!うち", true⟩]

def splitChars : List Char := ['す', 'も', 'も', '。', '」', ' ', 'も', 'も', '!', 'う', 'ち']

theorem splitReads_valid : ∀ rd ∈ splitReads, ValidUtf8 rd.bytes := by
  intro rd h
  simp only [splitReads, List.mem_cons, List.not_mem_nil, or_false] at h
  rcases h with rfl | rfl
  · exact ⟨['す', 'も', 'も', '。', '」', ' ', 'も'], by decide +kernel⟩
  · exact ⟨['も', '!', 'う', 'ち'], by decide +kernel⟩

theorem splitReads_chars : delivered splitReads = enc splitChars := by decide +kernel

/-- In this text there are at most two delimiters and followers in a row. -/
theorem splitReads_runs : RunsUpTo defaultSplitter 2 (splitChars.filter nonSpace) := by
  intro run ⟨a, b, h⟩ hr
  have hf : splitChars.filter nonSpace = ['す', 'も', 'も', '。', '」', 'も', 'も', '!', 'う', 'ち'] := by decide +kernel
  rw [hf] at h
  have hla := congrArg List.length h
  simp only [List.length_append, List.length_cons, List.length_nil] at hla
  have hrun : run = (['す', 'も', 'も', '。', '」', 'も', 'も', '!', 'う', 'ち'].drop a.length).take run.length := by
    rw [← h, List.append_assoc, List.drop_left, List.take_left]
  have key : ∀ i ≤ 10, ∀ k ≤ 10, (∀ c ∈ (['す', 'も', 'も', '。', '」', 'も', 'も', '!', 'う', 'ち'].drop i).take k,
      (defaultSplitter.isDelim c.val.toNat || defaultSplitter.isFollower c.val.toNat) = true) →
      ((['す', 'も', 'も', '。', '」', 'も', 'も', '!', 'う', 'ち'].drop i).take k).length ≤ 2 := by decide +kernel
  have := key a.length (by omega) run.length (by omega) (by rw [← hrun]; intro c hc; have := hr c hc; simpa using this)
  rwa [← hrun] at this

/-- The hypotheses of `C88_tame` and `C88_lossless` are met; what comes out. -/
theorem C88_toy : (∀ rd ∈ splitReads, ValidUtf8 rd.bytes) ∧ delivered splitReads = enc splitChars ∧
    RunsUpTo defaultSplitter 2 (keptChars defaultSplitter splitChars) ∧ max 1 defaultSplitter.maxRuneLen + (2 : Nat) ≤ 16000 ∧
    WellFormed tok.dict tok.userDict ∧ ReplacementOk tok.dict (delivered splitReads) ∧
    (scanAll defaultSplitter.scanSentences splitReads).bind (fun r => r.1.mapM (fun x => (analyze tok ideo x modeNormal).map (fun ts => ts.map (fun t => t.surface)))) =
      some [[str "BOS", str "すもも", str "。」", str "EOS"], [str "BOS", str "もも", str "!", str "EOS"], [str "BOS", str "うち", str "EOS"]] :=
  ⟨splitReads_valid, splitReads_chars, splitReads_runs, by decide, wellFormed_none, replacementOk _, by decide +kernel⟩

/-- The same text with its white space, and the place of the second word of the second sentence. -/
theorem C88_places_toy : let s := { defaultSplitter with skipWhiteSpace := false }
    RunsUpTo s 11 splitChars ∧ ∃ sents x toks tok', scanAll s.scanSentences splitReads = some (sents, .done) ∧ sents[1]? = some x ∧
      analyze tok ideo x modeNormal = some toks ∧ tok' ∈ inner toks ∧ tok'.surface = str "もも" ∧
      (sents.take 1).flatten.length + tok'.position = (str "すもも。」 ").length := by
  refine ⟨fun run h _ => h.length_le, ?_⟩
  have h1 : scanAll ({ defaultSplitter with skipWhiteSpace := false } : Splitter).scanSentences splitReads =
    some ([str "すもも。」", str " もも!", str "うち"], .done) := by decide +kernel
  have h2 : (analyze tok ideo (str " もも!") modeNormal).map (fun ts => (inner ts).map (fun t => (t.surface, t.position))) =
    some [(str " ", 0), (str "もも", 1), (str "!", 7)] := by decide +kernel
  obtain ⟨toks, h3, h4⟩ := Option.map_eq_some_iff.mp h2
  have h5 : (str "もも", (1 : Nat)) ∈ (inner toks).map (fun t => (t.surface, t.position)) := by rw [h4]; decide +kernel
  obtain ⟨t', h6, h7⟩ := List.mem_map.mp h5
  have e1 : t'.surface = str "もも" := congrArg Prod.fst h7
  have e2 : t'.position = 1 := congrArg Prod.snd h7
  exact ⟨_, _, toks, t', h1, rfl, h3, h6, e1, by rw [e2]; decide +kernel⟩

/-- The analysis of the sentences is in general not that of the text: a word is cut if a sentence ends in it. -/
theorem C88_differs : (scanAll ({ defaultSplitter with maxRuneLen := 2 } : Splitter).scanSentences [⟨str "すもも", true⟩]).bind
      (fun r => r.1.mapM (fun x => (analyze tok ideo x modeNormal).map (fun ts => (inner ts).map (fun t => t.surface)))) =
      some [[str "す", str "も"], [str "も"]] ∧
    (analyze tok ideo (str "すもも") modeNormal).map (fun ts => (inner ts).map (fun t => t.surface)) = some [str "すもも"] := by
  constructor <;> decide +kernel

def splitWorld : World := { world with stdin := ⟨splitReads, none⟩ }

def splitOpts : Tok.Opts := { opts with split := true }

/-- The hypotheses of `C88_command` and `C88_pipe` are met; what the three commands print. -/
theorem C88_pipe_toy : TokenizeLine [str "-mode=search", str "-split"] splitOpts ∧ ModeText splitOpts.mode 2 ∧ ChosenTokenizer splitWorld splitOpts tok ∧
    ChosenInput splitWorld splitOpts ⟨splitReads, none⟩ ∧ FeatureTables tok.dict ∧ CellTexts tok.dict tok.userDict ∧ SentenceLine [] splitOpts.file ∧
    TokenizeLine [str "-mode=search"] { splitOpts with split := false, file := [] } ∧
    (Sen.run splitWorld []).map (fun r => (r.out, r.err)) = some (str "すもも。」\nもも!\nうち\n", none) ∧
    (Tok.run splitWorld [str "-mode=search", str "-split"]).map (fun r => (r.out, r.err)) =
      some (str "すもも\t名詞,すもも\n。」\t記号\nEOS\nもも\t名詞,もも\n!\t記号\nEOS\nうち\t名詞,うち\nEOS\n", none) ∧
    (Tok.run { splitWorld with stdin := ⟨[⟨str "すもも。」\nも", false⟩, ⟨str "も!\nうち\n", true⟩], none⟩ } [str "-mode=search"]).map (fun r => (r.out, r.err)) =
      some (str "すもも\t名詞,すもも\n。」\t記号\nEOS\nもも\t名詞,もも\n!\t記号\nEOS\nうち\t名詞,うち\nEOS\n", none) := by
  refine ⟨by rw [← tok_parse_iff]; rfl, .search, .plain (.ipa rfl rfl rfl) rfl, .stdin rfl, featureTables, cellTexts, by rw [← sen_parse_iff]; rfl, line_ok, ?_, ?_, ?_⟩ <;>
    decide +kernel

end Toy

end Kagome
