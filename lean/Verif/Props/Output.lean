import Verif.Props.Cmd
import Verif.Props.Token
import Verif.Props.Splitter
import Verif.Proof.Lines
import Verif.Spec.Output

/-! C41: what `tokenize` prints. -/

namespace Kagome

open Spec

theorem printLoop_spec {toks : List Token} (h : ∀ t ∈ toks, InRange t) :
    ∃ rows : List Bytes, Tok.printLoop toks = some rows.flatten ∧ rows.length = (inner toks).length ∧
      ∀ (i : Nat) (t : Token) (row : Bytes), (inner toks)[i]? = some t → rows[i]? = some row → TokenLine t row := by
  induction toks with
  | nil => exact ⟨[], rfl, rfl, by simp⟩
  | cons t ts ih =>
    obtain ⟨rows, h1, h2, h3⟩ := ih (fun t ht => h t (by simp [ht]))
    by_cases hid : t.id = -1
    · refine ⟨rows, ?_, ?_, ?_⟩
      · simp [Tok.printLoop, Tok.printToken, bosEosID, hid, h1]
      · simpa [inner, hid] using h2
      · simpa [inner, hid] using h3
    · have hi : inner (t :: ts) = t :: inner ts := by simp [inner, hid]
      have key : ∃ row, Tok.printToken t = some row ∧ TokenLine t row := by
        unfold Tok.printToken
        rw [if_neg (show ¬ t.id = bosEosID from hid)]
        by_cases hc : t.cls = .dummy
        · rw [if_neg (by simp [hc])]; exact ⟨_, rfl, .bare hc⟩
        · rw [if_pos hc]
          obtain ⟨fs, k1, _, k3⟩ := features_spec (h t (by simp))
          rw [k1]
          exact ⟨_, rfl, .full hc k3⟩
      obtain ⟨row, k1, k2⟩ := key
      refine ⟨row :: rows, ?_, ?_, ?_⟩
      · simp [Tok.printLoop, k1, h1]
      · simp [hi, h2]
      · rw [hi]
        intro i t' row' ht hr
        cases i with
        | zero => simp at ht hr; subst ht; subst hr; exact k2
        | succ i => exact h3 i t' row' (by simpa using ht) (by simpa using hr)

theorem printTokens_spec {toks : List Token} (h : ∀ t ∈ toks, InRange t) :
    ∃ out, Tok.printTokens toks = some out ∧ PlainText toks out := by
  obtain ⟨rows, h1, h2, h3⟩ := printLoop_spec h
  exact ⟨_, by unfold Tok.printTokens; rw [h1]; rfl, rows, h2, h3, rfl⟩

theorem mode_of_text {v : Bytes} {m : Int} (h : ModeText v m) : Tok.selectMode v = m := by
  cases h <;> decide

theorem setUp_chosen {w : World} {o : Tok.Opts} {t : Tokenizer} (h : ChosenTokenizer w o t) :
    ∃ d, ChosenDict w o d ∧ setUp w d o.udict = .ok t := by
  cases h with
  | plain hd hu => exact ⟨_, hd, by unfold setUp; rw [if_neg (by simp [hu])]; rfl⟩
  | user hd hu hl => exact ⟨_, hd, by unfold setUp; rw [if_pos hu, hl]; rfl⟩

/-- Every run with legal options and what they name: the texts of the scan, analysed one by one. -/
theorem tokenize_run (w : World) {args : List Bytes} {o : Tok.Opts} {m : Int} {t : Tokenizer} {src : Source}
    (hl : TokenizeLine args o) (hm : ModeText o.mode m) (ht : ChosenTokenizer w o t) (hi : ChosenInput w o src)
    {texts : List Bytes} {ending : ScanEnd}
    (hs : scanAll (if o.split then defaultSplitter.scanSentences else scanLines) src.reads = some (texts, ending)) :
    Tok.run w args = (Tok.lineLoop w t m o.json texts).map (fun s => { out := s, err := scanError src ending }) := by
  rw [(C44_tokenize w args).2.2 o hl]
  obtain ⟨d, hd, hsu⟩ := setUp_chosen ht
  have hin : (if o.file ≠ [] then w.openFile o.file else .ok w.stdin) = .ok src := by
    cases hi with
    | stdin h => rw [if_neg (by simp [h])]
    | file h hf => rw [if_pos h, hf]
  unfold Tok.command
  rw [((C44_tokenize_dict w hl).2 d).mpr hd]
  simp only [hsu, hin, hs, mode_of_text hm]

theorem lineLoop_plain (w : World) {t : Tokenizer} (wf : WellFormed t.dict t.userDict) (tab : FeatureTables t.dict) (m : Int)
    (texts : List Bytes) :
    ∃ outs, Tok.lineLoop w t m false texts = some outs.flatten ∧
      ForEach (fun text out => ∃ toks, analyze t w.ideo text m = some toks ∧ PlainText toks out) texts outs := by
  induction texts with
  | nil => exact ⟨[], rfl, trivial⟩
  | cons text texts ih =>
    obtain ⟨outs, h1, h2⟩ := ih
    obtain ⟨toks, ha⟩ := Option.isSome_iff_exists.mp (C01_total wf w.ideo text m).1
    obtain ⟨out, k1, k2⟩ := printTokens_spec (fun tok => analyze_inRange wf tab ha)
    refine ⟨out :: outs, ?_, ⟨toks, ha, k2⟩, h2⟩
    unfold Tok.lineLoop
    rw [ha]
    simp [k1, h1]

/-- C41: `tokenize` without `-json`, for every text the scanner gives. -/
theorem C41_texts (w : World) {args : List Bytes} {o : Tok.Opts} {m : Int} {t : Tokenizer} {src : Source}
    (hl : TokenizeLine args o) (hm : ModeText o.mode m) (ht : ChosenTokenizer w o t) (hi : ChosenInput w o src)
    (wf : WellFormed t.dict t.userDict) (tab : FeatureTables t.dict) (hj : o.json = false) {texts : List Bytes} {ending : ScanEnd}
    (hs : scanAll (if o.split then defaultSplitter.scanSentences else scanLines) src.reads = some (texts, ending)) :
    ∃ outs, Tok.run w args = some { out := outs.flatten, err := scanError src ending } ∧
      ForEach (fun text out => ∃ toks, analyze t w.ideo text m = some toks ∧ PlainText toks out) texts outs := by
  obtain ⟨outs, h1, h2⟩ := lineLoop_plain w wf tab m texts
  exact ⟨outs, by rw [tokenize_run w hl hm ht hi hs, hj, h1]; rfl, h2⟩

/-- C41: without `-split` the texts are the lines of the input, if no line is too long for a `bufio.Scanner` and the reader does not
give up. -/
theorem C41_lines (w : World) {args : List Bytes} {o : Tok.Opts} {m : Int} {t : Tokenizer} {src : Source}
    (hl : TokenizeLine args o) (hm : ModeText o.mode m) (ht : ChosenTokenizer w o t) (hi : ChosenInput w o src)
    (wf : WellFormed t.dict t.userDict) (tab : FeatureTables t.dict) (hj : o.json = false) (hsp : o.split = false)
    (hr : Lively 0 src.reads) (hshort : ∀ l ∈ rawLines (delivered src.reads), l.length < 65536) :
    ∃ outs, Tok.run w args = some { out := outs.flatten, err := src.failure } ∧
      ForEach (fun line out => ∃ toks, analyze t w.ideo line m = some toks ∧ PlainText toks out) (lines (delivered src.reads)) outs := by
  have hs : scanAll (if o.split then defaultSplitter.scanSentences else scanLines) src.reads = some (lines (delivered src.reads), .done) := by
    rw [hsp]
    exact scan_lines src.reads 0 [] hr (by simp) hshort
  exact C41_texts w hl hm ht hi wf tab hj hs

/-- C41: an input that is too long or stuck is not cut off silently: without an error of the reader, a run that returns no error has
printed every line. -/
theorem C41_no_silent_loss (w : World) {args : List Bytes} {o : Tok.Opts} {m : Int} {t : Tokenizer} {src : Source}
    (hl : TokenizeLine args o) (hm : ModeText o.mode m) (ht : ChosenTokenizer w o t) (hi : ChosenInput w o src)
    (wf : WellFormed t.dict t.userDict) (tab : FeatureTables t.dict) (hj : o.json = false) (hsp : o.split = false) :
    ∃ outs texts r, Tok.run w args = some r ∧ r.out = outs.flatten ∧
      ForEach (fun line out => ∃ toks, analyze t w.ideo line m = some toks ∧ PlainText toks out) texts outs ∧
      (r.err = none → texts = lines (delivered src.reads)) ∧
      (r.err = some (str "bufio.Scanner: token too long") → src.failure ≠ some (str "bufio.Scanner: token too long") →
        texts <+: lines (delivered src.reads) ∧ ∃ l ∈ rawLines (delivered src.reads), 65536 ≤ l.length) ∧
      ((r.err = src.failure ∧ texts = lines (delivered src.reads)) ∨ r.err = some (str "bufio.Scanner: token too long") ∨
        (r.err = some (str "multiple Read calls return no data or error") ∧ ¬ Lively 0 src.reads)) := by
  obtain ⟨texts, ending, h1, h2, h3, h4⟩ := scan_lines_any src.reads 0 [] (by simp)
  have hs : scanAll (if o.split then defaultSplitter.scanSentences else scanLines) src.reads = some (texts, ending) := by rw [hsp]; exact h1
  obtain ⟨outs, k1, k2⟩ := C41_texts w hl hm ht hi wf tab hj hs
  refine ⟨outs, texts, _, k1, rfl, k2, ?_, ?_, ?_⟩
  · intro he
    cases ending with
    | done => simpa using h2 rfl
    | tooLong => cases he
    | noProgress => cases he
  · intro he hne
    cases ending with
    | done => exact absurd he hne
    | tooLong => simpa [maxTokenSize] using h3 rfl
    | noProgress =>
      simp only [scanError, Option.some.injEq] at he
      exact absurd he (by decide +kernel)
  · cases ending with
    | done => exact .inl ⟨rfl, by simpa using h2 rfl⟩
    | tooLong => exact .inr (.inl rfl)
    | noProgress => exact .inr (.inr ⟨rfl, h4 rfl⟩)

/-- C41: the texts in the first column, joined, are the line (not in Extended mode, see C03). A row begins with the text of its token,
followed by a tab or a line feed. -/
theorem C41_first_column {t : Tokenizer} {ideo : Nat → Bool} {line out : Bytes} {m : Int} {toks : List Token} (h : Tame t line)
    (hm : m ≠ modeExtended) (ha : analyze t ideo line m = some toks) (hp : PlainText toks out) :
    ∃ rows : List (Bytes × Bytes), out = rows.flatMap (fun r => r.1 ++ r.2) ++ str "EOS\n" ∧ (rows.map Prod.fst).flatten = line ∧
      ∀ r ∈ rows, r.2.head? = some 0x09 ∨ r.2 = str "\n" := by
  have hc := C02_lossless h hm ha
  rw [← hc]
  obtain ⟨rows, h1, h2, h3⟩ := hp
  rw [h3]
  clear hc h3
  generalize inner toks = ts at h1 h2
  clear ha toks
  induction ts generalizing rows with
  | nil => 
    have : rows = [] := List.length_eq_zero_iff.mp h1
    subst this
    exact ⟨[], rfl, rfl, by simp⟩
  | cons t ts ih =>
    cases rows with
    | nil => simp at h1
    | cons row rows =>
      obtain ⟨rs, k1, k2, k3⟩ := ih rows (by simpa using h1) (fun i t' r ht hr => h2 (i + 1) t' r (by simpa using ht) (by simpa using hr))
      have hrow : ∃ tail, row = t.surface ++ tail ∧ (tail.head? = some 0x09 ∨ tail = str "\n") := by
        have := h2 0 t row rfl rfl
        cases this with
        | bare => exact ⟨_, rfl, Or.inr rfl⟩
        | @full fs _ _ => exact ⟨str "\t" ++ join (str ",") fs ++ str "\n", by simp only [List.append_assoc], Or.inl rfl⟩
      obtain ⟨tail, e1, e2⟩ := hrow
      refine ⟨(t.surface, tail) :: rs, ?_, ?_, ?_⟩
      · simp only [List.flatten_cons, List.flatMap_cons, e1, List.append_assoc] at k1 ⊢
        rw [k1]
      · simp [k2]
      · intro r hr
        rcases List.mem_cons.mp hr with rfl | hr
        · exact e2
        · exact k3 r hr

/-! A small world: the toy dictionary, and an input of two lines, cut inside a character. -/

def Toy.input : Source := ⟨[⟨str "すもも\r\n" ++ [0xE3], false⟩, ⟨[], false⟩, ⟨[0x81, 0xAE], true⟩], none⟩

def Toy.world : World where
  ideo := Toy.ideo
  shortEscapes := true
  ipa := Toy.dict
  ipaShrink := { Toy.dict with contents := none }
  uni := Toy.dict
  uniShrink := { Toy.dict with contents := none }
  loadDict := fun _ => .error (str "no such file")
  loadShrink := fun _ => .error (str "no such file")
  loadUser := fun p => if p = str "u" then .ok Toy.user else .error (str "no such file")
  openFile := fun p => if p = str "a" then .ok Toy.input else .error (str "no such file")
  stdin := Toy.input
  createError := fun _ => none
  addr := fun p => itoa p.1 ++ str "_" ++ itoa p.2
  listen := fun _ => none
  version := []
  buildInfo := some (str "v2.10.0", [(str "github.com/ikawaha/kagome-dict/ipa", str "v1.0.10"), (str "golang.org/x/text", str "v0.3.0")])
  isPrint := fun r => 0x20 ≤ r ∧ r ≠ 0x7F

def Toy.opts : Tok.Opts := ⟨[], [], [], str "ipa", false, str "search", false, false⟩

theorem Toy.line_ok : TokenizeLine [str "-mode=search"] Toy.opts := by rw [← tok_parse_iff]; rfl

/-- The hypotheses of `C41_lines` are met. -/
example : ModeText Toy.opts.mode 2 ∧ ChosenTokenizer Toy.world Toy.opts Toy.tok ∧ ChosenInput Toy.world Toy.opts Toy.input ∧
    WellFormed Toy.tok.dict Toy.tok.userDict ∧ FeatureTables Toy.tok.dict ∧ Lively 0 Toy.input.reads ∧
    (∀ l ∈ rawLines (delivered Toy.input.reads), l.length < 65536) ∧
    lines (delivered Toy.input.reads) = [str "すもも", str "の"] := by
  refine ⟨.search, .plain (.ipa rfl rfl rfl) rfl, .stdin rfl, Toy.wellFormed_none, Toy.featureTables, ?_, by decide +kernel, by decide +kernel⟩
  simp [Lively, Toy.input, str]

/-- What is printed. -/
example : (Tok.run Toy.world [str "-mode=search"]).map (fun r => (r.out, r.err)) =
    some (str "すもも\t名詞,すもも\nEOS\nの\t助詞,連体化,の\nEOS\n", none) := by decide +kernel

end Kagome
