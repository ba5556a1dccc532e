import Verif.Props.Output
import Verif.Props.Chunks
import Verif.Props.Graph
import Verif.Props.Modes
import Verif.Spec.Commands

/-! C47 and C48: what `sentence` and `lattice` print. -/

namespace Kagome

open Spec

/-! ### C47 -/

theorem ascii_of_mem {x : UInt8} (hx : x.toNat < 0x80) {c : Char} (h : x ∈ String.utf8EncodeChar c) : c.val.toNat = x.toNat := by
  obtain ⟨b, t, hs, hc, ht⟩ := encode_shape c
  rw [hs] at h
  rcases List.mem_cons.mp h with h | h
  · have hd := decodeValid_encode c []
    rw [hs, ← h] at hd
    simp only [List.cons_append, decodeValid, hx, if_true, Option.some.injEq, Prod.mk.injEq] at hd
    exact hd.1.symm
  · have h1 := ht _ h
    simp only [isCont, Bool.and_eq_true, decide_eq_true_eq] at h1
    omega

/-- A kept character contains no white space of ASCII. -/
theorem kept_no_white {x : UInt8} (hx : x.toNat < 0x80) (hw : isSpace x.toNat = true) {s : Splitter} (hs : s.skipWhiteSpace = true) {b : Bytes} {cs : List Piece}
    (h : ∀ c ∈ cs, c ∈ pieces b) : x ∉ text (cs.filter (kept s)) := by
  intro hm
  unfold text at hm
  obtain ⟨c, hc, hxc⟩ := List.mem_flatMap.mp hm
  obtain ⟨hc1, hc2⟩ := List.mem_filter.mp hc
  rcases piece_kind (h c hc1) with ⟨ch, rfl⟩ | ⟨b, hb, rfl⟩
  · have := ascii_of_mem hx hxc
    simp [kept, blank, hs, this, hw] at hc2
  · simp only [List.mem_singleton] at hxc
    subst hxc
    omega

theorem drain_no_white {x : UInt8} (hx : x.toNat < 0x80) (hw : isSpace x.toNat = true) {s : Splitter} (hs : s.skipWhiteSpace = true) {atEOF : Bool} {fuel : Nat} {buf : Bytes}
    {r : List Bytes × Bytes} (hr : drain s.scanSentences atEOF fuel buf = some r) : ∀ t ∈ r.1, x ∉ t := by
  refine drain_induct s atEOF (fun _ toks _ => ∀ t ∈ toks, x ∉ t) (by simp) ?_ ?_ ?_ fuel buf r hr
  · intro data used rest toks left h1 _ _ _ ih t ht
    rcases List.mem_cons.mp ht with rfl | ht
    · exact kept_no_white hx hw hs (b := data) (fun c hc => by rw [h1]; simp [hc])
    · exact ih t ht
  · intro _ data used _ h1 _ _ _ t ht
    rw [List.mem_singleton] at ht
    subst ht
    exact kept_no_white hx hw hs (b := data) (fun c hc => by rw [h1]; simp [hc])
  · intro _ data used n _ _ _ _ _ _ t ht
    cases ht

theorem scan_no_white {x : UInt8} (hx : x.toNat < 0x80) (hw : isSpace x.toNat = true) {s : Splitter} (hs : s.skipWhiteSpace = true) (reader : List ReadResult) : ∀ (k : Nat) (buf : Bytes) (toks : List Bytes)
    (ending : ScanEnd), scanFrom s.scanSentences reader k buf = some (toks, ending) → ∀ t ∈ toks, x ∉ t := by
  induction reader with
  | nil =>
    intro k buf toks ending h
    unfold scanFrom at h
    cases hd : drain s.scanSentences true (buf.length + 1) buf with
    | none => rw [hd] at h; cases h
    | some r => rw [hd] at h; cases h; exact drain_no_white hx hw hs hd
  | cons rd rds ih =>
    intro k buf toks ending h
    unfold scanFrom at h
    split at h
    · cases hd : drain s.scanSentences true ((buf ++ rd.bytes).length + 1) (buf ++ rd.bytes) with
      | none => rw [hd] at h; cases h
      | some r => rw [hd] at h; cases h; exact drain_no_white hx hw hs hd
    · split at h
      · split at h
        · cases hd : drain s.scanSentences true (buf.length + 1) buf with
          | none => rw [hd] at h; cases h
          | some r => rw [hd] at h; cases h; exact drain_no_white hx hw hs hd
        · exact ih _ _ _ _ h
      · cases hd : drain s.scanSentences false ((buf ++ rd.bytes).length + 1) (buf ++ rd.bytes) with
        | none => rw [hd] at h; cases h
        | some r =>
          rw [hd] at h
          simp only [Option.bind_eq_bind, Option.bind_some] at h
          split at h
          · cases h; exact drain_no_white hx hw hs hd
          · cases hm : scanFrom s.scanSentences rds 0 r.2 with
            | none => rw [hm] at h; cases h
            | some m =>
              rw [hm] at h
              cases h
              intro t ht
              rcases List.mem_append.mp ht with ht | ht
              · exact drain_no_white hx hw hs hd t ht
              · exact ih _ _ _ _ hm t ht

theorem scan_no_feed {s : Splitter} (hs : s.skipWhiteSpace = true) (reader : List ReadResult) (k : Nat) (buf : Bytes) (toks : List Bytes)
    (ending : ScanEnd) (h : scanFrom s.scanSentences reader k buf = some (toks, ending)) : ∀ t ∈ toks, (0x0A : UInt8) ∉ t :=
  scan_no_white (by decide) (by decide) hs reader k buf toks ending h

theorem rawLines_joined {ls : List Bytes} (h : ∀ l ∈ ls, (0x0A : UInt8) ∉ l) : rawLines (ls.flatMap (· ++ str "\n")) = ls := by
  induction ls with
  | nil => rfl
  | cons l ls ih =>
    have : (l :: ls).flatMap (· ++ str "\n") = l ++ 0x0A :: ls.flatMap (· ++ str "\n") := by
      simp [show str "\n" = [0x0A] from rfl]
    rw [this, rawLines_lf (h l (by simp)), ih fun x hx => h x (by simp [hx])]

theorem sentence_run (w : World) {args : List Bytes} {file : Bytes} {src : Source} (hl : SentenceLine args file)
    (hi : SentenceInput w file src) : Sen.run w args = (scanAll defaultSplitter.scanSentences src.reads).map (fun r =>
      { out := r.1.flatMap (· ++ str "\n"), err := scanError src r.2 }) := by
  rw [(C44_sentence w args).2.2 file hl]
  have hin : (if file ≠ [] then w.openFile file else .ok w.stdin) = .ok src := by
    cases hi with
    | stdin h => rw [if_neg (by simp [h])]
    | file h hf => rw [if_pos h, hf]
  unfold Sen.command
  rw [hin]

/-- C47: a run ends, and the lines it prints are the sentences the scanner gives, one by one. There is an error if and only if the scan or
the reader failed. -/
theorem C47_lines (w : World) {args : List Bytes} {file : Bytes} {src : Source} (hl : SentenceLine args file)
    (hi : SentenceInput w file src) :
    ∃ sents ending r, scanAll defaultSplitter.scanSentences src.reads = some (sents, ending) ∧ Sen.run w args = some r ∧
      rawLines r.out = sents ∧ (r.out = [] ∨ r.out.getLast? = some 0x0A) ∧ r.notes = [] ∧ r.files = [] ∧ r.served = none ∧
      (r.err = none ↔ ending = .done ∧ src.failure = none) ∧ (∀ e, src.failure = some e → ending = .done → r.err = some e) ∧
      (ending = .tooLong → r.err = some (str "bufio.Scanner: token too long")) ∧
      (ending = .noProgress → r.err = some (str "multiple Read calls return no data or error")) := by
  obtain ⟨sents, ending, hs⟩ := C35_scan_ends defaultSplitter src.reads
  refine ⟨sents, ending, _, hs, by rw [sentence_run w hl hi, hs]; rfl, ?_, ?_, rfl, rfl, rfl, ?_, ?_, ?_, ?_⟩
  · exact rawLines_joined (scan_no_feed (s := defaultSplitter) rfl _ _ _ _ _ hs)
  · rcases List.eq_nil_or_concat sents with rfl | ⟨l, x, rfl⟩
    · exact .inl rfl
    · right
      simp [show str "\n" = [0x0A] from rfl]
  · cases ending <;> simp [scanError]
  · intro e he hd
    subst hd
    exact he
  · rintro rfl; rfl
  · rintro rfl; rfl

/-- C47: a reader that delivers whole characters: what is printed, without the line feeds, is the text without its white space, if the run
returns no error; otherwise the first part of that. -/
theorem C47_complete (w : World) {args : List Bytes} {file : Bytes} {src : Source} (hl : SentenceLine args file)
    (hi : SentenceInput w file src) (hv : ∀ rd ∈ src.reads, ValidUtf8 rd.bytes) :
    ∃ r cs ks, Sen.run w args = some r ∧ delivered src.reads = enc cs ∧ r.out.filter (· != 0x0A) = enc ks ∧
      ks <+: cs.filter nonSpace ∧ (r.err = none → ks = cs.filter nonSpace) := by
  obtain ⟨sents, ending, r, hs, hr, hlines, _, _, _, _, he, _⟩ := C47_lines w hl hi
  obtain ⟨sents', ending', cs, ks, hs', h1, h2, h3, h4⟩ := C34_whole_characters defaultSplitter rfl src.reads hv
  rw [hs] at hs'
  cases hs'
  have hn := scan_no_feed (s := defaultSplitter) rfl _ _ _ _ _ hs
  refine ⟨r, cs, ks, hr, h1, ?_, h3, fun h => h4 (he.mp h).1⟩
  rw [← h2]
  have hout : r.out = sents.flatMap (· ++ str "\n") := by
    rw [sentence_run w hl hi, hs] at hr; cases hr; rfl
  rw [hout]
  clear hs hr hlines he h1 h2 h3 h4 hout
  induction sents with
  | nil => rfl
  | cons l ls ih =>
    rw [List.flatMap_cons, List.filter_append, List.filter_append, ih fun x hx => hn x (by simp [hx])]
    have h1 : l.filter (· != 0x0A) = l := by
      apply List.filter_eq_self.mpr
      intro b hb
      have : b ≠ 0x0A := fun e => hn l (by simp) (e ▸ hb)
      simpa using this
    rw [h1, show (str "\n").filter (· != 0x0A) = [] by decide, List.append_nil, List.flatten_cons]

/-- C47: if, moreover, the reader cuts the text at harmless places only (see C38) and there is no error, the non-empty lines printed are the
sentences of the text. -/
theorem C47_sentences (w : World) {args : List Bytes} {file : Bytes} {src : Source} (hl : SentenceLine args file)
    (hi : SentenceInput w file src) (hv : ∀ rd ∈ src.reads, ValidUtf8 rd.bytes) (hc : CutsSafely defaultSplitter src.reads) :
    ∃ r, Sen.run w args = some r ∧ (r.err = none → nonEmpty (rawLines r.out) = sentences defaultSplitter (delivered src.reads)) := by
  obtain ⟨sents, ending, r, hs, hr, hlines, _, _, _, _, he, _⟩ := C47_lines w hl hi
  refine ⟨r, hr, fun h => ?_⟩
  rw [hlines]
  have := (he.mp h).1
  subst this
  exact C38_safe_cuts_partial defaultSplitter (by decide) src.reads hv hc hs

/-- C47: a file that cannot be opened: the error is returned and nothing is printed. -/
theorem C47_no_file (w : World) {args : List Bytes} {file e : Bytes} (hl : SentenceLine args file) (hf : file ≠ [])
    (ho : w.openFile file = .error e) : Sen.run w args = some { err := some e } := by
  rw [(C44_sentence w args).2.2 file hl]
  unfold Sen.command
  rw [if_pos hf, ho]

/-- The hypotheses hold in a world whose input comes in two chunks. -/
def Toy.sentences : Source := ⟨[⟨str " a b?", false⟩, ⟨str "c\nd\n\n e", true⟩], none⟩

example : let w := { Toy.world with openFile := fun p => if p = str "f" then .ok Toy.sentences else .error (str "no such file") }
    SentenceLine [str "-file", str "f"] (str "f") ∧ SentenceInput w (str "f") Toy.sentences ∧
    (∀ rd ∈ Toy.sentences.reads, ValidUtf8 rd.bytes) ∧ CutsSafely defaultSplitter Toy.sentences.reads ∧
    (Sen.run w [str "-file", str "f"]).map (fun r => (r.out, r.err)) = some (str "ab?\ncd\ne\n", none) ∧
    (Sen.run w [str "-file", str "g"]).map (fun r => (r.out, r.err)) = some ([], some (str "no such file")) := by
  refine ⟨by rw [← sen_parse_iff]; rfl, .file (by decide) rfl, ?_, ?_, by decide +kernel, by decide +kernel⟩
  · intro rd h
    simp only [Toy.sentences, List.mem_cons, List.not_mem_nil, or_false] at h
    rcases h with rfl | rfl
    · exact ⟨[' ', 'a', ' ', 'b', '?'], by decide +kernel⟩
    · exact ⟨['c', '\n', 'd', '\n', '\n', ' ', 'e'], by decide +kernel⟩
  · intro before after h _
    rcases before with _ | ⟨a, _ | ⟨b, _ | ⟨c, before⟩⟩⟩
    · exact .inl rfl
    · simp only [Toy.sentences, List.cons_append, List.nil_append, List.cons.injEq] at h
      obtain ⟨rfl, rfl⟩ := h
      exact .inr (.inr ⟨.inl (starts_at (k := (99, [99])) (by decide +kernel) ⟨by decide +kernel, by decide +kernel, by decide +kernel⟩),
        fun _ _ => .inl <| noFeed_at (k := (0x20, [0x20])) (by decide +kernel) (by decide)⟩)
    · simp only [Toy.sentences, List.cons_append, List.nil_append, List.cons.injEq] at h
      obtain ⟨-, -, rfl⟩ := h
      exact .inr (.inl rfl)
    · exact absurd (congrArg List.length h) (by simp [Toy.sentences])

/-! ### C48 -/

theorem setUp_named {w : World} {name udict : Bytes} {t : Tokenizer} (h : NamedTokenizer w name udict t) :
    ∃ d, selectDict w name = .ok d ∧ setUp w d udict = .ok t := by
  have hd : ∀ d, NamedDict w name d → selectDict w name = .ok d := by
    intro d hd
    unfold selectDict
    cases hd with
    | ipa h => rw [if_pos h]
    | uni h => rw [h, if_neg (by decide), if_pos rfl]
  cases h with
  | plain h hu => exact ⟨_, hd _ h, by unfold setUp; rw [if_neg (by simp [hu])]; rfl⟩
  | user h hu hl => exact ⟨_, hd _ h, by unfold setUp; rw [if_pos hu, hl]; rfl⟩

/-- What `-v` writes for the tokens behind the first. -/
theorem verbose_rows {toks : List Token} (h : ∀ t ∈ toks, InRange t) :
    ∃ (notes : List Note) (rows : List Bytes), Lat.verboseLoop toks = some notes ∧ noteText notes = some rows.flatten ∧ rows.length = toks.length ∧
      ∀ (i : Nat) (t : Token) (row : Bytes), toks[i]? = some t → rows[i]? = some row → TokenLine t row := by
  induction toks with
  | nil => exact ⟨[], [], rfl, rfl, rfl, by simp⟩
  | cons t ts ih =>
    obtain ⟨notes, rows, h1, h2, h3, h4⟩ := ih fun x hx => h x (by simp [hx])
    obtain ⟨fs, k1, _, k3⟩ := features_spec (h t (by simp))
    have key : ∃ l, Lat.verboseLine t = some (.line l) ∧ TokenLine t (l ++ str "\n") := by
      unfold Lat.verboseLine
      rw [k1]
      by_cases hc : t.cls = .dummy
      · exact ⟨t.surface, by simp [hc], .bare hc⟩
      · refine ⟨_, by simp [hc], .full hc k3⟩
    obtain ⟨l, k4, k5⟩ := key
    refine ⟨.line l :: notes, (l ++ str "\n") :: rows, ?_, ?_, by simp [h3], ?_⟩
    · unfold Lat.verboseLoop; rw [k4, h1]; rfl
    · unfold noteText; rw [h2]; rfl
    · intro i t' row ht hr
      cases i with
      | zero => simp at ht hr; subst ht; subst hr; exact k5
      | succ i => exact h4 i t' row (by simpa using ht) (by simpa using hr)

/-- The same token without its place. -/
theorem tokenLine_reset {t : Token} {row : Bytes} (h : TokenLine { t with index := 0, position := 0 } row) : TokenLine t row := by
  cases h with
  | bare h => exact .bare h
  | full h hf =>
    refine .full h ?_
    cases hf with
    | known d n ids names c h1 h2 h3 h4 h5 h6 h7 => exact .known d n ids names c h1 h2 h3 h4 h5 h6 h7
    | unknown d n _ h1 h2 h3 h4 => exact .unknown d n _ h1 h2 h3 h4
    | user u n c h1 h2 h3 h4 => exact .user u n c h1 h2 h3 h4
    | dummy h => exact .dummy h

theorem inRange_reset {t : Token} (h : InRange t) : InRange { t with index := 0, position := 0 } := h

/-- A run with legal options and what they name. -/
theorem lattice_run (w : World) {args : List Bytes} {o : Lat.Opts} {m : Int} {t : Tokenizer} (hl : LatticeLine args o)
    (hm : ModeText o.mode m) (ht : NamedTokenizer w o.dict o.udict t) :
    Lat.run w args = match (if o.output ≠ [] then w.createError o.output else none) with
      | some e => some { err := some e }
      | none =>
        match analyzeGraph t w.ideo o.input m, exportGraph t w.ideo o.input m with
        | some toks, some g =>
          match (if o.verbose then Lat.verboseLoop (toks.drop 1) else some []) with
          | none => none
          | some notes =>
            some { out := if o.output ≠ [] then [] else dotText w.addr g, notes := notes,
                   files := if o.output ≠ [] then [(o.output, dotText w.addr g)] else [] }
        | _, _ => none := by
  rw [(C44_lattice w args).2.2 o hl]
  obtain ⟨d, hd, hsu⟩ := setUp_named ht
  unfold Lat.command
  rw [hd]
  simp only [hsu, show Lat.selectMode o.mode = m from mode_of_text hm]
  rfl

theorem named_shows {w : World} {name udict : Bytes} {t : Tokenizer} (h : NamedTokenizer w name udict t) :
    t.omitBosEos = false := by cases h <;> rfl

/-- C48: with legal options that name what exists, for every text: the graph that `AnalyzeGraph` writes for the text goes to the standard
output, or to the file of `-output`, and nowhere else; there is no error. -/
theorem C48_graph (w : World) {args : List Bytes} {o : Lat.Opts} {m : Int} {t : Tokenizer} (hl : LatticeLine args o)
    (hm : ModeText o.mode m) (ht : NamedTokenizer w o.dict o.udict t) (wf : WellFormed t.dict t.userDict)
    (pt : PosTables t.dict t.userDict) (tab : FeatureTables t.dict) :
    ∃ g, exportGraph t w.ideo o.input m = some g ∧
      (o.output = [] → ∃ notes, Lat.run w args = some { out := dotText w.addr g, notes := notes }) ∧
      (o.output ≠ [] → w.createError o.output = none →
        ∃ notes, Lat.run w args = some { files := [(o.output, dotText w.addr g)], notes := notes }) := by
  obtain ⟨g, hg⟩ := Option.isSome_iff_exists.mp (exportGraph_some wf pt w.ideo o.input m)
  have hshow := named_shows ht
  obtain ⟨toks, ha⟩ := Option.isSome_iff_exists.mp (C01_total (t := t) wf w.ideo o.input m).1
  have hag : analyzeGraph t w.ideo o.input m = some (toks.map (fun tok => { tok with index := 0, position := 0 })) := by
    rw [C16_graph, show ({ t with omitBosEos := false } : Tokenizer) = t by cases t; cases hshow; rfl, ha]; rfl
  have hv : ∃ notes, (if o.verbose then Lat.verboseLoop ((toks.map (fun tok => { tok with index := 0, position := 0 })).drop 1)
      else some []) = some notes := by
    split
    · obtain ⟨notes, _, h1, _⟩ := verbose_rows (toks := (toks.map (fun tok => { tok with index := 0, position := 0 })).drop 1) (by
        intro x hx
        obtain ⟨y, hy, rfl⟩ := List.mem_map.mp (List.mem_of_mem_drop hx)
        exact inRange_reset (analyze_inRange wf tab ha hy))
      exact ⟨notes, h1⟩
    · exact ⟨_, rfl⟩
  obtain ⟨notes, hv⟩ := hv
  refine ⟨g, hg, ?_, ?_⟩
  · intro ho
    refine ⟨notes, ?_⟩
    rw [lattice_run w hl hm ht, if_neg (by simp [ho])]
    simp only [hag, hg, hv, ho, ne_eq, not_true_eq_false, if_false]
  · intro ho hc
    refine ⟨notes, ?_⟩
    rw [lattice_run w hl hm ht, if_pos ho, hc]
    simp only [hag, hg, hv]
    rw [if_pos ho, if_pos ho]

/-- C48: an output file that cannot be opened: the error is returned, nothing is written. -/
theorem C48_no_file (w : World) {args : List Bytes} {o : Lat.Opts} {m : Int} {t : Tokenizer} {e : Bytes} (hl : LatticeLine args o)
    (hm : ModeText o.mode m) (ht : NamedTokenizer w o.dict o.udict t) (ho : o.output ≠ []) (hc : w.createError o.output = some e) :
    Lat.run w args = some { err := some e } := by
  rw [lattice_run w hl hm ht, if_pos ho, hc]

/-- C48: a user dictionary that cannot be loaded: the error is returned, nothing is written. -/
theorem C48_no_user_dict (w : World) {args : List Bytes} {o : Lat.Opts} {d : Dict} {e : Bytes} (hl : LatticeLine args o)
    (hd : NamedDict w o.dict d) (hu : o.udict ≠ []) (he : w.loadUser o.udict = .error e) :
    Lat.run w args = some { err := some e } := by
  rw [(C44_lattice w args).2.2 o hl]
  unfold Lat.command
  have : selectDict w o.dict = .ok d := by
    unfold selectDict
    cases hd with
    | ipa h => rw [if_pos h]
    | uni h => rw [h, if_neg (by decide), if_pos rfl]
  rw [this]
  simp only [setUp]
  rw [if_pos hu, he]

/-- C48: nothing is written to stderr without `-v`; with `-v`, exactly what `tokenize` would print for the text. -/
theorem C48_verbose (w : World) {args : List Bytes} {o : Lat.Opts} {m : Int} {t : Tokenizer} {r : Ran} (hl : LatticeLine args o)
    (hm : ModeText o.mode m) (ht : NamedTokenizer w o.dict o.udict t) (tame : Tame t o.input) (tab : FeatureTables t.dict)
    (hr : Lat.run w args = some r) (hok : r.err = none) :
    (o.verbose = false → r.notes = []) ∧
    (o.verbose = true → ∃ toks out, analyze t w.ideo o.input m = some toks ∧ PlainText toks out ∧ noteText r.notes = some out) := by
  obtain ⟨words, hid, ha, -⟩ := C05_frame tame w.ideo m
  rw [show ({ t with omitBosEos := false } : Tokenizer) = t by have := named_shows ht; cases t; cases this; rfl] at ha
  have hag : analyzeGraph t w.ideo o.input m = _ := (C16_graph t w.ideo o.input m).trans (by
    rw [show ({ t with omitBosEos := false } : Tokenizer) = t by have := named_shows ht; cases t; cases this; rfl, ha])
  simp only [List.cons_append, Option.map_some, List.map_cons, List.map_append, List.map_nil] at hag
  rw [lattice_run w hl hm ht] at hr
  split at hr
  · cases hr; cases hok
  · rw [hag] at hr
    cases hg : exportGraph t w.ideo o.input m with
    | none => rw [hg] at hr; cases hr
    | some g =>
      rw [hg] at hr
      simp only [List.drop_succ_cons, List.drop_zero] at hr
      constructor
      · intro hv
        rw [hv] at hr
        cases hr
        rfl
      · intro hv
        rw [hv] at hr
        simp only [if_true] at hr
        obtain ⟨notes, rows, h1, h2, h3, h4⟩ := verbose_rows (toks := words.map (fun tok => { tok with index := 0, position := 0 }) ++
            [{ index := 0, id := -1, cls := .dummy, position := 0, start := runeCount o.input, stop := runeCount o.input,
               surface := str "EOS", dict := some t.dict, udict := t.userDict }]) (by
          intro x hx
          rcases List.mem_append.mp hx with hx | hx
          · obtain ⟨y, hy, rfl⟩ := List.mem_map.mp hx
            exact inRange_reset (analyze_inRange tame.wf tab ha (by simp [hy]))
          · rw [List.mem_singleton] at hx; subst hx; trivial)
        rw [h1] at hr
        cases hr
        refine ⟨_, rows.flatten, ha, ?_, h2⟩
        rcases List.eq_nil_or_concat rows with rfl | ⟨rs, last, rfl⟩
        · simp at h3
        · rw [List.concat_eq_append] at h2 h3 h4 ⊢
          simp only [List.length_append, List.length_cons, List.length_nil, List.length_map, Nat.add_right_cancel_iff] at h3
          have hin : ∀ b e : Token, b.id = -1 → e.id = -1 → inner (b :: (words ++ [e])) = words := by
            intro b e hb he
            unfold inner
            simp only [List.filter_cons, List.filter_append, hb, he, ne_eq, not_true_eq_false, decide_false, Bool.false_eq_true,
              if_false, List.filter_nil, List.append_nil]
            exact List.filter_eq_self.mpr (fun x hx => by simpa using hid x hx)
          refine ⟨rs, by rw [List.cons_append, hin _ _ rfl rfl]; exact h3, ?_, ?_⟩
          · rw [List.cons_append, hin _ _ rfl rfl]
            intro i tok row hi hrow
            apply tokenLine_reset
            have hlt := (List.getElem?_eq_some_iff.mp hi).1
            refine h4 i _ row ?_ ?_
            · rw [List.getElem?_append_left (by simpa using hlt), List.getElem?_map, hi]; rfl
            · rw [List.getElem?_append_left (by omega)]; exact hrow
          · have := h4 words.length _ last (by rw [List.getElem?_append_right (by simp)]; simp; rfl)
              (by rw [List.getElem?_append_right (by omega)]; simp [h3])
            cases this with
            | bare => simp [show str "EOS\n" = str "EOS" ++ str "\n" from rfl]
            | full h => exact absurd rfl h

/-- The hypotheses hold for the toy dictionary, with a user dictionary. -/
example : LatticeLine [str "-v", str "-udict=u", str "-mode=search", str "もも", str "a"] ⟨str "u", str "ipa", str "search", [], true, str "もも a"⟩ ∧
    ModeText (str "search") 2 ∧ NamedTokenizer Toy.world (str "ipa") (str "u") Toy.tokUser ∧
    Tame Toy.tokUser (str "もも a") ∧ FeatureTables Toy.tokUser.dict ∧ PosTables Toy.tokUser.dict Toy.tokUser.userDict ∧
    ((Lat.run Toy.world [str "-v", str "-udict=u", str "-mode=search", str "もも", str "a"]).bind (fun r => noteText r.notes)) =
      some (str "もも\t名詞,もも\n \t記号\na\t名詞\nEOS\n") := by
  refine ⟨by rw [← lat_parse_iff]; rfl, .search, .user (.ipa rfl) (by decide) rfl, toy_tame (by decide +kernel), Toy.featureTables, toy_posTables, ?_⟩
  decide +kernel

end Kagome
