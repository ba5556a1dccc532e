import Verif.Spec.ReadJson
import Verif.Props.Api
import Verif.Props.ReadBack
import Verif.Props.Resplit

/-! C81: what `tokenize -json` prints can be read back. -/

namespace Kagome

open Spec

/-! ## A stream of values -/

/-- A text of a value with white space behind it. -/
def ReadsLine (v : Json) (out : Bytes) : Prop := ∃ e, out = e ++ [0x0A] ∧ Reads v e

theorem readValues_lines : ∀ (l : List (Json × Bytes)), (∀ x ∈ l, ReadsLine x.1 x.2) → ∀ (ws : Bytes), (∀ b ∈ ws, isWs b = true) → ∀ fuel, l.length < fuel →
    readValues fuel (ws ++ (l.map (·.2)).flatten) = some (l.map (·.1))
  | _, _, _, _, 0, hf => absurd hf (by simp)
  | [], _, ws, hw, fuel + 1, _ => by
    unfold readValues
    rw [skipWs_ws hw, if_pos (show skipWs (([] : List (Json × Bytes)).map (·.2)).flatten = [] from rfl)]
    rfl
  | x :: l, h, ws, hw, fuel + 1, hf => by
    obtain ⟨e, he, ⟨b, t, hb, hws⟩, hread⟩ := h x (by simp)
    have ih := readValues_lines l (fun y hy => h y (by simp [hy])) [0x0A] (by decide) fuel (by simp at hf; omega)
    have hstart : ws ++ (((x :: l).map (·.2)).flatten) = ws ++ (e ++ ([0x0A] ++ (l.map (·.2)).flatten)) := by simp [he]
    unfold readValues
    rw [hstart, skipWs_ws hw, readValue_ws hw, if_neg (by rw [hb, List.cons_append, skipWs_cons hws]; simp),
      hread _ ([0x0A] ++ (l.map (·.2)).flatten) (by simp; omega) (numEnd_cons (by decide) _)]
    dsimp only
    rw [ih]
    rfl

theorem flatten_length_lines : ∀ (l : List (Json × Bytes)), (∀ x ∈ l, ReadsLine x.1 x.2) → l.length ≤ (l.map (·.2)).flatten.length
  | [], _ => by simp
  | x :: l, h => by
    obtain ⟨e, he, -⟩ := h x (by simp)
    have := flatten_length_lines l (fun y hy => h y (by simp [hy]))
    simp only [List.map_cons, List.flatten_cons, List.length_append, List.length_cons, he, List.length_nil]
    omega

theorem readStream_lines {l : List (Json × Bytes)} (h : ∀ x ∈ l, ReadsLine x.1 x.2) : readStream (l.map (·.2)).flatten = some (l.map (·.1)) := by
  have := readValues_lines l h [] (by simp) ((l.map (·.2)).flatten.length + 1) (by have := flatten_length_lines l h; omega)
  rwa [List.nil_append] at this

/-- What is printed for one text is one array, with a line feed behind it. -/
theorem printTokensJSON_line (w : World) {toks : List Token} (hne : toks ≠ []) (h : ∀ t ∈ toks, InRange t) :
    ∃ (out : Bytes) (ds : List TokenData), Tok.printTokensJSON w toks = some out ∧ (classed toks).map newTokenData = ds.map some ∧
      ReadsLine (.arr (ds.map dataJson)) out := by
  obtain ⟨ds, h1, h2⟩ := jsonLoop_spec w h
  have hp : toks.length > 0 := List.length_pos_iff.mpr hne
  refine ⟨_, ds, by unfold Tok.printTokensJSON; rw [h2]; rfl, h1, ?_⟩
  rw [if_pos hp, if_pos hp]
  have hr := reads_arr (wo := [0x0A]) (ws := [0x0A]) (wc := [0x0A]) (by decide) (by decide) (by decide)
    (ds.map (fun s => (dataJson s, jsonTokenData w.shortEscapes s))) (by
      intro x hx
      obtain ⟨s, _, rfl⟩ := List.mem_map.mp hx
      exact reads_data _ s)
  rw [show str "[\n" = [0x5B, 0x0A] from by decide, show str ",\n" = [0x2C, 0x0A] from by decide,
    show str "\n]\n" = [0x0A, 0x5D, 0x0A] from by decide]
  refine ⟨_, ?_, by simpa [Function.comp_def] using hr⟩
  simp

theorem lineLoop_stream (w : World) {t : Tokenizer} (ho : t.omitBosEos = false) (wf : WellFormed t.dict t.userDict) (tab : FeatureTables t.dict)
    (m : Int) (texts : List Bytes) :
    ∃ l : List (Json × Bytes), Tok.lineLoop w t m true texts = some (l.map (·.2)).flatten ∧ (∀ x ∈ l, ReadsLine x.1 x.2) ∧ l.length = texts.length ∧
      ∀ (i : Nat) (text : Bytes) (v : Json), texts[i]? = some text → (l.map (·.1))[i]? = some v →
        ∃ (toks : List Token) (ds : List TokenData), analyze t w.ideo text m = some toks ∧ (classed toks).map newTokenData = ds.map some ∧ v = .arr (ds.map dataJson) := by
  induction texts with
  | nil => exact ⟨[], rfl, by simp, rfl, by intro i text v h; simp at h⟩
  | cons text texts ih =>
    obtain ⟨l, h1, h2, h3, h4⟩ := ih
    obtain ⟨toks, ha⟩ := Option.isSome_iff_exists.mp (C01_total wf w.ideo text m).1
    obtain ⟨out, ds, k1, k2, k3⟩ := printTokensJSON_line w (analyze_ne_nil wf ho ha) (fun tok => analyze_inRange wf tab ha)
    refine ⟨(.arr (ds.map dataJson), out) :: l, ?_, ?_, by simp [h3], ?_⟩
    · unfold Tok.lineLoop
      rw [ha]
      simp [k1, h1]
    · intro x hx
      rcases List.mem_cons.mp hx with rfl | hx
      · exact k3
      · exact h2 x hx
    · intro i text' v ht hv
      cases i with
      | zero =>
        simp only [List.getElem?_cons_zero, Option.some.injEq, List.map_cons] at ht hv
        subst ht hv
        exact ⟨toks, ds, ha, k2, rfl⟩
      | succ i =>
        simp only [List.getElem?_cons_succ, List.map_cons] at ht hv
        exact h4 i text' v ht hv

/-! ## Where the words are -/

theorem repaired_once {p : Bytes} (h : runeCount p = 1) : repaired (repaired p) = repaired p := by
  have hp : p ≠ [] := by rintro rfl; simp [runeCount] at h
  unfold runeCount at h
  rw [runes_cons hp] at h
  simp only [List.length_cons, Nat.add_eq_right, List.length_eq_zero_iff] at h
  have e : repaired p = encodeRune (decodeRune p).1 := by
    unfold repaired
    rw [runes_cons hp, h]
    simp
  rw [e]
  exact repaired_rune (s := p) (by rw [runes_cons hp]; simp)

/-- The characters from `Start` to `End` are the surface. -/
theorem token_placed {t : Tokenizer} {inp : Bytes} (h : Tame t inp) {ideo : Nat → Bool} {mode : Int} {toks : List Token}
    (ha : analyze t ideo inp mode = some toks) {tok : Token} (hm : tok ∈ inner toks) :
    tok.start < tok.stop ∧ tok.stop ≤ runeCount inp ∧ charsBetween inp tok.start tok.stop = repaired tok.surface := by
  obtain ⟨ws, ps, _, _, hloc, _, _, hflat, hrunes⟩ := analyze_inner h ideo ha
  obtain ⟨hlen, hget⟩ := located_get hloc
  obtain ⟨i, hi⟩ := List.getElem?_of_mem hm
  have hlt := (List.getElem?_eq_some_iff.mp hi).1
  have hp : ps[i]? = some (ps[i]'(by omega)) := List.getElem?_eq_getElem (by omega)
  generalize ps[i]'(by omega) = p at hp
  obtain ⟨-, h2, h3, g1, -, -, g4, g5⟩ := hget i tok p hi hp
  have hcut : ps = ps.take i ++ p :: ps.drop (i + 1) := by
    obtain ⟨hlt', he⟩ := List.getElem?_eq_some_iff.mp hp
    rw [← he, List.getElem_cons_drop, List.take_append_drop]
  have hstart : tok.start = (((ps.take i).map runes).flatten).length := by
    rw [h2, List.length_flatten, List.map_map]
    simp only [Nat.zero_add]
    rfl
  have hr : runes inp = ((ps.take i).map runes).flatten ++ (runes p ++ ((ps.drop (i + 1)).map runes).flatten) := by
    rw [hrunes]
    conv => lhs; rw [hcut]
    simp
  have hpos : 0 < runeCount p := by
    unfold runeCount
    rw [runes_cons g1]
    simp
  refine ⟨by omega, ?_, ?_⟩
  · rw [h3, hstart]
    unfold runeCount
    rw [hr]
    simp only [List.length_append]
    omega
  · unfold charsBetween
    rw [show tok.stop - tok.start = (runes p).length from by rw [h3]; unfold runeCount; omega, hr, hstart, List.drop_left, List.take_left]
    show repaired p = repaired tok.surface
    rw [g4]
    split
    · rename_i hc
      rw [repaired_once (g5 hc.2).2]
    · rfl

theorem data_placed {t : Tokenizer} {inp : Bytes} (h : Tame t inp) {ideo : Nat → Bool} {mode : Int} {toks : List Token}
    (ha : analyze t ideo inp mode = some toks) {tok : Token} (hm : tok ∈ inner toks) {d : TokenData} (hd : newTokenData tok = some d) :
    Placed inp (dataJson d) := by
  have hd' : d.start = tok.start ∧ d.stop = tok.stop ∧ d.surface = tok.surface := by
    unfold newTokenData at hd
    split at hd
    · cases hd; exact ⟨rfl, rfl, rfl⟩
    · cases hd
  obtain ⟨h1, h2, h3⟩ := token_placed h ha hm
  refine ⟨tok.start, tok.stop, repaired tok.surface, ?_, ?_, ?_, h1, h2, h3⟩
  · unfold dataJson
    rw [get_skip _ _ (by decide), get_here, hd'.1]
  · unfold dataJson
    rw [get_skip _ _ (by decide), get_skip _ _ (by decide), get_here, hd'.2.1]
  · unfold dataJson
    rw [get_skip _ _ (by decide), get_skip _ _ (by decide), get_skip _ _ (by decide), get_here, hd'.2.2]
    rfl

theorem classed_sub_inner {t : Tokenizer} (wf : WellFormed t.dict t.userDict) {ideo : Nat → Bool} {inp : Bytes} {mode : Int} {toks : List Token}
    (ha : analyze t ideo inp mode = some toks) {tok : Token} (h : tok ∈ classed toks) : tok ∈ inner toks := by
  by_cases hm : mode = modeExtended
  · subst hm
    rw [C42_extended wf ha] at h
    exact (List.mem_filter.mp h).1
  · rwa [classed_inner wf ha hm] at h

theorem surfaceTexts_data {toks : List Token} {ds : List TokenData} (h : toks.map newTokenData = ds.map some) :
    surfaceTexts (.arr (ds.map dataJson)) = toks.map (fun t => repaired t.surface) := by
  induction toks generalizing ds with
  | nil => cases ds with
    | nil => rfl
    | cons => simp at h
  | cons t toks ih => cases ds with
    | nil => simp at h
    | cons d ds =>
      simp only [List.map_cons, List.cons.injEq] at h
      have h2 : (dataJson d).get? (str "surface") = some (textJson d.surface) := by
        unfold dataJson
        rw [get_skip _ _ (by decide), get_skip _ _ (by decide), get_skip _ _ (by decide), get_here]
      have := ih h.2
      simp only [surfaceTexts] at this ⊢
      rw [List.map_cons, List.map_cons, List.map_cons, this, h2, ← newTokenData_surface h.1]
      rfl

variable (w : World) {args : List Bytes} {o : Tok.Opts} {m : Int} {t : Tokenizer} {src : Source}

/-- C81: whatever the input and the mode, the output of `tokenize -json` is a sequence of JSON values, one for every text and in their order, and each is the array of
the objects of the words. -/
theorem C81_stream (hl : TokenizeLine args o) (hm : ModeText o.mode m) (ht : ChosenTokenizer w o t) (hi : ChosenInput w o src)
    (wf : WellFormed t.dict t.userDict) (tab : FeatureTables t.dict) (hj : o.json = true) {texts : List Bytes} {ending : ScanEnd}
    (hs : scanAll (if o.split then defaultSplitter.scanSentences else scanLines) src.reads = some (texts, ending)) :
    ∃ r vs, Tok.run w args = some r ∧ r.err = scanError src ending ∧ readStream r.out = some vs ∧ vs.length = texts.length ∧
      ∀ (i : Nat) (text : Bytes) (v : Json), texts[i]? = some text → vs[i]? = some v →
        ∃ (toks : List Token) (ds : List TokenData), analyze t w.ideo text m = some toks ∧ (classed toks).map newTokenData = ds.map some ∧ v = .arr (ds.map dataJson) := by
  have ho : t.omitBosEos = false := by cases ht <;> rfl
  obtain ⟨l, h1, h2, h3, h4⟩ := lineLoop_stream w ho wf tab m texts
  exact ⟨_, l.map (·.1), by rw [tokenize_run w hl hm ht hi hs, hj, h1]; rfl, rfl, readStream_lines h2, by simpa using h3, h4⟩

/-- C81: every object says where its word is in the text, in every mode. -/
theorem C81_places (hl : TokenizeLine args o) (hm : ModeText o.mode m) (ht : ChosenTokenizer w o t) (hi : ChosenInput w o src)
    (wf : WellFormed t.dict t.userDict) (tab : FeatureTables t.dict) (hj : o.json = true) {texts : List Bytes} {ending : ScanEnd}
    (hs : scanAll (if o.split then defaultSplitter.scanSentences else scanLines) src.reads = some (texts, ending))
    (htame : ∀ text ∈ texts, Tame t text) :
    ∃ r vs, Tok.run w args = some r ∧ readStream r.out = some vs ∧ vs.length = texts.length ∧
      ∀ (i : Nat) (text : Bytes) (v : Json), texts[i]? = some text → vs[i]? = some v → ∃ l, v = .arr l ∧ ∀ x ∈ l, Placed text x := by
  obtain ⟨r, vs, h1, -, h2, h3, h4⟩ := C81_stream w hl hm ht hi wf tab hj hs
  refine ⟨r, vs, h1, h2, h3, ?_⟩
  intro i text v hte hv
  obtain ⟨toks, ds, ha, hd, rfl⟩ := h4 i text v hte hv
  refine ⟨_, rfl, ?_⟩
  intro x hx
  obtain ⟨d, hdm, rfl⟩ := List.mem_map.mp hx
  have : some d ∈ (classed toks).map newTokenData := by rw [hd]; exact List.mem_map.mpr ⟨d, hdm, rfl⟩
  obtain ⟨tok, htok, hnd⟩ := List.mem_map.mp this
  exact data_placed (htame _ (List.mem_of_getElem? hte)) ha (classed_sub_inner wf ha htok) hnd

/-- C81: in Normal and Search mode the surfaces in each array, joined, are the text it was made from, with every broken byte replaced by U+FFFD. -/
theorem C81_words (hl : TokenizeLine args o) (hm : ModeText o.mode m) (ht : ChosenTokenizer w o t) (hi : ChosenInput w o src)
    (tab : FeatureTables t.dict) (hj : o.json = true) (hmx : m ≠ 3) (wf : WellFormed t.dict t.userDict)
    {texts : List Bytes} {ending : ScanEnd}
    (hs : scanAll (if o.split then defaultSplitter.scanSentences else scanLines) src.reads = some (texts, ending))
    (htame : ∀ text ∈ texts, Tame t text) :
    ∃ r vs, Tok.run w args = some r ∧ r.err = scanError src ending ∧ readStream r.out = some vs ∧
      vs.map (fun v => (surfaceTexts v).flatten) = texts.map repaired := by
  obtain ⟨r, vs, h1, h2, h3, h4, h5⟩ := C81_stream w hl hm ht hi wf tab hj hs
  refine ⟨r, vs, h1, h2, h3, ?_⟩
  apply List.ext_getElem?
  intro i
  rw [List.getElem?_map, List.getElem?_map]
  cases hb : vs[i]? with
  | none =>
    rw [List.getElem?_eq_none_iff] at hb
    rw [List.getElem?_eq_none (by omega)]
    rfl
  | some v =>
    obtain ⟨hlt, -⟩ := List.getElem?_eq_some_iff.mp hb
    have e : texts[i]? = some (texts[i]'(by omega)) := List.getElem?_eq_getElem (by omega)
    obtain ⟨toks, ds, ha, hd, rfl⟩ := h5 i _ _ e hb
    rw [e, Option.map_some, Option.map_some, surfaceTexts_data hd, classed_inner wf ha hmx, ← List.flatMap_def,
      repaired_surfaces (htame _ (List.mem_of_getElem? e)) ha]

/-- C81 (lines): without `-split` and for input of valid UTF-8 the surfaces in the arrays are the lines of the input. -/
theorem C81_lines (hl : TokenizeLine args o) (hm : ModeText o.mode m) (ht : ChosenTokenizer w o t) (hi : ChosenInput w o src)
    (tab : FeatureTables t.dict) (hj : o.json = true) (hsp : o.split = false) (hmx : m ≠ 3)
    (hr : Lively 0 src.reads) (wf : WellFormed t.dict t.userDict)
    (hshort : ∀ l ∈ rawLines (delivered src.reads), l.length < 65536) (hv : ∀ l ∈ lines (delivered src.reads), ValidUtf8 l)
    (htame : ∀ l ∈ lines (delivered src.reads), Tame t l) :
    ∃ r vs, Tok.run w args = some r ∧ r.err = src.failure ∧ readStream r.out = some vs ∧
      vs.map (fun v => (surfaceTexts v).flatten) = lines (delivered src.reads) := by
  have hs : scanAll (if o.split then defaultSplitter.scanSentences else scanLines) src.reads = some (lines (delivered src.reads), .done) := by
    rw [hsp]
    exact scan_lines src.reads 0 [] hr (by simp) hshort
  obtain ⟨r, vs, h1, h2, h3, h4⟩ := C81_words w hl hm ht hi tab hj hmx wf hs htame
  refine ⟨r, vs, h1, h2, h3, ?_⟩
  rw [h4]
  conv => rhs; rw [← List.map_id (lines (delivered src.reads))]
  exact List.map_congr_left (fun l hl => repaired_valid (hv l hl))

/-- C81 (sentences): with `-split` the surfaces, all joined, are the characters of the input that are not white space: all of them when no error is returned, and
otherwise those at the beginning. -/
theorem C81_split (hl : TokenizeLine args o) (hm : ModeText o.mode m) (ht : ChosenTokenizer w o t) (hi : ChosenInput w o src)
    (tab : FeatureTables t.dict) (hj : o.json = true) (hsp : o.split = true) (hmx : m ≠ 3)
    (hv : ∀ rd ∈ src.reads, ValidUtf8 rd.bytes) (wf : WellFormed t.dict t.userDict)
    (htame : ∀ texts ending, scanAll defaultSplitter.scanSentences src.reads = some (texts, ending) → ∀ text ∈ texts, Tame t text) :
    ∃ r vs cs ks, Tok.run w args = some r ∧ readStream r.out = some vs ∧ delivered src.reads = enc cs ∧ (vs.flatMap surfaceTexts).flatten = enc ks ∧
      ks <+: cs.filter nonSpace ∧ (r.err = none → ks = cs.filter nonSpace) := by
  obtain ⟨texts, ending, cs, ks, h1, h2, h3, h4, h5⟩ := C34_whole_characters defaultSplitter rfl src.reads hv
  have hs : scanAll (if o.split then defaultSplitter.scanSentences else scanLines) src.reads = some (texts, ending) := by rw [hsp]; exact h1
  obtain ⟨r, vs, g1, g2, g3, g4⟩ := C81_words w hl hm ht hi tab hj hmx wf hs (htame _ _ h1)
  refine ⟨r, vs, cs, ks, g1, g3, h2, ?_, h4, ?_⟩
  · have e : texts.map repaired = texts := by
      conv => rhs; rw [← List.map_id texts]
      exact List.map_congr_left (fun l hl => repaired_valid (scan_whole src.reads hv 0 [] texts ending h1 l hl).1)
    rw [← h3, ← e, ← g4, List.flatMap_def, List.flatten_flatten, List.map_map]
    rfl
  · intro he
    apply h5
    rw [g2] at he
    cases ending with
    | done => rfl
    | tooLong => cases he
    | noProgress => cases he

/-- C81: so equal outputs are outputs for equal lines, whatever the dictionaries and the modes, Normal or Search. -/
theorem C81_injective {w' : World} {args' : List Bytes} {o' : Tok.Opts} {m' : Int} {t' : Tokenizer} {src' : Source}
    (hl : TokenizeLine args o) (hm : ModeText o.mode m) (ht : ChosenTokenizer w o t) (hi : ChosenInput w o src)
    (tab : FeatureTables t.dict) (hj : o.json = true) (hsp : o.split = false) (hmx : m ≠ 3)
    (hr : Lively 0 src.reads) (wf : WellFormed t.dict t.userDict)
    (hshort : ∀ l ∈ rawLines (delivered src.reads), l.length < 65536) (hv : ∀ l ∈ lines (delivered src.reads), ValidUtf8 l)
    (htame : ∀ l ∈ lines (delivered src.reads), Tame t l)
    (hl' : TokenizeLine args' o') (hm' : ModeText o'.mode m') (ht' : ChosenTokenizer w' o' t') (hi' : ChosenInput w' o' src')
    (tab' : FeatureTables t'.dict) (hj' : o'.json = true) (hsp' : o'.split = false) (hmx' : m' ≠ 3)
    (hr' : Lively 0 src'.reads) (wf' : WellFormed t'.dict t'.userDict)
    (hshort' : ∀ l ∈ rawLines (delivered src'.reads), l.length < 65536) (hv' : ∀ l ∈ lines (delivered src'.reads), ValidUtf8 l)
    (htame' : ∀ l ∈ lines (delivered src'.reads), Tame t' l)
    (hout : (Tok.run w args).map (·.out) = (Tok.run w' args').map (·.out)) :
    lines (delivered src.reads) = lines (delivered src'.reads) := by
  obtain ⟨r, vs, h1, -, h2, h3⟩ := C81_lines w hl hm ht hi tab hj hsp hmx hr wf hshort hv htame
  obtain ⟨r', vs', h1', -, h2', h3'⟩ := C81_lines w' hl' hm' ht' hi' tab' hj' hsp' hmx' hr' wf' hshort' hv' htame'
  rw [h1, h1'] at hout
  simp only [Option.map_some, Option.some.injEq] at hout
  rw [hout, h2'] at h2
  cases h2
  rw [← h3, ← h3']

/-! In Extended mode it is not so: the characters of unknown words are missing. -/

def Toy.jsonWorld (s : Bytes) : World := { Toy.world with stdin := ⟨[⟨s, false⟩], none⟩ }

/-- C81: in Extended mode two lines of unknown words are printed alike. -/
theorem C81_extended : (Tok.run (Toy.jsonWorld (str "ab\n")) [str "-json", str "-mode=extended"]).map (·.out) = some (str "[\n\n]\n") ∧
    (Tok.run (Toy.jsonWorld (str "ba\n")) [str "-json", str "-mode=extended"]).map (·.out) = some (str "[\n\n]\n") := by
  constructor <;> decide +kernel

/-! ## Examples -/

example : TokenizeLine [str "-mode=search", str "-json"] Toy.jsonOpts ∧ ModeText Toy.jsonOpts.mode 2 ∧ ChosenTokenizer Toy.world Toy.jsonOpts Toy.tok ∧
    ChosenInput Toy.world Toy.jsonOpts Toy.input ∧ FeatureTables Toy.tok.dict ∧ Toy.jsonOpts.json = true ∧ Lively 0 Toy.input.reads ∧
    (∀ l ∈ rawLines (delivered Toy.input.reads), l.length < 65536) ∧ (∀ l ∈ lines (delivered Toy.input.reads), ValidUtf8 l) ∧
    (∀ l ∈ lines (delivered Toy.input.reads), Tame Toy.tok l) ∧ lines (delivered Toy.input.reads) = [str "すもも", str "の"] := by
  have e : lines (delivered Toy.input.reads) = [str "すもも", str "の"] := by decide +kernel
  refine ⟨?_, .search, .plain (.ipa rfl rfl rfl) rfl, .stdin rfl, Toy.featureTables, rfl, ?_, by decide +kernel, ?_, ?_, e⟩
  · rw [← tok_parse_iff]; rfl
  · simp [Lively, Toy.input, str]
  · rw [e]
    intro l hl
    simp only [List.mem_cons, List.not_mem_nil, or_false] at hl
    rcases hl with rfl | rfl <;> exact valid_str _
  · rw [e]
    intro l hl
    refine ⟨Toy.wellFormed_none, Toy.replacementOk _, fits_short _ ?_⟩
    simp only [List.mem_cons, List.not_mem_nil, or_false] at hl
    rcases hl with rfl | rfl <;> decide +kernel

/-- For `C81_split`: two sentences with white space between them. -/
example : TokenizeLine [str "-split", str "-json"] { Toy.jsonOpts with mode := str "normal", split := true } ∧ ModeText (str "normal") 1 ∧
    (∀ rd ∈ ([⟨str "も。 の\n", false⟩] : List ReadResult), ValidUtf8 rd.bytes) ∧
    scanAll defaultSplitter.scanSentences [⟨str "も。 の\n", false⟩] = some ([str "も。", str "の"], .done) ∧
    (Tok.run (Toy.jsonWorld (str "も。 の\n")) [str "-split", str "-json"]).map (fun r => ((readStream r.out).map (·.map surfaceTexts), r.err)) =
      some (some [[str "も", str "。"], [str "の"]], none) := by
  refine ⟨?_, .normal, ?_, by decide +kernel, by decide +kernel⟩
  · rw [← tok_parse_iff]; rfl
  · intro rd h
    simp only [List.mem_cons, List.not_mem_nil, or_false] at h
    subst h
    exact valid_str _

/-- The values of a text, as texts under `surface`. -/
example : (readStream (str "[\n{\"start\":0,\"end\":1,\"surface\":\"ab\"},\n{\"surface\":\"c\"}\n]\n[\n\n]\n")).map (·.map surfaceTexts) =
    some [[str "ab", str "c"], []] := by decide +kernel

example : (readStream (str "[\n{\"surface\":\"ab\"}\n]\n[\n\n")).map (·.map surfaceTexts) = none := by decide +kernel

/-- Characters are counted, not bytes. -/
example : charsBetween (str "すもももの") 2 4 = str "もも" := by decide +kernel

end Kagome
