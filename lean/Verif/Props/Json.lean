import Verif.Props.Output
import Verif.Proof.TokenJson
import Verif.Model.Server

/-! C42 and C43: the JSON output of `tokenize` and the answers of the server. -/

namespace Kagome

open Spec

/-- The tokens with a class other than DUMMY. -/
def classed (toks : List Token) : List Token := toks.filter (fun t => decide (t.cls ≠ .dummy))

/-- A text that is valid UTF-8 and one JSON value. -/
structure IsJson (s : Bytes) (v : Json) : Prop where
  utf8 : ValidUtf8 s
  reads : readJson s = some v

theorem newTokenData_total {t : Token} (h : InRange t) : ∃ d, newTokenData t = some d := by
  obtain ⟨d, _, _, _, _, _, h1, _⟩ := C24_token_data h
  exact ⟨d, h1⟩

theorem jsonLoop_spec (w : World) {toks : List Token} (h : ∀ t ∈ toks, InRange t) :
    ∃ ds : List TokenData, (classed toks).map newTokenData = ds.map some ∧ Tok.jsonLoop w toks = some (ds.map (jsonTokenData w.shortEscapes)) := by
  induction toks with
  | nil => exact ⟨[], rfl, rfl⟩
  | cons t ts ih =>
    obtain ⟨ds, h1, h2⟩ := ih (fun t ht => h t (by simp [ht]))
    unfold Tok.jsonLoop
    by_cases hc : t.cls = .dummy
    · rw [if_pos hc]
      exact ⟨ds, by simpa [classed, hc] using h1, h2⟩
    · rw [if_neg hc]
      obtain ⟨d, hd⟩ := newTokenData_total (h t (by simp))
      refine ⟨d :: ds, ?_, ?_⟩
      · rw [show classed (t :: ts) = t :: classed ts from by simp [classed, hc]]
        simp [hd, h1]
      · rw [hd]; simp [h2]

/-- C42: what `-json` prints for one text is one JSON array, with an object for each token whose class is not DUMMY. -/
theorem printTokensJSON_spec (w : World) {toks : List Token} (hne : toks ≠ []) (h : ∀ t ∈ toks, InRange t) :
    ∃ (out : Bytes) (ds : List TokenData), Tok.printTokensJSON w toks = some out ∧ (classed toks).map newTokenData = ds.map some ∧ IsJson out (.arr (ds.map dataJson)) := by
  obtain ⟨ds, h1, h2⟩ := jsonLoop_spec w h
  have hp : toks.length > 0 := List.length_pos_iff.mpr hne
  refine ⟨_, ds, by unfold Tok.printTokensJSON; rw [h2]; rfl, h1, ?_, ?_⟩
  · rw [if_pos hp, if_pos hp]
    refine valid_append (valid_append (valid_str _) (valid_join (valid_str _) ?_)) (valid_str _)
    intro x hx
    obtain ⟨d, _, rfl⟩ := List.mem_map.mp hx
    exact valid_data _ d
  · rw [if_pos hp, if_pos hp]
    have hr := reads_arr (wo := [0x0A]) (ws := [0x0A]) (wc := [0x0A]) (by decide) (by decide) (by decide)
      (ds.map (fun s => (dataJson s, jsonTokenData w.shortEscapes s))) (by
        intro x hx
        obtain ⟨s, _, rfl⟩ := List.mem_map.mp hx
        exact reads_data _ s)
    have := readJson_of hr (ws := [0x0A]) (by decide)
    rw [show str "[\n" = [0x5B, 0x0A] from by decide, show str ",\n" = [0x2C, 0x0A] from by decide,
      show str "\n]\n" = [0x0A, 0x5D, 0x0A] from by decide]
    simpa [Function.comp_def] using this

theorem analyze_ne_nil {t : Tokenizer} (wf : WellFormed t.dict t.userDict) {ideo : Nat → Bool} {inp : Bytes} {mode : Int} {toks : List Token}
    (ho : t.omitBosEos = false) (ha : analyze t ideo inp mode = some toks) : toks ≠ [] := by
  obtain ⟨cols0, cols, L, hsol, hb, hf, hL, hs⟩ := solve_weak wf ideo inp (latticeMode mode)
  unfold analyze at ha
  rw [hs] at ha
  simp only [Option.map_some, Option.some.injEq] at ha
  have he : ∃ e L', L = e :: L' ∧ skel e = eosNode inp := by
    rcases prevChain_eos wf hsol hL with ⟨e, h1, h2, _⟩ | ⟨e, j, L', h1, h2, _⟩
    · exact ⟨e, [], h1, h2⟩
    · exact ⟨e, L', h1, h2⟩
  obtain ⟨e, L', rfl, hsk⟩ := he
  have hc : e.cls = .dummy := by have := congrArg Node.cls hsk; exact this
  have hem : emit (latticeMode mode) e = [e] := by
    unfold emit
    simp [hc]
  intro h0
  rw [h0] at ha
  have hne : (List.flatMap (emit (latticeMode mode)) (e :: L')).reverse ≠ [] := by
    simp [hem]
  cases hr : (List.flatMap (emit (latticeMode mode)) (e :: L')).reverse with
  | nil => exact hne hr
  | cons n ns =>
    rw [hr] at ha
    unfold tokenLoop at ha
    rw [if_neg (by simp [ho])] at ha
    cases ha

/-- What is printed with `-json` for the tokens of one text. -/
def JsonText (toks : List Token) (out : Bytes) : Prop :=
  ∃ ds : List TokenData, (classed toks).map newTokenData = ds.map some ∧ IsJson out (.arr (ds.map dataJson))

theorem lineLoop_json (w : World) {t : Tokenizer} (ho : t.omitBosEos = false) (wf : WellFormed t.dict t.userDict) (tab : FeatureTables t.dict)
    (m : Int) (texts : List Bytes) :
    ∃ outs, Tok.lineLoop w t m true texts = some outs.flatten ∧
      ForEach (fun text out => ∃ toks, analyze t w.ideo text m = some toks ∧ JsonText toks out) texts outs := by
  induction texts with
  | nil => exact ⟨[], rfl, trivial⟩
  | cons text texts ih =>
    obtain ⟨outs, h1, h2⟩ := ih
    obtain ⟨toks, ha⟩ := Option.isSome_iff_exists.mp (C01_total wf w.ideo text m).1
    obtain ⟨out, ds, k1, k2, k3⟩ := printTokensJSON_spec w (analyze_ne_nil wf ho ha) (fun tok => analyze_inRange wf tab ha)
    refine ⟨out :: outs, ?_, ⟨toks, ha, ds, k2, k3⟩, h2⟩
    unfold Tok.lineLoop
    rw [ha]
    simp [k1, h1]

/-- C42: `tokenize -json`, for every text the scanner gives. -/
theorem C42_command (w : World) {args : List Bytes} {o : Tok.Opts} {m : Int} {t : Tokenizer} {src : Source}
    (hl : TokenizeLine args o) (hm : ModeText o.mode m) (ht : ChosenTokenizer w o t) (hi : ChosenInput w o src)
    (wf : WellFormed t.dict t.userDict) (tab : FeatureTables t.dict) (hj : o.json = true) {texts : List Bytes} {ending : ScanEnd}
    (hs : scanAll (if o.split then defaultSplitter.scanSentences else scanLines) src.reads = some (texts, ending)) :
    ∃ outs, Tok.run w args = some { out := outs.flatten, err := scanError src ending } ∧
      ForEach (fun text out => ∃ toks, analyze t w.ideo text m = some toks ∧ JsonText toks out) texts outs := by
  have ho : t.omitBosEos = false := by cases ht <;> rfl
  obtain ⟨outs, h1, h2⟩ := lineLoop_json w ho wf tab m texts
  exact ⟨outs, by rw [tokenize_run w hl hm ht hi hs, hj, h1]; rfl, h2⟩

theorem apiTokens_spec {toks : List Token} (h : ∀ t ∈ toks, InRange t) :
    ∃ ds : List TokenData, (inner toks).map newTokenData = ds.map some ∧
      ∀ acc, apiTokens acc toks = some (if ds = [] then acc else some (acc.getD [] ++ ds)) := by
  induction toks with
  | nil => exact ⟨[], rfl, fun _ => rfl⟩
  | cons t ts ih =>
    obtain ⟨ds, h1, h2⟩ := ih (fun t ht => h t (by simp [ht]))
    by_cases hid : t.id = -1
    · refine ⟨ds, by simpa [inner, hid] using h1, ?_⟩
      intro acc
      unfold apiTokens
      rw [if_pos (show t.id = bosEosID from hid), h2]
    · obtain ⟨d, hd⟩ := newTokenData_total (h t (by simp))
      refine ⟨d :: ds, ?_, ?_⟩
      · rw [show inner (t :: ts) = t :: inner ts from by simp [inner, hid]]
        simp [hd, h1]
      · intro acc
        unfold apiTokens
        rw [if_neg (show ¬ t.id = bosEosID from hid), hd]
        dsimp only
        rw [h2, if_neg (show ¬ d :: ds = [] by simp)]
        split
        · rename_i e; simp [e]
        · simp

/-- The object the server answers with. -/
def answer (tokens : List Json) : Json := .obj [(str "status", .bool true), (str "tokens", .arr tokens)]

theorem apiBody_json (short : Bool) (ds : List TokenData) : IsJson (apiBody short (some ds)) (answer (ds.map dataJson)) := by
  have e : apiBody short (some ds) = str "{" ++ join (str ",") [jsonField (str "status") (str "true"), jsonField (str "tokens") (jsonTokens short (some ds))] ++ str "}" := by
    unfold apiBody
    rw [join_cons_cons]
    simp only [join, jsonField]
    rw [show str "{\"status\":true,\"tokens\":" = str "{" ++ (str "\"" ++ str "status" ++ str "\":" ++ str "true" ++ str "," ++ (str "\"" ++ str "tokens" ++ str "\":")) from by decide +kernel]
    simp
  constructor
  · exact valid_append (valid_append (valid_str _) (valid_tokens short ds)) (valid_str _)
  · have hr := reads_obj [⟨str "status", .bool true, str "true"⟩, ⟨str "tokens", .arr (ds.map dataJson), jsonTokens short (some ds)⟩] (by
      intro x hx
      simp only [List.mem_cons, List.not_mem_nil, or_false] at hx
      rcases hx with rfl | rfl
      · exact ⟨plain_name _ (by simp), reads_true⟩
      · exact ⟨plain_name _ (by simp), reads_tokens short ds⟩)
    have := readJson_of hr (ws := []) (by simp)
    rw [List.append_nil] at this
    rw [e]; exact this

/-- Where the body of a request is decoded and not empty, the answer has an object for each token other than BOS and EOS. -/
theorem serveTokenize_spec {t : Tokenizer} (wf : WellFormed t.dict t.userDict) (tab : FeatureTables t.dict) (ideo : Nat → Bool) (short : Bool)
    {decode : Bytes → Except Bytes ApiRequest} {body : Bytes} {req : ApiRequest} (hd : decode body = .ok req) (hne : req.input ≠ []) :
    ∃ (toks : List Token) (ds : List TokenData), analyze t ideo req.input (apiMode req.mode) = some toks ∧
      (inner toks).map newTokenData = ds.map some ∧
      serveTokenize t ideo short decode body = some ⟨200, str "application/json", apiBody short (if ds = [] then none else some ds)⟩ := by
  obtain ⟨toks, ha⟩ := Option.isSome_iff_exists.mp (C01_total wf ideo req.input (apiMode req.mode)).1
  obtain ⟨ds, h1, h2⟩ := apiTokens_spec (fun tok => analyze_inRange wf tab ha)
  refine ⟨toks, ds, ha, h1, ?_⟩
  unfold serveTokenize
  rw [hd]
  simp only [if_neg hne, ha, h2]
  simp

theorem inner_ne_nil {t : Tokenizer} (wf : WellFormed t.dict t.userDict) {ideo : Nat → Bool} {inp : Bytes} (hrep : ReplacementOk t.dict inp)
    (hne : inp ≠ []) {mode : Int} {toks : List Token} (ha : analyze t ideo inp mode = some toks) : inner toks ≠ [] := by
  obtain ⟨linked, k, pos, rest, ws, ns, hat, hana, hl, hul, hns, h1, h2, _⟩ := analyze_main wf ideo hrep mode
  have hws : ws ≠ [] := by
    cases linked with
    | false => exact (hul rfl).2
    | true =>
      obtain ⟨_, _, h⟩ := hl rfl
      intro h0
      subst h0
      cases hana
      exact hne h.symm
  have hids : ∀ k', ∀ tok ∈ body t k' ns, tok.id ≠ -1 := by
    intro k' tok ht
    rw [hns] at ht
    obtain ⟨p, hp⟩ := located_rel (words_located t t.dict wf (latticeMode mode) hana pos k k').1 tok ht
    exact hp.2.1
  have hlen : ∀ k', body t k' ns ≠ [] := by
    intro k' h0
    have hw := words_located t t.dict wf (latticeMode mode) hana pos k k'
    have e := (located_get hw.1).1
    rw [← hns, h0] at e
    have h3 := (pieces_runes wf (isExt (latticeMode mode)) hana).2
    rw [List.length_eq_zero_iff.mp e.symm] at h3
    have h4 := runes_eq_nil.mp h3
    cases hana with
    | nil => exact hws rfl
    | cons w rest ws hcand _ =>
      simp only [List.append_eq_nil_iff] at h4
      have := (cand_ok wf hcand).cnt
      rw [h4.1] at this
      simp [runeCount] at this
  have key : ∀ pre post : List Token, ∀ k', inner (pre ++ body t k' ns ++ post) ≠ [] := by
    intro pre post k' h0
    unfold inner at h0
    rw [List.filter_append, List.filter_append] at h0
    simp only [List.append_eq_nil_iff] at h0
    have := inner_body t (hids k')
    unfold inner at this
    rw [this] at h0
    exact hlen k' h0.1.2
  cases ho : t.omitBosEos with
  | true =>
    rw [show { t with omitBosEos := true } = t from by rw [← ho]] at h1
    rw [ha] at h1
    simp only [Option.some.injEq] at h1
    rw [h1]
    have := key [] [] 0
    simpa using this
  | false =>
    rw [show { t with omitBosEos := false } = t from by rw [← ho]] at h2
    rw [ha] at h2
    simp only [Option.some.injEq] at h2
    rw [h2]
    exact key _ _ _

/-- C43: a decoded request with a sentence gets status 200 and a JSON object whose `status` is true and whose `tokens` is a non-empty array,
one object for each token other than BOS and EOS, in order. -/
theorem C43_answer {t : Tokenizer} (wf : WellFormed t.dict t.userDict) (tab : FeatureTables t.dict) (ideo : Nat → Bool) (short : Bool)
    {decode : Bytes → Except Bytes ApiRequest} {body : Bytes} {req : ApiRequest} (hd : decode body = .ok req) (hne : req.input ≠ [])
    (hrep : ReplacementOk t.dict req.input) :
    ∃ (toks : List Token) (ds : List TokenData) (out : Bytes), analyze t ideo req.input (apiMode req.mode) = some toks ∧
      (inner toks).map newTokenData = ds.map some ∧ ds ≠ [] ∧
      serveTokenize t ideo short decode body = some ⟨200, str "application/json", out⟩ ∧ IsJson out (answer (ds.map dataJson)) := by
  obtain ⟨toks, ds, ha, h1, h2⟩ := serveTokenize_spec wf tab ideo short hd hne
  have hds : ds ≠ [] := by
    rintro rfl
    exact inner_ne_nil wf hrep hne ha (List.map_eq_nil_iff.mp h1)
  rw [if_neg hds] at h2
  exact ⟨toks, ds, _, ha, h1, hds, h2, apiBody_json short ds⟩

theorem apiBody_null (short : Bool) : IsJson (apiBody short none) (.obj [(str "status", .bool true), (str "tokens", .null)]) := by
  have e : apiBody short none = str "{" ++ join (str ",") [jsonField (str "status") (str "true"), jsonField (str "tokens") (str "null")] ++ str "}" := by
    simp only [apiBody, jsonTokens]
    decide +kernel
  constructor
  · exact valid_append (valid_append (valid_str _) (valid_str _)) (valid_str _)
  · have hr := reads_obj [⟨str "status", .bool true, str "true"⟩, ⟨str "tokens", .null, str "null"⟩] (by
      intro x hx
      simp only [List.mem_cons, List.not_mem_nil, or_false] at hx
      rcases hx with rfl | rfl
      · exact ⟨plain_name _ (by simp), reads_true⟩
      · exact ⟨plain_name _ (by simp), reads_null⟩)
    have := readJson_of hr (ws := []) (by simp)
    rw [List.append_nil] at this
    rw [e]; exact this

/-- C43, without the condition on U+FFFD: the answer is a JSON object with a value for `tokens`; should there be no token, it is null. -/
theorem C43_any {t : Tokenizer} (wf : WellFormed t.dict t.userDict) (tab : FeatureTables t.dict) (ideo : Nat → Bool) (short : Bool)
    {decode : Bytes → Except Bytes ApiRequest} {body : Bytes} {req : ApiRequest} (hd : decode body = .ok req) (hne : req.input ≠ []) :
    ∃ (toks : List Token) (ds : List TokenData) (out : Bytes), analyze t ideo req.input (apiMode req.mode) = some toks ∧
      (inner toks).map newTokenData = ds.map some ∧
      serveTokenize t ideo short decode body = some ⟨200, str "application/json", out⟩ ∧
      IsJson out (.obj [(str "status", .bool true), (str "tokens", if ds = [] then .null else .arr (ds.map dataJson))]) := by
  obtain ⟨toks, ds, ha, h1, h2⟩ := serveTokenize_spec wf tab ideo short hd hne
  refine ⟨toks, ds, _, ha, h1, h2, ?_⟩
  by_cases hds : ds = []
  · rw [if_pos hds, if_pos hds]; exact apiBody_null short
  · rw [if_neg hds, if_neg hds]; exact apiBody_json short ds

/-- C43: a decoded request with the empty sentence gets an empty array. -/
theorem C43_empty (t : Tokenizer) (ideo : Nat → Bool) (short : Bool) {decode : Bytes → Except Bytes ApiRequest} {body : Bytes} {req : ApiRequest}
    (hd : decode body = .ok req) (he : req.input = []) :
    ∃ out, serveTokenize t ideo short decode body = some ⟨200, str "application/json", out⟩ ∧ IsJson out (answer []) := by
  refine ⟨str "{\"status\":true,\"tokens\":[]}", by unfold serveTokenize; rw [hd]; simp only [if_pos he], ?_⟩
  have := apiBody_json false []
  have e : apiBody false (some []) = str "{\"status\":true,\"tokens\":[]}" := by decide +kernel
  rw [e] at this
  exact this

/-- C43: a body that is not decoded gets status 400 and the reason, whatever the tokenizer. -/
theorem C43_undecoded (t : Tokenizer) (ideo : Nat → Bool) (short : Bool) {decode : Bytes → Except Bytes ApiRequest} {body e : Bytes}
    (hd : decode body = .error e) :
    serveTokenize t ideo short decode body =
      some ⟨400, str "text/plain; charset=utf-8", str "{\"status\":false,\"error\":\"" ++ e ++ str "\"}\n"⟩ := by
  have hs : str "\"}\n" = str "\"}" ++ str "\n" := by decide
  unfold serveTokenize
  rw [hd]
  simp only [httpError, apiError, hs, List.append_assoc]

/-- C43: the endpoint gives every request exactly one answer, with status 200 or 400. -/
theorem C43_total {t : Tokenizer} (wf : WellFormed t.dict t.userDict) (tab : FeatureTables t.dict) (ideo : Nat → Bool) (short : Bool)
    (decode : Bytes → Except Bytes ApiRequest) (body : Bytes) :
    ∃ r, serveTokenize t ideo short decode body = some r ∧ (r.status = 200 ↔ ∃ req, decode body = .ok req) ∧
      (r.status = 400 ↔ ∃ e, decode body = .error e) := by
  cases hd : decode body with
  | error e =>
    exact ⟨_, C43_undecoded t ideo short hd, by simp, by simp⟩
  | ok req =>
    by_cases he : req.input = []
    · obtain ⟨out, h, _⟩ := C43_empty t ideo short hd he
      exact ⟨_, h, by simp, by simp⟩
    · obtain ⟨_, _, _, _, h⟩ := serveTokenize_spec wf tab ideo short hd he
      exact ⟨_, h, by simp, by simp⟩

/-- The name of the mode in a request. -/
theorem C43_mode (name : Bytes) : apiMode name = modeSearch ∧ name = str "Search" ∨ apiMode name = modeExtended ∧ name = str "Extended" ∨
    apiMode name = modeNormal ∧ name ≠ str "Search" ∧ name ≠ str "Extended" := by
  unfold apiMode
  by_cases h1 : name = str "Search"
  · simp [h1]
  · by_cases h2 : name = str "Extended"
    · right; left
      rw [if_neg h1, if_pos h2]
      exact ⟨rfl, h2⟩
    · right; right
      rw [if_neg h1, if_neg h2]
      exact ⟨rfl, h1, h2⟩

/-- C42: outside Extended mode the tokens with a class are those other than BOS and EOS. -/
theorem classed_inner {t : Tokenizer} (wf : WellFormed t.dict t.userDict) {ideo : Nat → Bool} {inp : Bytes} {mode : Int} {toks : List Token}
    (ha : analyze t ideo inp mode = some toks) (hm : mode ≠ modeExtended) : classed toks = inner toks := by
  unfold classed inner
  apply List.filter_congr
  intro tok ht
  by_cases hid : tok.id ≠ -1 ∨ tok.cls ≠ .dummy
  · obtain ⟨k, pos, rest, w, _, hw, h⟩ := analyze_weak wf ha ht hid
    have hok := weak_ok wf hw
    rcases h with ⟨h1, h2, _⟩ | ⟨h, _⟩
    · have h3 := hok.cls
      have h4 := hok.id
      have h5 : tok.cls ≠ .dummy := by rw [h1]; simpa using h3
      have h6 : tok.id ≠ -1 := by rw [h2]; omega
      simp [h5, h6]
    · exact absurd h hm
  · have h1 : tok.id = -1 := Decidable.byContradiction fun h => hid (Or.inl h)
    have h2 : tok.cls = .dummy := Decidable.byContradiction fun h => hid (Or.inr h)
    simp [h1, h2]

/-- C42: in Normal and Search mode the array that `-json` prints for a sentence is the `tokens` array of the answer to a request for the
same sentence, tokenizer and mode. -/
theorem C42_agree {t : Tokenizer} (wf : WellFormed t.dict t.userDict) (tab : FeatureTables t.dict) (w : World) (short : Bool)
    {decode : Bytes → Except Bytes ApiRequest} {body : Bytes} {req : ApiRequest} (hd : decode body = .ok req) (hne : req.input ≠ [])
    (hrep : ReplacementOk t.dict req.input) (hm : apiMode req.mode ≠ modeExtended) (ho : t.omitBosEos = false) :
    ∃ (toks : List Token) (printed answered : Bytes) (words : List Json),
      analyze t w.ideo req.input (apiMode req.mode) = some toks ∧ Tok.printTokensJSON w toks = some printed ∧
      serveTokenize t w.ideo short decode body = some ⟨200, str "application/json", answered⟩ ∧
      words.length = (inner toks).length ∧ IsJson printed (.arr words) ∧ IsJson answered (answer words) := by
  obtain ⟨toks, ds, out, ha, h1, h2, h3, h4⟩ := C43_answer wf tab w.ideo short hd hne hrep
  obtain ⟨out', ds', k1, k2, k3⟩ := printTokensJSON_spec w (analyze_ne_nil wf ho ha) (fun tok => analyze_inRange wf tab ha)
  rw [classed_inner wf ha hm, h1] at k2
  have : ds = ds' := List.map_inj_right (fun _ _ h => Option.some.inj h) |>.mp k2
  subst this
  refine ⟨toks, out', out, ds.map dataJson, ha, k1, h3, ?_, k3, h4⟩
  have := congrArg List.length h1
  simpa using this.symm

/-- C42: in Extended mode `-json` prints only words of a dictionary, while the answer to a request has the unigrams of unknown words too. -/
theorem C42_extended {t : Tokenizer} (wf : WellFormed t.dict t.userDict) {ideo : Nat → Bool} {inp : Bytes} {toks : List Token}
    (ha : analyze t ideo inp modeExtended = some toks) :
    classed toks = (inner toks).filter (fun tok => decide (tok.cls = .known ∨ tok.cls = .user)) := by
  unfold classed inner
  rw [List.filter_filter]
  apply List.filter_congr
  intro tok ht
  by_cases hid : tok.id ≠ -1 ∨ tok.cls ≠ .dummy
  · obtain ⟨k, pos, rest, w, _, hw, h⟩ := analyze_weak wf ha ht hid
    have hok := weak_ok wf hw
    rcases h with ⟨h1, h2, _, _, _, _, h3⟩ | ⟨_, _, h1, h2, _⟩
    · have h4 : tok.cls ≠ .dummy := by rw [h1]; simpa using hok.cls
      have h5 : tok.id ≠ -1 := by rw [h2]; have := hok.id; omega
      have h6 : tok.cls ≠ .unknown := by rw [h1]; exact h3 rfl
      cases hc : tok.cls <;> simp_all
    · simp [h1]
  · have h2 : tok.cls = .dummy := Decidable.byContradiction fun h => hid (Or.inr h)
    simp [h2]

def decodeAs (input mode : String) : Bytes → Except Bytes ApiRequest := fun _ => .ok ⟨str input, str mode⟩

/-- C42: the two differ for an unknown word in Extended mode: the command prints an empty array, the answer has two objects. -/
theorem C42_extended_differs :
    ∃ toks printed answered words, analyze Toy.tok Toy.ideo (str "ab") modeExtended = some toks ∧
      Tok.printTokensJSON Toy.world toks = some printed ∧ IsJson printed (.arr []) ∧
      serveTokenize Toy.tok Toy.ideo true (decodeAs "ab" "Extended") [] = some ⟨200, str "application/json", answered⟩ ∧
      IsJson answered (answer words) ∧ words.length = 2 := by
  obtain ⟨toks, ds, out, ha, h1, h2, h3, h4⟩ := C43_answer (t := Toy.tok) (req := ⟨str "ab", str "Extended"⟩) (body := [])
    (decode := decodeAs "ab" "Extended") Toy.wellFormed_none Toy.featureTables Toy.ideo true rfl (by decide) (Toy.replacementOk _)
  have hm : apiMode (str "Extended") = modeExtended := by decide
  simp only [hm] at ha
  have hl : ((analyze Toy.tok Toy.ideo (str "ab") modeExtended).map (fun ts => ((inner ts).length, (classed ts).length))) = some (2, 0) := by
    decide +kernel
  rw [ha] at hl
  simp only [Option.map_some, Option.some.injEq, Prod.mk.injEq] at hl
  obtain ⟨out', ds', k1, k2, k3⟩ := printTokensJSON_spec Toy.world (analyze_ne_nil (t := Toy.tok) Toy.wellFormed_none rfl ha)
    (fun tok => analyze_inRange (t := Toy.tok) Toy.wellFormed_none Toy.featureTables ha)
  rw [List.length_eq_zero_iff.mp hl.2] at k2
  have hd : ds' = [] := List.map_eq_nil_iff.mp k2.symm
  subst hd
  refine ⟨toks, out', out, _, ha, k1, k3, h3, h4, ?_⟩
  have := congrArg List.length h1
  simp only [List.length_map] at this ⊢
  omega

/-! ### The hypotheses hold in cases of interest -/

/-- `C42_command` for a run with `-json`. -/
def Toy.jsonOpts : Tok.Opts := ⟨[], [], [], str "ipa", false, str "search", false, true⟩

example : TokenizeLine [str "-mode=search", str "-json"] Toy.jsonOpts ∧ ModeText Toy.jsonOpts.mode 2 ∧ ChosenTokenizer Toy.world Toy.jsonOpts Toy.tok ∧
    ChosenInput Toy.world Toy.jsonOpts Toy.input ∧ Toy.jsonOpts.json = true ∧
    scanAll scanLines Toy.input.reads = some ([str "すもも", str "の"], .done) := by
  refine ⟨by rw [← tok_parse_iff]; rfl, .search, .plain (.ipa rfl rfl rfl) rfl, .stdin rfl, rfl, by decide +kernel⟩

example : (Tok.run Toy.world [str "-json", str "-mode=search"]).map (fun r => r.err) = some none := by decide +kernel

example : WellFormed Toy.tok.dict Toy.tok.userDict ∧ FeatureTables Toy.tok.dict ∧ ReplacementOk Toy.tok.dict (str "ももab") ∧
    decodeAs "ももab" "Search" [] = .ok ⟨str "ももab", str "Search"⟩ ∧ str "ももab" ≠ [] ∧ apiMode (str "Search") ≠ modeExtended ∧ Toy.tok.omitBosEos = false :=
  ⟨Toy.wellFormed_none, Toy.featureTables, Toy.replacementOk _, rfl, by decide, by decide, rfl⟩

/-- What is printed and answered for the text "の". -/
example : (serveTokenize Toy.tok Toy.ideo true (decodeAs "の" "") []).map (fun r => (readJson r.body).isSome) = some true ∧
    ((analyze Toy.tok Toy.ideo (str "の") modeNormal).bind (Tok.printTokensJSON Toy.world)).map (fun s => (readJson s).isSome) = some true := by
  constructor <;> decide +kernel

end Kagome
