import Verif.Props.Segmentation

/-! Properties C14, C15, C16 and C18: how the entry points and modes relate, and construction. -/

namespace Kagome

open Spec

variable {t : Tokenizer} {ideo : Nat → Bool} {inp : Bytes} {mode : Int} {toks : List Token}

/-! ### C14 -/

/-- C14: `Tokenize` is `Analyze` in Normal mode, and so is every mode value other than Search and Extended. -/
theorem C14_modes (t : Tokenizer) (ideo : Nat → Bool) (inp : Bytes) (mode : Int) (h2 : mode ≠ modeSearch) (h3 : mode ≠ modeExtended) :
    analyze t ideo inp mode = tokenize t ideo inp := by
  unfold tokenize analyze
  rw [(C07_mode mode).mpr ⟨h2, h3⟩]
  rfl

/-- C14: `Wakati` lists the surfaces of the inner tokens of `Tokenize`; none is empty. -/
theorem C14_wakati (wf : WellFormed t.dict t.userDict) (ha : tokenize t ideo inp = some toks) :
    wakati t ideo inp = some ((inner toks).map (fun tok => tok.surface)) ∧ ∀ tok ∈ inner toks, tok.surface ≠ [] := by
  have key : ∀ tok ∈ toks, (tok.cls ≠ .dummy ∧ tok.surface ≠ []) ↔ tok.id ≠ -1 := by
    intro tok ht
    constructor
    · rintro ⟨h1, _⟩
      obtain ⟨k, pos, rest, w, _, hw, hc⟩ := analyze_weak wf ha ht (Or.inr h1)
      have := (weak_ok wf hw).id
      rcases hc with ⟨_, h2, _⟩ | ⟨_, _, _, h2, _⟩ <;> (rw [h2]; omega)
    · intro h1
      obtain ⟨k, pos, rest, w, _, hw, hc⟩ := analyze_weak wf ha ht (Or.inl h1)
      have hok := weak_ok wf hw
      rcases hc with ⟨h2, _, h3, _⟩ | ⟨h2, _⟩
      · refine ⟨by rw [h2]; exact hok.cls, ?_⟩
        intro h0
        have := hok.cnt
        rw [← h3, h0] at this
        simp [runeCount] at this
      · exact absurd h2 (by decide)
  have hloop : ∀ l : List Token, (∀ tok ∈ l, (tok.cls ≠ .dummy ∧ tok.surface ≠ []) ↔ tok.id ≠ -1) →
      wakatiLoop l = (inner l).map (fun tok => tok.surface) := by
    intro l
    induction l with
    | nil => intro _; rfl
    | cons x l ih =>
      intro h
      have hx := h x (by simp)
      have := ih (fun tok ht => h tok (by simp [ht]))
      unfold wakatiLoop inner
      by_cases hid : x.id = -1
      · rw [if_neg (fun hh => hx.mp hh hid)]
        rw [this]; unfold inner; simp [hid]
      · rw [if_pos (hx.mpr hid), this]; unfold inner; simp [hid]
  constructor
  · unfold wakati
    unfold tokenize at ha
    rw [ha]
    simp only [Option.map_some]
    rw [hloop toks key]
  · intro tok ht
    unfold inner at ht
    rw [List.mem_filter] at ht
    exact ((key tok ht.1).mpr (by simpa using ht.2)).2

/-- C14: joining the result of `Wakati` gives back the text. -/
theorem C14_wakati_join (h : Tame t inp) {ws : List Bytes} (hw : wakati t ideo inp = some ws) : ws.flatten = inp := by
  cases ha : tokenize t ideo inp with
  | none =>
    have := (C01_total h.wf ideo inp modeNormal).2.1
    rw [ha] at this; cases this
  | some toks =>
    rw [(C14_wakati h.wf ha).1] at hw
    simp only [Option.some.injEq] at hw
    rw [← hw]
    have := C02_lossless h (by decide) ha
    rw [List.flatMap_def] at this
    exact this

example : wakati Toy.tokUser Toy.ideo (str "すももabの東京") = some [str "すもも", str "ab", str "の", str "東京"] := by decide +kernel

/-! ### C15 -/

/-- One token per character of an `UNKNOWN` token; other tokens as they are. -/
def cutToken (tok : Token) : List Token :=
  if tok.cls = .unknown then
    (rangeString tok.surface).zipIdx.map (fun x =>
      { tok with cls := .dummy, position := tok.position + x.1.1, start := tok.start + x.2, stop := tok.start + x.2 + 1,
                 surface := encodeRune x.1.2 })
  else [tok]

/-- Set every `Index` to the place in the list. -/
def renumber (toks : List Token) : List Token := toks.zipIdx.map (fun x => { x.1 with index := x.2 })

theorem forward_ext (d : Dict) (ideo : Nat → Bool) (cols : Cols) : forward d ideo .extended cols = forward d ideo .search cols := by
  have h1 : ∀ i idx js cols, relax d ideo .extended i idx js cols = relax d ideo .search i idx js cols := by
    intro i idx js
    induction js with
    | nil => intro cols; rfl
    | cons j js ih =>
      intro cols
      simp only [relax, ih, totalCost, ne_eq, reduceCtorEq, not_false_eq_true, if_true]
  have h2 : ∀ i idx cols, forwardNode d ideo .extended i idx cols = forwardNode d ideo .search i idx cols := by
    intro i idx cols
    simp only [forwardNode, h1]
  have h3 : ∀ i js cols, forwardCol d ideo .extended i js cols = forwardCol d ideo .search i js cols := by
    intro i js
    induction js with
    | nil => intro cols; rfl
    | cons j js ih => intro cols; simp only [forwardCol, h2, ih]
  have h4 : ∀ js cols, forwardLoop d ideo .extended js cols = forwardLoop d ideo .search js cols := by
    intro js
    induction js with
    | nil => intro cols; rfl
    | cons j js ih => intro cols; simp only [forwardLoop, h3, ih]
  unfold forward
  exact h4 _ _

theorem prevChain_unique {cols : Cols} {i j : Nat} {L L' : List Node} (h : PrevChain cols i j L) (h' : PrevChain cols i j L') : L = L' := by
  induction h generalizing L' with
  | last hn hp =>
    cases h' with
    | last hn' _ => rw [hn] at hn'; simp at hn'; rw [hn']
    | step hn' hp' _ => rw [hn] at hn'; simp at hn'; rw [← hn', hp] at hp'; simp at hp'
  | step hn hp hL ih =>
    cases h' with
    | last hn' hp' => rw [hn] at hn'; simp at hn'; rw [← hn', hp] at hp'; simp at hp'
    | step hn' hp' hL' =>
      rw [hn] at hn'; simp only [Option.some.injEq] at hn'
      subst hn'
      rw [hp] at hp'
      simp only [Option.some.injEq, Prod.mk.injEq] at hp'
      obtain ⟨rfl, rfl⟩ := hp'
      rw [ih hL']

/-- A token with its number erased. -/
def eraseIndex (tok : Token) : Token := { tok with index := 0 }

theorem renumber_eq {a b : List Token} (ha : ∀ (i : Nat) tok, a[i]? = some tok → tok.index = i)
    (hab : a.map eraseIndex = b.map eraseIndex) : a = renumber b := by
  apply List.ext_getElem?
  intro i
  have h := congrArg (·[i]?) hab
  simp only [List.getElem?_map] at h
  unfold renumber
  simp only [List.getElem?_map, List.getElem?_zipIdx]
  cases hai : a[i]? with
  | none =>
    rw [hai] at h
    simp only [Option.map_none] at h
    cases hbi : b[i]? with
    | none => rfl
    | some y => rw [hbi] at h; simp at h
  | some x =>
    rw [hai] at h
    cases hbi : b[i]? with
    | none => rw [hbi] at h; simp at h
    | some y =>
      rw [hbi] at h
      simp only [Option.map_some, Option.some.injEq] at h
      simp only [Option.map_some, Option.some.injEq, Nat.zero_add]
      have hx := ha i x hai
      obtain ⟨x1, x2, x3, x4, x5, x6, x7, x8, x9⟩ := x
      obtain ⟨y1, y2, y3, y4, y5, y6, y7, y8, y9⟩ := y
      simp only [eraseIndex, Token.mk.injEq] at h hx ⊢
      obtain ⟨-, h2, h3, h4, h5, h6, h7, h8, h9⟩ := h
      exact ⟨hx, h2, h3, h4, h5, h6, h7, h8, h9⟩

theorem tokenLoop_explode (t : Tokenizer) (p : Node) (hid : p.id ≠ -1) (s : Bytes) : ∀ (q j i k : Nat) (rest : List Node), 
    ∃ i' k', (s ≠ [] → i' ≠ 0) ∧ (i ≠ 0 → i' ≠ 0) ∧ (tokenLoop t i k (explode p j (withPos q (runes s)) ++ rest)).map eraseIndex =
      ((withPos q (runes s)).zipIdx j).map (fun x => eraseIndex
        { index := 0, id := p.id, cls := .dummy, position := p.position + x.1.1, start := p.start + x.2,
          stop := p.start + x.2 + 1, surface := encodeRune x.1.2, dict := some t.dict, udict := t.userDict }) ++
      (tokenLoop t i' k' rest).map eraseIndex := by
  induction s using runes_induction with
  | nil => intro q j i k rest; exact ⟨i, k, by simp, id, by simp [withPos, explode]⟩
  | cons s hs ih =>
    intro q j i k rest
    have hre := runeCount_encodeRune hs
    rw [runes_cons hs]
    rcases hdr : decodeRune s with ⟨r, w⟩
    rw [hdr] at hre ih
    simp only at hre ih
    simp only [withPos, explode, List.cons_append, tokenLoop]
    have hno : ¬ (t.omitBosEos = true ∧ p.id = bosEosID) := fun h => hid h.2
    rw [if_neg hno]
    obtain ⟨i', k', h1, h2, h3⟩ := ih (q + w) (j + 1) (i + 1) (k + 1) rest
    refine ⟨i', k', fun _ => h2 (by omega), fun _ => h2 (by omega), ?_⟩
    rw [List.map_cons, h3, List.zipIdx_cons, List.map_cons, List.cons_append]
    congr 1
    have hid' : p.id ≠ bosEosID := hid
    simp only [mkToken, eraseIndex, if_neg hid', hre]

theorem tokenLoop_cut (t : Tokenizer) (ns : List Node) (hns : ∀ n ∈ ns, n.cls = .unknown → n.id ≠ -1 ∧ n.surface ≠ []) :
    ∀ (i k i' k' : Nat), (i = 0 ↔ i' = 0) →
    (tokenLoop t i k (ns.flatMap (emitFwd .extended))).map eraseIndex = ((tokenLoop t i' k' ns).flatMap cutToken).map eraseIndex := by
  induction ns with
  | nil => intro i k i' k' _; rfl
  | cons n ns ih =>
    intro i k i' k' hi
    have ih := ih (fun n hn => hns n (by simp [hn]))
    rw [List.flatMap_cons]
    by_cases hc : n.cls = .unknown
    · obtain ⟨hid, hne⟩ := hns n (by simp) hc
      have hem : emitFwd .extended n = explode n 0 (withPos 0 (runes n.surface)) := by
        unfold emitFwd
        rw [if_neg]
        · rfl
        · rintro (h | h)
          · exact h rfl
          · exact h hc
      have hno : ¬ (t.omitBosEos = true ∧ n.id = bosEosID) := fun h => hid h.2
      obtain ⟨i1, k1, h1, h2, h3⟩ := tokenLoop_explode t n hid n.surface 0 0 i k (ns.flatMap (emitFwd .extended))
      have hi1 := h1 hne
      rw [hem, h3]
      simp only [tokenLoop]
      rw [if_neg hno, List.flatMap_cons, List.map_append, ih i1 k1 (i' + 1) (k' + 1) (by omega)]
      congr 1
      unfold cutToken
      rw [if_pos (by exact hc)]
      have hid' : n.id ≠ bosEosID := hid
      simp only [List.map_map, mkToken, if_neg hid']
      rfl
    · have hem : emitFwd .extended n = [n] := by
        unfold emitFwd
        rw [if_pos (Or.inr hc)]
      rw [hem]
      simp only [List.cons_append, List.nil_append, tokenLoop]
      have hih := fun k k' => ih (i + 1) k (i' + 1) k' (by omega)
      split
      · exact hih _ _
      · rw [List.flatMap_cons, List.map_append, List.map_cons, hih]
        have hcut : cutToken (mkToken t i' k' n) = [mkToken t i' k' n] := by
          unfold cutToken
          rw [if_neg (by exact hc)]
        rw [hcut]
        simp only [List.map_cons, List.map_nil, List.cons_append, List.nil_append]
        congr 1
        simp [mkToken, eraseIndex, hi]

/-- C15: Extended mode is Search mode with each `UNKNOWN` token cut into its characters, for every text. -/
theorem C15_extended (wf : WellFormed t.dict t.userDict) (ideo : Nat → Bool) (inp : Bytes) :
    analyze t ideo inp modeExtended = (analyze t ideo inp modeSearch).map (fun toks => renumber (toks.flatMap cutToken)) := by
  obtain ⟨cols0, cols, L, hsol, hb, hf, hL, hs⟩ := solve_weak wf ideo inp .search
  obtain ⟨cols0', cols', L', hsol', hb', hf', hL', hs'⟩ := solve_weak wf ideo inp .extended
  rw [hb] at hb'
  simp only [Option.some.injEq] at hb'
  subst hb'
  rw [forward_ext, hf] at hf'
  simp only [Option.some.injEq] at hf'
  subst hf'
  have hLL := prevChain_unique hL hL'
  subst hLL
  have e1 : latticeMode modeSearch = .search := rfl
  have e2 : latticeMode modeExtended = .extended := rfl
  unfold analyze
  rw [e1, e2, hs, hs']
  simp only [Option.map_some, Option.some.injEq]
  apply renumber_eq
  · intro i tok hi
    rw [tokenLoop_index hi, Nat.zero_add]
  · rw [tokenLoop_skel, emits_skel, tokenLoop_skel _ _ _ (L.flatMap (emit .search)).reverse, emits_skel]
    have hid : ∀ l : List Node, l.flatMap (emitFwd .search) = l := by
      intro l
      have : emitFwd .search = fun n => [n] := by
        funext n; unfold emitFwd; rw [if_pos (Or.inl (by simp))]
      rw [this]; exact List.flatMap_singleton' l
    rw [hid]
    apply tokenLoop_cut _ _ _ _ _ _ _ (by simp)
    intro n hn hc
    rcases prevChain_eos wf hsol hL with ⟨e, rfl, hske, hemp⟩ | ⟨e, j', L', rfl, hske, hL'⟩
    · simp only [List.reverse_cons, List.reverse_nil, List.nil_append, List.map_cons, List.map_nil, List.mem_singleton, hske] at hn
      subst hn; cases hc
    · obtain ⟨pre, mid, g1, g2, _, g4⟩ := prevChain_weak wf hsol hL' (Nat.le_refl _)
      simp only [List.reverse_cons, List.map_append, List.map_cons, List.map_nil, g1, hske, List.mem_append, List.mem_singleton] at hn
      rcases hn with (hn | hn) | hn
      · rcases g2 with rfl | rfl
        · simp at hn
        · simp only [List.mem_singleton] at hn
          subst hn; cases hc
      · obtain ⟨k, pos, rest, w, hat, hw, rfl⟩ := g4 n hn
        have hok := weak_ok wf hw
        have h1 := hok.id
        refine ⟨by change w.id ≠ -1; omega, ?_⟩
        intro h0
        have h2 := hok.cnt
        change w.surface = [] at h0
        rw [h0] at h2
        simp [runeCount] at h2
      · subst hn; cases hc

example : (analyze Toy.tok Toy.ideo (str "もab") modeSearch).map (·.map (fun t => (t.cls, t.start, t.surface))) =
    some [(.dummy, 0, str "BOS"), (.known, 0, str "も"), (.unknown, 1, str "ab"), (.dummy, 3, str "EOS")] := by decide +kernel

example : (analyze Toy.tok Toy.ideo (str "もab") modeExtended).map (·.map (fun t => (t.cls, t.start, t.surface))) =
    some [(.dummy, 0, str "BOS"), (.known, 0, str "も"), (.dummy, 1, str "a"), (.dummy, 2, str "b"), (.dummy, 3, str "EOS")] := by
  decide +kernel

/-! ### C16 -/

theorem graphLoop_eq (t : Tokenizer) (ns : List Node) : ∀ (i k : Nat),
    graphLoop t i ns = (tokenLoop { t with omitBosEos := false } i k ns).map (fun tok => { tok with index := 0, position := 0 }) := by
  induction ns with
  | nil => intro i k; rfl
  | cons n ns ih =>
    intro i k
    simp only [graphLoop, tokenLoop, Bool.false_eq_true, false_and, if_false, List.map_cons]
    rw [ih (i + 1) (k + 1)]
    rfl

/-- C16: `AnalyzeGraph` returns the tokens of `Analyze` as if without `OmitBosEos`, but with `Index` and `Position` left at 0; it
panics on the same texts. -/
theorem C16_graph (t : Tokenizer) (ideo : Nat → Bool) (inp : Bytes) (mode : Int) :
    analyzeGraph t ideo inp mode =
      (analyze { t with omitBosEos := false } ideo inp mode).map (fun toks => toks.map (fun tok => { tok with index := 0, position := 0 })) := by
  unfold analyzeGraph analyze
  rw [show solve { t with omitBosEos := false } ideo inp (latticeMode mode) = solve t ideo inp (latticeMode mode) from rfl]
  generalize solve t ideo inp (latticeMode mode) = r
  cases r with
  | none => rfl
  | some r =>
    simp only [Option.map_some, Option.some.injEq]
    exact graphLoop_eq t _ 0 0

/-- The deviation: on the same text the two calls differ in `Position`, and with `OmitBosEos` in length. -/
theorem C16_deviation :
    (analyze { Toy.tok with omitBosEos := true } Toy.ideo (str "ももの") modeNormal).map (·.map (fun t => (t.surface, t.position))) =
      some [(str "もも", 0), (str "の", 6)] ∧
    (analyzeGraph { Toy.tok with omitBosEos := true } Toy.ideo (str "ももの") modeNormal).map (·.map (fun t => (t.surface, t.position))) =
      some [(str "BOS", 0), (str "もも", 0), (str "の", 0), (str "EOS", 0)] := by decide +kernel

/-! ### C18 -/

/-- The three options a caller can give; a nil user dictionary is `none`. -/
inductive Opt
  | nop
  | user (d : Option UserDict)
  | omitBosEos

/-- The option functions of the package. -/
def Opt.run : Opt → TOption
  | .nop => optNop
  | .user d => optUserDict d
  | .omitBosEos => optOmitBosEos

/-- `opts` contains a user-dictionary option with a nil dictionary. -/
def badOpt (opts : List Opt) : Prop := Opt.user none ∈ opts

/-- The last user dictionary given, or `u`. -/
def lastUser (u : Option UserDict) (opts : List Opt) : Option UserDict :=
  (opts.filterMap (fun o => match o with | .user d => some d | _ => none)).getLastD u

theorem applyOpts_spec (opts : List Opt) (t : Tokenizer) :
    (badOpt opts → ∃ e, applyOpts (opts.map Opt.run) t = .error e) ∧
    (¬ badOpt opts → ∃ t', applyOpts (opts.map Opt.run) t = .ok t' ∧ t'.dict = t.dict ∧
      t'.userDict = lastUser t.userDict opts ∧ (t'.omitBosEos = true ↔ t.omitBosEos = true ∨ Opt.omitBosEos ∈ opts)) := by
  induction opts generalizing t with
  | nil => exact ⟨by simp [badOpt], fun _ => ⟨t, rfl, rfl, rfl, by simp⟩⟩
  | cons o opts ih =>
    cases o with
    | nop =>
      simp only [List.map_cons, applyOpts, Opt.run, optNop]
      have := ih t
      simpa [badOpt, lastUser] using this
    | omitBosEos =>
      simp only [List.map_cons, applyOpts, Opt.run, optOmitBosEos]
      have := ih { t with omitBosEos := true }
      simpa [badOpt, lastUser] using this
    | user d =>
      cases d with
      | none =>
        simp only [List.map_cons, applyOpts, Opt.run, optUserDict]
        exact ⟨fun _ => ⟨_, rfl⟩, fun h => absurd (by simp [badOpt]) h⟩
      | some d =>
        simp only [List.map_cons, applyOpts, Opt.run, optUserDict]
        have := ih { t with userDict := some d }
        have hl : lastUser t.userDict (Opt.user (some d) :: opts) = lastUser (some d) opts := by
          unfold lastUser
          rw [List.filterMap_cons]
          simp only [List.getLastD_cons]
        rw [hl]
        simpa [badOpt] using this

/-- C18: `New` fails exactly on a nil dictionary or a nil user dictionary among the options; otherwise the last user dictionary
counts, `OmitBosEos` counts if given anywhere, and nothing else changes. -/
theorem C18_new (d : Option Dict) (opts : List Opt) :
    ((∃ e, newTokenizer d (opts.map Opt.run) = .error e) ↔ d = none ∨ badOpt opts) ∧
    (∀ t, newTokenizer d (opts.map Opt.run) = .ok t → d = some t.dict ∧ t.userDict = lastUser none opts ∧
      (t.omitBosEos = true ↔ Opt.omitBosEos ∈ opts)) := by
  cases d with
  | none => simp [newTokenizer]
  | some d =>
    simp only [newTokenizer]
    obtain ⟨h1, h2⟩ := applyOpts_spec opts { dict := d, userDict := none, omitBosEos := false }
    constructor
    · constructor
      · rintro ⟨e, he⟩
        right
        apply Classical.byContradiction
        intro hb
        obtain ⟨t', ht, _⟩ := h2 hb
        rw [ht] at he; cases he
      · rintro (h | h)
        · cases h
        · exact h1 h
    · intro t ht
      by_cases hb : badOpt opts
      · obtain ⟨e, he⟩ := h1 hb
        rw [ht] at he; cases he
      · obtain ⟨t', ht', e1, e2, e3⟩ := h2 hb
        rw [ht] at ht'
        simp only [Except.ok.injEq] at ht'
        subst ht'
        exact ⟨by rw [e1], e2, by simpa using e3⟩

example : ∃ t, newTokenizer (some Toy.dict) ([.user (some Toy.user), .nop, .omitBosEos].map Opt.run) = .ok t ∧
    t.userDict.isSome ∧ t.omitBosEos = true := ⟨_, rfl, rfl, rfl⟩

/-- C18: what `New` says when it fails: a missing system dictionary is reported as such whatever the options are, a missing user dictionary as
such whatever the other options are. -/
theorem C18_message (d : Option Dict) (opts : List Opt) (e : String) :
    newTokenizer d (opts.map Opt.run) = .error e ↔
      (d = none ∧ e = "empty dictionary") ∨ (d ≠ none ∧ badOpt opts ∧ e = "empty user dictionary") := by
  have key : ∀ (opts : List Opt) (t : Tokenizer) (e : String), applyOpts (opts.map Opt.run) t = .error e → e = "empty user dictionary" := by
    intro opts
    induction opts with
    | nil => intro t e h; cases h
    | cons o os ih =>
      intro t e h
      cases o with
      | nop => exact ih _ _ h
      | omitBosEos => exact ih _ _ h
      | user d =>
        cases d with
        | none => cases h; rfl
        | some d => exact ih _ _ h
  cases d with
  | none =>
    simp only [newTokenizer, Except.error.injEq, ne_eq, not_true_eq_false, false_and, or_false, true_and]
    exact eq_comm
  | some d =>
    obtain ⟨h1, h2⟩ := applyOpts_spec opts { dict := d, userDict := none, omitBosEos := false }
    simp only [newTokenizer, reduceCtorEq, false_and, false_or, ne_eq, not_false_eq_true, true_and]
    constructor
    · intro h
      refine ⟨?_, key _ _ _ h⟩
      apply Classical.byContradiction
      intro hb
      obtain ⟨t', ht, _⟩ := h2 hb
      rw [ht] at h; cases h
    · rintro ⟨hb, rfl⟩
      obtain ⟨e', he⟩ := h1 hb
      rw [he, key _ _ _ he]

example : newTokenizer (some Toy.dict) ([.omitBosEos, .user none, .user (some Toy.user)].map Opt.run) = .error "empty user dictionary" := rfl

end Kagome
