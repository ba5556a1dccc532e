import Verif.Spec.Failure
import Verif.Props.Cmd
import Verif.Props.Commands
import Verif.Props.Output

/-! C69: a command that cannot start names the reason and does nothing else. -/

namespace Kagome

open Spec

theorem setUp_none (w : World) (d : Dict) {udict : Bytes} (h : udict = []) : setUp w d udict = .ok ⟨d, none, false⟩ := by
  unfold setUp; rw [if_neg (by simp [h])]; rfl

theorem setUp_user {w : World} {d : Dict} {udict : Bytes} (h : udict ≠ []) {u : UserDict} (hu : w.loadUser udict = .ok u) :
    setUp w d udict = .ok ⟨d, some u, false⟩ := by
  unfold setUp; rw [if_pos h, hu]; rfl

theorem setUp_fails {w : World} {d : Dict} {udict : Bytes} (h : udict ≠ []) {e : Bytes} (hu : w.loadUser udict = .error e) :
    setUp w d udict = .error e := by
  unfold setUp; rw [if_pos h, hu]

/-- Without an error of the dictionary file there is a dictionary. -/
theorem chosen_or_fails (w : World) {args : List Bytes} {o : Tok.Opts} (hl : TokenizeLine args o) :
    (∃ d, ChosenDict w o d ∧ Tok.selectDict w o.dict o.sysdict o.simple = .ok d) ∨
    (∃ e, Tok.selectDict w o.dict o.sysdict o.simple = .error e ∧ TokenizeFails w o e ∧ ∀ d, ¬ ChosenDict w o d) := by
  have hc := (C44_tokenize_dict w hl).2
  cases hs : Tok.selectDict w o.dict o.sysdict o.simple with
  | ok d => exact .inl ⟨d, (hc d).mp hs, rfl⟩
  | error e =>
    refine .inr ⟨e, rfl, ?_, fun d hd => by rw [(hc d).mpr hd] at hs; cases hs⟩
    by_cases hd : o.dict = []
    · have hsys := ((C44_tokenize_dict w hl).1 hd).mp ⟨e, hs⟩
      have : e = str "unknown dict type, " := by
        unfold Tok.selectDict at hs
        rw [if_neg (by simp [hd]), hsys, if_neg (by decide), if_neg (by decide)] at hs
        cases hs; simp
      subst this
      exact .unnamed hd hsys
    · unfold Tok.selectDict at hs
      rw [if_pos hd] at hs
      cases hb : o.simple with
      | true => rw [hb, if_pos rfl] at hs; exact .shrunkDict hd hb hs
      | false => rw [hb, if_neg (by simp)] at hs; exact .dict hd hb hs

theorem fails_dict {w : World} {args : List Bytes} {o : Tok.Opts} (hl : TokenizeLine args o) {e : Bytes}
    (h : (o.dict = [] ∧ o.sysdict = [] ∧ e = str "unknown dict type, ") ∨
      (o.dict ≠ [] ∧ o.simple = false ∧ w.loadDict o.dict = .error e) ∨ (o.dict ≠ [] ∧ o.simple = true ∧ w.loadShrink o.dict = .error e)) :
    Tok.selectDict w o.dict o.sysdict o.simple = .error e := by
  unfold Tok.selectDict
  rcases h with ⟨h1, h2, rfl⟩ | ⟨h1, h2, h3⟩ | ⟨h1, h2, h3⟩
  · rw [if_neg (by simp [h1]), h2, if_neg (by decide), if_neg (by decide)]; simp
  · rw [if_pos h1, h2, if_neg (by simp), h3]
  · rw [if_pos h1, h2, if_pos rfl, h3]

theorem tokenize_fails (w : World) {args : List Bytes} {o : Tok.Opts} (hl : TokenizeLine args o) {e : Bytes} (h : TokenizeFails w o e) :
    Tok.run w args = some { err := some e } := by
  rw [(C44_tokenize w args).2.2 o hl]
  unfold Tok.command
  have hc := (C44_tokenize_dict w hl).2
  cases h with
  | unnamed h1 h2 => rw [fails_dict hl (.inl ⟨h1, h2, rfl⟩)]
  | dict h1 h2 h3 => rw [fails_dict hl (.inr (.inl ⟨h1, h2, h3⟩))]
  | shrunkDict h1 h2 h3 => rw [fails_dict hl (.inr (.inr ⟨h1, h2, h3⟩))]
  | user h1 h2 h3 =>
    rw [(hc _).mpr h1]
    simp only [setUp_fails h2 h3]
  | input h1 h2 h3 =>
    obtain ⟨d, hd, hsu⟩ := setUp_chosen h1
    rw [(hc _).mpr hd]
    simp only [hsu]
    rw [if_pos h2, h3]

/-- C69, `tokenize`: if something it needs is missing, the first such thing is named and nothing else happens; otherwise it has a tokenizer and an
input to work on, and C41 and C42 say what it does with them. -/
theorem C69_tokenize (w : World) (prog : Bytes) {args : List Bytes} {o : Tok.Opts} (hl : TokenizeLine args o) :
    (∀ e, TokenizeFails w o e → main w (prog :: str "tokenize" :: args) = some (OnlyReason e)) ∧
    ((∀ e, ¬ TokenizeFails w o e) ↔ ∃ t src, ChosenTokenizer w o t ∧ ChosenInput w o src) ∧
    (∀ e e', TokenizeFails w o e → TokenizeFails w o e' → e = e') := by
  refine ⟨fun e h => ?_, ⟨fun h => ?_, ?_⟩, fun e e' h h' => ?_⟩
  · rw [(C40_named w prog args).1, tokenize_fails w hl h]; rfl
  · rcases chosen_or_fails w hl with ⟨d, hd, _⟩ | ⟨e, _, he, _⟩
    · have ht : ∃ t, ChosenTokenizer w o t := by
        by_cases hu : o.udict = []
        · exact ⟨_, .plain hd hu⟩
        · cases hlu : w.loadUser o.udict with
          | ok u => exact ⟨_, .user hd hu hlu⟩
          | error e => exact absurd (.user hd hu hlu) (h e)
      obtain ⟨t, ht⟩ := ht
      refine ⟨t, ?_⟩
      by_cases hf : o.file = []
      · exact ⟨_, ht, .stdin hf⟩
      · cases ho : w.openFile o.file with
        | ok src => exact ⟨src, ht, .file hf ho⟩
        | error e => exact absurd (.input ht hf ho) (h e)
    · exact absurd he (h e)
  · rintro ⟨t, src, ht, hi⟩ e he
    have hc := (C44_tokenize_dict w hl).2
    obtain ⟨d, hd, hsu⟩ := setUp_chosen ht
    have hs := (hc d).mpr hd
    cases he with
    | unnamed h1 h2 => rw [fails_dict hl (.inl ⟨h1, h2, rfl⟩)] at hs; cases hs
    | dict h1 h2 h3 => rw [fails_dict hl (.inr (.inl ⟨h1, h2, h3⟩))] at hs; cases hs
    | shrunkDict h1 h2 h3 => rw [fails_dict hl (.inr (.inr ⟨h1, h2, h3⟩))] at hs; cases hs
    | user h1 h2 h3 => rw [setUp_fails h2 h3] at hsu; cases hsu
    | input h1 h2 h3 =>
      cases hi with
      | stdin h => exact h2 h
      | file h4 h5 => rw [h5] at h3; cases h3
  · have a := tokenize_fails w hl h
    have b := tokenize_fails w hl h'
    rw [a] at b
    cases b; rfl

/-- C69, `tokenize` without its name: the same. -/
theorem C69_default (w : World) (prog : Bytes) {args : List Bytes} {o : Tok.Opts} (hl : TokenizeLine args o)
    (h : ∀ name, args.head? = some name → name ∉ commandNames) {e : Bytes} (hf : TokenizeFails w o e) :
    main w (prog :: args) = some (OnlyReason e) := by
  rw [(C40_default w prog args h).1 o hl, ← (C44_tokenize w args).2.2 o hl, tokenize_fails w hl hf]; rfl

theorem named_or_fails (w : World) {name : Bytes} (udict : Bytes) (hn : name ∈ dictTexts) :
    (∃ t, NamedTokenizer w name udict t) ∨ ∃ e, NamedFails w name udict e := by
  have hd : (∃ d, NamedDict w name d) ∨ name = [] := by
    simp only [dictTexts, List.mem_cons, List.not_mem_nil, or_false] at hn
    rcases hn with h | h | h
    · exact .inr h
    · exact .inl ⟨_, .ipa h⟩
    · exact .inl ⟨_, .uni h⟩
  rcases hd with ⟨d, hd⟩ | hd
  · by_cases hu : udict = []
    · exact .inl ⟨_, .plain hd hu⟩
    · cases hlu : w.loadUser udict with
      | ok u => exact .inl ⟨_, .user hd hu hlu⟩
      | error e => exact .inr ⟨e, .user hd hu hlu⟩
  · exact .inr ⟨_, .unnamed hd⟩

theorem selectDict_named {w : World} {name : Bytes} {d : Dict} (h : NamedDict w name d) : selectDict w name = .ok d := by
  cases h with
  | ipa h => exact (C44_other_dict w name).2.1 h
  | uni h => exact (C44_other_dict w name).2.2 h

/-- What the common beginning of `lattice` and `server` does when it fails. -/
theorem named_fails {w : World} {name udict e : Bytes} (h : NamedFails w name udict e) :
    selectDict w name = .error e ∨ ∃ d, selectDict w name = .ok d ∧ setUp w d udict = .error e := by
  cases h with
  | unnamed h => exact .inl ((C44_other_dict w name).1 h)
  | user h1 h2 h3 => exact .inr ⟨_, selectDict_named h1, setUp_fails h2 h3⟩

theorem named_exclusive {w : World} {name udict e : Bytes} {t : Tokenizer} (h : NamedFails w name udict e) (ht : NamedTokenizer w name udict t) :
    False := by
  obtain ⟨d, h1, h2⟩ := setUp_named ht
  rcases named_fails h with h | ⟨d', h3, h4⟩
  · rw [h] at h1; cases h1
  · rw [h3] at h1; cases h1; rw [h4] at h2; cases h2

theorem lattice_fails (w : World) {args : List Bytes} {o : Lat.Opts} (hl : LatticeLine args o) {e : Bytes} (h : LatticeFails w o e) :
    Lat.run w args = some { err := some e } := by
  rw [(C44_lattice w args).2.2 o hl]
  unfold Lat.command
  cases h with
  | tokenizer h =>
    rcases named_fails h with h | ⟨d, h1, h2⟩
    · rw [h]
    · rw [h1]; simp only [h2]
  | output h1 h2 h3 =>
    obtain ⟨d, hd, hsu⟩ := setUp_named h1
    rw [hd]
    simp only [hsu]
    rw [if_pos h2, h3]

/-- C69, `lattice`: as for `tokenize`. In particular the output file is left as it was unless the tokenizer is there. -/
theorem C69_lattice (w : World) (prog : Bytes) {args : List Bytes} {o : Lat.Opts} (hl : LatticeLine args o) :
    (∀ e, LatticeFails w o e → main w (prog :: str "lattice" :: args) = some (OnlyReason e)) ∧
    ((∀ e, ¬ LatticeFails w o e) ↔ (∃ t, NamedTokenizer w o.dict o.udict t) ∧ (o.output ≠ [] → w.createError o.output = none)) ∧
    (∀ e e', LatticeFails w o e → LatticeFails w o e' → e = e') := by
  refine ⟨fun e h => ?_, ⟨fun h => ?_, ?_⟩, fun e e' h h' => ?_⟩
  · rw [(C40_named w prog args).2.2.1, lattice_fails w hl h]; rfl
  · rcases named_or_fails w o.udict hl.dict with ⟨t, ht⟩ | ⟨e, he⟩
    · refine ⟨⟨t, ht⟩, fun ho => ?_⟩
      cases hc : w.createError o.output with
      | none => rfl
      | some e => exact absurd (.output ht ho hc) (h e)
    · exact absurd (.tokenizer he) (h e)
  · rintro ⟨⟨t, ht⟩, ho⟩ e he
    cases he with
    | tokenizer h => exact named_exclusive h ht
    | output h1 h2 h3 => rw [ho h2] at h3; cases h3
  · have a := lattice_fails w hl h
    have b := lattice_fails w hl h'
    rw [a] at b
    cases b; rfl

theorem server_fails (w : World) {args : List Bytes} {o : Srv.Opts} (hl : ServerLine args o) {e : Bytes} (h : ServerFails w o e) :
    Srv.run w args = some { err := some e } := by
  rw [(C44_server w args).2.2 o hl]
  unfold Srv.command
  cases h with
  | tokenizer h =>
    rcases named_fails h with h | ⟨d, h1, h2⟩
    · rw [h]
    · rw [h1]; simp only [h2]
  | listen h1 h2 =>
    obtain ⟨d, hd, hsu⟩ := setUp_named h1
    rw [hd]
    simp only [hsu, h2]

/-- C69, `server`: as for `tokenize`; if nothing is missing it serves at the address. -/
theorem C69_server (w : World) (prog : Bytes) {args : List Bytes} {o : Srv.Opts} (hl : ServerLine args o) :
    (∀ e, ServerFails w o e → main w (prog :: str "server" :: args) = some (OnlyReason e)) ∧
    ((∀ e, ¬ ServerFails w o e) ↔ (∃ t, NamedTokenizer w o.dict o.udict t) ∧ w.listen o.http = none) ∧
    ((∀ e, ¬ ServerFails w o e) → main w (prog :: str "server" :: args) = some ⟨[], [], [], some o.http, 0⟩) ∧
    (∀ e e', ServerFails w o e → ServerFails w o e' → e = e') := by
  have hiff : (∀ e, ¬ ServerFails w o e) ↔ (∃ t, NamedTokenizer w o.dict o.udict t) ∧ w.listen o.http = none := by
    constructor
    · intro h
      rcases named_or_fails w o.udict hl.dict with ⟨t, ht⟩ | ⟨e, he⟩
      · refine ⟨⟨t, ht⟩, ?_⟩
        cases hc : w.listen o.http with
        | none => rfl
        | some e => exact absurd (.listen ht hc) (h _)
      · exact absurd (.tokenizer he) (h e)
    · rintro ⟨⟨t, ht⟩, ho⟩ e he
      cases he with
      | tokenizer h => exact named_exclusive h ht
      | listen h1 h2 => rw [ho] at h2; cases h2
  refine ⟨fun e h => ?_, hiff, fun h => ?_, fun e e' h h' => ?_⟩
  · rw [(C40_named w prog args).2.1, server_fails w hl h]; rfl
  · obtain ⟨⟨t, ht⟩, hli⟩ := hiff.mp h
    obtain ⟨d, hd, hsu⟩ := setUp_named ht
    rw [(C40_named w prog args).2.1, (C44_server w args).2.2 o hl]
    unfold Srv.command
    rw [hd]
    simp only [hsu, hli]
    rfl
  · have a := server_fails w hl h
    have b := server_fails w hl h'
    rw [a] at b
    cases b; rfl

/-- C69, `sentence`. -/
theorem C69_sentence (w : World) (prog : Bytes) {args : List Bytes} {file : Bytes} (hl : SentenceLine args file) :
    (∀ e, SentenceFails w file e → main w (prog :: str "sentence" :: args) = some (OnlyReason e)) ∧
    ((∀ e, ¬ SentenceFails w file e) ↔ ∃ src, SentenceInput w file src) := by
  refine ⟨fun e h => ?_, ⟨fun h => ?_, ?_⟩⟩
  · rw [(C40_named w prog args).2.2.2.1, C47_no_file w hl h.1 h.2]; rfl
  · by_cases hf : file = []
    · exact ⟨_, .stdin hf⟩
    · cases ho : w.openFile file with
      | ok src => exact ⟨src, .file hf ho⟩
      | error e => exact absurd ⟨hf, ho⟩ (h e)
  · rintro ⟨src, hi⟩ e ⟨h1, h2⟩
    cases hi with
    | stdin h => exact h1 h
    | file h3 h4 => rw [h4] at h2; cases h2

/-! ### The hypotheses can be met -/

/-- A world without any file. -/
def Toy.empty : World :=
  { Toy.world with
    loadUser := fun p => .error (str "no " ++ p)
    openFile := fun p => .error (str "no " ++ p)
    loadDict := fun p => .error (str "no " ++ p)
    createError := fun p => some (str "read-only: " ++ p)
    listen := fun p => some (str "in use: " ++ p) }

example : TokenizeLine [str "-udict", str "u", str "-file", str "f"] ⟨str "f", [], str "u", str "ipa", false, str "normal", false, false⟩ ∧
    TokenizeFails Toy.empty ⟨str "f", [], str "u", str "ipa", false, str "normal", false, false⟩ (str "no u") := by
  refine ⟨by rw [← tok_parse_iff]; rfl, .user (d := Toy.empty.ipa) (.ipa rfl rfl rfl) (by decide)
    (congrArg Except.error (by decide +kernel : str "no " ++ str "u" = str "no u"))⟩

example : TokenizeFails Toy.empty ⟨str "f", str "d", str "u", str "ipa", false, str "normal", false, false⟩ (str "no d") :=
  .dict (by decide) rfl (congrArg Except.error (by decide +kernel : str "no " ++ str "d" = str "no d"))

example : LatticeLine [str "-output", str "g", str "a"] ⟨[], str "ipa", str "normal", str "g", false, str "a"⟩ ∧
    LatticeFails Toy.empty ⟨[], str "ipa", str "normal", str "g", false, str "a"⟩ (str "read-only: g") := by
  refine ⟨by rw [← lat_parse_iff]; rfl, .output (.plain (.ipa rfl) rfl) (by decide) (by decide +kernel)⟩

example : ServerLine [] ⟨str ":6060", str "ipa", []⟩ ∧
    ServerFails Toy.empty ⟨str ":6060", str "ipa", []⟩ (str "server error, in use: :6060") := by
  refine ⟨by rw [← srv_parse_iff]; rfl, ?_⟩
  have : str "server error, in use: :6060" = str "server error, " ++ str "in use: :6060" := by decide +kernel
  rw [this]
  exact .listen (.plain (.ipa rfl) rfl) (by decide +kernel)

example : SentenceLine [str "-file", str "f"] (str "f") ∧ SentenceFails Toy.empty (str "f") (str "no f") :=
  ⟨by rw [← sen_parse_iff]; rfl, by decide, congrArg Except.error (by decide +kernel : str "no " ++ str "f" = str "no f")⟩

end Kagome
