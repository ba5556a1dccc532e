import Verif.Spec.Usage
import Verif.Spec.Readme
import Verif.Model.Usage
import Verif.Proof.Refusal
import Verif.Props.Cmd
import Verif.Props.Output

/-! C60: why a command line is refused, and what the user is told. C61: the help texts against the options that are accepted. -/

namespace Kagome

open Spec

/-! ### C60 -/

theorem value_str {formal : List (Bytes × Bool)} (hf : GoodNames formal) {args sets rest} (hl : CommandLine formal args sets rest) {n : Bytes}
    (hn : (n, false) ∈ formal) (dflt v : Bytes) : Value sets n (.str dflt) (.str v) ↔ strFlag n dflt sets = v :=
  strFlag_value hf.once hn dflt (sets_kind hl) v

theorem not_mode_iff (v : Bytes) : (¬ ∃ m, ModeText v m) ↔ (v ≠ [] ∧ v ≠ str "normal" ∧ v ≠ str "search" ∧ v ≠ str "extended") := by
  rw [modeText_iff]; exact Decidable.not_not

theorem not_dict_iff (v : Bytes) : v ∉ dictTexts ↔ (v ≠ [] ∧ v ≠ str "ipa" ∧ v ≠ str "uni") := by
  rw [dictTexts_iff]; exact Decidable.not_not

theorem tok_error_iff (args : List Bytes) (e : ParseError) : Tok.parse args = .error e ↔ TokenizeFault args e := by
  have hf : Tok.flags = tokenizeFlags := rfl
  unfold Tok.parse
  rw [hf]
  constructor
  · intro h
    cases hp : parseFlags tokenizeFlags args with
    | error e' => rw [hp] at h; cases h; exact .flag ((parseFlags_error_iff tok_good args e').mp hp)
    | ok r =>
      obtain ⟨sets, rest⟩ := r
      rw [hp] at h
      dsimp only at h
      have hl := (parseFlags_iff tok_good args sets rest).mp hp
      split at h
      · rename_i hr
        cases h
        exact .extra hl (fun e => hr (by rw [e]; rfl))
      · rename_i hr
        have hr : rest = [] := List.length_eq_zero_iff.mp (by omega)
        subst hr
        have hmv := (value_str tok_good hl (n := str "mode") (by decide +kernel) (str "normal") (Tok.bind sets).mode).mpr rfl
        split at h
        · rename_i hm
          cases h
          exact .mode hl hmv ((not_mode_iff _).mpr hm)
        · rename_i hm
          split at h
          · rename_i hs
            cases h
            obtain ⟨m, hm⟩ := (modeText_iff _).mpr hm
            exact .sysdict hl hmv hm
              ((value_str tok_good hl (n := str "sysdict") (by decide +kernel) (str "ipa") (Tok.bind sets).sysdict).mpr rfl)
              ((not_dict_iff _).mpr hs)
          · cases h
  · intro h
    cases h with
    | flag h => rw [(parseFlags_error_iff tok_good args _).mpr h]
    | @extra sets rest hl hr =>
      rw [(parseFlags_iff tok_good args sets rest).mpr hl]
      dsimp only
      rw [if_pos (fun e => hr (List.length_eq_zero_iff.mp e))]
    | @mode sets v hl hv hm =>
      rw [(parseFlags_iff tok_good args sets []).mpr hl]
      dsimp only
      have e : (Tok.bind sets).mode = v := (value_str tok_good hl (n := str "mode") (by decide +kernel) _ _).mp hv
      rw [if_neg (by simp), e, if_pos ((not_mode_iff _).mp hm)]
    | @sysdict sets v m n hl hmv hm hv hd =>
      rw [(parseFlags_iff tok_good args sets []).mpr hl]
      dsimp only
      have e : (Tok.bind sets).mode = m := (value_str tok_good hl (n := str "mode") (by decide +kernel) _ _).mp hmv
      have e2 : (Tok.bind sets).sysdict = v := (value_str tok_good hl (n := str "sysdict") (by decide +kernel) _ _).mp hv
      rw [if_neg (by simp), e, e2, if_neg ((modeText_iff _).mp ⟨n, hm⟩), if_pos ((not_dict_iff _).mp hd)]

theorem lat_error_iff (args : List Bytes) (e : ParseError) : Lat.parse args = .error e ↔ LatticeFault args e := by
  have hf : Lat.flags = latticeFlags := rfl
  unfold Lat.parse
  rw [hf]
  constructor
  · intro h
    cases hp : parseFlags latticeFlags args with
    | error e' => rw [hp] at h; cases h; exact .flag ((parseFlags_error_iff lat_good args e').mp hp)
    | ok r =>
      obtain ⟨sets, rest⟩ := r
      rw [hp] at h
      dsimp only at h
      have hl := (parseFlags_iff lat_good args sets rest).mp hp
      have hdv := (value_str lat_good hl (n := str "dict") (by decide +kernel) (str "ipa") (Lat.bind sets rest).dict).mpr rfl
      split at h
      · rename_i hr
        cases h
        have hr : rest = [] := List.length_eq_zero_iff.mp hr
        subst hr
        exact .none hl
      · rename_i hr
        have hr : rest ≠ [] := fun e => hr (by rw [e]; rfl)
        split at h
        · rename_i hd
          cases h
          exact .dict hl hr hdv ((not_dict_iff _).mpr hd)
        · rename_i hd
          split at h
          · rename_i hm
            cases h
            exact .mode hl hr hdv ((dictTexts_iff _).mpr hd)
              ((value_str lat_good hl (n := str "mode") (by decide +kernel) (str "normal") (Lat.bind sets rest).mode).mpr rfl)
              ((not_mode_iff _).mpr hm)
          · cases h
  · intro h
    cases h with
    | flag h => rw [(parseFlags_error_iff lat_good args _).mpr h]
    | @none sets hl =>
      rw [(parseFlags_iff lat_good args sets []).mpr hl]
      rfl
    | @dict sets rest v hl hr hv hd =>
      rw [(parseFlags_iff lat_good args sets rest).mpr hl]
      dsimp only
      have e : (Lat.bind sets rest).dict = v := (value_str lat_good hl (n := str "dict") (by decide +kernel) _ _).mp hv
      rw [if_neg (fun e => hr (List.length_eq_zero_iff.mp e)), e, if_pos ((not_dict_iff _).mp hd)]
    | @mode sets rest v d hl hr hdv hd hv hm =>
      rw [(parseFlags_iff lat_good args sets rest).mpr hl]
      dsimp only
      have e : (Lat.bind sets rest).dict = d := (value_str lat_good hl (n := str "dict") (by decide +kernel) _ _).mp hdv
      have e2 : (Lat.bind sets rest).mode = v := (value_str lat_good hl (n := str "mode") (by decide +kernel) _ _).mp hv
      rw [if_neg (fun e => hr (List.length_eq_zero_iff.mp e)), e, e2, if_neg ((dictTexts_iff _).mp hd), if_pos ((not_mode_iff _).mp hm)]

theorem srv_error_iff (args : List Bytes) (e : ParseError) : Srv.parse args = .error e ↔ ServerFault args e := by
  have hf : Srv.flags = serverFlags := rfl
  unfold Srv.parse
  rw [hf]
  constructor
  · intro h
    cases hp : parseFlags serverFlags args with
    | error e' => rw [hp] at h; cases h; exact .flag ((parseFlags_error_iff srv_good args e').mp hp)
    | ok r =>
      obtain ⟨sets, rest⟩ := r
      rw [hp] at h
      dsimp only at h
      have hl := (parseFlags_iff srv_good args sets rest).mp hp
      split at h
      · rename_i hr
        cases h
        exact .extra hl (fun e => hr (by rw [e]; rfl))
      · rename_i hr
        have hr : rest = [] := List.length_eq_zero_iff.mp (by omega)
        subst hr
        split at h
        · rename_i hd
          cases h
          exact .dict hl ((value_str srv_good hl (n := str "dict") (by decide +kernel) (str "ipa") (Srv.bind sets).dict).mpr rfl)
            ((not_dict_iff _).mpr hd)
        · cases h
  · intro h
    cases h with
    | flag h => rw [(parseFlags_error_iff srv_good args _).mpr h]
    | @extra sets rest hl hr =>
      rw [(parseFlags_iff srv_good args sets rest).mpr hl]
      dsimp only
      rw [if_pos (fun e => hr (List.length_eq_zero_iff.mp e))]
    | @dict sets v hl hv hd =>
      rw [(parseFlags_iff srv_good args sets []).mpr hl]
      dsimp only
      have e : (Srv.bind sets).dict = v := (value_str srv_good hl (n := str "dict") (by decide +kernel) _ _).mp hv
      rw [if_neg (by simp), e, if_pos ((not_dict_iff _).mp hd)]

theorem sen_error_iff (args : List Bytes) (e : ParseError) : Sen.parse args = .error e ↔ SentenceFault args e := by
  have hf : Sen.flags = [(str "file", false)] := rfl
  unfold Sen.parse
  rw [hf]
  constructor
  · intro h
    cases hp : parseFlags [(str "file", false)] args with
    | error e' => rw [hp] at h; cases h; exact .flag ((parseFlags_error_iff sen_good args e').mp hp)
    | ok r =>
      obtain ⟨sets, rest⟩ := r
      rw [hp] at h
      dsimp only at h
      have hl := (parseFlags_iff sen_good args sets rest).mp hp
      split at h
      · rename_i hr
        cases h
        exact .extra hl (fun e => hr (by rw [e]; rfl))
      · cases h
  · intro h
    cases h with
    | flag h => rw [(parseFlags_error_iff sen_good args _).mpr h]
    | @extra sets rest hl hr =>
      rw [(parseFlags_iff sen_good args sets rest).mpr hl]
      dsimp only
      rw [if_pos (fun e => hr (List.length_eq_zero_iff.mp e))]

theorem faultText_eq (isPrint : Nat → Bool) (e : ParseError) : e.text isPrint = faultText (quote isPrint) e := by
  rcases e with e | _ | _ | _ | _ | _
  · cases e <;> rfl
  all_goals rfl

theorem flagSays_eq (isPrint : Nat → Bool) (prog : Bytes) (c : CmdName) (e : ParseError) :
    stderrText isPrint prog (Tok.flagNotes c e) = flagSays (quote isPrint) c.name (noteText isPrint prog (.defaults c)) e := by
  rcases e with e | _ | _ | _ | _ | _
  · cases e <;> simp [Tok.flagNotes, stderrText, noteText, flagSays, faultText, FlagError.text]
  all_goals rfl

/-- C60: every command line is legal or refused for one reason, never both. -/
theorem C60_reason (args : List Bytes) :
    (((∃ o, TokenizeLine args o) ∨ ∃ e, TokenizeFault args e) ∧
      ∀ e, TokenizeFault args e → (¬ ∃ o, TokenizeLine args o) ∧ ∀ e', TokenizeFault args e' → e' = e) ∧
    (((∃ o, LatticeLine args o) ∨ ∃ e, LatticeFault args e) ∧
      ∀ e, LatticeFault args e → (¬ ∃ o, LatticeLine args o) ∧ ∀ e', LatticeFault args e' → e' = e) ∧
    (((∃ o, ServerLine args o) ∨ ∃ e, ServerFault args e) ∧
      ∀ e, ServerFault args e → (¬ ∃ o, ServerLine args o) ∧ ∀ e', ServerFault args e' → e' = e) ∧
    (((∃ o, SentenceLine args o) ∨ ∃ e, SentenceFault args e) ∧
      ∀ e, SentenceFault args e → (¬ ∃ o, SentenceLine args o) ∧ ∀ e', SentenceFault args e' → e' = e) := by
  have key : ∀ {α : Type} (p : Except ParseError α) (L : α → Prop) (F : ParseError → Prop), (∀ o, p = .ok o ↔ L o) → (∀ e, p = .error e ↔ F e) →
      ((∃ o, L o) ∨ ∃ e, F e) ∧ ∀ e, F e → (¬ ∃ o, L o) ∧ ∀ e', F e' → e' = e := by
    intro α p L F hL hF
    refine ⟨?_, ?_⟩
    · cases hp : p with
      | ok o => exact Or.inl ⟨o, (hL o).mp hp⟩
      | error e => exact Or.inr ⟨e, (hF e).mp hp⟩
    · intro e he
      have hp := (hF e).mpr he
      refine ⟨?_, ?_⟩
      · rintro ⟨o, ho⟩
        have := (hL o).mpr ho
        rw [hp] at this; cases this
      · intro e' he'
        have := (hF e').mpr he'
        rw [hp] at this; cases this; rfl
  exact ⟨key _ _ _ (tok_parse_iff args) (tok_error_iff args), key _ _ _ (lat_parse_iff args) (lat_error_iff args),
    key _ _ _ (srv_parse_iff args) (srv_error_iff args), key _ _ _ (sen_parse_iff args) (sen_error_iff args)⟩

/-- What a refusal leaves: nothing but a text on stderr, and exit status 1. -/
def Refused (w : World) (prog : Bytes) (result : Option Exit) (stderr : Bytes) : Prop :=
  ∃ x, result = some x ∧ x.exit = 1 ∧ x.out = [] ∧ x.files = [] ∧ x.served = none ∧ stderrText w.isPrint prog x.notes = stderr

/-- C60: what the user is told. `lattice` and `server` tell the reason at the end (for a flag they cannot read also at the beginning, followed by the flags),
`sentence` tells it at the end only. -/
theorem C60_told (w : World) (prog : Bytes) (args : List Bytes) :
    (∀ e, LatticeFault args e → Refused w prog (main w (prog :: str "lattice" :: args))
      (flagSays (quote w.isPrint) (str "lattice") (noteText w.isPrint prog (.defaults .lattice)) e ++ CmdName.lattice.usage ++ str "\n" ++
        noteText w.isPrint prog (.defaults .lattice) ++ faultText (quote w.isPrint) e ++ str "\n")) ∧
    (∀ e, ServerFault args e → Refused w prog (main w (prog :: str "server" :: args))
      (flagSays (quote w.isPrint) (str "server") (noteText w.isPrint prog (.defaults .server)) e ++ CmdName.server.usage ++ str "\n" ++
        noteText w.isPrint prog (.defaults .server) ++ str "option parse error: " ++ faultText (quote w.isPrint) e ++ str "\n")) ∧
    (∀ e, SentenceFault args e → Refused w prog (main w (prog :: str "sentence" :: args))
      (CmdName.sentence.usage ++ str "\n" ++
        noteText w.isPrint prog (.defaults .sentence) ++ str "sentence, " ++ faultText (quote w.isPrint) e ++ str "\n")) := by
  obtain ⟨_, h2, h3, h4, _⟩ := C40_named w prog args
  refine ⟨?_, ?_, ?_⟩
  · intro e he
    rw [h3]
    unfold Lat.run
    rw [(lat_error_iff args e).mpr he]
    refine ⟨_, rfl, rfl, rfl, rfl, rfl, ?_⟩
    have := flagSays_eq w.isPrint prog .lattice e
    simp only [stderrText, finish, List.flatMap_append, List.flatMap_cons, List.flatMap_nil, List.append_nil, noteText, faultText_eq] at this ⊢
    rw [this]
    simp only [List.append_assoc]
    rfl
  · intro e he
    rw [h2]
    unfold Srv.run
    rw [(srv_error_iff args e).mpr he]
    refine ⟨_, rfl, rfl, rfl, rfl, rfl, ?_⟩
    have := flagSays_eq w.isPrint prog .server e
    simp only [stderrText, finish, List.flatMap_append, List.flatMap_cons, List.flatMap_nil, List.append_nil, noteText, faultText_eq] at this ⊢
    rw [this]
    simp only [List.append_assoc]
    rfl
  · intro e he
    rw [h4]
    unfold Sen.run
    rw [(sen_error_iff args e).mpr he]
    refine ⟨_, rfl, rfl, rfl, rfl, rfl, ?_⟩
    simp only [stderrText, finish, List.flatMap_append, List.flatMap_cons, List.flatMap_nil, List.append_nil, noteText, faultText_eq, List.append_assoc]

/-- C60 for `tokenize` does not hold in full: a flag that cannot be read is told at the beginning, but of any other fault the user is shown the usage only
and an empty line. -/
theorem C60_tokenize (w : World) (prog : Bytes) (args : List Bytes) (e : ParseError) (he : TokenizeFault args e) :
    Refused w prog (main w (prog :: str "tokenize" :: args))
      (flagSays (quote w.isPrint) (str "tokenize") (noteText w.isPrint prog (.defaults .tokenize)) e ++ CmdName.tokenize.usage ++ str "\n" ++
        noteText w.isPrint prog (.defaults .tokenize) ++ str "\n") := by
  obtain ⟨h1, _⟩ := C40_named w prog args
  rw [h1]
  unfold Tok.run
  rw [(tok_error_iff args e).mpr he]
  refine ⟨_, rfl, rfl, rfl, rfl, rfl, ?_⟩
  have := flagSays_eq w.isPrint prog .tokenize e
  simp only [stderrText, finish, List.flatMap_append, List.flatMap_cons, List.flatMap_nil, List.append_nil, noteText] at this ⊢
  rw [this]
  simp only [List.append_assoc, List.nil_append]
  rfl

/-- C60: two different faults of which `tokenize` says the same. -/
theorem C60_tokenize_silent (w : World) (prog : Bytes) :
    TokenizeFault [str "-mode=fast"] (.mode (str "fast")) ∧ TokenizeFault [str "a.txt"] (.arguments [str "a.txt"]) ∧
    ∃ text, Refused w prog (main w [prog, str "tokenize", str "-mode=fast"]) text ∧ Refused w prog (main w [prog, str "tokenize", str "a.txt"]) text := by
  have h1 : TokenizeFault [str "-mode=fast"] (.mode (str "fast")) := by rw [← tok_error_iff]; rfl
  have h2 : TokenizeFault [str "a.txt"] (.arguments [str "a.txt"]) := by rw [← tok_error_iff]; rfl
  have t1 := C60_tokenize w prog _ _ h1
  have t2 := C60_tokenize w prog _ _ h2
  simp only [flagSays] at t1 t2
  exact ⟨h1, h2, _, t1, t2⟩

/-- C60: without the name of a subcommand nothing is told about the fault, only how to use the program. -/
theorem C60_default (w : World) (prog : Bytes) (args : List Bytes) (h : ∀ name, args.head? = some name → name ∉ commandNames) (e : ParseError)
    (he : TokenizeFault args e) :
    Refused w prog (main w (prog :: args))
      (noteText w.isPrint prog .mainUsage ++ noteText w.isPrint prog .commands ++ str "\n" ++ CmdName.tokenize.usage ++ str "\n" ++
        noteText w.isPrint prog (.defaults .tokenize)) := by
  rw [(C40_default w prog args h).2 ((C60_reason args).1.2 e he).1]
  refine ⟨_, rfl, rfl, rfl, rfl, rfl, ?_⟩
  simp only [stderrText, List.flatMap_cons, List.flatMap_nil, List.append_nil, noteText, List.append_assoc]

/-- Faults of every kind. -/
example : LatticeFault [str "-v", str "---v", str "a"] (.flag (.badSyntax (str "---v"))) ∧
    LatticeFault [str "-v=ja"] (.flag (.badBool (str "v") (str "ja"))) ∧ LatticeFault [str "-dict"] (.flag (.needsArgument (str "dict"))) ∧
    LatticeFault [str "--help=1", str "-x"] (.flag .help) ∧ LatticeFault [str "-dict=jumandic", str "-x"] (.flag (.undefinedFlag (str "x"))) ∧
    LatticeFault [str "-v"] .noArgument ∧ LatticeFault [str "-mode=x", str "-dict=y", str "a"] (.dict (str "y")) ∧
    ServerFault [str "a", str "b"] (.arguments [str "a", str "b"]) ∧ SentenceFault [str "-", str "-x"] (.arguments [str "-", str "-x"]) := by
  simp only [← lat_error_iff, ← srv_error_iff, ← sen_error_iff]
  exact ⟨rfl, rfl, rfl, rfl, rfl, rfl, rfl, rfl, rfl⟩

/-- What is written to stderr. -/
example : (main Toy.world [str "/bin/kagome", str "sentence", str "-x"]).map (fun x => stderrText Toy.world.isPrint (str "/bin/kagome") x.notes) =
    some (str "sentence [-file filename]\n  -file string\n    \tinput file\nsentence, flag provided but not defined: -x\n") := by decide +kernel

/-- `version` tells the version of the program and those of the dictionaries among its dependencies, in all cases. -/
theorem C60_version (w : World) (prog : Bytes) (args : List Bytes) :
    ∃ v, ShownVersion w v ∧
      (main w (prog :: str "version" :: args)).map (fun x => (x.exit, stderrText w.isPrint prog x.notes)) =
        some (0, v ++ str "\n" ++ (dependencies w).flatMap (fun d => ((behindPrefix (str "github.com/ikawaha/kagome-dict/") d.1).map
          (fun name => str "   " ++ name ++ str " " ++ d.2 ++ str "\n")).getD [])) := by
  obtain ⟨_, _, _, _, h5⟩ := C40_named w prog args
  rw [h5]
  have hdeps : ∀ deps : List (Bytes × Bytes), (dictVersions deps).flatMap (noteText w.isPrint prog) =
      deps.flatMap (fun d => ((behindPrefix (str "github.com/ikawaha/kagome-dict/") d.1).map
          (fun name => str "   " ++ name ++ str " " ++ d.2 ++ str "\n")).getD []) := by
    intro deps
    induction deps with
    | nil => rfl
    | cons d deps ih =>
      simp only [behindPrefix] at ih
      simp only [dictVersions, List.flatMap_cons, behindPrefix]
      split
      · simp only [List.flatMap_cons, noteText, ih, Option.map_some, Option.getD_some]
      · simp only [ih, Option.map_none, Option.getD_none, List.nil_append]
  have hv : ShownVersion w (versionText w) := by
    by_cases hv : w.version = []
    · cases hb : w.buildInfo with
      | none =>
        have he : versionText w = str "(devel)" := by simp [versionText, hb, hv]
        rw [he]
        exact .devel hv (fun m deps h => by rw [hb] at h; cases h)
      | some info =>
        by_cases hm : info.1 = []
        · have he : versionText w = str "(devel)" := by simp [versionText, hb, hv, hm]
          rw [he]
          exact .devel hv (fun m deps h => by rw [hb] at h; cases h; exact hm)
        · have he : versionText w = info.1 := by simp [versionText, hb, hv, hm]
          rw [he]
          exact .built hv hb hm
    · have he : versionText w = w.version := by
        cases hb : w.buildInfo <;> simp [versionText, hb, hv]
      rw [he]
      exact .linked hv
  refine ⟨_, hv, ?_⟩
  cases hb : w.buildInfo with
  | none => simp [showVersion, dependencies, hb, stderrText, noteText]
  | some info => simp only [Option.map_some, showVersion, dependencies, hb, stderrText, List.flatMap_cons, noteText, hdeps]

/-- Only one version can be shown. -/
theorem shownVersion_unique {w : World} {v v' : Bytes} (h : ShownVersion w v) (h' : ShownVersion w v') : v = v' := by
  cases h with
  | linked h1 => cases h' with
    | linked => rfl
    | built h2 => exact absurd h2 h1
    | devel h2 => exact absurd h2 h1
  | built h1 h2 h3 => cases h' with
    | linked h4 => exact absurd h1 h4
    | built _ h4 _ => rw [h2] at h4; cases h4; rfl
    | devel _ h4 => exact absurd (h4 _ _ h2) h3
  | devel h1 h2 => cases h' with
    | linked h4 => exact absurd h1 h4
    | built _ h4 h5 => exact absurd (h2 _ _ h4) h5
    | devel => rfl

example : (main Toy.world [str "kagome", str "version"]).map (fun x => stderrText Toy.world.isPrint (str "kagome") x.notes) =
    some (str "v2.10.0\n   ipa v1.0.10\n") := by decide +kernel

/-! ### C61 -/

theorem value_mem {sets : List (Bytes × FlagVal)} {n : Bytes} {dflt v : FlagVal} (h : Value sets n dflt v) : v = dflt ∨ (n, v) ∈ sets := by
  rcases h with ⟨before, after, rfl, _⟩ | ⟨_, h⟩
  · right; simp
  · left; exact h

/-- A command line that follows a usage line whose items are flags. -/
theorem follows_line {formal : List (Bytes × Bool)} {items : List UsageItem} {tail : List Bytes} {rest : List Bytes}
    (ht : CommandLine formal tail [] rest)
    (hi : ∀ item ∈ items, match item with
      | .switch n => (n, true) ∈ formal
      | .choice n _ => (n, false) ∈ formal
      | .value n => (n, false) ∈ formal
      | .assigned n => (n, false) ∈ formal)
    {args : List Bytes} (h : Follows items args) :
    ∃ sets, CommandLine formal (args ++ tail) sets rest ∧
      ∀ n v, (n, FlagVal.str v) ∈ sets → ∃ item ∈ items, (∃ values, item = .choice n values ∧ v ∈ values) ∨ item = .value n ∨ item = .assigned n := by
  have hd : str "-" ∈ dashes := by simp [dashes]
  induction h with
  | none => exact ⟨[], ht, by simp⟩
  | @more item args rest' hm hw _ ih =>
    obtain ⟨sets, hl, hs⟩ := ih
    have hk := hi item hm
    rw [List.append_assoc]
    cases hw with
    | switch n =>
      refine ⟨(n, .bool true) :: sets, CommandLine.flag _ _ _ _ _ _ (.on _ n hd hk) hl, ?_⟩
      intro n' v' h'
      rcases List.mem_cons.mp h' with h' | h'
      · cases h'
      · exact hs n' v' h'
    | choice n v values hv =>
      refine ⟨(n, .str v) :: sets, CommandLine.flag _ _ _ _ _ _ (.next _ n v hd hk) hl, ?_⟩
      intro n' v' h'
      rcases List.mem_cons.mp h' with h' | h'
      · cases h'; exact ⟨_, hm, Or.inl ⟨values, rfl, hv⟩⟩
      · exact hs n' v' h'
    | value n v =>
      refine ⟨(n, .str v) :: sets, CommandLine.flag _ _ _ _ _ _ (.next _ n v hd hk) hl, ?_⟩
      intro n' v' h'
      rcases List.mem_cons.mp h' with h' | h'
      · cases h'; exact ⟨_, hm, Or.inr (Or.inl rfl)⟩
      · exact hs n' v' h'
    | assigned n v =>
      refine ⟨(n, .str v) :: sets, CommandLine.flag _ _ _ _ _ _ (.value _ n v hd hk) hl, ?_⟩
      intro n' v' h'
      rcases List.mem_cons.mp h' with h' | h'
      · cases h'; exact ⟨_, hm, Or.inr (Or.inr rfl)⟩
      · exact hs n' v' h'

theorem server_items : usageItems CmdName.server.usage =
    [.assigned (str "http"), .value (str "userdict"), .choice (str "dict") [str "ipa", str "uni"]] := by decide +kernel

theorem lattice_items : usageItems CmdName.lattice.usage =
    [.value (str "udict"), .choice (str "dict") [str "ipa", str "uni"],
      .choice (str "mode") [str "normal", str "search", str "extended"], .value (str "output"), .switch (str "v")] := by decide +kernel

theorem sentence_items : usageItems CmdName.sentence.usage = [.value (str "file")] := by decide +kernel

theorem tokenize_items : usageItems CmdName.tokenize.usage =
    [.value (str "file"), .value (str "dict"), .value (str "userdict"), .choice (str "sysdict") [str "ipa", str "uni"], .value (str "simple"),
      .choice (str "mode") [str "normal", str "search", str "extended"], .switch (str "split"), .switch (str "json")] := by decide +kernel

/-- C61: whoever follows the usage line of `server`, `lattice` or `sentence` is not refused, whatever options they take, in any order and
any number. -/
theorem C61_usage (args : List Bytes) :
    (Follows (usageItems CmdName.server.usage) args → ∃ o, ServerLine args o) ∧
    (∀ word words, NoFlag word → Follows (usageItems CmdName.lattice.usage) args → ∃ o, LatticeLine (args ++ word :: words) o) ∧
    (Follows (usageItems CmdName.sentence.usage) args → ∃ o, SentenceLine args o) := by
  rw [server_items, lattice_items, sentence_items]
  refine ⟨?_, ?_, ?_⟩
  · intro h
    obtain ⟨sets, hl, hs⟩ := follows_line (formal := serverFlags) .empty (by
      intro item hm
      simp only [List.mem_cons, List.not_mem_nil, or_false] at hm
      rcases hm with rfl | rfl | rfl <;> decide +kernel) h
    rw [List.append_nil] at hl
    have hd := (value_str srv_good hl (n := str "dict") (by decide +kernel) (str "ipa") (Srv.bind sets).dict).mpr rfl
    refine ⟨Srv.bind sets, ⟨⟨sets, hl, (value_str srv_good hl (by decide +kernel) _ _).mpr rfl, (value_str srv_good hl (by decide +kernel) _ _).mpr rfl, hd⟩, ?_⟩⟩
    rcases value_mem hd with e | hm
    · rw [FlagVal.str.inj e]; decide +kernel
    · obtain ⟨item, hm, h⟩ := hs _ _ hm
      simp only [List.mem_cons, List.not_mem_nil, or_false] at hm
      rcases hm with rfl | rfl | rfl
      · rcases h with ⟨_, e, _⟩ | e | e <;> first | cases e | exact absurd (UsageItem.assigned.inj e) (by decide +kernel)
      · rcases h with ⟨_, e, _⟩ | e | e <;> first | cases e | exact absurd (UsageItem.value.inj e) (by decide +kernel)
      · rcases h with ⟨_, e, hv⟩ | e | e
        · cases e; exact List.mem_cons_of_mem _ hv
        · cases e
        · cases e
  · intro word words hw h
    obtain ⟨sets, hl, hs⟩ := follows_line (formal := latticeFlags) (.rest word words hw) (by
      intro item hm
      simp only [List.mem_cons, List.not_mem_nil, or_false] at hm
      rcases hm with rfl | rfl | rfl | rfl | rfl <;> decide +kernel) h
    have hd := (value_str lat_good hl (n := str "dict") (by decide +kernel) (str "ipa") (Lat.bind sets (word :: words)).dict).mpr rfl
    have hmv := (value_str lat_good hl (n := str "mode") (by decide +kernel) (str "normal") (Lat.bind sets (word :: words)).mode).mpr rfl
    refine ⟨Lat.bind sets (word :: words), ⟨⟨sets, word :: words, hl, by simp, rfl, (value_str lat_good hl (by decide +kernel) _ _).mpr rfl, hd, hmv,
      (value_str lat_good hl (by decide +kernel) _ _).mpr rfl, (boolFlag_value lat_good.once (by decide +kernel) _ (sets_kind hl) _).mpr rfl⟩, ?_, ?_⟩⟩
    · rcases value_mem hmv with e | hm
      · rw [FlagVal.str.inj e]; exact ⟨1, .normal⟩
      · obtain ⟨item, hm, h⟩ := hs _ _ hm
        simp only [List.mem_cons, List.not_mem_nil, or_false] at hm
        rcases hm with rfl | rfl | rfl | rfl | rfl
        · rcases h with ⟨_, e, _⟩ | e | e <;> first | cases e | exact absurd (UsageItem.value.inj e) (by decide +kernel)
        · rcases h with ⟨_, e, _⟩ | e | e <;> first | exact absurd (UsageItem.choice.inj e).1 (by decide +kernel) | cases e
        · rcases h with ⟨_, e, hv⟩ | e | e
          · cases e
            simp only [List.mem_cons, List.not_mem_nil, or_false] at hv
            rcases hv with e | e | e <;> rw [e]
            · exact ⟨1, .normal⟩
            · exact ⟨2, .search⟩
            · exact ⟨3, .extended⟩
          · cases e
          · cases e
        · rcases h with ⟨_, e, _⟩ | e | e <;> first | cases e | exact absurd (UsageItem.value.inj e) (by decide +kernel)
        · rcases h with ⟨_, e, _⟩ | e | e <;> cases e
    · rcases value_mem hd with e | hm
      · rw [FlagVal.str.inj e]; decide +kernel
      · obtain ⟨item, hm, h⟩ := hs _ _ hm
        simp only [List.mem_cons, List.not_mem_nil, or_false] at hm
        rcases hm with rfl | rfl | rfl | rfl | rfl
        · rcases h with ⟨_, e, _⟩ | e | e <;> first | cases e | exact absurd (UsageItem.value.inj e) (by decide +kernel)
        · rcases h with ⟨_, e, hv⟩ | e | e
          · cases e; exact List.mem_cons_of_mem _ hv
          · cases e
          · cases e
        · rcases h with ⟨_, e, _⟩ | e | e <;> first | exact absurd (UsageItem.choice.inj e).1 (by decide +kernel) | cases e
        · rcases h with ⟨_, e, _⟩ | e | e <;> first | cases e | exact absurd (UsageItem.value.inj e) (by decide +kernel)
        · rcases h with ⟨_, e, _⟩ | e | e <;> cases e
  · intro h
    obtain ⟨sets, hl, _⟩ := follows_line (formal := [(str "file", false)]) .empty (by
      intro item hm
      simp only [List.mem_cons, List.not_mem_nil, or_false] at hm
      subst hm; decide +kernel) h
    rw [List.append_nil] at hl
    exact ⟨_, sets, hl, (value_str sen_good hl (by decide +kernel) _ _).mpr rfl⟩

/-- C61 does not hold for `tokenize`: its usage line shows `-userdict`, which is refused whatever the file, and a value for `-simple`, which is
refused whatever the value. (The flag for the user dictionary is `-udict`, which the line does not show.) -/
theorem C61_tokenize_wrong :
    (∀ file, Follows (usageItems CmdName.tokenize.usage) [str "-userdict", file] ∧
      TokenizeFault [str "-userdict", file] (.flag (.undefinedFlag (str "userdict")))) ∧
    (∀ v, NoFlag v → Follows (usageItems CmdName.tokenize.usage) [str "-simple", v] ∧ TokenizeFault [str "-simple", v] (.arguments [v])) ∧
    (∃ o, TokenizeLine [str "-udict", str "u.txt"] o) ∧
    ∀ item ∈ usageItems CmdName.tokenize.usage, ∀ args, Written item args → args.head? ≠ some (str "-udict") := by
  rw [tokenize_items]
  refine ⟨?_, ?_, ?_, ?_⟩
  · intro file
    refine ⟨?_, ?_⟩
    · have := Follows.more (items := [.value (str "file"), .value (str "dict"), .value (str "userdict"), .choice (str "sysdict") [str "ipa", str "uni"],
        .value (str "simple"), .choice (str "mode") [str "normal", str "search", str "extended"], .switch (str "split"), .switch (str "json")])
        (item := .value (str "userdict")) (by simp) (.value _ file) .none
      exact this
    · rw [← tok_error_iff]; rfl
  · intro v hv
    refine ⟨?_, ?_⟩
    · have := Follows.more (items := [.value (str "file"), .value (str "dict"), .value (str "userdict"), .choice (str "sysdict") [str "ipa", str "uni"],
        .value (str "simple"), .choice (str "mode") [str "normal", str "search", str "extended"], .switch (str "split"), .switch (str "json")])
        (item := .value (str "simple")) (by simp) (.value _ v) .none
      exact this
    · exact .extra (sets := [(str "simple", .bool true)])
        (CommandLine.flag [str "-simple"] (str "simple") _ [v] [] [v] (.on (str "-") _ (by simp [dashes]) (by decide +kernel)) (.rest v [] hv)) (by simp)
  · exact ⟨_, (tok_parse_iff _ _).mp rfl⟩
  · intro item hm args hw
    simp only [List.mem_cons, List.not_mem_nil, or_false] at hm
    rcases hm with rfl | rfl | rfl | rfl | rfl | rfl | rfl | rfl <;> cases hw <;>
      (rw [List.head?_cons]; exact fun e => absurd (Option.some.inj e) (by decide +kernel))

/-- C61 for the other options of `tokenize`. Missing: the two of `C61_tokenize_wrong`. -/
theorem C61_tokenize_partial (args : List Bytes)
    (h : Follows ((usageItems CmdName.tokenize.usage).filter (fun i => i ≠ .value (str "userdict") ∧ i ≠ .value (str "simple"))) args) :
    ∃ o, TokenizeLine args o := by
  have e : (usageItems CmdName.tokenize.usage).filter (fun i => i ≠ .value (str "userdict") ∧ i ≠ .value (str "simple")) =
      [.value (str "file"), .value (str "dict"), .choice (str "sysdict") [str "ipa", str "uni"],
       .choice (str "mode") [str "normal", str "search", str "extended"], .switch (str "split"), .switch (str "json")] := by
    rw [tokenize_items]; decide +kernel
  rw [e] at h
  obtain ⟨sets, hl, hs⟩ := follows_line (formal := tokenizeFlags) .empty (by
    intro item hm
    simp only [List.mem_cons, List.not_mem_nil, or_false] at hm
    rcases hm with rfl | rfl | rfl | rfl | rfl | rfl <;> decide +kernel) h
  rw [List.append_nil] at hl
  have hd := (value_str tok_good hl (n := str "sysdict") (by decide +kernel) (str "ipa") (Tok.bind sets).sysdict).mpr rfl
  have hmv := (value_str tok_good hl (n := str "mode") (by decide +kernel) (str "normal") (Tok.bind sets).mode).mpr rfl
  have hb := fun (n : Bytes) (hn : (n, true) ∈ tokenizeFlags) => (boolFlag_value tok_good.once hn false (sets_kind hl) (boolFlag n false sets)).mpr rfl
  refine ⟨Tok.bind sets, ⟨⟨sets, hl, (value_str tok_good hl (by decide +kernel) _ _).mpr rfl, (value_str tok_good hl (by decide +kernel) _ _).mpr rfl,
    (value_str tok_good hl (by decide +kernel) _ _).mpr rfl, hd, hb _ (by decide +kernel), hmv, hb _ (by decide +kernel), hb _ (by decide +kernel)⟩, ?_, ?_⟩⟩
  · rcases value_mem hmv with e | hm
    · rw [FlagVal.str.inj e]; exact ⟨1, .normal⟩
    · obtain ⟨item, hm, h⟩ := hs _ _ hm
      simp only [List.mem_cons, List.not_mem_nil, or_false] at hm
      rcases hm with rfl | rfl | rfl | rfl | rfl | rfl
      · rcases h with ⟨_, e, _⟩ | e | e <;> first | cases e | exact absurd (UsageItem.value.inj e) (by decide +kernel)
      · rcases h with ⟨_, e, _⟩ | e | e <;> first | cases e | exact absurd (UsageItem.value.inj e) (by decide +kernel)
      · rcases h with ⟨_, e, _⟩ | e | e <;> first | exact absurd (UsageItem.choice.inj e).1 (by decide +kernel) | cases e
      · rcases h with ⟨_, e, hv⟩ | e | e
        · cases e
          simp only [List.mem_cons, List.not_mem_nil, or_false] at hv
          rcases hv with e | e | e <;> rw [e]
          · exact ⟨1, .normal⟩
          · exact ⟨2, .search⟩
          · exact ⟨3, .extended⟩
        · cases e
        · cases e
      · rcases h with ⟨_, e, _⟩ | e | e <;> cases e
      · rcases h with ⟨_, e, _⟩ | e | e <;> cases e
  · rcases value_mem hd with e | hm
    · rw [FlagVal.str.inj e]; decide +kernel
    · obtain ⟨item, hm, h⟩ := hs _ _ hm
      simp only [List.mem_cons, List.not_mem_nil, or_false] at hm
      rcases hm with rfl | rfl | rfl | rfl | rfl | rfl
      · rcases h with ⟨_, e, _⟩ | e | e <;> first | cases e | exact absurd (UsageItem.value.inj e) (by decide +kernel)
      · rcases h with ⟨_, e, _⟩ | e | e <;> first | cases e | exact absurd (UsageItem.value.inj e) (by decide +kernel)
      · rcases h with ⟨_, e, hv⟩ | e | e
        · cases e; exact List.mem_cons_of_mem _ hv
        · cases e
        · cases e
      · rcases h with ⟨_, e, _⟩ | e | e <;> first | exact absurd (UsageItem.choice.inj e).1 (by decide +kernel) | cases e
      · rcases h with ⟨_, e, _⟩ | e | e <;> cases e
      · rcases h with ⟨_, e, _⟩ | e | e <;> cases e

/-- Following usage lines. -/
example : Follows (usageItems CmdName.lattice.usage) [str "-v", str "-dict", str "uni", str "-v", str "-output", str "a.dot"] ∧ NoFlag (str "猫") := by
  rw [lattice_items]
  refine ⟨?_, ?_⟩
  · exact Follows.more (item := .switch (str "v")) (args := [str "-v"]) (by simp) (.switch _) <|
      Follows.more (item := .choice (str "dict") [str "ipa", str "uni"]) (args := [str "-dict", str "uni"]) (by simp) (.choice _ _ _ (by simp)) <|
      Follows.more (item := .switch (str "v")) (args := [str "-v"]) (by simp) (.switch _) <|
      Follows.more (item := .value (str "output")) (args := [str "-output", str "a.dot"]) (by simp) (.value _ _) .none
  · exact Or.inr (by decide +kernel)

theorem quote_default (isPrint : Nat → Bool) (hp : ∀ c, 0x20 ≤ c → c ≤ 0x7E → isPrint c = true) :
    quote isPrint (str "ipa") = str "\"ipa\"" ∧ quote isPrint (str "normal") = str "\"normal\"" ∧ quote isPrint (str ":6060") = str "\":6060\"" := by
  have key : ∀ (s : Bytes), (∀ r ∈ runes s, 0x20 ≤ r.1 ∧ r.1 ≤ 0x7E) → quote isPrint s = quote (fun _ => true) s := by
    intro s hs
    unfold quote
    congr 1
    congr 1
    generalize hr : runes s = rs at hs
    clear hr
    induction rs generalizing s with
    | nil => rfl
    | cons r rs ih =>
      simp only [quoteLoop]
      rw [ih _ (fun x hx => hs x (List.mem_cons_of_mem _ hx))]
      have := hs r (by simp)
      simp only [quoteRune, hp _ this.1 this.2]
  rw [key _ (by decide +kernel), key _ (by decide +kernel), key _ (by decide +kernel)]
  decide +kernel

theorem defaults_ascii (isPrint : Nat → Bool) (hp : ∀ c, 0x20 ≤ c → c ≤ 0x7E → isPrint c = true) (c : CmdName) :
    printDefaults isPrint c.docs = printDefaults (fun _ => true) c.docs := by
  obtain ⟨q1, q2, q3⟩ := quote_default isPrint hp
  obtain ⟨r1, r2, r3⟩ := quote_default (fun _ => true) (fun _ _ _ => rfl)
  have : ∀ d ∈ sortDocs c.docs, d.dflt ∈ [[], str "ipa", str "normal", str ":6060"] := by cases c <;> decide +kernel
  unfold printDefaults
  generalize sortDocs c.docs = docs at this
  induction docs with
  | nil => rfl
  | cons d docs ih =>
    rw [List.flatMap_cons, List.flatMap_cons, ih (fun x hx => this x (List.mem_cons_of_mem _ hx))]
    congr 1
    have hd := this d (by simp)
    simp only [List.mem_cons, List.not_mem_nil, or_false] at hd
    unfold docText
    rcases hd with e | e | e | e <;> rw [e]
    · rfl
    · rw [q1, r1]
    · rw [q2, r2]
    · rw [q3, r3]

theorem shown_flags (isPrint : Nat → Bool) (hp : ∀ c, 0x20 ≤ c → c ≤ 0x7E → isPrint c = true) (prog : Bytes) :
    readFlags 100 (noteText isPrint prog (.defaults .tokenize)) =
      [(str "dict", false, none), (str "file", false, none), (str "json", true, none), (str "mode", false, some (str "normal")),
       (str "simple", true, none), (str "split", true, none), (str "sysdict", false, some (str "ipa")), (str "udict", false, none)] ∧
    readFlags 100 (noteText isPrint prog (.defaults .server)) =
      [(str "dict", false, some (str "ipa")), (str "http", false, some (str ":6060")), (str "userdict", false, none)] ∧
    readFlags 100 (noteText isPrint prog (.defaults .lattice)) =
      [(str "dict", false, some (str "ipa")), (str "mode", false, some (str "normal")), (str "output", false, none), (str "udict", false, none),
       (str "v", true, none)] ∧
    readFlags 100 (noteText isPrint prog (.defaults .sentence)) = [(str "file", false, none)] := by
  have key := defaults_ascii isPrint hp
  simp only [noteText, key]
  refine ⟨?_, ?_, ?_, ?_⟩ <;> decide +kernel

theorem parse_leftOut {formal : List (Bytes × Bool)} (hf : GoodNames formal) {n : Bytes} {k : Bool} (d : Option Bytes) (h : (n, k) ∈ formal) (args : List Bytes) :
    parseFlags formal (leftOut (n, k, d) ++ args) =
      (parseFlags formal args).map (fun r => ((n, if k then FlagVal.bool false else .str (d.getD [])) :: r.1, r.2)) := by
  have hd : str "-" ∈ dashes := by simp [dashes]
  obtain ⟨f1, f2⟩ := argForm_flag hd (hf.ne _ h) (hf.dash _ h) (hf.eq _ h)
  have hk := (lookup_iff hf.once n k).mpr h
  have hb : parseBool (str "false") = some false := by decide +kernel
  cases k
  · simp only [leftOut, Bool.false_eq_true, if_false, List.cons_append, List.nil_append]
    rw [parseFlags, f1]
    dsimp only
    rw [hk]
  · simp only [leftOut, if_true, List.cons_append, List.nil_append]
    rw [parseFlags, f2]
    dsimp only
    rw [hk]
    dsimp only [Option.getD_some]
    rw [hb]

/-- C61: the flags that `-h` lists are the flags the command knows, no more and no fewer, each with its kind; and to leave a flag out is to give it the
default that is shown. -/
theorem C61_flags (isPrint : Nat → Bool) (hp : ∀ c, 0x20 ≤ c → c ≤ 0x7E → isPrint c = true) (prog : Bytes) :
    (∃ shown, shown = readFlags 100 (noteText isPrint prog (.defaults .tokenize)) ∧ (shown.map (fun f => (f.1, f.2.1))).Perm tokenizeFlags ∧
      ∀ f ∈ shown, ∀ args o, TokenizeLine (leftOut f ++ args) o ↔ TokenizeLine args o) ∧
    (∃ shown, shown = readFlags 100 (noteText isPrint prog (.defaults .server)) ∧ (shown.map (fun f => (f.1, f.2.1))).Perm serverFlags ∧
      ∀ f ∈ shown, ∀ args o, ServerLine (leftOut f ++ args) o ↔ ServerLine args o) ∧
    (∃ shown, shown = readFlags 100 (noteText isPrint prog (.defaults .lattice)) ∧ (shown.map (fun f => (f.1, f.2.1))).Perm latticeFlags ∧
      ∀ f ∈ shown, ∀ args o, LatticeLine (leftOut f ++ args) o ↔ LatticeLine args o) ∧
    (∃ shown, shown = readFlags 100 (noteText isPrint prog (.defaults .sentence)) ∧ (shown.map (fun f => (f.1, f.2.1))).Perm [(str "file", false)] ∧
      ∀ f ∈ shown, ∀ args o, SentenceLine (leftOut f ++ args) o ↔ SentenceLine args o) := by
  obtain ⟨h1, h2, h3, h4⟩ := shown_flags isPrint hp prog
  refine ⟨⟨_, h1.symm, by decide +kernel, ?_⟩, ⟨_, h2.symm, by decide +kernel, ?_⟩, ⟨_, h3.symm, by decide +kernel, ?_⟩, ⟨_, h4.symm, by decide +kernel, ?_⟩⟩
  · intro f hm args o
    rw [← tok_parse_iff, ← tok_parse_iff]
    have hfl : Tok.flags = tokenizeFlags := rfl
    unfold Tok.parse
    rw [hfl]
    simp only [List.mem_cons, List.not_mem_nil, or_false] at hm
    rcases hm with rfl | rfl | rfl | rfl | rfl | rfl | rfl | rfl <;>
      (rw [parse_leftOut tok_good _ (by decide +kernel)]; cases parseFlags tokenizeFlags args <;> exact Iff.rfl)
  · intro f hm args o
    rw [← srv_parse_iff, ← srv_parse_iff]
    have hfl : Srv.flags = serverFlags := rfl
    unfold Srv.parse
    rw [hfl]
    simp only [List.mem_cons, List.not_mem_nil, or_false] at hm
    rcases hm with rfl | rfl | rfl <;>
      (rw [parse_leftOut srv_good _ (by decide +kernel)]; cases parseFlags serverFlags args <;> exact Iff.rfl)
  · intro f hm args o
    rw [← lat_parse_iff, ← lat_parse_iff]
    have hfl : Lat.flags = latticeFlags := rfl
    unfold Lat.parse
    rw [hfl]
    simp only [List.mem_cons, List.not_mem_nil, or_false] at hm
    rcases hm with rfl | rfl | rfl | rfl | rfl <;>
      (rw [parse_leftOut lat_good _ (by decide +kernel)]; cases parseFlags latticeFlags args <;> exact Iff.rfl)
  · intro f hm args o
    rw [← sen_parse_iff, ← sen_parse_iff]
    have hfl : Sen.flags = [(str "file", false)] := rfl
    unfold Sen.parse
    rw [hfl]
    simp only [List.mem_cons, List.not_mem_nil, or_false] at hm
    subst hm
    rw [parse_leftOut sen_good _ (by decide +kernel)]
    cases parseFlags [(str "file", false)] args <;> exact Iff.rfl

/-- C61: the values a usage line offers for an option are those that can be given (apart from the empty one), and the address it shows is the one used when no
address is given. -/
theorem C61_values :
    (∀ values, UsageItem.choice (str "dict") values ∈ usageItems CmdName.server.usage → ∀ v, v ≠ [] → (v ∈ values ↔ ∃ args o, ServerLine args o ∧ o.dict = v)) ∧
    (∀ values, UsageItem.choice (str "dict") values ∈ usageItems CmdName.lattice.usage → ∀ v, v ≠ [] → (v ∈ values ↔ ∃ args o, LatticeLine args o ∧ o.dict = v)) ∧
    (∀ values, UsageItem.choice (str "mode") values ∈ usageItems CmdName.lattice.usage → ∀ v, v ≠ [] → (v ∈ values ↔ ∃ args o, LatticeLine args o ∧ o.mode = v)) ∧
    (∀ values, UsageItem.choice (str "sysdict") values ∈ usageItems CmdName.tokenize.usage → ∀ v, v ≠ [] →
      (v ∈ values ↔ ∃ args o, TokenizeLine args o ∧ o.sysdict = v)) ∧
    (∀ values, UsageItem.choice (str "mode") values ∈ usageItems CmdName.tokenize.usage → ∀ v, v ≠ [] → (v ∈ values ↔ ∃ args o, TokenizeLine args o ∧ o.mode = v)) ∧
    (∃ v, shownValue CmdName.server.usage (str "http") = some v ∧ ∀ args o, ServerLine ([str "-http=" ++ v] ++ args) o ↔ ServerLine args o) := by
  have hmode : ∀ v : Bytes, v ≠ [] → (v ∈ [str "normal", str "search", str "extended"] ↔ ∃ m, ModeText v m) := by
    intro v hv
    simp only [List.mem_cons, List.not_mem_nil, or_false]
    constructor
    · rintro (rfl | rfl | rfl)
      exact ⟨1, .normal⟩
      exact ⟨2, .search⟩
      exact ⟨3, .extended⟩
    · rintro ⟨m, h⟩
      cases h with
      | none => exact absurd rfl hv
      | normal => exact Or.inl rfl
      | search => exact Or.inr (Or.inl rfl)
      | extended => exact Or.inr (Or.inr rfl)
  have hdict : ∀ v : Bytes, v ≠ [] → (v ∈ [str "ipa", str "uni"] ↔ v ∈ dictTexts) := by
    intro v hv
    simp only [dictTexts, List.mem_cons, List.not_mem_nil, or_false]
    constructor
    · exact Or.inr
    · exact fun h => h.resolve_left hv
  rw [server_items, lattice_items, tokenize_items]
  refine ⟨?_, ?_, ?_, ?_, ?_, ?_⟩
  · intro values hm v hv
    have e : values = [str "ipa", str "uni"] := by
      simp only [List.mem_cons, List.not_mem_nil, or_false, reduceCtorEq, false_or, UsageItem.choice.injEq] at hm
      exact hm.2
    subst e
    constructor
    · intro h
      simp only [List.mem_cons, List.not_mem_nil, or_false] at h
      rcases h with rfl | rfl
      · exact ⟨[str "-dict", str "ipa"], _, (srv_parse_iff _ _).mp rfl, rfl⟩
      · exact ⟨[str "-dict", str "uni"], _, (srv_parse_iff _ _).mp rfl, rfl⟩
    · rintro ⟨args, o, h, rfl⟩
      exact (hdict _ hv).mpr h.dict
  · intro values hm v hv
    have e : values = [str "ipa", str "uni"] := by
      simp only [List.mem_cons, List.not_mem_nil, or_false, reduceCtorEq, false_or, UsageItem.choice.injEq] at hm
      rcases hm with h | h
      · exact h.2
      · exact absurd h.1 (by decide +kernel)
    subst e
    constructor
    · intro h
      simp only [List.mem_cons, List.not_mem_nil, or_false] at h
      rcases h with rfl | rfl
      · exact ⟨[str "-dict", str "ipa", str "a"], _, (lat_parse_iff _ _).mp rfl, rfl⟩
      · exact ⟨[str "-dict", str "uni", str "a"], _, (lat_parse_iff _ _).mp rfl, rfl⟩
    · rintro ⟨args, o, h, rfl⟩
      exact (hdict _ hv).mpr h.dict
  · intro values hm v hv
    have e : values = [str "normal", str "search", str "extended"] := by
      simp only [List.mem_cons, List.not_mem_nil, or_false, reduceCtorEq, false_or, UsageItem.choice.injEq] at hm
      rcases hm with h | h
      · exact absurd h.1 (by decide +kernel)
      · exact h.2
    subst e
    constructor
    · intro h
      simp only [List.mem_cons, List.not_mem_nil, or_false] at h
      rcases h with rfl | rfl | rfl
      · exact ⟨[str "-mode", str "normal", str "a"], _, (lat_parse_iff _ _).mp rfl, rfl⟩
      · exact ⟨[str "-mode", str "search", str "a"], _, (lat_parse_iff _ _).mp rfl, rfl⟩
      · exact ⟨[str "-mode", str "extended", str "a"], _, (lat_parse_iff _ _).mp rfl, rfl⟩
    · rintro ⟨args, o, h, rfl⟩
      exact (hmode _ hv).mpr h.mode
  · intro values hm v hv
    have e : values = [str "ipa", str "uni"] := by
      simp only [List.mem_cons, List.not_mem_nil, or_false, reduceCtorEq, false_or, UsageItem.choice.injEq] at hm
      rcases hm with h | h
      · exact h.2
      · exact absurd h.1 (by decide +kernel)
    subst e
    constructor
    · intro h
      simp only [List.mem_cons, List.not_mem_nil, or_false] at h
      rcases h with rfl | rfl
      · exact ⟨[str "-sysdict", str "ipa"], _, (tok_parse_iff _ _).mp rfl, rfl⟩
      · exact ⟨[str "-sysdict", str "uni"], _, (tok_parse_iff _ _).mp rfl, rfl⟩
    · rintro ⟨args, o, h, rfl⟩
      exact (hdict _ hv).mpr h.sysdict
  · intro values hm v hv
    have e : values = [str "normal", str "search", str "extended"] := by
      simp only [List.mem_cons, List.not_mem_nil, or_false, reduceCtorEq, false_or, UsageItem.choice.injEq] at hm
      rcases hm with h | h
      · exact absurd h.1 (by decide +kernel)
      · exact h.2
    subst e
    constructor
    · intro h
      simp only [List.mem_cons, List.not_mem_nil, or_false] at h
      rcases h with rfl | rfl | rfl
      · exact ⟨[str "-mode", str "normal"], _, (tok_parse_iff _ _).mp rfl, rfl⟩
      · exact ⟨[str "-mode", str "search"], _, (tok_parse_iff _ _).mp rfl, rfl⟩
      · exact ⟨[str "-mode", str "extended"], _, (tok_parse_iff _ _).mp rfl, rfl⟩
    · rintro ⟨args, o, h, rfl⟩
      exact (hmode _ hv).mpr h.mode
  · refine ⟨str ":6060", by decide +kernel, fun args o => ?_⟩
    rw [← srv_parse_iff, ← srv_parse_iff]
    have hfl : Srv.flags = serverFlags := rfl
    unfold Srv.parse
    rw [hfl]
    have hd : str "-" ∈ dashes := by simp [dashes]
    have hm : (str "http", false) ∈ serverFlags := by decide +kernel
    obtain ⟨_, f2⟩ := argForm_flag hd (srv_good.ne _ hm) (srv_good.dash _ hm) (srv_good.eq _ hm)
    have e : parseFlags serverFlags ([str "-http=" ++ str ":6060"] ++ args) =
        (parseFlags serverFlags args).map (fun r => ((str "http", FlagVal.str (str ":6060")) :: r.1, r.2)) := by
      have e' : str "-http=" ++ str ":6060" = str "-" ++ str "http" ++ str "=" ++ str ":6060" := by decide +kernel
      rw [e', List.cons_append, List.nil_append, parseFlags, f2]
      dsimp only
      rw [(lookup_iff srv_good.once (str "http") false).mpr hm]
    rw [e]
    cases parseFlags serverFlags args <;> exact Iff.rfl

theorem Toy.printable : ∀ c, 0x20 ≤ c → c ≤ 0x7E → Toy.world.isPrint c = true := by
  intro c h1 h2; simp [Toy.world]; omega

/-- C61: the help lists the subcommands there are, and puts in brackets the one that runs when none is named (`C40_default`). -/
theorem C61_commands (isPrint : Nat → Bool) (prog : Bytes) :
    readCommands (noteText isPrint prog .commands) = commandNames.map (fun n => (n, decide (n = str "tokenize"))) := by
  simp only [noteText]; decide +kernel

theorem afterSlash_plain (name cur : Bytes) (h : (0x2F : UInt8) ∉ name) : afterSlash cur name = cur.reverse ++ name := by
  induction name generalizing cur with
  | nil => simp [afterSlash]
  | cons c cs ih =>
    simp only [List.mem_cons, not_or] at h
    rw [afterSlash, if_neg (fun e => h.1 e.symm), ih _ h.2]
    simp

theorem afterSlash_dir (dir cur name : Bytes) (h : (0x2F : UInt8) ∉ name) : afterSlash cur (dir ++ 0x2F :: name) = name := by
  induction dir generalizing cur with
  | nil => simp [afterSlash, afterSlash_plain name [] h]
  | cons c cs ih => rw [List.cons_append, afterSlash]; split <;> exact ih _

/-- C61: the first help line names the program by the file it was started from, wherever that is. -/
theorem C61_program (isPrint : Nat → Bool) (dir name : Bytes) (h0 : name ≠ []) (h : (0x2F : UInt8) ∉ name) :
    noteText isPrint (dir ++ str "/" ++ name) .mainUsage = noteText isPrint name .mainUsage ∧
    ∃ before, noteText isPrint name .mainUsage = before ++ str "usage: " ++ name ++ str " <command>\n" := by
  have hs : str "/" = [0x2F] := by decide +kernel
  have hd : ∀ p : Bytes, ((p ++ name).reverse.dropWhile (· = 0x2F)).reverse = p ++ name := by
    intro p
    obtain ⟨c, cs, e⟩ := List.exists_cons_of_ne_nil (fun e : name.reverse = [] => h0 (List.reverse_eq_nil_iff.mp e))
    have hc : c ≠ 0x2F := fun e' => h (by rw [← List.mem_reverse, e]; simp [e'])
    rw [List.reverse_append, e, List.cons_append, List.dropWhile_cons_of_neg (by simpa using hc), ← List.cons_append, ← e, ← List.reverse_append,
      List.reverse_reverse]
  have b1 : baseName (dir ++ str "/" ++ name) = name := by
    unfold baseName
    rw [if_neg (by simp [h0])]
    dsimp only
    rw [hd, if_neg (by simp [h0]), hs, List.append_assoc]
    exact afterSlash_dir dir [] name h
  have b2 : baseName name = name := by
    unfold baseName
    have := hd []
    rw [List.nil_append] at this
    rw [if_neg h0]
    dsimp only
    rw [this, if_neg h0, afterSlash_plain _ _ h]
    rfl
  refine ⟨?_, str "Japanese Morphological Analyzer -- github.com/ikawaha/kagome/v2\n", ?_⟩
  · simp only [noteText, b1, b2]
  · simp only [noteText, b2, List.append_assoc]

example : noteText Toy.world.isPrint (str "/usr/local/bin/kagome") .mainUsage =
    str "Japanese Morphological Analyzer -- github.com/ikawaha/kagome/v2\nusage: kagome <command>\n" := by decide +kernel

/-- C61: what the README shows for `kagome -h` is what is shown, to the byte, and for every other command line that is refused without a
subcommand; wherever the program is. -/
theorem C61_readme (w : World) (hp : ∀ c, 0x20 ≤ c → c ≤ 0x7E → w.isPrint c = true) (dir : Bytes) {args : List Bytes}
    (h : ∀ name, args.head? = some name → name ∉ commandNames) (hf : ¬ ∃ o, TokenizeLine args o) {prog : Bytes}
    (hprog : prog = str "kagome" ∨ prog = dir ++ str "/" ++ str "kagome") :
    ∃ e, main w (prog :: args) = some e ∧ stderrText w.isPrint prog e.notes = readmeHelp ∧ e.out = [] ∧ e.files = [] ∧ e.served = none ∧ e.exit = 1 := by
  refine ⟨_, (C40_default w prog args h).2 hf, ?_, rfl, rfl, rfl, rfl⟩
  have hm : noteText w.isPrint prog .mainUsage = noteText (fun _ => true) (str "kagome") .mainUsage := by
    rcases hprog with rfl | rfl
    · rfl
    · rw [(C61_program w.isPrint dir (str "kagome") (by decide) (by decide)).1]; rfl
  simp only [stderrText, List.flatMap_cons, List.flatMap_nil]
  rw [hm]
  simp only [noteText, defaults_ascii w.isPrint hp]
  decide +kernel

example : (¬ ∃ o, TokenizeLine [str "-h"] o) ∧ (∀ name, [str "-h"].head? = some name → name ∉ commandNames) := by
  refine ⟨?_, by simp; decide⟩
  rintro ⟨o, ho⟩
  rw [← tok_parse_iff] at ho
  revert ho
  have : (Tok.parse [str "-h"]).isOk = false := by decide +kernel
  intro e; rw [e] at this; cases this

end Kagome
