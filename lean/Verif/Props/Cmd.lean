import Verif.Proof.Flag
import Verif.Example.Toy

/-! C44 and C40: the options of the commands, and which command runs. -/

namespace Kagome

open Spec

theorem tok_good : GoodNames tokenizeFlags := by constructor <;> decide +kernel
theorem lat_good : GoodNames latticeFlags := by constructor <;> decide +kernel
theorem srv_good : GoodNames serverFlags := by constructor <;> decide +kernel
theorem sen_good : GoodNames [(str "file", false)] := by constructor <;> decide +kernel

theorem modeText_iff (v : Bytes) : (∃ m, ModeText v m) ↔ ¬ (v ≠ [] ∧ v ≠ str "normal" ∧ v ≠ str "search" ∧ v ≠ str "extended") := by
  constructor
  · rintro ⟨m, h⟩ ⟨h1, h2, h3, h4⟩
    cases h <;> simp_all
  · intro h
    by_cases h1 : v = []
    · exact ⟨1, h1 ▸ .none⟩
    by_cases h2 : v = str "normal"
    · exact ⟨1, h2 ▸ .normal⟩
    by_cases h3 : v = str "search"
    · exact ⟨2, h3 ▸ .search⟩
    by_cases h4 : v = str "extended"
    · exact ⟨3, h4 ▸ .extended⟩
    exact absurd ⟨h1, h2, h3, h4⟩ h

theorem dictTexts_iff (v : Bytes) : v ∈ dictTexts ↔ ¬ (v ≠ [] ∧ v ≠ str "ipa" ∧ v ≠ str "uni") := by
  simp only [dictTexts, List.mem_cons, List.not_mem_nil, or_false]
  constructor
  · rintro (h | h | h) ⟨h1, h2, h3⟩ <;> contradiction
  · intro h
    by_cases h1 : v = []
    · exact Or.inl h1
    by_cases h2 : v = str "ipa"
    · exact Or.inr (Or.inl h2)
    by_cases h3 : v = str "uni"
    · exact Or.inr (Or.inr h3)
    exact absurd ⟨h1, h2, h3⟩ h

theorem tok_parse_iff (args : List Bytes) (o : Tok.Opts) : Tok.parse args = .ok o ↔ TokenizeLine args o := by
  have hf : Tok.flags = tokenizeFlags := rfl
  unfold Tok.parse
  rw [hf]
  constructor
  · intro h
    cases hp : parseFlags tokenizeFlags args with
    | error e => rw [hp] at h; cases h
    | ok r =>
      obtain ⟨sets, rest⟩ := r
      rw [hp] at h
      dsimp only at h
      have hl := (parseFlags_iff tok_good args sets rest).mp hp
      have hk := sets_kind hl
      split at h
      · cases h
      · rename_i hr
        have hr : rest = [] := List.length_eq_zero_iff.mp (by omega)
        subst hr
        split at h
        · cases h
        · rename_i hm
          split at h
          · cases h
          · rename_i hs
            cases h
            refine ⟨⟨sets, hl, ?_⟩, (modeText_iff _).mpr hm, (dictTexts_iff _).mpr hs⟩
            refine ⟨?_, ?_, ?_, ?_, ?_, ?_, ?_, ?_⟩ <;>
              first
              | exact (strFlag_value tok_good.once (by decide +kernel) _ hk _).mpr rfl
              | exact (boolFlag_value tok_good.once (by decide +kernel) _ hk _).mpr rfl
  · rintro ⟨⟨sets, hl, h1, h2, h3, h4, h5, h6, h7, h8⟩, hm, hs⟩
    have hk := sets_kind hl
    rw [(parseFlags_iff tok_good args sets []).mpr hl]
    dsimp only
    have e : Tok.bind sets = o := by
      have e1 := (strFlag_value tok_good.once (by decide +kernel) _ hk _).mp h1
      have e2 := (strFlag_value tok_good.once (by decide +kernel) _ hk _).mp h2
      have e3 := (strFlag_value tok_good.once (by decide +kernel) _ hk _).mp h3
      have e4 := (strFlag_value tok_good.once (by decide +kernel) _ hk _).mp h4
      have e5 := (boolFlag_value tok_good.once (by decide +kernel) _ hk _).mp h5
      have e6 := (strFlag_value tok_good.once (by decide +kernel) _ hk _).mp h6
      have e7 := (boolFlag_value tok_good.once (by decide +kernel) _ hk _).mp h7
      have e8 := (boolFlag_value tok_good.once (by decide +kernel) _ hk _).mp h8
      unfold Tok.bind
      rw [e1, e2, e3, e4, e5, e6, e7, e8]
    rw [e, if_neg (by simp), if_neg ((modeText_iff _).mp hm), if_neg ((dictTexts_iff _).mp hs)]

theorem lat_parse_iff (args : List Bytes) (o : Lat.Opts) : Lat.parse args = .ok o ↔ LatticeLine args o := by
  have hf : Lat.flags = latticeFlags := rfl
  unfold Lat.parse
  rw [hf]
  constructor
  · intro h
    cases hp : parseFlags latticeFlags args with
    | error e => rw [hp] at h; cases h
    | ok r =>
      obtain ⟨sets, rest⟩ := r
      rw [hp] at h
      dsimp only at h
      have hl := (parseFlags_iff lat_good args sets rest).mp hp
      have hk := sets_kind hl
      split at h
      · cases h
      · rename_i hr
        split at h
        · cases h
        · rename_i hs
          split at h
          · cases h
          · rename_i hm
            cases h
            refine ⟨⟨sets, rest, hl, fun e => hr (by rw [e]; rfl), rfl, ?_⟩, (modeText_iff _).mpr hm, (dictTexts_iff _).mpr hs⟩
            refine ⟨?_, ?_, ?_, ?_, ?_⟩ <;>
              first
              | exact (strFlag_value lat_good.once (by decide +kernel) _ hk _).mpr rfl
              | exact (boolFlag_value lat_good.once (by decide +kernel) _ hk _).mpr rfl
  · rintro ⟨⟨sets, rest, hl, hr, hi, h1, h2, h3, h4, h5⟩, hm, hs⟩
    have hk := sets_kind hl
    rw [(parseFlags_iff lat_good args sets rest).mpr hl]
    dsimp only
    have e : Lat.bind sets rest = o := by
      have e1 := (strFlag_value lat_good.once (by decide +kernel) _ hk _).mp h1
      have e2 := (strFlag_value lat_good.once (by decide +kernel) _ hk _).mp h2
      have e3 := (strFlag_value lat_good.once (by decide +kernel) _ hk _).mp h3
      have e4 := (strFlag_value lat_good.once (by decide +kernel) _ hk _).mp h4
      have e5 := (boolFlag_value lat_good.once (by decide +kernel) _ hk _).mp h5
      unfold Lat.bind
      rw [e1, e2, e3, e4, e5, ← hi]
    rw [e, if_neg (fun h => hr (List.length_eq_zero_iff.mp h)), if_neg ((dictTexts_iff _).mp hs), if_neg ((modeText_iff _).mp hm)]

theorem srv_parse_iff (args : List Bytes) (o : Srv.Opts) : Srv.parse args = .ok o ↔ ServerLine args o := by
  have hf : Srv.flags = serverFlags := rfl
  unfold Srv.parse
  rw [hf]
  constructor
  · intro h
    cases hp : parseFlags serverFlags args with
    | error e => rw [hp] at h; cases h
    | ok r =>
      obtain ⟨sets, rest⟩ := r
      rw [hp] at h
      dsimp only at h
      have hl := (parseFlags_iff srv_good args sets rest).mp hp
      have hk := sets_kind hl
      split at h
      · cases h
      · rename_i hr
        have hr : rest = [] := List.length_eq_zero_iff.mp (by omega)
        subst hr
        split at h
        · cases h
        · rename_i hs
          cases h
          refine ⟨⟨sets, hl, ?_⟩, (dictTexts_iff _).mpr hs⟩
          refine ⟨?_, ?_, ?_⟩ <;> exact (strFlag_value srv_good.once (by decide +kernel) _ hk _).mpr rfl
  · rintro ⟨⟨sets, hl, h1, h2, h3⟩, hs⟩
    have hk := sets_kind hl
    rw [(parseFlags_iff srv_good args sets []).mpr hl]
    dsimp only
    have e : Srv.bind sets = o := by
      have e1 := (strFlag_value srv_good.once (by decide +kernel) _ hk _).mp h1
      have e2 := (strFlag_value srv_good.once (by decide +kernel) _ hk _).mp h2
      have e3 := (strFlag_value srv_good.once (by decide +kernel) _ hk _).mp h3
      unfold Srv.bind
      rw [e1, e2, e3]
    rw [e, if_neg (by simp), if_neg ((dictTexts_iff _).mp hs)]

theorem sen_parse_iff (args : List Bytes) (file : Bytes) : Sen.parse args = .ok file ↔ SentenceLine args file := by
  unfold Sen.parse Sen.flags
  constructor
  · intro h
    cases hp : parseFlags [(str "file", false)] args with
    | error e => rw [hp] at h; cases h
    | ok r =>
      obtain ⟨sets, rest⟩ := r
      rw [hp] at h
      dsimp only at h
      have hl := (parseFlags_iff sen_good args sets rest).mp hp
      have hk := sets_kind hl
      split at h
      · cases h
      · rename_i hr
        have hr : rest = [] := List.length_eq_zero_iff.mp (by omega)
        subst hr
        cases h
        exact ⟨sets, hl, (strFlag_value sen_good.once (by decide +kernel) _ hk _).mpr rfl⟩
  · rintro ⟨sets, hl, h1⟩
    have hk := sets_kind hl
    rw [(parseFlags_iff sen_good args sets []).mpr hl]
    dsimp only
    rw [if_neg (by simp), (strFlag_value sen_good.once (by decide +kernel) _ hk _).mp h1]

theorem isOk_iff {ε α : Type} (e : Except ε α) : e.isOk = true ↔ ∃ a, e = .ok a := by
  cases e <;> simp [Except.isOk, Except.toBool]

/-! ### C44 -/

/-- C44, tokenize: `OptionCheck` accepts exactly the legal command lines; with an illegal one `Run` prints the usage and fails, with a
legal one it goes on with the options the command line gives. -/
theorem C44_tokenize (w : World) (args : List Bytes) :
    (Tok.optionCheck args = true ↔ ∃ o, TokenizeLine args o) ∧
    ((¬ ∃ o, TokenizeLine args o) → ∃ ns, Tok.run w args = some { notes := ns, err := some [] } ∧
      [Note.usage .tokenize, .defaults .tokenize] <:+ ns) ∧
    (∀ o, TokenizeLine args o → Tok.run w args = Tok.command w o) := by
  refine ⟨?_, ?_, ?_⟩
  · unfold Tok.optionCheck; rw [isOk_iff]; simp only [tok_parse_iff]
  · intro h
    unfold Tok.run
    cases hp : Tok.parse args with
    | ok o => exact absurd ⟨o, (tok_parse_iff args o).mp hp⟩ h
    | error e => exact ⟨_, rfl, List.suffix_append _ _⟩
  · intro o h
    unfold Tok.run
    rw [(tok_parse_iff args o).mpr h]

/-- C44, lattice. -/
theorem C44_lattice (w : World) (args : List Bytes) :
    (Lat.optionCheck args = true ↔ ∃ o, LatticeLine args o) ∧
    ((¬ ∃ o, LatticeLine args o) → ∃ ns e, Lat.run w args = some { notes := ns, err := some e } ∧
      [Note.usage .lattice, .defaults .lattice] <:+ ns) ∧
    (∀ o, LatticeLine args o → Lat.run w args = Lat.command w o) := by
  refine ⟨?_, ?_, ?_⟩
  · unfold Lat.optionCheck; rw [isOk_iff]; simp only [lat_parse_iff]
  · intro h
    unfold Lat.run
    cases hp : Lat.parse args with
    | ok o => exact absurd ⟨o, (lat_parse_iff args o).mp hp⟩ h
    | error e => exact ⟨_, _, rfl, List.suffix_append _ _⟩
  · intro o h
    unfold Lat.run
    rw [(lat_parse_iff args o).mpr h]

/-- C44, server. -/
theorem C44_server (w : World) (args : List Bytes) :
    (Srv.optionCheck args = true ↔ ∃ o, ServerLine args o) ∧
    ((¬ ∃ o, ServerLine args o) → ∃ ns e, Srv.run w args = some { notes := ns, err := some e } ∧
      [Note.usage .server, .defaults .server] <:+ ns) ∧
    (∀ o, ServerLine args o → Srv.run w args = Srv.command w o) := by
  refine ⟨?_, ?_, ?_⟩
  · unfold Srv.optionCheck; rw [isOk_iff]; simp only [srv_parse_iff]
  · intro h
    unfold Srv.run
    cases hp : Srv.parse args with
    | ok o => exact absurd ⟨o, (srv_parse_iff args o).mp hp⟩ h
    | error e => exact ⟨_, _, rfl, List.suffix_append _ _⟩
  · intro o h
    unfold Srv.run
    rw [(srv_parse_iff args o).mpr h]

/-- C44, sentence. -/
theorem C44_sentence (w : World) (args : List Bytes) :
    (Sen.optionCheck args = true ↔ ∃ f, SentenceLine args f) ∧
    ((¬ ∃ f, SentenceLine args f) → ∃ e, Sen.run w args = some { notes := [.usage .sentence, .defaults .sentence], err := some e }) ∧
    (∀ f, SentenceLine args f → Sen.run w args = Sen.command w f) := by
  refine ⟨?_, ?_, ?_⟩
  · unfold Sen.optionCheck; rw [isOk_iff]; simp only [sen_parse_iff]
  · intro h
    unfold Sen.run
    cases hp : Sen.parse args with
    | ok o => exact absurd ⟨o, (sen_parse_iff args o).mp hp⟩ h
    | error e => exact ⟨_, rfl⟩
  · intro o h
    unfold Sen.run
    rw [(sen_parse_iff args o).mpr h]

/-- C44: a command line gives one set of options. -/
theorem C44_unique {args : List Bytes} :
    (∀ {o o'}, TokenizeLine args o → TokenizeLine args o' → o = o') ∧ (∀ {o o'}, LatticeLine args o → LatticeLine args o' → o = o') ∧
    (∀ {o o'}, ServerLine args o → ServerLine args o' → o = o') ∧ (∀ {f f'}, SentenceLine args f → SentenceLine args f' → f = f') := by
  refine ⟨?_, ?_, ?_, ?_⟩ <;> intro o o' h h'
  · rw [← tok_parse_iff] at h h'; rw [h] at h'; cases h'; rfl
  · rw [← lat_parse_iff] at h h'; rw [h] at h'; cases h'; rfl
  · rw [← srv_parse_iff] at h h'; rw [h] at h'; cases h'; rfl
  · rw [← sen_parse_iff] at h h'; rw [h] at h'; cases h'; rfl

/-- C44: which dictionary tokenize takes. With legal options and no dictionary file, it fails exactly if the name is empty. -/
theorem C44_tokenize_dict (w : World) {args : List Bytes} {o : Tok.Opts} (h : TokenizeLine args o) :
    (o.dict = [] → ((∃ e, Tok.selectDict w o.dict o.sysdict o.simple = .error e) ↔ o.sysdict = [])) ∧
    (∀ d, Tok.selectDict w o.dict o.sysdict o.simple = .ok d ↔ ChosenDict w o d) := by
  have hs := h.sysdict
  have hne : str "uni" ≠ str "ipa" := by decide
  have hn1 : ([] : Bytes) ≠ str "ipa" := by decide
  have hn2 : ([] : Bytes) ≠ str "uni" := by decide
  simp only [dictTexts, List.mem_cons, List.not_mem_nil, or_false] at hs
  unfold Tok.selectDict
  constructor
  · intro hd
    rw [if_neg (by simp [hd])]
    rcases hs with hs | hs | hs
    · rw [hs, if_neg hn1, if_neg hn2]; exact ⟨fun _ => rfl, fun _ => ⟨_, rfl⟩⟩
    · rw [hs, if_pos rfl]; exact ⟨fun ⟨_, h⟩ => (by cases h), fun h => absurd h.symm hn1⟩
    · rw [hs, if_neg hne, if_pos rfl]; exact ⟨fun ⟨_, h⟩ => (by cases h), fun h => absurd h.symm hn2⟩
  · intro d
    constructor
    · intro h
      split at h
      · rename_i hd
        split at h
        · rename_i hsim; exact .shrunkFile hd hsim h
        · rename_i hsim; exact .file hd (by simpa using hsim) h
      · rename_i hd
        have hd : o.dict = [] := by simpa using hd
        split at h
        · rename_i hi
          cases h
          cases hsim : o.simple
          · exact .ipa hd hi hsim
          · exact .ipaShrink hd hi hsim
        · split at h
          · rename_i hi
            cases h
            cases hsim : o.simple
            · exact .uni hd hi hsim
            · exact .uniShrink hd hi hsim
          · cases h
    · intro h
      cases h with
      | file hd hsim hl => rw [if_pos hd, hsim]; exact hl
      | shrunkFile hd hsim hl => rw [if_pos hd, hsim]; exact hl
      | ipa hd hi hsim => rw [if_neg (by simp [hd]), if_pos hi, hsim]; rfl
      | ipaShrink hd hi hsim => rw [if_neg (by simp [hd]), if_pos hi, hsim]; rfl
      | uni hd hi hsim => rw [if_neg (by simp [hd]), hi, if_neg hne, if_pos rfl, hsim]; rfl
      | uniShrink hd hi hsim => rw [if_neg (by simp [hd]), hi, if_neg hne, if_pos rfl, hsim]; rfl

/-- C44: such a command line gets past the option check and fails for the missing name. -/
theorem C44_empty_name (w : World) {args : List Bytes} {o : Tok.Opts} (h : TokenizeLine args o) (hd : o.dict = []) (hs : o.sysdict = []) :
    Tok.optionCheck args = true ∧ Tok.run w args = some { err := some (str "unknown dict type, ") } := by
  obtain ⟨h1, _, h3⟩ := C44_tokenize w args
  refine ⟨h1.mpr ⟨o, h⟩, ?_⟩
  rw [h3 o h]
  unfold Tok.command Tok.selectDict
  rw [if_neg (by simp [hd]), hs, if_neg (by decide), if_neg (by decide)]
  simp

/-- C44: lattice and server know the same names; both fail on the empty one. -/
theorem C44_other_dict (w : World) (name : Bytes) :
    (name = [] → selectDict w name = .error (str "unknown name type, ")) ∧
    (name = str "ipa" → selectDict w name = .ok w.ipa) ∧ (name = str "uni" → selectDict w name = .ok w.uni) := by
  refine ⟨?_, ?_, ?_⟩ <;> rintro rfl <;> unfold selectDict
  · rw [if_neg (by decide), if_neg (by decide)]; simp
  · rw [if_pos rfl]
  · rw [if_neg (by decide), if_pos rfl]

/-! A command line with flags of every form. -/
def sampleLine : List Bytes := [str "-mode", str "search", str "--sysdict=uni", str "-json", str "--split=F", str "-file", str "a.txt"]

def sampleOpts : Tok.Opts := ⟨str "a.txt", [], [], str "uni", false, str "search", false, true⟩

theorem sampleLine_ok : TokenizeLine sampleLine sampleOpts := by
  rw [← tok_parse_iff]
  have h : (match Tok.parse sampleLine with | .ok o => decide (o = sampleOpts) | .error _ => false) = true := by decide +kernel
  split at h
  · rename_i e; rw [e, of_decide_eq_true h]
  · cases h

example : TokenizeLine [] ⟨[], [], [], str "ipa", false, str "normal", false, false⟩ := by rw [← tok_parse_iff]; rfl
example : ¬ ∃ o, TokenizeLine [str "-mode", str "fast"] o := by
  rw [← (C44_tokenize ⟨fun _ => false, true, Toy.dict, Toy.dict, Toy.dict, Toy.dict, fun _ => .error [], fun _ => .error [],
    fun _ => .error [], fun _ => .error [], ⟨[], none⟩, fun _ => none, fun _ => [], fun _ => none, [], none, fun _ => true⟩ _).1]
  decide +kernel
example : LatticeLine [str "-v", str "a", str "-mode"] ⟨[], str "ipa", str "normal", [], true, str "a -mode"⟩ := by
  rw [← lat_parse_iff]; rfl
example : ServerLine [str "-http=:80", str "--"] ⟨str ":80", str "ipa", []⟩ := by rw [← srv_parse_iff]; rfl
example : SentenceLine [str "-file", str "-file"] (str "-file") := by rw [← sen_parse_iff]; rfl

/-! ### C40 -/

theorem findRun_spec (w : World) (name : Bytes) :
    findRun name (subcommands w) none =
      if name = str "version" then some (runVersion w) else if name = str "sentence" then some (Sen.run w)
      else if name = str "lattice" then some (Lat.run w) else if name = str "server" then some (Srv.run w)
      else if name = str "tokenize" then some (Tok.run w) else none := rfl

/-- C40: the name of a subcommand in front of its arguments. -/
theorem C40_named (w : World) (prog : Bytes) (args : List Bytes) :
    main w (prog :: str "tokenize" :: args) = (Tok.run w args).map finish ∧
    main w (prog :: str "server" :: args) = (Srv.run w args).map finish ∧
    main w (prog :: str "lattice" :: args) = (Lat.run w args).map finish ∧
    main w (prog :: str "sentence" :: args) = (Sen.run w args).map finish ∧
    main w (prog :: str "version" :: args) = some ⟨[], showVersion w, [], none, 0⟩ := by
  refine ⟨?_, ?_, ?_, ?_, ?_⟩ <;> (unfold main; simp only [findRun_spec])
  · rw [if_neg (by decide), if_neg (by decide), if_neg (by decide), if_neg (by decide), if_pos trivial]; rfl
  · rw [if_neg (by decide), if_neg (by decide), if_neg (by decide), if_pos trivial]; rfl
  · rw [if_neg (by decide), if_neg (by decide), if_pos trivial]; rfl
  · rw [if_neg (by decide), if_pos trivial]; rfl
  · rw [if_pos trivial]; rfl

/-- The names of the subcommands. -/
def commandNames : List Bytes := [str "tokenize", str "server", str "lattice", str "sentence", str "version"]

/-- C40: without such a name all arguments are options of tokenize; if they are not legal the usage is printed. -/
theorem C40_default (w : World) (prog : Bytes) (args : List Bytes) (h : ∀ name, args.head? = some name → name ∉ commandNames) :
    (∀ o, TokenizeLine args o → main w (prog :: args) = (Tok.command w o).map finish) ∧
    ((¬ ∃ o, TokenizeLine args o) →
      main w (prog :: args) = some ⟨[], [.mainUsage, .commands, .blank, .usage .tokenize, .defaults .tokenize], [], none, 1⟩) := by
  have hm : main w (prog :: args) = if Tok.optionCheck args = false then
        some ⟨[], [.mainUsage, .commands, .blank, .usage .tokenize, .defaults .tokenize], [], none, 1⟩
      else (Tok.run w args).map finish := by
    unfold main
    cases args with
    | nil => rfl
    | cons name as =>
      have hn := h name rfl
      simp only [commandNames, List.mem_cons, List.not_mem_nil, or_false, not_or] at hn
      obtain ⟨h1, h2, h3, h4, h5⟩ := hn
      simp only [findRun_spec]
      rw [if_neg h5, if_neg h4, if_neg h3, if_neg h2, if_neg h1]
  obtain ⟨hc, _, hrun⟩ := C44_tokenize w args
  constructor
  · intro o ho
    rw [hm, if_neg (by rw [hc.mpr ⟨o, ho⟩]; decide), hrun o ho]
  · intro ho
    rw [hm, if_pos]
    exact Bool.eq_false_iff.mpr (fun e => ho (hc.mp e))

/-- C40: the exit status is 0 or 1; 0 exactly if the command returned no error. -/
theorem C40_status (r : Ran) : ((finish r).exit = 0 ↔ r.err = none) ∧ ((finish r).exit = 0 ∨ (finish r).exit = 1) ∧
    (finish r).out = r.out ∧ r.notes <+: (finish r).notes ∧ (finish r).files = r.files ∧ (finish r).served = r.served := by
  unfold finish
  cases r.err <;> simp

example : ∀ name, sampleLine.head? = some name → name ∉ commandNames := by
  intro name h; cases h; decide +kernel

end Kagome
