import Verif.Proof.Sink
import Verif.Props.Failure
import Verif.Props.Json

/-!
C70: "exit status 0 means that everything was printed". It is so if nothing gets lost (`C70_room_partial`). If something does, nobody is told: the
errors of `Write` are dropped everywhere, and neither the exit status nor stderr depends on what arrived (`C70_silent`, `C70_lost`). What does arrive is,
of each text (`tokenize`), sentence (`sentence`) or line of the graph (`lattice`), the whole or its beginning.
-/

namespace Kagome

open Spec

theorem tokenWrites_spec (v : Token) : Tok.printToken v = (Tok.tokenWrites v).map List.flatten := by
  unfold Tok.printToken Tok.tokenWrites
  by_cases h1 : v.id = bosEosID
  · rw [if_pos h1, if_pos h1]; rfl
  · rw [if_neg h1, if_neg h1]
    by_cases h2 : v.cls ≠ .dummy
    · rw [if_pos h2, if_pos h2, Option.map_map]
      congr 1
      funext fs
      simp
    · rw [if_neg h2, if_neg h2]; simp

theorem loopWrites_spec (toks : List Token) : Tok.printLoop toks = (Tok.loopWrites toks).map List.flatten := by
  induction toks with
  | nil => rfl
  | cons v ts ih =>
    unfold Tok.printLoop Tok.loopWrites
    rw [tokenWrites_spec, ih]
    cases Tok.tokenWrites v with
    | none => rfl
    | some ps => cases Tok.loopWrites ts <;> simp

/-- What `printTokens` gives to its writer is what it prints. -/
theorem printTokensTo_spec (s : Sink) (toks : List Token) :
    (Tok.printTokens toks = none → Tok.printTokensTo s toks = none) ∧
    ∀ out, Tok.printTokens toks = some out → ∃ ps, ps.flatten = out ∧ Tok.printTokensTo s toks = some (s.printBuffered ps) := by
  unfold Tok.printTokens Tok.printTokensTo
  rw [loopWrites_spec]
  cases h : Tok.loopWrites toks with
  | none => exact ⟨fun _ => rfl, fun out ho => by cases ho⟩
  | some ps =>
    refine ⟨(fun ho => by cases ho), fun out ho => ⟨ps ++ [str "EOS\n"], ?_, rfl⟩⟩
    simp only [Option.map_some, Option.some.injEq] at ho
    rw [← ho]; simp

theorem printTokensJSONTo_spec (w : World) (s : Sink) (toks : List Token) :
    (Tok.printTokensJSON w toks = none → Tok.printTokensJSONTo w s toks = none) ∧
    ∀ out, Tok.printTokensJSON w toks = some out → ∃ ps, ps.flatten = out ∧ Tok.printTokensJSONTo w s toks = some (s.printBuffered ps) := by
  unfold Tok.printTokensJSON Tok.printTokensJSONTo
  cases h : Tok.jsonLoop w toks with
  | none => exact ⟨fun _ => rfl, fun out ho => by cases ho⟩
  | some array =>
    refine ⟨(fun ho => by cases ho), fun out ho => ⟨_, ?_, rfl⟩⟩
    simp only [Option.map_some, Option.some.injEq] at ho
    rw [← ho]
    by_cases hl : toks.length > 0
    · rw [if_pos hl, if_pos hl, if_pos hl, if_pos hl]; simp
    · rw [if_neg hl, if_neg hl, if_neg hl, if_neg hl]; simp

/-- What `tokenize` prints for one text. -/
def printedFor (w : World) (t : Tokenizer) (mode : Int) (json : Bool) (text out : Bytes) : Prop :=
  ∃ toks, analyze t w.ideo text mode = some toks ∧ (if json then Tok.printTokensJSON w toks else Tok.printTokens toks) = some out

/-- The loop over the texts, with an output of any kind. -/
theorem lineLoopTo_spec (w : World) (t : Tokenizer) (mode : Int) (json : Bool) (texts : List Bytes) (s : Sink) :
    (Tok.lineLoop w t mode json texts = none → Tok.lineLoopTo w t mode json s texts = none) ∧
    ∀ out, Tok.lineLoop w t mode json texts = some out →
      ∃ (outs parts : List Bytes) (s' : Sink), Tok.lineLoopTo w t mode json s texts = some s' ∧ outs.flatten = out ∧
        s'.got = s.got ++ parts.flatten ∧ CutParts parts outs ∧ ForEach (printedFor w t mode json) texts outs ∧
        (Unlimited s.room → parts = outs) := by
  induction texts generalizing s with
  | nil =>
    refine ⟨(fun h => by cases h), fun out h => ⟨[], [], s, rfl, ?_, by simp, trivial, trivial, fun _ => rfl⟩⟩
    cases h; rfl
  | cons l ls ih =>
    unfold Tok.lineLoop Tok.lineLoopTo
    cases ha : analyze t w.ideo l mode with
    | none => exact ⟨fun _ => rfl, fun out h => by cases h⟩
    | some toks =>
      have hp : ((if json then Tok.printTokensJSON w toks else Tok.printTokens toks) = none →
            (if json then Tok.printTokensJSONTo w s toks else Tok.printTokensTo s toks) = none) ∧
          ∀ out, (if json then Tok.printTokensJSON w toks else Tok.printTokens toks) = some out →
            ∃ ps, ps.flatten = out ∧ (if json then Tok.printTokensJSONTo w s toks else Tok.printTokensTo s toks) = some (s.printBuffered ps) := by
        cases json with
        | true => simpa using printTokensJSONTo_spec w s toks
        | false => simpa using printTokensTo_spec s toks
      simp only []
      cases hq : (if json then Tok.printTokensJSON w toks else Tok.printTokens toks) with
      | none => rw [hp.1 hq]; exact ⟨fun _ => rfl, fun out h => by cases h⟩
      | some o =>
        obtain ⟨ps, h1, h2⟩ := hp.2 o hq
        rw [h2]
        simp only []
        obtain ⟨hr, part, g1, g2, g3⟩ := printBuffered_spec s ps
        obtain ⟨ih1, ih2⟩ := ih (s.printBuffered ps)
        cases hrest : Tok.lineLoop w t mode json ls with
        | none => exact ⟨fun _ => ih1 hrest, fun out h => by cases h⟩
        | some rest =>
          refine ⟨(fun h => by cases h), fun out h => ?_⟩
          obtain ⟨outs, parts, s', k1, k2, k3, k4, k5, k6⟩ := ih2 rest hrest
          simp only [Option.map_some, Option.some.injEq] at h
          refine ⟨o :: outs, part :: parts, s', k1, ?_, ?_, ⟨by rw [← h1]; exact g2, k4⟩, ⟨⟨toks, ha, hq⟩, k5⟩, fun hu => ?_⟩
          · rw [← h, ← k2]; simp
          · rw [k3, g1]; simp
          · rw [k6 (by rw [hr]; exact hu), g3 hu, h1]

theorem forEach_imp {P Q : Bytes → Bytes → Prop} (h : ∀ a b, P a b → Q a b) {xs ys : List Bytes} (hf : ForEach P xs ys) : ForEach Q xs ys := by
  induction xs generalizing ys with
  | nil => cases ys with
    | nil => trivial
    | cons _ _ => exact hf.elim
  | cons x xs ih => cases ys with
    | nil => exact hf.elim
    | cons y ys => exact ⟨h _ _ hf.1, ih hf.2⟩

/-- How the result of a command changes with its output. -/
def sameButOutput (r r' : Ran) : Prop := r'.notes = r.notes ∧ r'.served = r.served ∧ r'.err = r.err ∧ r'.files.map (·.1) = r.files.map (·.1)

/-- Two runs: both panic, or they differ in what they have written only; not even in that, if nothing gets lost. -/
def Alike (room : Nat → Option Nat) (a b : Option Ran) : Prop :=
  match a, b with
  | none, none => True
  | some r, some r' => sameButOutput r r' ∧ (Unlimited room → r' = r)
  | _, _ => False

theorem alike_refl (room : Nat → Option Nat) (a : Option Ran) : Alike room a a := by
  cases a with
  | none => trivial
  | some r => exact ⟨⟨rfl, rfl, rfl, rfl⟩, fun _ => rfl⟩

theorem tokenize_alike (w : World) (room : Nat → Option Nat) (args : List Bytes) : Alike room (Tok.run w args) (Tok.runTo w room args) := by
  unfold Tok.run Tok.runTo
  cases Tok.parse args with
  | error e => exact alike_refl _ _
  | ok o =>
    simp only []
    unfold Tok.command Tok.commandTo
    cases Tok.selectDict w o.dict o.sysdict o.simple with
    | error e => exact alike_refl _ _
    | ok d =>
      simp only []
      cases setUp w d o.udict with
      | error e => exact alike_refl _ _
      | ok t =>
        simp only []
        cases (if o.file ≠ [] then w.openFile o.file else .ok w.stdin) with
        | error e => exact alike_refl _ _
        | ok src =>
          simp only []
          cases scanAll (if o.split then defaultSplitter.scanSentences else scanLines) src.reads with
          | none => exact alike_refl _ _
          | some r =>
            obtain ⟨texts, ending⟩ := r
            simp only []
            obtain ⟨h1, h2⟩ := lineLoopTo_spec w t (Tok.selectMode o.mode) o.json texts (newSink room)
            cases hl : Tok.lineLoop w t (Tok.selectMode o.mode) o.json texts with
            | none => rw [h1 hl]; trivial
            | some out =>
              obtain ⟨outs, parts, s', k1, k2, k3, k4, k5, k6⟩ := h2 out hl
              rw [k1]
              refine ⟨⟨rfl, rfl, rfl, rfl⟩, fun hu => ?_⟩
              have : s'.got = out := by rw [k3, k6 hu, k2]; rfl
              simp only [this]

theorem dotWrites_flatten {π : Type} (addr : π → Bytes) (g : GraphOf π) : (dotWrites addr g).flatten = dotText addr g := by
  unfold dotWrites dotText dotHead
  simp [List.flatMap]

theorem lattice_alike (w : World) (room : Nat → Option Nat) (args : List Bytes) : Alike room (Lat.run w args) (Lat.runTo w room args) := by
  unfold Lat.run Lat.runTo
  cases Lat.parse args with
  | error e => exact alike_refl _ _
  | ok o =>
    simp only []
    unfold Lat.command Lat.commandTo
    cases selectDict w o.dict with
    | error e => exact alike_refl _ _
    | ok d =>
      simp only []
      cases setUp w d o.udict with
      | error e => exact alike_refl _ _
      | ok t =>
        simp only []
        cases (if o.output ≠ [] then w.createError o.output else none) with
        | some e => exact alike_refl _ _
        | none =>
          simp only []
          cases analyzeGraph t w.ideo o.input (Lat.selectMode o.mode) with
          | none => exact alike_refl _ _
          | some toks =>
            cases exportGraph t w.ideo o.input (Lat.selectMode o.mode) with
            | none => exact alike_refl _ _
            | some g =>
              simp only []
              cases (if o.verbose then Lat.verboseLoop (toks.drop 1) else some []) with
              | none => exact alike_refl _ _
              | some notes =>
                obtain ⟨parts, h1, h2, h3⟩ := print_parts (dotWrites w.addr g) (newSink room)
                refine ⟨⟨rfl, rfl, rfl, ?_⟩, fun hu => ?_⟩
                · simp only []
                  by_cases ho : o.output ≠ []
                  · rw [if_pos ho, if_pos ho]; rfl
                  · rw [if_neg ho, if_neg ho]
                · have : ((newSink room).print (dotWrites w.addr g)).got = dotText w.addr g := by
                    rw [h1, h3 hu, dotWrites_flatten]; rfl
                  simp only [this]

theorem sentence_alike (w : World) (room : Nat → Option Nat) (args : List Bytes) : Alike room (Sen.run w args) (Sen.runTo w room args) := by
  unfold Sen.run Sen.runTo
  cases Sen.parse args with
  | error e => exact alike_refl _ _
  | ok f =>
    simp only []
    unfold Sen.command Sen.commandTo
    cases (if f ≠ [] then w.openFile f else .ok w.stdin) with
    | error e => exact alike_refl _ _
    | ok src =>
      simp only []
      cases scanAll defaultSplitter.scanSentences src.reads with
      | none => trivial
      | some r =>
        obtain ⟨parts, h1, h2, h3⟩ := print_parts (r.1.map (· ++ str "\n")) (newSink room)
        refine ⟨⟨rfl, rfl, rfl, rfl⟩, fun hu => ?_⟩
        have : ((newSink room).print (r.1.map (· ++ str "\n"))).got = r.1.flatMap (· ++ str "\n") := by
          rw [h1, h3 hu]; simp [newSink, List.flatMap]
        simp only [this]

theorem findRunTo_spec (w : World) (room : Nat → Option Nat) (name : Bytes) :
    findRun name (subcommandsTo w room) none =
      if name = str "version" then some (runVersion w) else if name = str "sentence" then some (Sen.runTo w room)
      else if name = str "lattice" then some (Lat.runTo w room) else if name = str "server" then some (Srv.run w)
      else if name = str "tokenize" then some (Tok.runTo w room) else none := rfl

/-- `main`, with an output of any kind: the same, up to what has been written. -/
theorem main_alike (w : World) (room : Nat → Option Nat) (args : List Bytes) :
    (main w args = none ∧ mainTo w room args = none) ∨
    ∃ e e', main w args = some e ∧ mainTo w room args = some e' ∧ seenOutside e' = seenOutside e ∧ (Unlimited room → e' = e) := by
  have key : ∀ {a b : Option Ran}, Alike room a b → (a.map finish = none ∧ b.map finish = none) ∨
      ∃ e e', a.map finish = some e ∧ b.map finish = some e' ∧ seenOutside e' = seenOutside e ∧ (Unlimited room → e' = e) := by
    intro a b h
    cases a with
    | none => cases b with
      | none => exact .inl ⟨rfl, rfl⟩
      | some _ => exact h.elim
    | some r => cases b with
      | none => exact h.elim
      | some r' =>
        obtain ⟨⟨h1, h2, h3, h4⟩, h5⟩ := h
        refine .inr ⟨_, _, rfl, rfl, ?_, fun hu => by rw [h5 hu]⟩
        unfold finish
        rw [h3]
        cases r.err <;> simp [seenOutside, h1, h2, h4]
  unfold main mainTo
  match args with
  | [] => exact .inl ⟨rfl, rfl⟩
  | [prog] =>
    simp only []
    by_cases ho : Tok.optionCheck [] = false
    · rw [if_pos ho, if_pos ho]; exact .inr ⟨_, _, rfl, rfl, rfl, fun _ => rfl⟩
    · rw [if_neg ho, if_neg ho]; exact key (tokenize_alike w room [])
  | prog :: name :: rest =>
    simp only [findRun_spec, findRunTo_spec]
    by_cases h1 : name = str "version"
    · rw [if_pos h1, if_pos h1]; exact key (alike_refl _ _)
    rw [if_neg h1, if_neg h1]
    by_cases h2 : name = str "sentence"
    · rw [if_pos h2, if_pos h2]; exact key (sentence_alike _ _ _)
    rw [if_neg h2, if_neg h2]
    by_cases h3 : name = str "lattice"
    · rw [if_pos h3, if_pos h3]; exact key (lattice_alike _ _ _)
    rw [if_neg h3, if_neg h3]
    by_cases h4 : name = str "server"
    · rw [if_pos h4, if_pos h4]; exact key (alike_refl _ _)
    rw [if_neg h4, if_neg h4]
    by_cases h5 : name = str "tokenize"
    · rw [if_pos h5, if_pos h5]; exact key (tokenize_alike _ _ _)
    rw [if_neg h5, if_neg h5]
    simp only []
    by_cases ho : Tok.optionCheck (name :: rest) = false
    · rw [if_pos ho, if_pos ho]; exact .inr ⟨_, _, rfl, rfl, rfl, fun _ => rfl⟩
    · rw [if_neg ho, if_neg ho]; exact key (tokenize_alike w room _)

/-- C70, as far as it holds: if nothing gets lost, the process leaves what the other theorems about the commands say. What is missing: if something gets
lost the exit status should not be 0. -/
theorem C70_room_partial (w : World) {room : Nat → Option Nat} (h : Unlimited room) (args : List Bytes) : mainTo w room args = main w args := by
  rcases main_alike w room args with ⟨h1, h2⟩ | ⟨e, e', h1, h2, _, h3⟩
  · rw [h1, h2]
  · rw [h1, h2, h3 h]

/-- C70: whatever gets lost, the exit status and stderr are those of a run in which nothing does. -/
theorem C70_silent (w : World) (room : Nat → Option Nat) (args : List Bytes) :
    (mainTo w room args).map seenOutside = (main w args).map seenOutside := by
  rcases main_alike w room args with ⟨h1, h2⟩ | ⟨e, e', h1, h2, h3, _⟩
  · rw [h1, h2]
  · rw [h1, h2, Option.map_some, Option.map_some, h3]

/-- C70, `tokenize`: of what is to be printed for each text, the whole or the beginning arrives, in order. -/
theorem C70_tokenize (w : World) (room : Nat → Option Nat) {args : List Bytes} {o : Tok.Opts} {m : Int} {t : Tokenizer} {src : Source}
    (hl : TokenizeLine args o) (hm : ModeText o.mode m) (ht : ChosenTokenizer w o t) (hi : ChosenInput w o src)
    (wf : WellFormed t.dict t.userDict) (tab : FeatureTables t.dict) {texts : List Bytes} {ending : ScanEnd}
    (hs : scanAll (if o.split then defaultSplitter.scanSentences else scanLines) src.reads = some (texts, ending)) :
    ∃ outs parts : List Bytes, Tok.run w args = some { out := outs.flatten, err := scanError src ending } ∧
      Tok.runTo w room args = some { out := parts.flatten, err := scanError src ending } ∧ CutParts parts outs ∧
      ForEach (fun text out => ∃ toks, analyze t w.ideo text m = some toks ∧ if o.json then JsonText toks out else PlainText toks out) texts outs := by
  have hrun : ∃ out, Tok.run w args = some { out := out, err := scanError src ending } := by
    cases hj : o.json with
    | true => obtain ⟨outs, h, _⟩ := C42_command w hl hm ht hi wf tab hj hs; exact ⟨_, h⟩
    | false => obtain ⟨outs, h, _⟩ := C41_texts w hl hm ht hi wf tab hj hs; exact ⟨_, h⟩
  obtain ⟨out, hrun⟩ := hrun
  have hloop : Tok.lineLoop w t m o.json texts = some out := by
    have := tokenize_run w hl hm ht hi hs
    rw [hrun] at this
    cases hll : Tok.lineLoop w t m o.json texts with
    | none => rw [hll] at this; cases this
    | some x => rw [hll] at this; cases this; rfl
  obtain ⟨outs, parts, s', k1, k2, k3, k4, k5, _⟩ := (lineLoopTo_spec w t m o.json texts (newSink room)).2 out hloop
  refine ⟨outs, parts, by rw [k2]; exact hrun, ?_, k4, forEach_imp ?_ k5⟩
  · have hp : Tok.parse args = .ok o := (tok_parse_iff args o).mpr hl
    unfold Tok.runTo
    rw [hp]
    simp only []
    obtain ⟨d, hd, hsu⟩ := setUp_chosen ht
    have hin : (if o.file ≠ [] then w.openFile o.file else .ok w.stdin) = .ok src := by
      cases hi with
      | stdin h => rw [if_neg (by simp [h])]
      | file h hf => rw [if_pos h, hf]
    unfold Tok.commandTo
    rw [((C44_tokenize_dict w hl).2 d).mpr hd]
    simp only [hsu, hin, hs, mode_of_text hm, k1, Option.map_some, k3]
    rfl
  · rintro text o' ⟨toks, ha, hp⟩
    refine ⟨toks, ha, ?_⟩
    have ho : t.omitBosEos = false := by cases ht <;> rfl
    cases hj : o.json with
    | true =>
      rw [hj, if_pos rfl] at hp
      obtain ⟨out', ds, q1, q2, q3⟩ := printTokensJSON_spec w (analyze_ne_nil wf ho ha) (fun tok => analyze_inRange wf tab ha)
      rw [hp] at q1; cases q1
      rw [if_pos rfl]
      exact ⟨ds, q2, q3⟩
    | false =>
      rw [hj, if_neg (by simp)] at hp
      obtain ⟨out', q1, q2⟩ := printTokens_spec (fun tok => analyze_inRange wf tab ha)
      rw [hp] at q1; cases q1
      rw [if_neg (by simp)]
      exact q2

/-- C70, `sentence`: of each sentence with its line feed, the whole or the beginning arrives, in order. -/
theorem C70_sentence (w : World) (room : Nat → Option Nat) {args : List Bytes} {file : Bytes} {src : Source} (hl : SentenceLine args file)
    (hi : SentenceInput w file src) :
    ∃ (sents : List Bytes) (ending : ScanEnd) (parts : List Bytes), scanAll defaultSplitter.scanSentences src.reads = some (sents, ending) ∧
      Sen.runTo w room args = some { out := parts.flatten, err := scanError src ending } ∧ CutParts parts (sents.map (· ++ str "\n")) := by
  obtain ⟨sents, ending, hs⟩ := C35_scan_ends defaultSplitter src.reads
  obtain ⟨parts, h1, h2, _⟩ := print_parts (sents.map (· ++ str "\n")) (newSink room)
  refine ⟨sents, ending, parts, hs, ?_, h2⟩
  have hp : Sen.parse args = .ok file := (sen_parse_iff args file).mpr hl
  have hin : (if file ≠ [] then w.openFile file else .ok w.stdin) = .ok src := by
    cases hi with
    | stdin h => rw [if_neg (by simp [h])]
    | file h hf => rw [if_pos h, hf]
  unfold Sen.runTo
  rw [hp]
  simp only []
  unfold Sen.commandTo
  rw [hin]
  simp only [hs, Option.map_some, h1]
  rfl

/-- C70, `lattice`: of each line of the graph, the whole or the beginning arrives, in order; in the file, if one is named. -/
theorem C70_lattice (w : World) (room : Nat → Option Nat) {args : List Bytes} {o : Lat.Opts} {m : Int} {t : Tokenizer} (hl : LatticeLine args o)
    (hm : ModeText o.mode m) (ht : NamedTokenizer w o.dict o.udict t) (wf : WellFormed t.dict t.userDict)
    (pt : PosTables t.dict t.userDict) (tab : FeatureTables t.dict) (hc : o.output ≠ [] → w.createError o.output = none) :
    ∃ (g : Graph) (lines parts : List Bytes), exportGraph t w.ideo o.input m = some g ∧ lines.flatten = dotText w.addr g ∧
      lines.length = g.nodes.length + g.edges.length + 6 ∧ CutParts parts lines ∧
      ∃ r, Lat.runTo w room args = some r ∧ r.err = none ∧ (o.output = [] → r.out = parts.flatten ∧ r.files = []) ∧
        (o.output ≠ [] → r.out = [] ∧ r.files = [(o.output, parts.flatten)]) := by
  obtain ⟨g, hg, h1, h2⟩ := C48_graph w hl hm ht wf pt tab
  obtain ⟨parts, k1, k2, _⟩ := print_parts (dotWrites w.addr g) (newSink room)
  refine ⟨g, dotWrites w.addr g, parts, hg, dotWrites_flatten _ _, ?_, k2, ?_⟩
  · unfold dotWrites; simp; omega
  have hal := lattice_alike w room args
  have hrun : ∃ r, Lat.run w args = some r ∧ r.err = none := by
    by_cases ho : o.output = []
    · obtain ⟨notes, h⟩ := h1 ho; exact ⟨_, h, rfl⟩
    · obtain ⟨notes, h⟩ := h2 ho (hc ho); exact ⟨_, h, rfl⟩
  obtain ⟨r0, hr0, he0⟩ := hrun
  rw [hr0] at hal
  cases hto : Lat.runTo w room args with
  | none => rw [hto] at hal; exact hal.elim
  | some r =>
    rw [hto] at hal
    refine ⟨r, rfl, by rw [hal.1.2.2.1, he0], ?_⟩
    have hp : Lat.parse args = .ok o := (lat_parse_iff args o).mpr hl
    obtain ⟨d, hd, hsu⟩ := setUp_named ht
    have hmode : Lat.selectMode o.mode = m := mode_of_text hm
    have hcr : (if o.output ≠ [] then w.createError o.output else none) = none := by
      by_cases ho : o.output ≠ []
      · rw [if_pos ho]; exact hc ho
      · rw [if_neg ho]
    unfold Lat.runTo at hto
    rw [hp] at hto
    simp only [] at hto
    unfold Lat.commandTo at hto
    rw [hd] at hto
    simp only [hsu, hcr, hmode, hg] at hto
    cases hag : analyzeGraph t w.ideo o.input m with
    | none => rw [hag] at hto; cases hto
    | some toks =>
      rw [hag] at hto
      simp only [] at hto
      cases hv : (if o.verbose then Lat.verboseLoop (toks.drop 1) else some []) with
      | none => rw [hv] at hto; cases hto
      | some notes =>
        rw [hv] at hto
        simp only [Option.some.injEq] at hto
        subst hto
        have hgot : ((newSink room).print (dotWrites w.addr g)).got = parts.flatten := by rw [k1]; rfl
        simp only [hgot]
        exact ⟨fun ho => by simp [ho], fun ho => by simp [ho]⟩

/-- A disk that is full. -/
def fullDisk : Nat → Option Nat := fun _ => some 0

/-- A disk that is full for a while: the first write stops after ten bytes. -/
def shortOnce : Nat → Option Nat := fun i => if i = 0 then some 10 else none

/-- C70 does not hold: on a full disk `tokenize`, `sentence` and `lattice` write nothing, say nothing and exit with status 0, although they had something to
write. The file that `lattice` was to write the graph to is empty. -/
theorem C70_lost :
    mainTo Toy.world fullDisk [str "kagome", str "-mode=search"] = some ⟨[], [], [], none, 0⟩ ∧
    ((main Toy.world [str "kagome", str "-mode=search"]).map fun e => (e.out, e.exit)) =
      some (str "すもも\t名詞,すもも\nEOS\nの\t助詞,連体化,の\nEOS\n", 0) ∧
    mainTo Toy.world fullDisk [str "kagome", str "sentence"] = some ⟨[], [], [], none, 0⟩ ∧
    ((main Toy.world [str "kagome", str "sentence"]).map fun e => (e.out ≠ [], e.exit)) = some (True, 0) ∧
    mainTo Toy.world fullDisk [str "kagome", str "lattice", str "-output=g", str "すもも"] = some ⟨[], [], [(str "g", [])], none, 0⟩ := by
  refine ⟨by decide +kernel, by decide +kernel, by decide +kernel, ?_, by decide +kernel⟩
  have h : ((main Toy.world [str "kagome", str "sentence"]).map fun e => (decide (e.out ≠ []), e.exit)) = some (true, 0) := by decide +kernel
  cases hm : main Toy.world [str "kagome", str "sentence"] with
  | none => rw [hm] at h; cases h
  | some e =>
    rw [hm] at h
    simp only [Option.map_some, Option.some.injEq, Prod.mk.injEq, decide_eq_true_eq] at h
    simp [h.1, h.2]

/-- C70: what is lost need not be the end: the second text is whole. -/
theorem C70_gap :
    ((mainTo Toy.world shortOnce [str "kagome", str "-mode=search"]).map fun e => (e.out, e.exit)) =
      some (str "すもも\t" ++ str "の\t助詞,連体化,の\nEOS\n", 0) := by decide +kernel

/-! ### The hypotheses can be met -/

example : Unlimited (fun _ => none) := fun _ => rfl

/-- The hypotheses of `C70_tokenize`; the other parts are in the example of C41. -/
example : TokenizeLine [str "-mode=search"] Toy.opts ∧
    scanAll (if Toy.opts.split then defaultSplitter.scanSentences else scanLines) Toy.input.reads = some ([str "すもも", str "の"], .done) :=
  ⟨by rw [← tok_parse_iff]; rfl, by decide +kernel⟩

example : SentenceLine [] [] ∧ SentenceInput Toy.world [] Toy.input := ⟨by rw [← sen_parse_iff]; rfl, .stdin rfl⟩

example : LatticeLine [str "-output=g", str "すもも"] ⟨[], str "ipa", str "normal", str "g", false, str "すもも"⟩ ∧
    ModeText (str "normal") 1 ∧ NamedTokenizer Toy.world (str "ipa") [] Toy.tok ∧ Toy.world.createError (str "g") = none :=
  ⟨by rw [← lat_parse_iff]; rfl, .normal, .plain (.ipa rfl) rfl, rfl⟩

end Kagome
