import Verif.Spec.Dialog
import Verif.Props.LongLine
import Verif.Props.Commands
import Verif.Props.Sink

/-! C76: whenever a command waits for input it has answered what was entered. -/

namespace Kagome

open Spec

theorem said_writes (outs : List Bytes) (acts : List Act) : said (outs.map .write ++ acts) = outs ++ said acts := by
  induction outs with
  | nil => rfl
  | cons x xs ih => simp [said, ih]

theorem said_writes' (outs : List Bytes) : said (outs.map .write) = outs := by
  have := said_writes outs []
  simpa [said] using this

theorem entered_writes (outs : List Bytes) (acts : List Act) : entered (outs.map .write ++ acts) = entered acts := by
  induction outs with
  | nil => rfl
  | cons x xs ih => simpa [entered] using ih

theorem mapM_append_opt (say : Bytes → Option Bytes) (a b : List Bytes) :
    (a ++ b).mapM say = (a.mapM say).bind (fun x => (b.mapM say).map (x ++ ·)) := by
  rw [List.mapM_append]
  cases a.mapM say with
  | none => rfl
  | some x => cases b.mapM say <;> rfl

/-- The pieces written are those of the whole scan, one after the other. -/
theorem talk_said (split : SplitFunc) (say : Bytes → Option Bytes) (rds : List ReadResult) : ∀ (k : Nat) (buf : Bytes),
    (talk split say rds k buf).map (fun r => (said r.1, r.2)) =
      (scanFrom split rds k buf).bind (fun r => (r.1.mapM say).map (fun outs => (outs, r.2))) := by
  induction rds with
  | nil =>
    intro k buf
    unfold talk scanFrom
    cases drain split true (buf.length + 1) buf with
    | none => rfl
    | some last =>
      simp only [Option.bind_eq_bind, Option.bind_some]
      cases last.1.mapM say with
      | none => rfl
      | some outs => simp [said, said_writes']
  | cons rd rds ih =>
    intro k buf
    unfold talk scanFrom
    by_cases he : rd.err = true
    · rw [if_pos he, if_pos he]
      cases drain split true ((buf ++ rd.bytes).length + 1) (buf ++ rd.bytes) with
      | none => rfl
      | some last =>
        simp only [Option.bind_eq_bind, Option.bind_some]
        cases last.1.mapM say with
        | none => rfl
        | some outs => simp [said, said_writes']
    · rw [if_neg he, if_neg he]
      by_cases hb : rd.bytes.isEmpty = true
      · rw [if_pos hb, if_pos hb]
        by_cases hk : maxEmptyReads ≤ k
        · rw [if_pos hk, if_pos hk]
          cases drain split true (buf.length + 1) buf with
          | none => rfl
          | some last =>
            simp only [Option.bind_eq_bind, Option.bind_some]
            cases last.1.mapM say with
            | none => rfl
            | some outs => simp [said, said_writes']
        · rw [if_neg hk, if_neg hk, ← ih]
          cases talk split say rds (k + 1) buf with
          | none => rfl
          | some more => simp [said]
      · rw [if_neg hb, if_neg hb]
        cases drain split false ((buf ++ rd.bytes).length + 1) (buf ++ rd.bytes) with
        | none => rfl
        | some now =>
          simp only [Option.bind_eq_bind, Option.bind_some]
          by_cases ht : maxTokenSize ≤ now.2.length
          · rw [if_pos ht, Option.bind_some]
            cases now.1.mapM say with
            | none => rfl
            | some outs => simp [said, said_writes', if_pos ht]
          · rw [if_neg ht]
            have h := ih 0 now.2
            cases hm : now.1.mapM say with
            | none =>
              simp only [Option.bind_none, Option.map_none]
              cases scanFrom split rds 0 now.2 with
              | none => rfl
              | some more => simp [hm]
            | some outs =>
              simp only [Option.bind_some, if_neg ht]
              cases hs : scanFrom split rds 0 now.2 with
              | none =>
                rw [hs] at h
                cases hc : talk split say rds 0 now.2 with
                | none => rfl
                | some more => rw [hc] at h; cases h
              | some more =>
                rw [hs] at h
                simp only [Option.bind_some, mapM_append_opt, hm] at h ⊢
                cases hc : talk split say rds 0 now.2 with
                | none =>
                  rw [hc] at h
                  cases hx : more.1.mapM say with
                  | none => rfl
                  | some x => rw [hx] at h; cases h
                | some more' =>
                  rw [hc] at h
                  cases hx : more.1.mapM say with
                  | none => rw [hx] at h; cases h
                  | some x =>
                    rw [hx] at h
                    simp only [Option.map_some, Option.some.injEq, Prod.mk.injEq] at h
                    simp [said, said_writes, h.1, h.2]

theorem lineLoop_mapM (w : World) (t : Tokenizer) (m : Int) (json : Bool) (texts : List Bytes) :
    Tok.lineLoop w t m json texts = (texts.mapM (Tok.say w t m json)).map List.flatten := by
  induction texts with
  | nil => rfl
  | cons x xs ih =>
    rw [List.mapM_cons]
    unfold Tok.lineLoop
    unfold Tok.say at ih ⊢
    cases ha : analyze t w.ideo x m with
    | none => rfl
    | some toks =>
      simp only [Option.bind_some]
      cases hp : (if json = true then Tok.printTokensJSON w toks else Tok.printTokens toks) with
      | none => rfl
      | some s =>
        rw [ih]
        simp only [Option.bind_eq_bind, Option.bind_some]
        cases List.mapM (m := Option) (fun text => (analyze t w.ideo text m).bind fun toks =>
            if json = true then Tok.printTokensJSON w toks else Tok.printTokens toks) xs with
        | none => rfl
        | some ys => rfl

/-- C76: in order or not, it is the same run: what is written, put together, is the output of the command, and the error is the same. -/
theorem C76_same (w : World) (o : Tok.Opts) (file : Bytes) :
    Tok.command w o = (Tok.dialog w o).map (fun r => { out := (said r.1).flatten, err := r.2 }) ∧
    Sen.command w file = (Sen.dialog w file).map (fun r => { out := (said r.1).flatten, err := r.2 }) := by
  constructor
  · unfold Tok.command Tok.dialog
    cases Tok.selectDict w o.dict o.sysdict o.simple with
    | error e => rfl
    | ok d =>
      dsimp only
      cases setUp w d o.udict with
      | error e => rfl
      | ok t =>
        dsimp only
        cases (if o.file ≠ [] then w.openFile o.file else .ok w.stdin) with
        | error e => rfl
        | ok src =>
          dsimp only
          have h := talk_said (if o.split then defaultSplitter.scanSentences else scanLines) (Tok.say w t (Tok.selectMode o.mode) o.json) src.reads 0 []
          unfold scanAll
          cases hs : scanFrom (if o.split then defaultSplitter.scanSentences else scanLines) src.reads 0 [] with
          | none =>
            rw [hs] at h
            cases hc : talk (if o.split then defaultSplitter.scanSentences else scanLines) (Tok.say w t (Tok.selectMode o.mode) o.json) src.reads 0 [] with
            | none => rfl
            | some r => rw [hc] at h; cases h
          | some r =>
            rw [hs] at h
            dsimp only
            rw [lineLoop_mapM]
            simp only [Option.bind_some] at h
            cases hc : talk (if o.split then defaultSplitter.scanSentences else scanLines) (Tok.say w t (Tok.selectMode o.mode) o.json) src.reads 0 [] with
            | none =>
              rw [hc] at h
              cases hx : r.1.mapM (Tok.say w t (Tok.selectMode o.mode) o.json) with
              | none => rfl
              | some x => rw [hx] at h; cases h
            | some r' =>
              rw [hc] at h
              cases hx : r.1.mapM (Tok.say w t (Tok.selectMode o.mode) o.json) with
              | none => rw [hx] at h; cases h
              | some x =>
                rw [hx] at h
                simp only [Option.map_some, Option.some.injEq, Prod.mk.injEq] at h
                simp [h.1, h.2]
  · unfold Sen.command Sen.dialog
    cases (if file ≠ [] then w.openFile file else .ok w.stdin) with
    | error e => rfl
    | ok src =>
      dsimp only
      have h := talk_said defaultSplitter.scanSentences (fun text => some (text ++ str "\n")) src.reads 0 []
      have hmap : ∀ l : List Bytes, l.mapM (fun text => some (text ++ str "\n")) = some (l.map (· ++ str "\n")) := by
        intro l
        induction l with
        | nil => rfl
        | cons x xs ih => rw [List.mapM_cons, ih]; rfl
      unfold scanAll
      cases hs : scanFrom defaultSplitter.scanSentences src.reads 0 [] with
      | none =>
        rw [hs] at h
        cases hc : talk defaultSplitter.scanSentences (fun text => some (text ++ str "\n")) src.reads 0 [] with
        | none => rfl
        | some r => rw [hc] at h; cases h
      | some r =>
        rw [hs] at h
        simp only [Option.bind_some, hmap, Option.map_some] at h ⊢
        cases hc : talk defaultSplitter.scanSentences (fun text => some (text ++ str "\n")) src.reads 0 [] with
        | none => rw [hc] at h; cases h
        | some r' =>
          rw [hc] at h
          simp only [Option.map_some, Option.some.injEq, Prod.mk.injEq] at h
          simp [h.1, h.2, List.flatMap_def]

/-! ### Lines -/

theorem rawLines_mem_no_lf {s l : Bytes} (h : l ∈ rawLines s) : (0x0A : UInt8) ∉ l := by
  induction s generalizing l with
  | nil => simp [rawLines] at h
  | cons b s ih =>
    rw [rawLines] at h
    split at h
    · rcases List.mem_cons.mp h with rfl | h
      · simp
      · exact ih h
    · rename_i hb
      split at h
      · simp only [List.mem_singleton] at h
        subst h
        simpa using fun e => hb e.symm
      · rename_i l' ls e
        rcases List.mem_cons.mp h with rfl | h
        · have := ih (l := l') (by rw [e]; simp)
          simp only [List.mem_cons, not_or]
          exact ⟨fun e => hb e.symm, this⟩
        · exact ih (by rw [e]; simp [h])

theorem rawLines_pieces {raws : List Bytes} (h : ∀ l ∈ raws, (0x0A : UInt8) ∉ l) (x : Bytes) :
    rawLines (raws.flatMap (· ++ [0x0A]) ++ x) = raws ++ rawLines x := by
  induction raws with
  | nil => rfl
  | cons l ls ih =>
    rw [List.flatMap_cons, List.append_assoc, List.append_assoc, List.singleton_append, rawLines_lf (h l (by simp)),
      ih (fun y hy => h y (by simp [hy]))]
    rfl

theorem openLine_behind {pre : Bytes} (hp : pre = [] ∨ pre.getLast? = some 0x0A) (x : Bytes) : openLine (pre ++ x) = openLine x := by
  by_cases h : (0x0A : UInt8) ∈ x
  · unfold openLine
    rw [List.reverse_append]
    congr 1
    have : ∃ y ∈ x.reverse, (decide (y ≠ (0x0A : UInt8))) = false := ⟨0x0A, by simpa using h, by simp⟩
    generalize x.reverse = r at this
    induction r with
    | nil => obtain ⟨y, hy, _⟩ := this; simp at hy
    | cons c cs ih =>
      rw [List.cons_append, List.takeWhile_cons, List.takeWhile_cons]
      split
      · rename_i hc
        rw [ih]
        obtain ⟨y, hy, h'⟩ := this
        rcases List.mem_cons.mp hy with rfl | hy
        · rw [hc] at h'; cases h'
        · exact ⟨y, hy, h'⟩
      · rfl
  · rw [openLine_eq hp h]
    have := openLine_eq (pre := []) (.inl rfl) h
    simpa using this.symm

theorem openLine_length_le (x : Bytes) : (openLine x).length ≤ x.length := by
  unfold openLine
  rw [List.length_reverse, ← List.length_reverse (as := x)]
  exact (List.takeWhile_prefix _).length_le

theorem finishedLines_pieces {raws : List Bytes} (h : ∀ l ∈ raws, (0x0A : UInt8) ∉ l) (x : Bytes) :
    finishedLines (raws.flatMap (· ++ [0x0A]) ++ x) = raws.map dropCR ++ finishedLines x := by
  have hp : raws.flatMap (· ++ [(0x0A : UInt8)]) = [] ∨ (raws.flatMap (· ++ [(0x0A : UInt8)])).getLast? = some 0x0A := by
    rcases List.eq_nil_or_concat raws with rfl | ⟨l, y, rfl⟩
    · exact .inl rfl
    · right; simp
  unfold finishedLines closedPart lines
  rw [openLine_behind hp, List.length_append]
  have hl := openLine_length_le x
  rw [Nat.add_sub_assoc hl, List.take_length_add_append, rawLines_pieces h, List.map_append]

theorem finishedLines_none {x : Bytes} (h : (0x0A : UInt8) ∉ x) : finishedLines x = [] := by
  have := openLine_eq (pre := []) (.inl rfl) h
  unfold finishedLines closedPart
  rw [List.nil_append] at this
  rw [this, Nat.sub_self]
  rfl

/-- Splitting the acts of a run at a read: before the writes there is none. -/
theorem split_at_read {outs : List Bytes} {acts before after : List Act} {rd : ReadResult}
    (h : outs.map Act.write ++ acts = before ++ .read rd :: after) :
    ∃ before', before = outs.map Act.write ++ before' ∧ acts = before' ++ .read rd :: after := by
  induction outs generalizing before with
  | nil => exact ⟨before, rfl, h⟩
  | cons x xs ih =>
    rw [List.map_cons, List.cons_append] at h
    cases before with
    | nil => cases h
    | cons b bs =>
      rw [List.cons_append] at h
      obtain ⟨rfl, h2⟩ := List.cons.inj h
      obtain ⟨b', rfl, h'⟩ := ih h2
      exact ⟨b', rfl, h'⟩

theorem no_read_in_writes {outs : List Bytes} {before after : List Act} {rd : ReadResult} (h : outs.map Act.write = before ++ .read rd :: after) : False := by
  have : Act.read rd ∈ outs.map Act.write := by rw [h]; simp
  obtain ⟨_, _, e⟩ := List.mem_map.mp this
  cases e

/-- Whenever `Read` is called, the finished lines have been answered. -/
theorem talk_lines (say : Bytes → Option Bytes) (rds : List ReadResult) : ∀ (k : Nat) (buf : Bytes) (acts : List Act) (ending : ScanEnd),
    (0x0A : UInt8) ∉ buf → talk scanLines say rds k buf = some (acts, ending) →
    ∀ before rd after, acts = before ++ .read rd :: after → (finishedLines (buf ++ entered before)).mapM say = some (said before) := by
  have first : ∀ {buf : Bytes}, (0x0A : UInt8) ∉ buf → (finishedLines (buf ++ entered [])).mapM say = some (said []) := by
    intro buf h
    rw [entered, List.append_nil, finishedLines_none h]; rfl
  have alone : ∀ {buf : Bytes} {rd' : ReadResult} {outs : List Bytes}, (0x0A : UInt8) ∉ buf → ∀ before rd after,
      Act.read rd' :: outs.map .write = before ++ .read rd :: after → (finishedLines (buf ++ entered before)).mapM say = some (said before) := by
    intro buf rd' outs h before rd after e
    cases before with
    | nil => exact first h
    | cons b bs =>
      obtain ⟨_, e⟩ := List.cons.inj e
      exact (no_read_in_writes e).elim
  induction rds with
  | nil =>
    intro k buf acts ending hbuf ht
    unfold talk at ht
    obtain ⟨last, _, ht⟩ := Option.bind_eq_some_iff.mp ht
    obtain ⟨outs, _, ht⟩ := Option.bind_eq_some_iff.mp ht
    cases ht
    exact alone hbuf
  | cons rd rds ih =>
    intro k buf acts ending hbuf ht
    unfold talk at ht
    by_cases he : rd.err = true
    · rw [if_pos he] at ht
      obtain ⟨last, _, ht⟩ := Option.bind_eq_some_iff.mp ht
      obtain ⟨outs, _, ht⟩ := Option.bind_eq_some_iff.mp ht
      cases ht
      exact alone hbuf
    · rw [if_neg he] at ht
      by_cases hb : rd.bytes.isEmpty = true
      · rw [if_pos hb] at ht
        have hb' : rd.bytes = [] := List.isEmpty_iff.mp hb
        by_cases hk : maxEmptyReads ≤ k
        · rw [if_pos hk] at ht
          obtain ⟨last, _, ht⟩ := Option.bind_eq_some_iff.mp ht
          obtain ⟨outs, _, ht⟩ := Option.bind_eq_some_iff.mp ht
          cases ht
          exact alone hbuf
        · rw [if_neg hk] at ht
          obtain ⟨more, hm, ht⟩ := Option.bind_eq_some_iff.mp ht
          cases ht
          intro before r after e
          cases before with
          | nil => exact first hbuf
          | cons b bs =>
            obtain ⟨rfl, e2⟩ := List.cons.inj e
            simp only [entered, said, hb', List.nil_append]
            exact ih _ _ _ _ hbuf hm bs r after e2
      · rw [if_neg hb] at ht
        obtain ⟨raws, left, h1, h2, h3, h4⟩ := drain_open ((buf ++ rd.bytes).length + 1) (buf ++ rd.bytes) (by omega)
        have hraw : ∀ l ∈ raws, (0x0A : UInt8) ∉ l := by
          intro l hl
          exact rawLines_mem_no_lf (s := buf ++ rd.bytes ++ []) (by rw [h4 []]; exact List.mem_append_left _ hl)
        rw [h1] at ht
        obtain ⟨now, hnow, ht⟩ := Option.bind_eq_some_iff.mp ht
        cases hnow
        obtain ⟨outs, ho, ht⟩ := Option.bind_eq_some_iff.mp ht
        dsimp only at ht ho
        by_cases hl : maxTokenSize ≤ left.length
        · rw [if_pos hl] at ht
          cases ht
          exact alone hbuf
        · rw [if_neg hl] at ht
          obtain ⟨more, hm, ht⟩ := Option.bind_eq_some_iff.mp ht
          cases ht
          intro before r after e
          cases before with
          | nil => exact first hbuf
          | cons b bs =>
            obtain ⟨rfl, e2⟩ := List.cons.inj e
            obtain ⟨bs', rfl, e'⟩ := split_at_read e2
            have := ih _ _ _ _ h2 hm bs' r after e'
            simp only [entered, said, entered_writes, said_writes]
            rw [← List.append_assoc, h3, List.append_assoc, finishedLines_pieces hraw, mapM_append_opt, ho, this]
            rfl

/-- What is read is the input, in order, and all of it unless the scanner gives up. -/
theorem talk_entered (split : SplitFunc) (say : Bytes → Option Bytes) (rds : List ReadResult) : ∀ (k : Nat) (buf : Bytes) (acts : List Act) (ending : ScanEnd),
    talk split say rds k buf = some (acts, ending) → entered acts <+: delivered rds ∧ (ending = .done → entered acts = delivered rds) := by
  have plain : ∀ outs : List Bytes, entered (outs.map .write) = [] := by
    intro outs
    have := entered_writes outs []
    simpa [entered] using this
  induction rds with
  | nil =>
    intro k buf acts ending ht
    unfold talk at ht
    obtain ⟨last, _, ht⟩ := Option.bind_eq_some_iff.mp ht
    obtain ⟨outs, _, ht⟩ := Option.bind_eq_some_iff.mp ht
    cases ht
    simp [entered, delivered, plain]
  | cons rd rds ih =>
    intro k buf acts ending ht
    unfold talk at ht
    unfold delivered
    by_cases he : rd.err = true
    · rw [if_pos he] at ht ⊢
      obtain ⟨last, _, ht⟩ := Option.bind_eq_some_iff.mp ht
      obtain ⟨outs, _, ht⟩ := Option.bind_eq_some_iff.mp ht
      cases ht
      simp [entered, plain]
    · rw [if_neg he] at ht ⊢
      by_cases hb : rd.bytes.isEmpty = true
      · rw [if_pos hb] at ht
        by_cases hk : maxEmptyReads ≤ k
        · rw [if_pos hk] at ht
          obtain ⟨last, _, ht⟩ := Option.bind_eq_some_iff.mp ht
          obtain ⟨outs, _, ht⟩ := Option.bind_eq_some_iff.mp ht
          cases ht
          refine ⟨?_, by simp⟩
          rw [entered, plain, List.append_nil]
          exact List.prefix_append _ _
        · rw [if_neg hk] at ht
          obtain ⟨more, hm, ht⟩ := Option.bind_eq_some_iff.mp ht
          cases ht
          obtain ⟨h1, h2⟩ := ih _ _ _ _ hm
          rw [entered]
          exact ⟨(List.prefix_append_right_inj _).mpr h1, fun h => by rw [h2 h]⟩
      · rw [if_neg hb] at ht
        obtain ⟨now, _, ht⟩ := Option.bind_eq_some_iff.mp ht
        obtain ⟨outs, _, ht⟩ := Option.bind_eq_some_iff.mp ht
        by_cases hl : maxTokenSize ≤ now.2.length
        · rw [if_pos hl] at ht
          cases ht
          refine ⟨?_, by simp⟩
          rw [entered, plain, List.append_nil]
          exact List.prefix_append _ _
        · rw [if_neg hl] at ht
          obtain ⟨more, hm, ht⟩ := Option.bind_eq_some_iff.mp ht
          cases ht
          obtain ⟨h1, h2⟩ := ih _ _ _ _ hm
          rw [entered, entered_writes]
          exact ⟨(List.prefix_append_right_inj _).mpr h1, fun h => by rw [h2 h]⟩

theorem mapM_forEach {say : Bytes → Option Bytes} {P : Bytes → Bytes → Prop} (h : ∀ x y, say x = some y → P x y) {xs ys : List Bytes}
    (hm : xs.mapM say = some ys) : ForEach P xs ys := by
  induction xs generalizing ys with
  | nil => cases hm; trivial
  | cons x xs ih =>
    rw [List.mapM_cons] at hm
    obtain ⟨y, hy, hm⟩ := Option.bind_eq_some_iff.mp hm
    obtain ⟨zs, hz, hm⟩ := Option.bind_eq_some_iff.mp hm
    cases hm
    exact ⟨h x y hy, ih hz⟩

theorem mapM_total {say : Bytes → Option Bytes} (h : ∀ x, ∃ y, say x = some y) (xs : List Bytes) : ∃ ys, xs.mapM say = some ys := by
  induction xs with
  | nil => exact ⟨[], rfl⟩
  | cons x xs ih =>
    obtain ⟨y, hy⟩ := h x
    obtain ⟨ys, hys⟩ := ih
    exact ⟨y :: ys, by rw [List.mapM_cons, hy, hys]; rfl⟩

/-- What is written for a text. -/
def Written (t : Tokenizer) (ideo : Nat → Bool) (m : Int) (json : Bool) (line out : Bytes) : Prop :=
  ∃ toks, analyze t ideo line m = some toks ∧ if json then JsonText toks out else PlainText toks out

theorem say_total (w : World) {t : Tokenizer} (wf : WellFormed t.dict t.userDict) (tab : FeatureTables t.dict) (ho : t.omitBosEos = false) (m : Int)
    (json : Bool) (text : Bytes) : ∃ out, Tok.say w t m json text = some out := by
  obtain ⟨toks, ha⟩ := Option.isSome_iff_exists.mp (C01_total wf w.ideo text m).1
  unfold Tok.say
  rw [ha, Option.bind_some]
  cases json with
  | true =>
    obtain ⟨out, ds, q1, _⟩ := printTokensJSON_spec w (analyze_ne_nil wf ho ha) (fun tok => analyze_inRange wf tab ha)
    exact ⟨out, q1⟩
  | false =>
    obtain ⟨out, q1, _⟩ := printTokens_spec (fun tok => analyze_inRange wf tab ha)
    exact ⟨out, q1⟩

theorem say_written (w : World) {t : Tokenizer} (wf : WellFormed t.dict t.userDict) (tab : FeatureTables t.dict) (ho : t.omitBosEos = false) (m : Int)
    (json : Bool) {text out : Bytes} (h : Tok.say w t m json text = some out) : Written t w.ideo m json text out := by
  unfold Tok.say at h
  obtain ⟨toks, ha, hp⟩ := Option.bind_eq_some_iff.mp h
  refine ⟨toks, ha, ?_⟩
  cases json with
  | true =>
    obtain ⟨out', ds, q1, q2, q3⟩ := printTokensJSON_spec w (analyze_ne_nil wf ho ha) (fun tok => analyze_inRange wf tab ha)
    rw [if_pos rfl, q1] at hp
    cases hp
    exact ⟨ds, q2, q3⟩
  | false =>
    obtain ⟨out', q1, q2⟩ := printTokens_spec (fun tok => analyze_inRange wf tab ha)
    rw [if_neg (by simp), q1] at hp
    cases hp
    exact q2

theorem talk_total {split : SplitFunc} {say : Bytes → Option Bytes} (h : ∀ x, ∃ y, say x = some y) {rds : List ReadResult}
    (hs : ∃ r, scanAll split rds = some r) : ∃ r, talk split say rds 0 [] = some r := by
  obtain ⟨r, hr⟩ := hs
  obtain ⟨ys, hy⟩ := mapM_total h r.1
  have := talk_said split say rds 0 []
  unfold scanAll at hr
  rw [hr] at this
  simp only [Option.bind_some, hy] at this
  cases ht : talk split say rds 0 [] with
  | none => rw [ht] at this; cases this
  | some r => exact ⟨r, rfl⟩

theorem dialog_run (w : World) {args : List Bytes} {o : Tok.Opts} {m : Int} {t : Tokenizer} {src : Source}
    (hl : TokenizeLine args o) (hm : ModeText o.mode m) (ht : ChosenTokenizer w o t) (hi : ChosenInput w o src)
    {acts : List Act} {ending : ScanEnd}
    (h : talk (if o.split then defaultSplitter.scanSentences else scanLines) (Tok.say w t m o.json) src.reads 0 [] = some (acts, ending)) :
    Tok.dialog w o = some (acts, scanError src ending) ∧ Tok.run w args = some { out := (said acts).flatten, err := scanError src ending } := by
  have hd : Tok.dialog w o = some (acts, scanError src ending) := by
    obtain ⟨d, hd, hsu⟩ := setUp_chosen ht
    have hin : (if o.file ≠ [] then w.openFile o.file else .ok w.stdin) = .ok src := by
      cases hi with
      | stdin hf => rw [if_neg (by simp [hf])]
      | file h hf => rw [if_pos h, hf]
    unfold Tok.dialog
    rw [((C44_tokenize_dict w hl).2 d).mpr hd]
    simp only [hsu, hin, mode_of_text hm, h, Option.map_some]
  refine ⟨hd, ?_⟩
  rw [(C44_tokenize w args).2.2 o hl, (C76_same w o []).1, hd]
  rfl

/-- C76: `tokenize` without `-split`. `acts` are the reads and writes of the run in their order. Whenever it reads, every line that has been ended
before has been answered, and nothing else; and what it reads is the input. -/
theorem C76_lines (w : World) {args : List Bytes} {o : Tok.Opts} {m : Int} {t : Tokenizer} {src : Source}
    (hl : TokenizeLine args o) (hm : ModeText o.mode m) (ht : ChosenTokenizer w o t) (hi : ChosenInput w o src)
    (wf : WellFormed t.dict t.userDict) (tab : FeatureTables t.dict) (hsp : o.split = false) :
    ∃ (acts : List Act) (err : Option Bytes), Tok.dialog w o = some (acts, err) ∧ Tok.run w args = some { out := (said acts).flatten, err := err } ∧
      entered acts <+: delivered src.reads ∧ (err = none → entered acts = delivered src.reads) ∧
      ∀ before rd after, acts = before ++ .read rd :: after →
        ForEach (fun line out => ∃ toks, analyze t w.ideo line m = some toks ∧ if o.json then JsonText toks out else PlainText toks out)
          (finishedLines (entered before)) (said before) := by
  have ho : t.omitBosEos = false := by cases ht <;> rfl
  obtain ⟨texts, ending, hs, _⟩ := scan_lines_any src.reads 0 [] (by simp)
  obtain ⟨⟨acts, ending'⟩, h⟩ := talk_total (fun x => say_total w wf tab ho m o.json x) (split := scanLines) ⟨_, hs⟩
  have h' : talk (if o.split then defaultSplitter.scanSentences else scanLines) (Tok.say w t m o.json) src.reads 0 [] = some (acts, ending') := by
    rw [hsp]; exact h
  obtain ⟨h1, h2⟩ := dialog_run w hl hm ht hi h'
  obtain ⟨h3, h4⟩ := talk_entered _ _ _ _ _ _ _ h
  refine ⟨acts, _, h1, h2, h3, ?_, ?_⟩
  · intro he
    apply h4
    cases ending' with
    | done => rfl
    | tooLong => simp [scanError] at he
    | noProgress => simp [scanError] at he
  · intro before rd after e
    have := talk_lines _ _ _ _ _ _ (by simp) h before rd after e
    rw [List.nil_append] at this
    exact mapM_forEach (P := Written t w.ideo m o.json) (fun x y hx => say_written w wf tab ho m o.json hx) this

/-! ### Sentences -/

/-- What a buffer keeps when more input is wanted: it has no delimiter and is short. -/
theorem drain_pending {s : Splitter} (h : s.skipWhiteSpace = true) (hpos : 0 < s.maxRuneLen) {fuel : Nat} {buf : Bytes} {r : List Bytes × Bytes}
    (hr : drain s.scanSentences false fuel buf = some r) :
    ∀ bs, buf = enc bs → ∃ ks ls, r.1.flatten = enc ks ∧ r.2 = enc ls ∧ ks ++ ls.filter nonSpace = bs.filter nonSpace ∧
      (∀ c ∈ ls.filter nonSpace, s.isDelim c.val.toNat = false) ∧ ((ls.filter nonSpace).length : Int) < s.maxRuneLen := by
  refine drain_induct s false (fun buf toks left => ∀ bs, buf = enc bs → ∃ ks ls, toks.flatten = enc ks ∧ left = enc ls ∧
      ks ++ ls.filter nonSpace = bs.filter nonSpace ∧
      (∀ c ∈ ls.filter nonSpace, s.isDelim c.val.toNat = false) ∧ ((ls.filter nonSpace).length : Int) < s.maxRuneLen) ?_ ?_ ?_ ?_ fuel buf r hr
  · intro bs hb
    have : bs = [] := enc_injective (a := bs) (b := []) hb.symm
    subst this
    exact ⟨[], [], rfl, rfl, rfl, by simp, by simpa using hpos⟩
  · intro data used rest toks left h1 _ _ _ ih bs hb
    subst hb
    rw [pieces_enc] at h1
    obtain ⟨c1, c3, e1, e2, e3⟩ := split_chars h1
    obtain ⟨c0, c2, e4, e5, e6⟩ := split_chars e2.symm
    subst e1 e4
    obtain ⟨ks, ls, g1, g2, g3, g4⟩ := ih c3 (by rw [e3, text_charPieces])
    have hl := leading_chars h e5
    refine ⟨c2.filter nonSpace ++ ks, ls, ?_, g2, ?_, g4⟩
    · rw [List.flatten_cons, g1, e6, kept_charPieces h, text_charPieces, enc_append]
    · rw [List.append_assoc, g3, List.filter_append, List.filter_append, hl, List.nil_append]
  · intro hE; cases hE
  · intro hE data used n _ h1 h2 h3 _ _ bs hb
    subst hb
    rw [pieces_enc] at h1
    obtain ⟨c1, c3, e1, e2, e3⟩ := split_chars h1
    subst e1
    have hl := leading_chars h e2
    obtain ⟨q1, q2⟩ := body_unfinished s _ _ _ h2
    have hf : (c3.filter nonSpace ++ List.replicate n ' ').filter nonSpace = c3.filter nonSpace := by
      rw [List.filter_append, filter_spaces]; simp
    have hbody : (sentence s (pieces (enc (c1 ++ c3)))).body = (c3.filter nonSpace).map charPiece := by rw [h3, e3, kept_charPieces h]
    refine ⟨[], c3.filter nonSpace ++ List.replicate n ' ', rfl, ?_, ?_, ?_, ?_⟩
    · rw [e3, kept_charPieces h, text_charPieces, enc_append, enc_spaces]
    · rw [hf, List.filter_append, hl]
    · rw [hf]
      intro c hc
      exact q1 (charPiece c) (by
        show charPiece c ∈ (sentence s (pieces (enc (c1 ++ c3)))).body
        rw [hbody]; exact List.mem_map_of_mem hc)
    · rw [hf]
      have q3 : (sentence s (pieces (enc (c1 ++ c3)))).body = [] ∨
          (0 : Int) + (sentence s (pieces (enc (c1 ++ c3)))).body.length < s.maxRuneLen := q2
      rw [hbody, List.length_map] at q3
      rcases q3 with q3 | q3
      · rw [List.map_eq_nil_iff.mp q3]; simpa using hpos
      · omega

theorem talk_sentences {s : Splitter} (h : s.skipWhiteSpace = true) (hpos : 0 < s.maxRuneLen) (say : Bytes → Option Bytes) (rds : List ReadResult) :
    ∀ (k : Nat) (bs : List Char) (acts : List Act) (ending : ScanEnd), WholeChars rds →
    (∀ c ∈ bs.filter nonSpace, s.isDelim c.val.toNat = false) → ((bs.filter nonSpace).length : Int) < s.maxRuneLen →
    talk s.scanSentences say rds k (enc bs) = some (acts, ending) →
    ∀ before rd after, acts = before ++ .read rd :: after →
      ∃ (cs ks pending : List Char) (texts : List Bytes), entered before = enc cs ∧ (bs ++ cs).filter nonSpace = ks ++ pending ∧ texts.flatten = enc ks ∧
        texts.mapM say = some (said before) ∧ (∀ c ∈ pending, s.isDelim c.val.toNat = false) ∧ (pending.length : Int) < s.maxRuneLen := by
  have alone : ∀ {bs : List Char} {rd' : ReadResult} {outs : List Bytes}, (∀ c ∈ bs.filter nonSpace, s.isDelim c.val.toNat = false) →
      ((bs.filter nonSpace).length : Int) < s.maxRuneLen → ∀ before rd after, Act.read rd' :: outs.map .write = before ++ .read rd :: after →
      ∃ (cs ks pending : List Char) (texts : List Bytes), entered before = enc cs ∧ (bs ++ cs).filter nonSpace = ks ++ pending ∧ texts.flatten = enc ks ∧
        texts.mapM say = some (said before) ∧ (∀ c ∈ pending, s.isDelim c.val.toNat = false) ∧ (pending.length : Int) < s.maxRuneLen := by
    intro bs rd' outs h1 h2 before rd after e
    cases before with
    | nil => exact ⟨[], [], bs.filter nonSpace, [], rfl, by simp, rfl, rfl, h1, h2⟩
    | cons b bs =>
      obtain ⟨_, e⟩ := List.cons.inj e
      exact (no_read_in_writes e).elim
  induction rds with
  | nil =>
    intro k bs acts ending _ h1 h2 ht
    unfold talk at ht
    obtain ⟨last, _, ht⟩ := Option.bind_eq_some_iff.mp ht
    obtain ⟨outs, _, ht⟩ := Option.bind_eq_some_iff.mp ht
    cases ht
    exact alone h1 h2
  | cons rd rds ih =>
    intro k bs acts ending hw h1 h2 ht
    have hw' : WholeChars rds := fun r hr => hw r (by simp [hr])
    obtain ⟨xs, hx⟩ := hw rd (by simp)
    have hx : rd.bytes = enc xs := hx
    unfold talk at ht
    by_cases he : rd.err = true
    · rw [if_pos he] at ht
      obtain ⟨last, _, ht⟩ := Option.bind_eq_some_iff.mp ht
      obtain ⟨outs, _, ht⟩ := Option.bind_eq_some_iff.mp ht
      cases ht
      exact alone h1 h2
    · rw [if_neg he] at ht
      by_cases hb : rd.bytes.isEmpty = true
      · rw [if_pos hb] at ht
        have hb' : rd.bytes = [] := List.isEmpty_iff.mp hb
        by_cases hk : maxEmptyReads ≤ k
        · rw [if_pos hk] at ht
          obtain ⟨last, _, ht⟩ := Option.bind_eq_some_iff.mp ht
          obtain ⟨outs, _, ht⟩ := Option.bind_eq_some_iff.mp ht
          cases ht
          exact alone h1 h2
        · rw [if_neg hk] at ht
          obtain ⟨more, hm, ht⟩ := Option.bind_eq_some_iff.mp ht
          cases ht
          intro before r after e
          cases before with
          | nil => exact ⟨[], [], bs.filter nonSpace, [], rfl, by simp, rfl, rfl, h1, h2⟩
          | cons b bf =>
            obtain ⟨rfl, e2⟩ := List.cons.inj e
            simp only [entered, said, hb', List.nil_append]
            exact ih _ _ _ _ hw' h1 h2 hm bf r after e2
      · rw [if_neg hb] at ht
        obtain ⟨now, hnow, ht⟩ := Option.bind_eq_some_iff.mp ht
        obtain ⟨outs, ho, ht⟩ := Option.bind_eq_some_iff.mp ht
        by_cases hl : maxTokenSize ≤ now.2.length
        · rw [if_pos hl] at ht
          cases ht
          exact alone h1 h2
        · rw [if_neg hl] at ht
          obtain ⟨more, hm, ht⟩ := Option.bind_eq_some_iff.mp ht
          cases ht
          intro before r after e
          cases before with
          | nil => exact ⟨[], [], bs.filter nonSpace, [], rfl, by simp, rfl, rfl, h1, h2⟩
          | cons b bf =>
            obtain ⟨rfl, e2⟩ := List.cons.inj e
            obtain ⟨bf', rfl, e'⟩ := split_at_read e2
            obtain ⟨ks, ls, g1, g2, g3, g4, g5⟩ := drain_pending h hpos hnow (bs ++ xs) (by rw [hx, enc_append])
            rw [g2] at hm
            obtain ⟨cs, ks', pend, texts, q1, q2, q3, q4, q5, q6⟩ := ih _ _ _ _ hw' g4 g5 hm bf' r after e'
            refine ⟨xs ++ cs, ks ++ ks', pend, now.1 ++ texts, ?_, ?_, ?_, ?_, q5, q6⟩
            · simp only [entered, entered_writes]
              rw [hx, q1, enc_append]
            · rw [← List.append_assoc, List.filter_append, ← g3, List.append_assoc, ← List.filter_append, q2, List.append_assoc]
            · rw [List.flatten_append, g1, q3, enc_append]
            · simp only [said, said_writes]
              rw [mapM_append_opt, ho, q4]; rfl

theorem talk_default {say : Bytes → Option Bytes} {rds : List ReadResult} {acts : List Act} {ending : ScanEnd} (hw : WholeChars rds)
    (ht : talk defaultSplitter.scanSentences say rds 0 [] = some (acts, ending)) :
    ∀ before rd after, acts = before ++ .read rd :: after →
      ∃ (cs ks pending : List Char) (texts : List Bytes), entered before = enc cs ∧ cs.filter nonSpace = ks ++ pending ∧ texts.flatten = enc ks ∧
        texts.mapM say = some (said before) ∧ (∀ c ∈ pending, c ∉ enders) ∧ pending.length < 128 := by
  intro before rd after e
  obtain ⟨cs, ks, pend, texts, h1, h2, h3, h4, h5, h6⟩ :=
    talk_sentences (s := defaultSplitter) rfl (by decide) say rds 0 [] acts ending hw (by simp) (by decide) ht before rd after e
  refine ⟨cs, ks, pend, texts, h1, h2, h3, h4, ?_, ?_⟩
  · intro c hc hm
    have := (default_delim c.val.toNat).mpr (List.mem_map_of_mem hm)
    rw [h5 c hc] at this
    cases this
  · have : defaultSplitter.maxRuneLen = 128 := rfl
    omega

/-- C76: `tokenize -split`, from a reader that delivers whole characters. Whenever it reads, the texts it has answered make up what was entered,
without white space, except for an end in which no sentence ends and which is too short to be cut. -/
theorem C76_split (w : World) {args : List Bytes} {o : Tok.Opts} {m : Int} {t : Tokenizer} {src : Source}
    (hl : TokenizeLine args o) (hm : ModeText o.mode m) (ht : ChosenTokenizer w o t) (hi : ChosenInput w o src)
    (wf : WellFormed t.dict t.userDict) (tab : FeatureTables t.dict) (hsp : o.split = true) (hw : WholeChars src.reads) :
    ∃ (acts : List Act) (err : Option Bytes), Tok.dialog w o = some (acts, err) ∧ Tok.run w args = some { out := (said acts).flatten, err := err } ∧
      entered acts <+: delivered src.reads ∧ (err = none → entered acts = delivered src.reads) ∧
      ∀ before rd after, acts = before ++ .read rd :: after →
        ∃ (cs answered pending : List Char) (texts : List Bytes), entered before = enc cs ∧ cs.filter nonSpace = answered ++ pending ∧
          (∀ c ∈ pending, c ∉ enders) ∧ pending.length < 128 ∧ texts.flatten = enc answered ∧
          ForEach (fun line out => ∃ toks, analyze t w.ideo line m = some toks ∧ if o.json then JsonText toks out else PlainText toks out)
            texts (said before) := by
  have ho : t.omitBosEos = false := by cases ht <;> rfl
  obtain ⟨r, hs⟩ := scanFrom_total defaultSplitter src.reads 0 []
  obtain ⟨⟨acts, ending'⟩, h⟩ := talk_total (fun x => say_total w wf tab ho m o.json x) (split := defaultSplitter.scanSentences) ⟨_, hs⟩
  have h' : talk (if o.split then defaultSplitter.scanSentences else scanLines) (Tok.say w t m o.json) src.reads 0 [] = some (acts, ending') := by
    rw [hsp]; exact h
  obtain ⟨h1, h2⟩ := dialog_run w hl hm ht hi h'
  obtain ⟨h3, h4⟩ := talk_entered _ _ _ _ _ _ _ h
  refine ⟨acts, _, h1, h2, h3, ?_, ?_⟩
  · intro he
    apply h4
    cases ending' with
    | done => rfl
    | tooLong => simp [scanError] at he
    | noProgress => simp [scanError] at he
  · intro before rd after e
    obtain ⟨cs, ks, pend, texts, q1, q2, q3, q4, q5, q6⟩ := talk_default hw h before rd after e
    exact ⟨cs, ks, pend, texts, q1, q2, q5, q6, q3, mapM_forEach (P := Written t w.ideo m o.json) (fun x y hx => say_written w wf tab ho m o.json hx) q4⟩

/-- C76: the command `sentence`, from a reader that delivers whole characters: likewise. -/
theorem C76_sentence (w : World) {args : List Bytes} {file : Bytes} {src : Source} (hl : SentenceLine args file) (hi : SentenceInput w file src)
    (hw : WholeChars src.reads) :
    ∃ (acts : List Act) (err : Option Bytes), Sen.dialog w file = some (acts, err) ∧ Sen.run w args = some { out := (said acts).flatten, err := err } ∧
      entered acts <+: delivered src.reads ∧ (err = none → entered acts = delivered src.reads) ∧
      ∀ before rd after, acts = before ++ .read rd :: after →
        ∃ (cs answered pending : List Char) (texts : List Bytes), entered before = enc cs ∧ cs.filter nonSpace = answered ++ pending ∧
          (∀ c ∈ pending, c ∉ enders) ∧ pending.length < 128 ∧ texts.flatten = enc answered ∧ said before = texts.map (· ++ str "\n") := by
  obtain ⟨r, hs⟩ := scanFrom_total defaultSplitter src.reads 0 []
  obtain ⟨⟨acts, ending'⟩, h⟩ := talk_total (say := fun text => some (text ++ str "\n")) (fun x => ⟨_, rfl⟩) (split := defaultSplitter.scanSentences) ⟨_, hs⟩
  have hin : (if file ≠ [] then w.openFile file else .ok w.stdin) = .ok src := by
    cases hi with
    | stdin hf => rw [if_neg (by simp [hf])]
    | file h hf => rw [if_pos h, hf]
  have hd : Sen.dialog w file = some (acts, scanError src ending') := by
    unfold Sen.dialog
    rw [hin]
    simp only [h, Option.map_some]
  obtain ⟨h3, h4⟩ := talk_entered _ _ _ _ _ _ _ h
  refine ⟨acts, _, hd, ?_, h3, ?_, ?_⟩
  · rw [(C44_sentence w args).2.2 file hl, (C76_same w ⟨[], [], [], [], false, [], false, false⟩ file).2, hd]
    rfl
  · intro he
    apply h4
    cases ending' with
    | done => rfl
    | tooLong => simp [scanError] at he
    | noProgress => simp [scanError] at he
  · intro before rd after e
    obtain ⟨cs, ks, pend, texts, q1, q2, q3, q4, q5, q6⟩ := talk_default hw h before rd after e
    refine ⟨cs, ks, pend, texts, q1, q2, q5, q6, q3, ?_⟩
    have : texts.mapM (fun text => some (text ++ str "\n")) = some (texts.map (· ++ str "\n")) := by
      clear q3 q4
      induction texts with
      | nil => rfl
      | cons x xs ih => rw [List.mapM_cons, ih]; rfl
    rw [this] at q4
    exact (Option.some.inj q4).symm

/-! ### The hypotheses can be met -/

/-- Someone who enters a line, then a line and the beginning of another, then its rest. -/
def Toy.chat : World :=
  { Toy.world with stdin := ⟨[⟨str "すもも\n", false⟩, ⟨str "の。\nすも", false⟩, ⟨str "もの\n", false⟩], none⟩ }

/-- A read with its bytes, a write with `true`. -/
def Toy.show : Act → Bool × Bytes
  | .read rd => (false, rd.bytes)
  | .write text => (true, text)

example : TokenizeLine [str "-mode=search"] Toy.opts ∧ ModeText Toy.opts.mode 2 ∧ ChosenTokenizer Toy.chat Toy.opts Toy.tok ∧
    ChosenInput Toy.chat Toy.opts Toy.chat.stdin ∧ WellFormed Toy.tok.dict Toy.tok.userDict ∧ FeatureTables Toy.tok.dict ∧ Toy.opts.split = false :=
  ⟨by rw [← tok_parse_iff]; rfl, .search, .plain (.ipa rfl rfl rfl) rfl, .stdin rfl, Toy.wellFormed_none, Toy.featureTables, rfl⟩

example : TokenizeLine [str "-mode=search", str "-split"] { Toy.opts with split := true } ∧ WholeChars Toy.chat.stdin.reads := by
  refine ⟨by rw [← tok_parse_iff]; rfl, ?_⟩
  intro rd hrd
  simp only [Toy.chat, List.mem_cons, List.not_mem_nil, or_false] at hrd
  rcases hrd with rfl | rfl | rfl
  · exact ⟨"すもも\n".toList, by decide⟩
  · exact ⟨"の。\nすも".toList, by decide⟩
  · exact ⟨"もの\n".toList, by decide⟩

example : SentenceLine [] [] ∧ SentenceInput Toy.chat [] Toy.chat.stdin := ⟨by rw [← sen_parse_iff]; rfl, .stdin rfl⟩

/-- The answer to a line comes before the next read; the line begun waits. -/
example : (Tok.dialog Toy.chat { Toy.opts with file := [] }).map (fun r => ((r.1.map Toy.show).take 4, r.1.length, r.2)) =
    some ([(false, str "すもも\n"), (true, str "すもも\t名詞,すもも\nEOS\n"), (false, str "の。\nすも"),
      (true, str "の\t助詞,連体化,の\n。\t記号\nEOS\n")], 7, none) := by decide +kernel

/-- Sentences: white space is left out, and what has no end waits for the end of the input. -/
example : (Sen.dialog Toy.chat []).map (fun r => (r.1.map Toy.show, r.2)) =
    some ([(false, str "すもも\n"), (false, str "の。\nすも"), (true, str "すももの。\n"), (false, str "もの\n"), (false, []),
      (true, str "すももの\n")], none) := by decide +kernel

example : finishedLines (str "a\r\nb\nc") = [str "a", str "b"] := by decide

end Kagome
