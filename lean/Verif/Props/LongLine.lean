import Verif.Props.Json
import Verif.Props.Output

/-! C41, C42: a file with a line that is too long for the scanner. -/

namespace Kagome

open Spec

theorem openLine_eq {pre left : Bytes} (hp : pre = [] ∨ pre.getLast? = some 0x0A) (hl : (0x0A : UInt8) ∉ left) :
    openLine (pre ++ left) = left := by
  unfold openLine
  rw [List.reverse_append]
  have h1 : ∀ x ∈ left.reverse, (decide (x ≠ (0x0A : UInt8))) = true := by
    intro x hx
    simp only [decide_eq_true_eq]
    rintro rfl
    exact hl (by simpa using hx)
  rw [List.takeWhile_append_of_pos h1]
  have h2 : pre.reverse.takeWhile (fun x => decide (x ≠ (0x0A : UInt8))) = [] := by
    rcases hp with rfl | hp
    · rfl
    · obtain ⟨q, rfl⟩ := List.getLast?_eq_some_iff.mp hp
      simp
  rw [h2]
  simp

/-- All calls of the split function on the unread bytes while more input may come: the finished lines, and the line begun stays. -/
theorem drain_open : ∀ (fuel : Nat) (buf : Bytes), buf.length < fuel →
    ∃ raws left, drain scanLines false fuel buf = some (raws.map dropCR, left) ∧ (0x0A : UInt8) ∉ left ∧
      buf = raws.flatMap (· ++ [0x0A]) ++ left ∧ (∀ more, rawLines (buf ++ more) = raws ++ rawLines (left ++ more)) := by
  intro fuel
  induction fuel with
  | zero => intro buf h; omega
  | succ fuel ih =>
    intro buf hf
    unfold drain
    by_cases h0 : (buf.isEmpty && !false) = true
    · rw [if_pos h0]
      simp only [Bool.and_eq_true, List.isEmpty_iff] at h0
      obtain ⟨rfl, _⟩ := h0
      exact ⟨[], [], rfl, by simp, by simp, fun _ => by simp⟩
    · rw [if_neg h0]
      rcases scanLines_cases buf false with ⟨a, r, e, hn, hs⟩ | ⟨hn, hat, hne, hs⟩ | ⟨hn, hat, hs⟩
      · rw [hs]
        have hdrop : buf.drop (a.length + 1) = r := by
          rw [e, show a ++ 0x0A :: r = (a ++ [0x0A]) ++ r from by simp]
          have : a.length + 1 = (a ++ [(0x0A : UInt8)]).length := by simp
          rw [this, List.drop_left]
        have hlen : buf.length = a.length + 1 + r.length := by rw [e]; simp; omega
        obtain ⟨raws, left, h1, h2, h3, h4⟩ := ih r (by omega)
        simp only [Option.bind_eq_bind, Option.bind_some]
        rw [if_pos (by omega), hdrop, h1]
        simp only [Option.bind_some, List.drop_zero]
        have htok : buf.take (dropCRLen a) = dropCR a := by
          rw [e, List.take_append_of_le_length (dropCRLen_le a), take_dropCRLen]
        rw [htok]
        refine ⟨a :: raws, left, rfl, h2, ?_, ?_⟩
        · rw [e]
          conv => lhs; rw [h3]
          simp
        · intro more
          rw [e, List.append_assoc, List.cons_append, rawLines_lf hn, h4 more]; rfl
      · cases hat
      · rw [hs]
        simp only [Option.bind_eq_bind, Option.bind_some]
        rw [if_pos (Nat.zero_le _), List.drop_zero]
        exact ⟨[], buf, rfl, hn, by simp, by simp⟩

theorem length_le_of_pieces {raws : List Bytes} {l : Bytes} (h : l ∈ raws) : l.length + 1 ≤ (raws.flatMap (· ++ [(0x0A : UInt8)])).length := by
  induction raws with
  | nil => simp at h
  | cons a raws ih =>
    simp only [List.flatMap_cons, List.length_append, List.length_singleton]
    rcases List.mem_cons.mp h with rfl | h
    · omega
    · have := ih h; omega

/-- The lines before the first one of 65536 bytes or more. -/
def shortLines (text : Bytes) : List Bytes := ((rawLines text).takeWhile (fun l => decide (l.length < 65536))).map dropCR

theorem takeWhile_short {raws more : List Bytes} (h : ∀ l ∈ raws, l.length < 65536) :
    (raws ++ more).takeWhile (fun l => decide (l.length < 65536)) = raws ++ more.takeWhile (fun l => decide (l.length < 65536)) :=
  List.takeWhile_append_of_pos (by simpa using h)

theorem rawLines_full {a : Bytes} (ha : (0x0A : UInt8) ∉ a) (hl : 65536 ≤ a.length) (b : Bytes) :
    ∃ l ls, rawLines (a ++ b) = l :: ls ∧ 65536 ≤ l.length := by
  by_cases hb : (0x0A : UInt8) ∈ b
  · obtain ⟨b1, b2, rfl, hb1⟩ := split_lf hb
    have : (0x0A : UInt8) ∉ a ++ b1 := by simp [ha, hb1]
    rw [← List.append_assoc, rawLines_lf this]
    exact ⟨_, _, rfl, by simp; omega⟩
  · have hn : (0x0A : UInt8) ∉ a ++ b := by simp [ha, hb]
    have hne : a ++ b ≠ [] := by
      intro e
      have : a = [] := (List.append_eq_nil_iff.mp e).1
      subst this
      simp at hl
    rw [rawLines_no_lf hn, if_neg hne]
    exact ⟨_, _, rfl, by simp; omega⟩

/-- A scan of a file: the lines before the first one that is too long, and the scan says if there is one. -/
theorem scan_file (rds : List ReadResult) : ∀ (k : Nat) (buf : Bytes), Lively k rds → FileReads buf rds → (0x0A : UInt8) ∉ buf →
    buf.length < 65536 → scanFrom scanLines rds k buf = some (shortLines (buf ++ delivered rds),
      if ∃ l ∈ rawLines (buf ++ delivered rds), 65536 ≤ l.length then .tooLong else .done) := by
  have hend : ∀ buf : Bytes, (0x0A : UInt8) ∉ buf → buf.length < 65536 →
      ((rawLines buf).map dropCR, ScanEnd.done) =
        (shortLines buf, if ∃ l ∈ rawLines buf, 65536 ≤ l.length then .tooLong else .done) := by
    intro buf hn hlen
    have hall : ∀ l ∈ rawLines buf, l.length < 65536 := by
      rw [rawLines_no_lf hn]
      split
      · simp
      · simpa using hlen
    rw [if_neg (by rintro ⟨l, h1, h2⟩; have := hall l h1; omega)]
    unfold shortLines
    have := takeWhile_short (raws := rawLines buf) (more := []) hall
    simp only [List.append_nil, List.takeWhile_nil] at this
    rw [this]
  induction rds with
  | nil =>
    intro k buf _ _ hbuf hlen
    obtain ⟨raws, left, h1, _, h3, _⟩ := drain_lines true (buf.length + 1) buf (by omega)
    unfold scanFrom
    rw [h1, h3 rfl]
    simp only [Option.bind_eq_bind, Option.bind_some, delivered, List.append_nil]
    rw [hend buf hbuf hlen]
  | cons rd rds ih =>
    intro k buf hl hf hbuf hlen
    unfold scanFrom
    unfold delivered
    unfold Lively at hl
    unfold FileReads at hf
    rcases hf with hf | ⟨he, hb⟩ | ⟨he, hroom, hf⟩
    · omega
    · rw [if_pos he, if_pos he, hb, List.append_nil]
      obtain ⟨raws, left, h1, _, h3, _⟩ := drain_lines true (buf.length + 1) buf (by omega)
      rw [h1, h3 rfl]
      simp only [Option.bind_eq_bind, Option.bind_some]
      rw [hend buf hbuf hlen]
    · have he' : ¬ rd.err = true := by simp [he]
      rw [if_neg he', if_neg he']
      have hl := hl.resolve_left he'
      by_cases hb : rd.bytes = []
      · rw [if_pos hb] at hl
        rw [if_pos (by simp [hb]), if_neg (by have : maxEmptyReads = 100 := rfl; omega)]
        rw [hb, List.append_nil] at hf
        have ho : openLine buf = buf := by simpa using openLine_eq (pre := []) (.inl rfl) hbuf
        rw [ho] at hf
        rw [hb, List.nil_append]
        exact ih (k + 1) buf hl.2 hf hbuf hlen
      · rw [if_neg hb] at hl
        rw [if_neg (by simp [hb])]
        obtain ⟨raws, left, h1, h2, h3, h4⟩ := drain_open ((buf ++ rd.bytes).length + 1) (buf ++ rd.bytes) (by omega)
        rw [h1]
        simp only [Option.bind_eq_bind, Option.bind_some]
        have g := h4 (delivered rds)
        rw [List.append_assoc] at g
        have hraws : ∀ l ∈ raws, l.length < 65536 := by
          intro l hl
          have q1 := length_le_of_pieces hl
          have q2 := congrArg List.length h3
          simp only [List.length_append] at q2
          omega
        have hshort : shortLines (buf ++ (rd.bytes ++ delivered rds)) = raws.map dropCR ++ shortLines (left ++ delivered rds) := by
          unfold shortLines
          rw [g, takeWhile_short hraws, List.map_append]
        have hex : (∃ l ∈ rawLines (buf ++ (rd.bytes ++ delivered rds)), 65536 ≤ l.length) ↔
            ∃ l ∈ rawLines (left ++ delivered rds), 65536 ≤ l.length := by
          rw [g]
          constructor
          · rintro ⟨l, m1, m2⟩
            rcases List.mem_append.mp m1 with m1 | m1
            · have := hraws l m1; omega
            · exact ⟨l, m1, m2⟩
          · rintro ⟨l, m1, m2⟩
            exact ⟨l, List.mem_append_right _ m1, m2⟩
        rw [hshort]
        simp only [hex]
        have hpre : raws.flatMap (· ++ [(0x0A : UInt8)]) = [] ∨ (raws.flatMap (· ++ [(0x0A : UInt8)])).getLast? = some 0x0A := by
          rcases List.eq_nil_or_concat raws with rfl | ⟨i, x, rfl⟩
          · exact .inl rfl
          · right; simp
        rw [h3, openLine_eq hpre h2] at hf
        by_cases hlong : maxTokenSize ≤ left.length
        · rw [if_pos hlong]
          obtain ⟨l, ls, q1, q2⟩ := rawLines_full h2 hlong (delivered rds)
          have : shortLines (left ++ delivered rds) = [] := by
            unfold shortLines
            rw [q1, List.takeWhile_cons, if_neg (by simpa using q2)]
            rfl
          rw [this, List.append_nil, q1, if_pos ⟨l, by simp, q2⟩]
        · rw [if_neg hlong, ih 0 left hl hf h2 (by have : maxTokenSize = 65536 := rfl; omega)]
          rfl

/-- C41, C42: a file with lines of any length, without `-split`: the lines before the first one of 65536 bytes or more are analysed and
printed, and if there is such a line the run ends with an error that says so: nothing behind it is read. -/
theorem C41_long (w : World) {args : List Bytes} {o : Tok.Opts} {m : Int} {t : Tokenizer} {src : Source}
    (hl : TokenizeLine args o) (hm : ModeText o.mode m) (ht : ChosenTokenizer w o t) (hi : ChosenInput w o src)
    (wf : WellFormed t.dict t.userDict) (tab : FeatureTables t.dict) (hsp : o.split = false)
    (hr : Lively 0 src.reads) (hf : FileReads [] src.reads) :
    ∃ outs err, Tok.run w args = some { out := outs.flatten, err := err } ∧
      ((∃ l ∈ rawLines (delivered src.reads), 65536 ≤ l.length) → err = some (str "bufio.Scanner: token too long")) ∧
      ((∀ l ∈ rawLines (delivered src.reads), l.length < 65536) → err = src.failure) ∧
      ForEach (fun line out => ∃ toks, analyze t w.ideo line m = some toks ∧ if o.json then JsonText toks out else PlainText toks out)
        (((rawLines (delivered src.reads)).takeWhile (fun l => decide (l.length < 65536))).map dropCR) outs := by
  have hs : scanAll (if o.split then defaultSplitter.scanSentences else scanLines) src.reads = some (shortLines (delivered src.reads),
      if ∃ l ∈ rawLines (delivered src.reads), 65536 ≤ l.length then .tooLong else .done) := by
    rw [hsp]
    exact scan_file src.reads 0 [] hr hf (by simp) (by simp)
  have key : ∀ ending, scanAll (if o.split then defaultSplitter.scanSentences else scanLines) src.reads =
        some (shortLines (delivered src.reads), ending) →
      ∃ outs, Tok.run w args = some { out := outs.flatten, err := scanError src ending } ∧
        ForEach (fun line out => ∃ toks, analyze t w.ideo line m = some toks ∧ if o.json then JsonText toks out else PlainText toks out)
          (((rawLines (delivered src.reads)).takeWhile (fun l => decide (l.length < 65536))).map dropCR) outs := by
    intro ending he
    cases hj : o.json with
    | true => exact C42_command w hl hm ht hi wf tab hj he
    | false => exact C41_texts w hl hm ht hi wf tab hj he
  by_cases h : ∃ l ∈ rawLines (delivered src.reads), 65536 ≤ l.length
  · rw [if_pos h] at hs
    obtain ⟨outs, h1, h2⟩ := key _ hs
    refine ⟨outs, _, h1, fun _ => rfl, ?_, h2⟩
    intro hall
    obtain ⟨l, m1, m2⟩ := h
    have := hall l m1
    omega
  · rw [if_neg h] at hs
    obtain ⟨outs, h1, h2⟩ := key _ hs
    exact ⟨outs, _, h1, fun hl => absurd hl h, fun _ => rfl, h2⟩

/-! A file with one short line and one that never ends, read in pieces of `c` bytes. -/

def Toy.endless (n c : Nat) : List ReadResult := ⟨str "すもも\n", false⟩ :: List.replicate n ⟨List.replicate c 0x61, false⟩

theorem Toy.endless_lively (n : Nat) {c : Nat} (hc : c ≠ 0) : Lively 0 (Toy.endless n c) := by
  have h : Lively 0 (List.replicate n ⟨List.replicate c 0x61, false⟩) := by
    induction n with
    | zero => trivial
    | succ n ih => exact .inr (by rw [if_neg (by simp [hc])]; exact ih)
  exact .inr (by rw [if_neg (by decide)]; exact h)

theorem Toy.openLine_a (n : Nat) : openLine (List.replicate n 0x61) = List.replicate n 0x61 := by
  simpa using openLine_eq (pre := []) (left := List.replicate n 0x61) (.inl rfl) (by simp)

theorem Toy.endless_file {n c : Nat} (hn : n * c = 65536) : FileReads [] (Toy.endless n c) := by
  have h : ∀ m k, k + m * c = 65536 → FileReads (List.replicate k 0x61) (List.replicate m ⟨List.replicate c 0x61, false⟩) := by
    intro m
    induction m with
    | zero => intros; trivial
    | succ m ih =>
      intro k hk
      rw [Nat.succ_mul] at hk
      refine .inr (.inr ⟨rfl, ?_, ?_⟩)
      · rw [List.length_replicate, List.length_replicate]; omega
      · rw [List.replicate_append_replicate, Toy.openLine_a]
        exact ih _ (by omega)
  refine .inr (.inr ⟨rfl, by decide, ?_⟩)
  have : openLine ([] ++ str "すもも\n") = [] := by decide
  show FileReads (openLine ([] ++ str "すもも\n")) (List.replicate n ⟨List.replicate c 0x61, false⟩)
  rw [this]
  exact h n 0 (by omega)

theorem Toy.endless_lines {n c : Nat} (hn : n * c ≠ 0) :
    rawLines (delivered (Toy.endless n c)) = [str "すもも", List.replicate (n * c) 0x61] := by
  have h : ∀ n, delivered (List.replicate n ⟨List.replicate c 0x61, false⟩) = List.replicate (n * c) 0x61 := by
    intro n
    induction n with
    | zero => simp [delivered]
    | succ n ih =>
      rw [List.replicate_succ]
      unfold delivered
      rw [if_neg (by simp), ih, List.replicate_append_replicate, Nat.succ_mul, Nat.add_comm]
  have e : delivered (Toy.endless n c) = str "すもも" ++ 0x0A :: List.replicate (n * c) 0x61 := by
    unfold Toy.endless delivered
    rw [if_neg (by simp), h n]
    have : str "すもも\n" = str "すもも" ++ [0x0A] := by decide
    rw [this, List.append_assoc]
    rfl
  rw [e, rawLines_lf (by decide), rawLines_no_lf (by simp), if_neg]
  intro e
  exact hn (by simpa using congrArg List.length e)

theorem Toy.endless_run {n c : Nat} (hn : n * c = 65536) : ∃ (outs : List Bytes) (err : Option Bytes),
    Tok.run { Toy.world with stdin := ⟨Toy.endless n c, none⟩ } [str "-mode=search"] = some { out := outs.flatten, err := err } ∧
      err = some (str "bufio.Scanner: token too long") ∧ outs.length = 1 := by
  have hraw := Toy.endless_lines (n := n) (c := c) (by omega)
  obtain ⟨outs, err, h1, h2, _, h4⟩ := C41_long { Toy.world with stdin := ⟨Toy.endless n c, none⟩ } (src := ⟨Toy.endless n c, none⟩)
    Toy.line_ok .search (.plain (.ipa rfl rfl rfl) rfl) (.stdin rfl) Toy.wellFormed_none Toy.featureTables rfl
    (Toy.endless_lively n (by rintro rfl; omega)) (Toy.endless_file hn)
  refine ⟨outs, err, h1, h2 ⟨List.replicate (n * c) 0x61, ?_, ?_⟩, ?_⟩
  · show _ ∈ rawLines (delivered (Toy.endless n c))
    rw [hraw]; simp
  · rw [List.length_replicate]; omega
  · have e : ((rawLines (delivered (Toy.endless n c))).takeWhile (fun l => decide (l.length < 65536))).map dropCR = [str "すもも"] := by
      rw [hraw, List.takeWhile_cons, if_pos (by decide), List.takeWhile_cons, if_neg (by rw [List.length_replicate]; simp; omega)]
      decide
    have hlen : ∀ (P : Bytes → Bytes → Prop) (l : List Bytes), l = [str "すもも"] → ForEach P l outs → outs.length = 1 := by
      rintro P l rfl h
      match outs, h with
      | [_], _ => rfl
    exact hlen _ _ e h4

/-- The hypotheses hold, there is a line before the one that is too long, and the run reports it. -/
example := Toy.endless_run (n := 16) (c := 4096) rfl

end Kagome
