import Verif.Go.Lines
import Verif.Spec.Lines
import Verif.Spec.Reader

/-! `bufio.ScanLines` cuts a text into its lines, however it is delivered. -/

namespace Kagome

open Spec (rawLines dropCR lines delivered Lively)

theorem rawLines_no_lf {s : Bytes} (h : (0x0A : UInt8) ∉ s) : rawLines s = if s = [] then [] else [s] := by
  induction s with
  | nil => rfl
  | cons b t ih =>
    simp only [List.mem_cons, not_or] at h
    simp only [rawLines]
    rw [if_neg (fun e => h.1 e.symm), ih h.2]
    cases t <;> simp

theorem rawLines_lf {a : Bytes} (h : (0x0A : UInt8) ∉ a) (s : Bytes) : rawLines (a ++ 0x0A :: s) = a :: rawLines s := by
  induction a with
  | nil => simp [rawLines]
  | cons b t ih =>
    simp only [List.mem_cons, not_or] at h
    simp only [List.cons_append, rawLines]
    rw [if_neg (fun e => h.1 e.symm), ih h.2]

theorem take_dropCRLen (l : Bytes) : l.take (dropCRLen l) = dropCR l := by
  unfold dropCRLen dropCR
  split
  · rw [List.dropLast_eq_take]
  · simp

theorem dropCRLen_le (l : Bytes) : dropCRLen l ≤ l.length := by unfold dropCRLen; split <;> omega

/-- Where the first line feed is. -/
theorem findIdx_lf {s : Bytes} : (s.findIdx (· == 0x0A) < s.length → ∃ a r, s = a ++ 0x0A :: r ∧ (0x0A : UInt8) ∉ a ∧
      s.findIdx (· == 0x0A) = a.length) ∧ (¬ s.findIdx (· == 0x0A) < s.length → (0x0A : UInt8) ∉ s) := by
  induction s with
  | nil => simp
  | cons b t ih =>
    rw [List.findIdx_cons]
    by_cases hb : b = 0x0A
    · subst hb
      simp only [beq_self_eq_true, cond_true, List.length_cons]
      exact ⟨fun _ => ⟨[], t, rfl, by simp, rfl⟩, fun h => absurd (Nat.succ_pos _) h⟩
    · rw [show (b == 0x0A) = false from by simpa using hb]
      simp only [cond_false, List.length_cons, Nat.add_lt_add_iff_right]
      constructor
      · intro h
        obtain ⟨a, r, h1, h2, h3⟩ := ih.1 h
        refine ⟨b :: a, r, by rw [h1]; rfl, ?_, ?_⟩
        · simp only [List.mem_cons, not_or]; exact ⟨fun e => hb e.symm, h2⟩
        · simp [h3]
      · intro h
        simp only [List.mem_cons, not_or]
        exact ⟨fun e => hb e.symm, ih.2 h⟩

/-- One call of the split function. -/
theorem scanLines_cases (data : Bytes) (atEOF : Bool) :
    (∃ a r, data = a ++ 0x0A :: r ∧ (0x0A : UInt8) ∉ a ∧ scanLines data atEOF = some ⟨data, a.length + 1, some (0, dropCRLen a)⟩) ∨
    ((0x0A : UInt8) ∉ data ∧ atEOF = true ∧ data ≠ [] ∧ scanLines data atEOF = some ⟨data, data.length, some (0, dropCRLen data)⟩) ∨
    ((0x0A : UInt8) ∉ data ∧ (atEOF = true → data = []) ∧ scanLines data atEOF = some ⟨data, 0, none⟩) := by
  unfold scanLines
  by_cases h0 : (atEOF && data.isEmpty) = true
  · right; right
    rw [if_pos h0]
    simp only [Bool.and_eq_true, List.isEmpty_iff] at h0
    exact ⟨by rw [h0.2]; simp, fun _ => h0.2, rfl⟩
  · rw [if_neg h0]
    simp only [Bool.and_eq_true, List.isEmpty_iff, not_and] at h0
    simp only []
    by_cases h1 : data.findIdx (· == 0x0A) < data.length
    · left
      obtain ⟨a, r, e, hn, hi⟩ := findIdx_lf.1 h1
      refine ⟨a, r, e, hn, ?_⟩
      rw [if_pos h1, hi]
      have : data.take a.length = a := by rw [e]; simp
      rw [this]
    · right
      have hn := findIdx_lf.2 h1
      rw [if_neg h1]
      cases atEOF with
      | true => left; exact ⟨hn, rfl, h0 rfl, by simp⟩
      | false => right; exact ⟨hn, by simp, by simp⟩

/-- All calls on the unread bytes. With more input to come the last line stays unread. -/
theorem drain_lines (atEOF : Bool) : ∀ (fuel : Nat) (buf : Bytes), buf.length < fuel →
    ∃ raws left, drain scanLines atEOF fuel buf = some (raws.map dropCR, left) ∧ (0x0A : UInt8) ∉ left ∧
      (atEOF = true → raws = rawLines buf) ∧
      (atEOF = false → ∀ more, rawLines (buf ++ more) = raws ++ rawLines (left ++ more)) := by
  intro fuel
  induction fuel with
  | zero => intro buf h; omega
  | succ fuel ih =>
    intro buf hf
    unfold drain
    by_cases h0 : (buf.isEmpty && !atEOF) = true
    · rw [if_pos h0]
      simp only [Bool.and_eq_true, List.isEmpty_iff, Bool.not_eq_eq_eq_not, Bool.not_true] at h0
      obtain ⟨rfl, rfl⟩ := h0
      exact ⟨[], [], rfl, by simp, by simp, fun _ => by simp⟩
    · rw [if_neg h0]
      rcases scanLines_cases buf atEOF with ⟨a, r, e, hn, hs⟩ | ⟨hn, hat, hne, hs⟩ | ⟨hn, hat, hs⟩
      · rw [hs]
        have hdrop : buf.drop (a.length + 1) = r := by
          rw [e, show a ++ 0x0A :: r = (a ++ [0x0A]) ++ r from by simp]
          have : a.length + 1 = (a ++ [(0x0A : UInt8)]).length := by simp
          rw [this, List.drop_left]
        have hlen : buf.length = a.length + 1 + r.length := by rw [e]; simp; omega
        obtain ⟨raws, left, h1, h2, h3, h4⟩ := ih r (by omega)
        simp only [Option.bind_eq_bind, Option.bind_some]
        rw [if_pos (by omega), hdrop, h1]
        simp only [Option.bind_some, List.drop_zero]
        have htok : buf.take (dropCRLen a) = dropCR a := by
          rw [e, List.take_append_of_le_length (dropCRLen_le a), take_dropCRLen]
        rw [htok]
        refine ⟨a :: raws, left, rfl, h2, ?_, ?_⟩
        · intro hat
          rw [h3 hat, e, rawLines_lf hn]
        · intro hat more
          rw [e, List.append_assoc, List.cons_append, rawLines_lf hn, h4 hat more]; rfl
      · rw [hs]
        subst hat
        obtain ⟨f, rfl⟩ : ∃ f, fuel = f + 1 := by
          have : 0 < buf.length := List.length_pos_iff.mpr hne
          exact ⟨fuel - 1, by omega⟩
        obtain ⟨raws, left, h1, h2, h3, _⟩ := ih [] (by simp)
        simp only [Option.bind_eq_bind, Option.bind_some]
        rw [if_pos (Nat.le_refl _), List.drop_length, h1]
        simp only [Option.bind_some, List.drop_zero]
        rw [take_dropCRLen]
        refine ⟨buf :: raws, left, rfl, h2, ?_, by simp⟩
        intro _
        rw [h3 rfl, rawLines_no_lf hn, if_neg hne]; rfl
      · rw [hs]
        simp only [Option.bind_eq_bind, Option.bind_some]
        rw [if_pos (Nat.zero_le _), List.drop_zero]
        refine ⟨[], buf, rfl, hn, ?_, ?_⟩
        · intro h; rw [hat h]; rfl
        · intro _; simp

theorem split_lf {s : Bytes} (h : (0x0A : UInt8) ∈ s) : ∃ a r, s = a ++ 0x0A :: r ∧ (0x0A : UInt8) ∉ a := by
  by_cases h1 : s.findIdx (· == 0x0A) < s.length
  · obtain ⟨a, r, e, hn, _⟩ := findIdx_lf.1 h1; exact ⟨a, r, e, hn⟩
  · exact absurd h (findIdx_lf.2 h1)

theorem rawLines_short {a b : Bytes} {k : Nat} (h : ∀ l ∈ rawLines (a ++ b), l.length < k) (hk : 0 < k)
    (ha : (0x0A : UInt8) ∉ a) : a.length < k := by
  by_cases hb : (0x0A : UInt8) ∈ b
  · obtain ⟨b1, b2, rfl, hb1⟩ := split_lf hb
    have : (0x0A : UInt8) ∉ a ++ b1 := by simp [ha, hb1]
    rw [← List.append_assoc, rawLines_lf this] at h
    have := h _ (List.mem_cons_self)
    simp at this; omega
  · have hn : (0x0A : UInt8) ∉ a ++ b := by simp [ha, hb]
    rw [rawLines_no_lf hn] at h
    split at h
    · rename_i e
      have : a = [] := (List.append_eq_nil_iff.mp e).1
      subst this; simpa using hk
    · have := h _ (List.mem_singleton.mpr rfl)
      simp at this; omega

theorem scan_lines (rds : List ReadResult) : ∀ (k : Nat) (buf : Bytes), Lively k rds → (0x0A : UInt8) ∉ buf →
    (∀ l ∈ rawLines (buf ++ delivered rds), l.length < maxTokenSize) →
    scanFrom scanLines rds k buf = some (lines (buf ++ delivered rds), .done) := by
  induction rds with
  | nil =>
    intro k buf _ _ _
    obtain ⟨toks, left, h1, _, h3, _⟩ := drain_lines true (buf.length + 1) buf (by omega)
    unfold scanFrom
    rw [h1]
    simp [h3, delivered, lines]
  | cons rd rds ih =>
    intro k buf hl hbuf hshort
    unfold scanFrom
    unfold delivered at hshort ⊢
    unfold Lively at hl
    by_cases he : rd.err = true
    · rw [if_pos he, if_pos he]
      obtain ⟨toks, left, h1, _, h3, _⟩ := drain_lines true ((buf ++ rd.bytes).length + 1) (buf ++ rd.bytes) (by omega)
      rw [h1]
      simp [h3, lines]
    · rw [if_neg he, if_neg he]
      rw [if_neg he] at hshort
      have hl := hl.resolve_left he
      by_cases hb : rd.bytes = []
      · rw [if_pos hb] at hl
        rw [if_pos (by simp [hb]), if_neg (by have : maxEmptyReads = 100 := rfl; omega)]
        rw [hb, List.nil_append] at hshort ⊢
        exact ih (k + 1) buf hl.2 hbuf hshort
      · rw [if_neg hb] at hl
        rw [if_neg (by simp [hb])]
        obtain ⟨raws, left, h1, h2, _, h4⟩ := drain_lines false ((buf ++ rd.bytes).length + 1) (buf ++ rd.bytes) (by omega)
        have g := h4 rfl (delivered rds)
        rw [h1]
        simp only [Option.bind_eq_bind, Option.bind_some]
        rw [List.append_assoc] at g
        rw [g] at hshort
        have hraw : ∀ l ∈ rawLines (left ++ delivered rds), l.length < maxTokenSize :=
          fun l hl => hshort l (List.mem_append_right _ hl)
        have hleft := rawLines_short hraw (by decide) h2
        rw [if_neg (by omega), ih 0 left hl h2 hraw]
        simp [lines, g]

/-- A scan of lines always ends, and says so if it did not give all the lines. -/
theorem scan_lines_any (rds : List ReadResult) : ∀ (k : Nat) (buf : Bytes), (0x0A : UInt8) ∉ buf →
    ∃ toks ending, scanFrom scanLines rds k buf = some (toks, ending) ∧
      (ending = .done → toks = lines (buf ++ delivered rds)) ∧
      (ending = .tooLong → toks <+: lines (buf ++ delivered rds) ∧
        ∃ l ∈ rawLines (buf ++ delivered rds), maxTokenSize ≤ l.length) ∧
      (ending = .noProgress → ¬ Lively k rds) := by
  induction rds with
  | nil =>
    intro k buf _
    obtain ⟨toks, left, h1, _, h3, _⟩ := drain_lines true (buf.length + 1) buf (by omega)
    unfold scanFrom
    rw [h1]
    exact ⟨_, _, rfl, by simp [h3, delivered, lines], by simp, by simp⟩
  | cons rd rds ih =>
    intro k buf hbuf
    unfold scanFrom delivered Lively
    by_cases he : rd.err = true
    · rw [if_pos he, if_pos he]
      obtain ⟨toks, left, h1, _, h3, _⟩ := drain_lines true ((buf ++ rd.bytes).length + 1) (buf ++ rd.bytes) (by omega)
      rw [h1]
      exact ⟨_, _, rfl, by simp [h3, lines], by simp, by simp⟩
    · rw [if_neg he, if_neg he]
      by_cases hb : rd.bytes = []
      · rw [if_pos hb, if_pos (by simp [hb])]
        by_cases hk : maxEmptyReads ≤ k
        · rw [if_pos hk]
          obtain ⟨toks, left, h1, _, _, _⟩ := drain_lines true (buf.length + 1) buf (by omega)
          rw [h1]
          refine ⟨_, _, rfl, by simp, by simp, ?_⟩
          intro _
          have : maxEmptyReads = 100 := rfl
          simp only [he, Bool.false_eq_true, false_or, not_and]
          omega
        · rw [if_neg hk]
          obtain ⟨toks, ending, h1, h2, h3, h4⟩ := ih (k + 1) buf hbuf
          rw [hb, List.nil_append]
          refine ⟨toks, ending, h1, h2, h3, ?_⟩
          intro hne
          simp only [he, Bool.false_eq_true, false_or, not_and]
          exact fun _ => h4 hne
      · rw [if_neg hb, if_neg (by simp [hb])]
        obtain ⟨raws, left, h1, h2, _, h4⟩ := drain_lines false ((buf ++ rd.bytes).length + 1) (buf ++ rd.bytes) (by omega)
        have g := h4 rfl (delivered rds)
        rw [h1]
        simp only [Option.bind_eq_bind, Option.bind_some]
        rw [List.append_assoc] at g
        have gl : lines (buf ++ (rd.bytes ++ delivered rds)) = raws.map dropCR ++ lines (left ++ delivered rds) := by
          unfold lines; rw [g, List.map_append]
        by_cases hlong : maxTokenSize ≤ left.length
        · rw [if_pos hlong]
          refine ⟨_, _, rfl, by simp, ?_, by simp⟩
          intro _
          refine ⟨by rw [gl]; exact List.prefix_append _ _, ?_⟩
          rw [g]
          by_cases hex : ∃ l ∈ rawLines (left ++ delivered rds), maxTokenSize ≤ l.length
          · obtain ⟨l, hl1, hl2⟩ := hex
            exact ⟨l, List.mem_append_right _ hl1, hl2⟩
          · exfalso
            have := rawLines_short (k := maxTokenSize) (a := left) (b := delivered rds)
              (fun l hl => Nat.lt_of_not_le (fun h => hex ⟨l, hl, h⟩)) (by decide) h2
            omega
        · rw [if_neg hlong]
          obtain ⟨toks, ending, k1, k2, k3, k4⟩ := ih 0 left h2
          rw [k1]
          refine ⟨_, _, rfl, ?_, ?_, ?_⟩
          · intro h; rw [gl, k2 h]
          · intro h
            obtain ⟨m1, l, m2, m3⟩ := k3 h
            rw [gl, g]
            exact ⟨(List.prefix_append_right_inj _).mpr m1, l, List.mem_append_right _ m2, m3⟩
          · intro h
            simp only [he, Bool.false_eq_true, false_or]
            exact k4 h

end Kagome
