import Verif.Model.Sink
import Verif.Spec.Sink

/-! Writing that may fail: what arrives. -/

namespace Kagome

open Spec

theorem write_room (s : Sink) (p : Bytes) : (s.write p).sink.room = s.room := by
  unfold Sink.write
  split
  · rfl
  · split <;> rfl

/-- One write: everything, or the beginning. -/
theorem write_cases (s : Sink) (p : Bytes) :
    ((s.write p).failed = false ∧ (s.write p).n = p.length ∧ (s.write p).sink.got = s.got ++ p) ∨
    ((s.write p).failed = true ∧ (s.write p).n < p.length ∧ (s.write p).sink.got = s.got ++ p.take (s.write p).n ∧ ¬ Unlimited s.room) := by
  unfold Sink.write
  cases h : s.room s.calls with
  | none => exact .inl ⟨rfl, rfl, rfl⟩
  | some k =>
    simp only []
    by_cases hk : p.length ≤ k
    · rw [if_pos hk]; exact .inl ⟨rfl, rfl, rfl⟩
    · rw [if_neg hk]
      refine .inr ⟨rfl, Nat.lt_of_not_le hk, rfl, fun hu => ?_⟩
      rw [hu s.calls] at h; cases h

/-- Unbuffered output: of each text the beginning arrives. -/
theorem print_parts (ps : List Bytes) (s : Sink) :
    ∃ parts, (s.print ps).got = s.got ++ parts.flatten ∧ CutParts parts ps ∧ (Unlimited s.room → parts = ps) := by
  induction ps generalizing s with
  | nil => exact ⟨[], by simp [Sink.print], trivial, fun _ => rfl⟩
  | cons p ps ih =>
    obtain ⟨parts, h1, h2, h3⟩ := ih (s.write p).sink
    rw [write_room] at h3
    unfold Sink.print
    rcases write_cases s p with ⟨_, _, hg⟩ | ⟨_, _, hg, hu⟩
    · refine ⟨p :: parts, ?_, ⟨List.prefix_refl _, h2⟩, fun h => by rw [h3 h]⟩
      rw [h1, hg]; simp
    · refine ⟨p.take (s.write p).n :: parts, ?_, ⟨List.take_prefix _ _, h2⟩, fun h => absurd h hu⟩
      rw [h1, hg]; simp

/-- What is true of a `bufio.Writer` on a file that had got `base`, after `T` was given to it. -/
structure Buffered (base T : Bytes) (room : Nat → Option Nat) (b : BufWriter) : Prop where
  small : b.buf.length ≤ bufSize
  same : b.sink.room = room
  good : b.failed = false → ∃ U, b.sink.got = base ++ U ∧ T = U ++ b.buf
  bad : b.failed = true → ∃ U V, b.sink.got = base ++ U ∧ T = U ++ V ∧ V ≠ [] ∧ ¬ Unlimited room

theorem new_buffered (s : Sink) : Buffered s.got [] s.room (newBufWriter s) :=
  ⟨by simp [newBufWriter], rfl, fun _ => ⟨[], by simp [newBufWriter]⟩, fun h => by cases h⟩

theorem drop_ne_nil {n : Nat} {l : Bytes} (h : n < l.length) : l.drop n ≠ [] := by
  intro hc
  have := congrArg List.length hc
  rw [List.length_drop, List.length_nil] at this
  omega

theorem flush_spec {base T : Bytes} {room : Nat → Option Nat} {b : BufWriter} (h : Buffered base T room b) :
    Buffered base T room b.flush ∧ (b.flush.failed = false → b.flush.buf = []) := by
  unfold BufWriter.flush
  cases hf : b.failed with
  | true => rw [if_pos rfl]; exact ⟨h, fun hc => by rw [hf] at hc; cases hc⟩
  | false =>
    rw [if_neg (by simp)]
    by_cases hb : b.buf = []
    · rw [if_pos hb]; exact ⟨h, fun _ => hb⟩
    · rw [if_neg hb]
      simp only []
      obtain ⟨U, hg, hT⟩ := h.good hf
      rcases write_cases b.sink b.buf with ⟨h1, h2, h3⟩ | ⟨h1, h2, h3, h4⟩
      · rw [if_neg (by simp [h1])]
        refine ⟨⟨by simp, by rw [write_room]; exact h.same, fun _ => ⟨U ++ b.buf, ?_, ?_⟩, fun hc => by cases hc⟩, fun _ => rfl⟩
        · rw [h3, hg, List.append_assoc]
        · rw [List.append_nil]; exact hT
      · rw [if_pos h1]
        refine ⟨⟨?_, by rw [write_room]; exact h.same, (fun hc => by cases hc), fun _ => ?_⟩, fun hc => by cases hc⟩
        · have := h.small; rw [List.length_drop]; show _ ≤ bufSize; omega
        · refine ⟨U ++ b.buf.take (b.sink.write b.buf).n, b.buf.drop (b.sink.write b.buf).n, ?_, ?_, drop_ne_nil h2, by rw [← h.same]; exact h4⟩
          · rw [h3, hg, List.append_assoc]
          · rw [List.append_assoc, List.take_append_drop]; exact hT

/-- What the loop leaves: `q` is what is still to be written. -/
def LoopLeft (base T p : Bytes) (room : Nat → Option Nat) (r : BufWriter × Bytes) : Prop :=
  (r.1.failed = true ∧ Buffered base (T ++ p) room r.1) ∨
  (r.1.failed = false ∧ r.2.length ≤ bufSize - r.1.buf.length ∧ ∃ c, p = c ++ r.2 ∧ Buffered base (T ++ c) room r.1)

theorem loop_empty {base T : Bytes} {room : Nat → Option Nat} {b : BufWriter} (h : Buffered base T room b) (hf : b.failed = false) (hb : b.buf = [])
    (fuel : Nat) (p : Bytes) : LoopLeft base T p room (BufWriter.writeLoop (fuel + 1) b p) := by
  obtain ⟨U, hg, hT⟩ := h.good hf
  unfold BufWriter.writeLoop
  by_cases hc : bufSize - b.buf.length < p.length
  · rw [if_pos ⟨hc, hf⟩, if_pos hb]
    simp only []
    rcases write_cases b.sink p with ⟨h1, h2, h3⟩ | ⟨h1, h2, h3, h4⟩
    · rw [h1, h2, List.drop_length]
      have he : BufWriter.writeLoop fuel { b with failed := false, sink := (b.sink.write p).sink } [] =
          ({ b with failed := false, sink := (b.sink.write p).sink }, []) := by
        cases fuel with
        | zero => rfl
        | succ n => unfold BufWriter.writeLoop; rw [if_neg (by simp)]
      rw [he]
      refine .inr ⟨rfl, by simp, p, by simp, h.small, by rw [write_room]; exact h.same, fun _ => ⟨U ++ p, ?_, ?_⟩, fun hc => by cases hc⟩
      · rw [h3, hg, List.append_assoc]
      · rw [hT, hb]; simp
    · have he : ∀ q, BufWriter.writeLoop fuel { b with failed := (b.sink.write p).failed, sink := (b.sink.write p).sink } q =
          ({ b with failed := (b.sink.write p).failed, sink := (b.sink.write p).sink }, q) := by
        intro q
        cases fuel with
        | zero => rfl
        | succ n => unfold BufWriter.writeLoop; rw [if_neg (by simp [h1])]
      rw [he]
      refine .inl ⟨h1, h.small, by rw [write_room]; exact h.same, (fun hc => by rw [h1] at hc; cases hc), fun _ => ?_⟩
      refine ⟨U ++ p.take (b.sink.write p).n, p.drop (b.sink.write p).n, ?_, ?_, drop_ne_nil h2, by rw [← h.same]; exact h4⟩
      · rw [h3, hg, List.append_assoc]
      · rw [hT, hb, List.append_nil, List.append_assoc, List.take_append_drop]
  · rw [if_neg (by simp [hc])]
    exact .inr ⟨hf, Nat.le_of_not_lt hc, [], by simp, by simpa using h⟩

theorem loop_spec {base T : Bytes} {room : Nat → Option Nat} {b : BufWriter} (h : Buffered base T room b) (hf : b.failed = false) (fuel : Nat)
    (p : Bytes) : LoopLeft base T p room (BufWriter.writeLoop (fuel + 2) b p) := by
  by_cases hb : b.buf = []
  · exact loop_empty h hf hb _ p
  · obtain ⟨U, hg, hT⟩ := h.good hf
    unfold BufWriter.writeLoop
    by_cases hc : bufSize - b.buf.length < p.length
    · rw [if_pos ⟨hc, hf⟩, if_neg hb]
      simp only []
      generalize hk : bufSize - b.buf.length = k at hc ⊢
      have hs := h.small
      have h2 : Buffered base (T ++ p.take k) room { b with buf := b.buf ++ p.take k } := by
        refine ⟨?_, h.same, fun _ => ⟨U, hg, ?_⟩, fun hc => by rw [hf] at hc; cases hc⟩
        · show (b.buf ++ p.take k).length ≤ bufSize
          rw [List.length_append, List.length_take]; omega
        · rw [hT, List.append_assoc]
      obtain ⟨h3, h4⟩ := flush_spec h2
      generalize ({ b with buf := b.buf ++ p.take k } : BufWriter).flush = b2 at h3 h4
      cases hf2 : b2.failed with
      | true =>
        have he : BufWriter.writeLoop (fuel + 1) b2 (p.drop k) = (b2, p.drop k) := by
          unfold BufWriter.writeLoop; rw [if_neg (by simp [hf2])]
        rw [he]
        refine .inl ⟨hf2, h3.small, h3.same, (fun hc => by rw [hf2] at hc; cases hc), fun _ => ?_⟩
        obtain ⟨U', V', a1, a2, a3, a4⟩ := h3.bad hf2
        refine ⟨U', V' ++ p.drop k, a1, ?_, by simp [a3], a4⟩
        rw [← List.append_assoc, ← a2, List.append_assoc, List.take_append_drop]
      | false =>
        rcases loop_empty h3 hf2 (h4 hf2) fuel (p.drop k) with ⟨g1, g2⟩ | ⟨g1, g2, c, g3, g4⟩
        · rw [List.append_assoc, List.take_append_drop] at g2
          exact .inl ⟨g1, g2⟩
        · refine .inr ⟨g1, g2, p.take k ++ c, ?_, by rw [← List.append_assoc]; exact g4⟩
          rw [List.append_assoc, ← g3, List.take_append_drop]
    · rw [if_neg (by simp [hc])]
      exact .inr ⟨hf, Nat.le_of_not_lt hc, [], by simp, by simpa using h⟩

theorem bufWrite_spec {base T : Bytes} {room : Nat → Option Nat} {b : BufWriter} (h : Buffered base T room b) (p : Bytes) :
    Buffered base (T ++ p) room (b.write p) := by
  unfold BufWriter.write
  simp only []
  cases hf : b.failed with
  | true =>
    have he : BufWriter.writeLoop (p.length + 2) b p = (b, p) := by
      unfold BufWriter.writeLoop; rw [if_neg (by simp [hf])]
    rw [he, if_pos hf]
    refine ⟨h.small, h.same, (fun hc => by rw [hf] at hc; cases hc), fun _ => ?_⟩
    obtain ⟨U, V, a1, a2, a3, a4⟩ := h.bad hf
    exact ⟨U, V ++ p, a1, by rw [a2, List.append_assoc], by simp [a3], a4⟩
  | false =>
    rcases loop_spec h hf p.length p with ⟨g1, g2⟩ | ⟨g1, g2, c, g3, g4⟩
    · rw [if_pos g1]; exact g2
    · rw [if_neg (by simp [g1]), List.take_of_length_le g2]
      have hs := g4.small
      obtain ⟨U, a1, a2⟩ := g4.good g1
      refine ⟨?_, g4.same, fun _ => ⟨U, a1, ?_⟩, fun hc => ?_⟩
      · show (_ ++ _ : Bytes).length ≤ bufSize
        rw [List.length_append]; omega
      · show T ++ p = U ++ (_ ++ _)
        rw [← List.append_assoc, ← a2, List.append_assoc, ← g3]
      · exact absurd hc (by simp [g1])

theorem bufWrites_spec {base : Bytes} {room : Nat → Option Nat} (ps : List Bytes) {T : Bytes} {b : BufWriter} (h : Buffered base T room b) :
    Buffered base (T ++ ps.flatten) room (ps.foldl BufWriter.write b) := by
  induction ps generalizing T b with
  | nil => simpa using h
  | cons p ps ih =>
    have := ih (bufWrite_spec h p)
    simpa [List.append_assoc] using this

/-- Buffered output: the beginning arrives, however it was cut into calls. -/
theorem printBuffered_spec (s : Sink) (ps : List Bytes) :
    (s.printBuffered ps).room = s.room ∧
      ∃ part, (s.printBuffered ps).got = s.got ++ part ∧ part <+: ps.flatten ∧ (Unlimited s.room → part = ps.flatten) := by
  obtain ⟨h1, h2⟩ := flush_spec (bufWrites_spec ps (new_buffered s))
  unfold Sink.printBuffered
  generalize (ps.foldl BufWriter.write (newBufWriter s)).flush = b at h1 h2
  refine ⟨h1.same, ?_⟩
  cases hf : b.failed with
  | true =>
    obtain ⟨U, V, a1, a2, a3, a4⟩ := h1.bad hf
    rw [List.nil_append] at a2
    exact ⟨U, a1, ⟨V, a2.symm⟩, fun h => absurd h a4⟩
  | false =>
    obtain ⟨U, a1, a2⟩ := h1.good hf
    rw [h2 hf, List.nil_append, List.append_nil] at a2
    exact ⟨U, a1, by rw [a2]; exact List.prefix_refl _, fun _ => a2.symm⟩

end Kagome
