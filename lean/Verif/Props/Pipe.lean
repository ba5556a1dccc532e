import Verif.Model.Pipe

/-! C50: a request of the demo page ends. -/

namespace Kagome

variable {buf cap : Nat}

theorem PipeRun.trans {s t u : PipeState} (h1 : PipeRun buf cap s t) (h2 : PipeRun buf cap t u) : PipeRun buf cap s u := by
  induction h2 with
  | refl => exact h1
  | step _ h ih => exact .step ih h

/-- The claim: whatever the process does, the handler can always return. -/
def C50_claim (buf cap : Nat) : Prop :=
  ∀ writes s, PipeRun buf cap (.start writes) s → ∃ t, PipeRun buf cap s t ∧ t.handler = .returned

/-- The copying has stopped with writes to come: nobody will ever read them. -/
def Stuck (s : PipeState) : Prop := s.handler = .writing ∧ s.todo ≠ [] ∧ s.copier = .stopped

/-- C50: then the handler stays in its write for ever, with the lattice. -/
theorem C50_stuck {s t : PipeState} (h : Stuck s) (hr : PipeRun buf cap s t) : t.handler = .writing ∧ t.todo = s.todo := by
  have : t.handler = .writing ∧ t.todo = s.todo ∧ t.copier = .stopped := by
    induction hr with
    | refl => exact ⟨h.1, rfl, h.2.2⟩
    | step _ hs ih =>
      obtain ⟨i1, i2, i3⟩ := ih
      cases hs <;> simp_all [Stuck]
  exact ⟨this.1, this.2.1⟩

/-- C50: it can happen for every graph of at least two writes: the process ends before it has read anything (a syntax error, a crash, the
time is up). -/
theorem C50_violated {b : Bytes} {rest : List Bytes} (hne : b ≠ []) (hr : rest ≠ []) :
    ∃ s, PipeRun buf cap (.start (b :: rest)) s ∧ s.running = false ∧ ∀ t, PipeRun buf cap s t → t.handler = .writing := by
  have key : ∃ s, PipeRun buf cap (.start (b :: rest)) s ∧ s.running = false ∧ Stuck s := by
    by_cases hl : b.length ≤ buf
    · refine ⟨⟨rest, .writing, .stopped, [], [], false, false⟩, ?_, rfl, rfl, hr, rfl⟩
      refine .step (t := ⟨rest, .writing, .holding b, [], [], false, false⟩) (.step (t := ⟨rest, .writing, .holding b, [], [], false, true⟩)
        (.step (.refl _) ?_) ?_) ?_
      · have := PipeStep.all (buf := buf) (cap := cap) b rest (.start (b :: rest)) rfl rfl rfl hl
        rwa [if_neg hne] at this
      · exact .exit _ rfl
      · exact .fail b _ rfl rfl
    · refine ⟨⟨b.drop buf :: rest, .writing, .stopped, [], [], false, false⟩, ?_, rfl, rfl, by simp, rfl⟩
      refine .step (t := ⟨b.drop buf :: rest, .writing, .holding (b.take buf), [], [], false, false⟩)
        (.step (t := ⟨b.drop buf :: rest, .writing, .holding (b.take buf), [], [], false, true⟩) (.step (.refl _) ?_) ?_) ?_
      · exact PipeStep.part (buf := buf) (cap := cap) b rest (.start (b :: rest)) rfl rfl rfl (by omega)
      · exact .exit _ rfl
      · exact .fail _ _ rfl rfl
  obtain ⟨s, h1, h2, h3⟩ := key
  exact ⟨s, h1, h2, fun t ht => (C50_stuck h3 ht).1⟩

/-- C50: the claim is false. -/
theorem C50_claim_false : ¬ C50_claim buf cap := by
  intro h
  obtain ⟨s, h1, _, h3⟩ := C50_violated (buf := buf) (cap := cap) (b := str "a") (rest := [str "b"]) (by decide) (by decide)
  obtain ⟨t, h4, h5⟩ := h _ s h1
  rw [h3 t h4] at h5
  cases h5

/-- The writes of a graph are its text. -/
theorem dotWrites_text {π : Type} (addr : π → Bytes) (g : GraphOf π) : (dotWrites addr g).flatten = dotText addr g := by
  simp only [dotWrites, dotText, dotHead, List.flatten_append, List.flatMap_def, List.flatten_cons, List.flatten_nil, List.append_nil,
    List.append_assoc]

/-- C50: for the graph of every request there is a run in which the process has ended, its time up or not, and the handler never
returns. -/
theorem C50_every_request {π : Type} (addr : π → Bytes) (g : GraphOf π) :
    ∃ s, PipeRun buf cap (.start (dotWrites addr g)) s ∧ s.running = false ∧ ∀ t, PipeRun buf cap s t → t.handler = .writing := by
  simp only [dotWrites, List.cons_append]
  exact C50_violated (by decide) (by simp)

/-! ### What is true -/

/-- A process that ends only after it has seen the end of its input. -/
def Patient (s t : PipeState) : Prop := s.running = true → t.running = false → s.eof = true

/-- Some number of steps of the three with such a process. -/
inductive PatientRun (buf cap : Nat) : PipeState → PipeState → Prop
  | refl (s : PipeState) : PatientRun buf cap s s
  | step {s t u : PipeState} : PatientRun buf cap s t → PipeStep buf cap t u → Patient t u → PatientRun buf cap s u

def Copier.bytes : Copier → Bytes
  | .holding b => b
  | _ => []

/-- What has not ended yet, and the bytes that are under way, weighted by the way before them. -/
def PipeState.left (s : PipeState) : Nat :=
  3 * (s.todo.flatten).length + s.todo.length + 2 * s.copier.bytes.length + s.input.length +
    (match s.handler with | .writing => 2 | .waiting => 1 | .returned => 0) + (match s.copier with | .stopped => 0 | _ => 1) +
    (if s.eof then 0 else 1) + (if s.running then 1 else 0)

/-- C50: every step brings the end nearer, so there is no infinite run. -/
theorem C50_ends (hb : 0 < buf) {s t : PipeState} (h : PipeStep buf cap s t) : t.left < s.left := by
  cases h with
  | all b rest _ h1 h2 h3 h4 =>
    simp only [PipeState.left, h1, h2, h3, List.flatten_cons, List.length_append, List.length_cons, Copier.bytes]
    by_cases hb : b = []
    · simp only [hb, if_pos, List.length_nil]; omega
    · simp only [hb, if_false]; omega
  | part b rest _ h1 h2 h3 h4 =>
    simp only [PipeState.left, h1, h2, h3, List.flatten_cons, List.length_append, List.length_cons, Copier.bytes, List.length_drop,
      List.length_take, List.length_nil]
    omega
  | close _ h1 h2 => simp only [PipeState.left, h1, h2]; omega
  | copy n b _ h1 h2 h3 h4 h5 =>
    simp only [PipeState.left, h1, h2, Copier.bytes, List.length_append, List.length_take]
    by_cases hd : b.drop n = []
    · simp only [hd, if_pos, List.length_nil]; omega
    · simp only [hd, if_false, List.length_drop]; omega
  | fail b _ h1 h2 => simp only [PipeState.left, h1, h2, Copier.bytes, List.length_nil]; omega
  | finish _ h1 h2 => simp only [PipeState.left, h1, h2, Copier.bytes, List.length_nil]; omega
  | read n _ h1 h2 h3 => simp only [PipeState.left, List.length_drop]; omega
  | eof _ h1 h2 h3 h4 => simp only [PipeState.left, h4]; simp
  | exit _ h1 => simp only [PipeState.left, h1]; simp
  | wait _ h1 h2 h3 => simp only [PipeState.left, h1]; omega

/-- What holds in every run: the bytes in order, and who waits for whom. -/
structure PipeInv (writes : List Bytes) (s : PipeState) : Prop where
  bytes : s.copier ≠ .stopped → s.got ++ s.input ++ s.copier.bytes ++ s.todo.flatten = writes.flatten
  sent : s.got ++ s.input <+: writes.flatten
  held : ∀ b, s.copier = .holding b → b ≠ []
  closed : s.handler ≠ .writing → s.todo = []
  done : s.handler = .returned → s.copier = .stopped ∧ s.running = false
  stopped : s.copier = .stopped → s.handler = .writing → s.running = false
  full : s.copier = .stopped → s.running = true → s.got ++ s.input = writes.flatten
  eof : s.eof = true → s.got = writes.flatten ∧ s.input = []

theorem pipeInv_start (writes : List Bytes) : PipeInv writes (.start writes) where
  bytes := fun _ => by simp [PipeState.start, Copier.bytes]
  sent := by simp [PipeState.start]
  held := by simp [PipeState.start]
  closed := by simp [PipeState.start]
  done := by simp [PipeState.start]
  stopped := by simp [PipeState.start]
  full := by simp [PipeState.start]
  eof := by simp [PipeState.start]

theorem pipeInv_step (hb : 0 < buf) {writes : List Bytes} {s t : PipeState} (i : PipeInv writes s) (h : PipeStep buf cap s t) :
    PipeInv writes t := by
  cases h with
  | all b rest _ h1 h2 h3 h4 =>
    have hbytes := i.bytes (by simp [h3])
    simp only [h1, h3, Copier.bytes, List.append_nil, List.flatten_cons] at hbytes
    by_cases he : b = []
    · subst he
      rw [if_pos rfl]
      refine ⟨fun _ => by simpa [Copier.bytes] using hbytes, i.sent, by simp, by simp [h2], by simp [h2], by simp, by simp, i.eof⟩
    · rw [if_neg he]
      refine ⟨fun _ => by simpa [Copier.bytes] using hbytes, i.sent, ?_, by simp [h2], by simp [h2], by simp, by simp, i.eof⟩
      rintro c ⟨⟩; exact he
  | part b rest _ h1 h2 h3 h4 =>
    have hbytes := i.bytes (by simp [h3])
    simp only [h1, h3, Copier.bytes, List.append_nil, List.flatten_cons] at hbytes
    refine ⟨fun _ => ?_, i.sent, ?_, by simp [h2], by simp [h2], by simp, by simp, i.eof⟩
    · simp only [Copier.bytes, List.flatten_cons]
      rw [← hbytes]
      simp only [List.append_assoc]
      rw [← List.append_assoc (b.take buf), List.take_append_drop]
    · rintro c ⟨⟩ e
      have := congrArg List.length e
      simp only [List.length_take, List.length_nil] at this; omega
  | close _ h1 h2 => exact ⟨i.bytes, i.sent, i.held, fun _ => h1, by simp, by simp, i.full, i.eof⟩
  | copy n b _ h1 h2 h3 h4 h5 =>
    have hbytes := i.bytes (by simp [h1])
    simp only [h1, Copier.bytes] at hbytes
    have hsent : s.got ++ (s.input ++ b.take n) <+: writes.flatten := by
      refine ⟨b.drop n ++ s.todo.flatten, ?_⟩
      rw [← hbytes]
      simp only [List.append_assoc]
      rw [← List.append_assoc (b.take n), List.take_append_drop]
    have heof : s.eof = true → False := by
      intro he
      have h' := (i.eof he).1
      have := congrArg List.length hbytes
      rw [h'] at this
      simp only [List.length_append] at this
      omega
    by_cases hde : b.drop n = []
    · rw [if_pos hde]
      refine ⟨fun _ => ?_, hsent, by simp, i.closed, ?_, by simp, by simp, fun he => absurd he (by simpa using heof)⟩
      · simp only [Copier.bytes, List.append_nil]
        rw [← hbytes]
        have : b.take n = b := by
          have := List.take_append_drop n b; rwa [hde, List.append_nil] at this
        rw [this]; simp
      · intro hh; exact absurd (i.done hh).1 (by simp [h1])
    · rw [if_neg hde]
      refine ⟨fun _ => ?_, hsent, ?_, i.closed, ?_, by simp, by simp, fun he => absurd he (by simpa using heof)⟩
      · simp only [Copier.bytes]
        rw [← hbytes]
        simp only [List.append_assoc]
        rw [← List.append_assoc (b.take n), List.take_append_drop]
      · rintro c ⟨⟩; exact hde
      · intro hh; exact absurd (i.done hh).1 (by simp [h1])
  | fail b _ h1 h2 =>
    refine ⟨by simp, i.sent, by simp, i.closed, fun hh => ⟨rfl, h2⟩, fun _ _ => h2, ?_, i.eof⟩
    intro _ hr; rw [h2] at hr; cases hr
  | finish _ h1 h2 =>
    have hbytes := i.bytes (by simp [h1])
    have htodo := i.closed (by simp [h2])
    simp only [h1, Copier.bytes, htodo, List.flatten_nil, List.append_nil] at hbytes
    refine ⟨by simp, i.sent, by simp, i.closed, fun hh => absurd hh (by simp [h2]), ?_, fun _ _ => hbytes, i.eof⟩
    intro _ hh; rw [h2] at hh; cases hh
  | read n _ h1 h2 h3 =>
    have hgi : (s.got ++ s.input.take n) ++ s.input.drop n = s.got ++ s.input := by
      rw [List.append_assoc, List.take_append_drop]
    refine ⟨fun hc => ?_, ?_, i.held, i.closed, i.done, i.stopped, ?_, ?_⟩
    · simp only [hgi]; exact i.bytes hc
    · simp only [hgi]; exact i.sent
    · intro hc hr; simp only [hgi]; exact i.full hc hr
    · intro he
      have := (i.eof he).2
      rw [this] at h3
      simp at h3; omega
  | eof _ h1 h2 h3 h4 =>
    refine ⟨i.bytes, i.sent, i.held, i.closed, i.done, i.stopped, i.full, fun _ => ?_⟩
    have := i.full h3 h1
    rw [h2, List.append_nil] at this
    exact ⟨this, h2⟩
  | exit _ h1 =>
    refine ⟨i.bytes, i.sent, i.held, i.closed, ?_, fun _ _ => rfl, by simp, i.eof⟩
    intro hh
    exact ⟨(i.done hh).1, rfl⟩
  | wait _ h1 h2 h3 =>
    exact ⟨i.bytes, i.sent, i.held, fun _ => i.closed (by simp [h1]), fun _ => ⟨h3, h2⟩, by simp, i.full, i.eof⟩

theorem pipeInv_run (hb : 0 < buf) {writes : List Bytes} {s : PipeState} (h : PipeRun buf cap (.start writes) s) : PipeInv writes s := by
  induction h with
  | refl => exact pipeInv_start writes
  | step _ h ih => exact pipeInv_step hb ih h

/-- C50: the process never gets anything but the beginning of the text, in order. -/
theorem C50_prefix (hb : 0 < buf) {writes : List Bytes} {s : PipeState} (h : PipeRun buf cap (.start writes) s) :
    s.got <+: writes.flatten ∧ (s.eof = true → s.got = writes.flatten) := by
  have i := pipeInv_run hb h
  exact ⟨(List.prefix_append _ _).trans i.sent, fun he => (i.eof he).1⟩

/-- C50: whenever the handler has not returned and the copying has not stopped too early, someone can go on. -/
theorem C50_goes_on (hb : 0 < buf) {writes : List Bytes} {s : PipeState} (h : PipeRun buf cap (.start writes) s)
    (hn : s.handler ≠ .returned) : (∃ t, PipeStep buf cap s t) ∨ Stuck s := by
  have i := pipeInv_run hb h
  cases hr : s.running with
  | true => exact .inl ⟨_, .exit s hr⟩
  | false =>
    cases hco : s.copier with
    | holding b => exact .inl ⟨_, .fail b s hco hr⟩
    | reading =>
      cases hh : s.handler with
      | returned => exact absurd hh hn
      | waiting => exact .inl ⟨_, .finish s hco hh⟩
      | writing =>
        cases ht : s.todo with
        | nil => exact .inl ⟨_, .close s ht hh⟩
        | cons b rest =>
          by_cases hl : b.length ≤ buf
          · exact .inl ⟨_, .all b rest s ht hh hco hl⟩
          · exact .inl ⟨_, .part b rest s ht hh hco (by omega)⟩
    | stopped =>
      cases hh : s.handler with
      | returned => exact absurd hh hn
      | waiting => exact .inl ⟨_, .wait s hh hr hco⟩
      | writing =>
        cases ht : s.todo with
        | nil => exact .inl ⟨_, .close s ht hh⟩
        | cons b rest => exact .inr ⟨hh, by simp [ht], hco⟩

theorem PatientRun.run {s t : PipeState} (h : PatientRun buf cap s t) : PipeRun buf cap s t := by
  induction h with
  | refl => exact .refl _
  | step _ h _ ih => exact .step ih h

/-- With a patient process the copying goes on until the handler closes the pipe. -/
theorem patient_inv {writes : List Bytes} {s : PipeState} (hb : 0 < buf) (h : PatientRun buf cap (.start writes) s) :
    (s.running = false → s.eof = true) ∧ (s.copier = .stopped → s.handler ≠ .writing) := by
  induction h with
  | refl => simp [PipeState.start]
  | @step t u hrun hs hp ih =>
    have i := pipeInv_run hb hrun.run
    obtain ⟨i1, i2⟩ := ih
    cases hs with
    | all b rest _ h1 h2 h3 h4 => exact ⟨i1, by simp only; split <;> simp⟩
    | part b rest _ h1 h2 h3 h4 => exact ⟨i1, by simp⟩
    | close _ h1 h2 => exact ⟨i1, by simp⟩
    | copy n b _ h1 h2 h3 h4 h5 => exact ⟨i1, by simp only; split <;> simp⟩
    | fail b _ h1 h2 =>
      exfalso
      have he := i.eof (i1 h2)
      have hbytes := i.bytes (by simp [h1])
      rw [he.1, he.2, h1] at hbytes
      have := congrArg List.length hbytes
      have hne := List.length_pos_iff.mpr (i.held b h1)
      simp only [Copier.bytes, List.length_append, List.length_nil] at this
      omega
    | finish _ h1 h2 => exact ⟨i1, by simp [h2]⟩
    | read n _ h1 h2 h3 => exact ⟨i1, i2⟩
    | eof _ h1 h2 h3 h4 => exact ⟨fun _ => rfl, i2⟩
    | exit _ h1 => exact ⟨fun _ => hp h1 rfl, i2⟩
    | wait _ h1 h2 h3 => exact ⟨i1, by simp⟩

/-- C50, for a process that reads all of its input before it ends: as long as the handler has not returned someone can go on (and by
`C50_ends` not for ever), and when it returns the process has got the whole text. Missing from the claim: processes that end
earlier, for which it is false (`C50_violated`). -/
theorem C50_returns_partial (hb : 0 < buf) (hc : 0 < cap) {writes : List Bytes} {s : PipeState}
    (h : PatientRun buf cap (.start writes) s) :
    (s.handler ≠ .returned → ∃ t, PipeStep buf cap s t ∧ Patient s t) ∧
    (s.handler = .returned → s.got = writes.flatten) := by
  have i := pipeInv_run hb h.run
  obtain ⟨p1, p2⟩ := patient_inv hb h
  constructor
  · intro hn
    cases hr : s.running with
    | false =>
      rcases C50_goes_on hb h.run hn with ⟨t, ht⟩ | hs
      · exact ⟨t, ht, fun hr' => by rw [hr] at hr'; cases hr'⟩
      · exact absurd hs.1 (p2 hs.2.2)
    | true =>
      by_cases hin : s.input = []
      · cases hco : s.copier with
        | holding b =>
          have hne := List.length_pos_iff.mpr (i.held b hco)
          exact ⟨_, .copy 1 b s hco hr (by omega) (by omega) (by rw [hin]; simp; omega), fun _ h2 => by simp [hr] at h2⟩
        | reading =>
          cases hh : s.handler with
          | returned => exact absurd hh hn
          | waiting => exact ⟨_, .finish s hco hh, fun _ h2 => by simp [hr] at h2⟩
          | writing =>
            cases ht : s.todo with
            | nil => exact ⟨_, .close s ht hh, fun _ h2 => by simp [hr] at h2⟩
            | cons b rest =>
              by_cases hl : b.length ≤ buf
              · exact ⟨_, .all b rest s ht hh hco hl, fun _ h2 => by simp [hr] at h2⟩
              · exact ⟨_, .part b rest s ht hh hco (by omega), fun _ h2 => by simp [hr] at h2⟩
        | stopped =>
          cases he : s.eof with
          | true => exact ⟨_, .exit s hr, fun _ _ => he⟩
          | false => exact ⟨_, .eof s hr hin hco he, fun _ h2 => by simp [hr] at h2⟩
      · have := List.length_pos_iff.mpr hin
        exact ⟨_, .read 1 s hr (by omega) (by omega), fun _ h2 => by simp [hr] at h2⟩
  · intro hd
    exact (i.eof (p1 (i.done hd).2)).1

theorem PatientRun.trans {s t u : PipeState} (h1 : PatientRun buf cap s t) (h2 : PatientRun buf cap t u) : PatientRun buf cap s u := by
  induction h2 with
  | refl => exact h1
  | step _ h hp ih => exact .step ih h hp

/-- C50, for the same processes: wherever a run has got to, it can be carried on to the return of the handler. -/
theorem C50_reaches_partial (hb : 0 < buf) (hc : 0 < cap) {writes : List Bytes} {s : PipeState}
    (h : PatientRun buf cap (.start writes) s) : ∃ t, PatientRun buf cap s t ∧ t.handler = .returned := by
  by_cases hn : s.handler = .returned
  · exact ⟨s, .refl s, hn⟩
  · obtain ⟨t, ht, hp⟩ := (C50_returns_partial hb hc h).1 hn
    have := C50_ends hb ht
    obtain ⟨u, hu, hr⟩ := C50_reaches_partial hb hc (.step h ht hp)
    exact ⟨u, (PatientRun.step (.refl s) ht hp).trans hu, hr⟩
termination_by s.left

/-- C50, the same for the text of a graph: a request whose process reads its input ends with the whole text read. -/
theorem C50_graph_partial (hb : 0 < buf) (hc : 0 < cap) {π : Type} (addr : π → Bytes) (g : GraphOf π) {s : PipeState}
    (h : PatientRun buf cap (.start (dotWrites addr g)) s) :
    (s.handler ≠ .returned → ∃ t, PipeStep buf cap s t ∧ Patient s t) ∧
    (s.handler = .returned → s.got = dotText addr g) := by
  have := C50_returns_partial hb hc h
  rwa [dotWrites_text] at this

/-- A patient process and a small buffer: the run to the end exists. -/
example : ∃ s, PatientRun 2 1 (.start [str "abc"]) s ∧ s.handler = .returned ∧ s.got = str "abc" := by
  refine ⟨⟨[], .returned, .stopped, [], str "abc", true, false⟩, ?_, rfl, rfl⟩
  refine .step (t := ⟨[], .waiting, .stopped, [], str "abc", true, false⟩) ?_ (.wait _ rfl rfl rfl) (by simp [Patient])
  refine .step (t := ⟨[], .waiting, .stopped, [], str "abc", true, true⟩) ?_ (.exit _ rfl) (by simp [Patient])
  refine .step (t := ⟨[], .waiting, .stopped, [], str "abc", false, true⟩) ?_ (.eof _ rfl rfl rfl rfl) (by simp [Patient])
  refine .step (t := ⟨[], .waiting, .reading, [], str "abc", false, true⟩) ?_ (.finish _ rfl rfl) (by simp [Patient])
  refine .step (t := ⟨[], .writing, .reading, [], str "abc", false, true⟩) ?_ (.close _ rfl rfl) (by simp [Patient])
  refine .step (t := ⟨[], .writing, .reading, str "c", str "ab", false, true⟩) ?_ (.read 1 _ rfl (by decide) (by decide)) (by simp [Patient])
  refine .step (t := ⟨[], .writing, .holding (str "c"), [], str "ab", false, true⟩) ?_
    (.copy 1 (str "c") _ rfl rfl (by decide) (by decide) (by decide)) (by simp [Patient])
  refine .step (t := ⟨[str "c"], .writing, .reading, [], str "ab", false, true⟩) ?_ (.all (str "c") [] _ rfl rfl rfl (by decide)) (by simp [Patient])
  refine .step (t := ⟨[str "c"], .writing, .reading, str "b", str "a", false, true⟩) ?_ (.read 1 _ rfl (by decide) (by decide)) (by simp [Patient])
  refine .step (t := ⟨[str "c"], .writing, .holding (str "b"), [], str "a", false, true⟩) ?_
    (.copy 1 (str "b") _ rfl rfl (by decide) (by decide) (by decide)) (by simp [Patient])
  refine .step (t := ⟨[str "c"], .writing, .holding (str "b"), str "a", [], false, true⟩) ?_ (.read 1 _ rfl (by decide) (by decide)) (by simp [Patient])
  refine .step (t := ⟨[str "c"], .writing, .holding (str "ab"), [], [], false, true⟩) ?_
    (.copy 1 (str "ab") _ rfl rfl (by decide) (by decide) (by decide)) (by simp [Patient])
  exact .step (.refl _) (.part (str "abc") [] _ rfl rfl rfl (by decide)) (by simp [Patient])

end Kagome
