import Verif.Model.Lifetime

/-! C51: why and how the server command ends. -/

namespace Kagome

theorem ServerRun.trans {s t u : ServerState} (h1 : ServerRun s t) (h2 : ServerRun t u) : ServerRun s u := by
  induction h2 with
  | refl => exact h1
  | step _ h ih => exact .step ih h

/-- What holds in every run. -/
structure ServerInv (s : ServerState) : Prop where
  pending : s.pending = true → .signal ∈ s.history ∧ s.notified = true
  received : s.received = true → .signal ∈ s.history ∧ s.done = true
  done : s.done = true → (.signal ∈ s.history ∨ .cancel ∈ s.history) ∨ ∃ e, s.result = some (some (str "server error, " ++ e)) ∧ .failed e ∈ s.history
  offering : ∀ e, s.serving = .offering e → .failed e ∈ s.history
  nil : s.result = some none → .signal ∈ s.history ∨ .cancel ∈ s.history
  err : ∀ r, s.result = some (some r) → ∃ e, r = str "server error, " ++ e ∧ .failed e ∈ s.history
  alive : s.alive = false → s.notified = false
  waiting : .signal ∈ s.history → s.notified = true → s.pending = true ∨ s.received = true
  early : s.notified = false → s.alive = true → .signal ∉ s.history

theorem serverInv_start : ServerInv {} := by
  constructor <;> simp

theorem serverInv_step {s t : ServerState} (i : ServerInv s) (h : ServerStep s t) : ServerInv t := by
  obtain ⟨i1, i2, i3, i4, i5, i6, i7, i8, i9⟩ := i
  cases h with
  | notify _ ha =>
    refine ⟨fun h => ⟨(i1 h).1, rfl⟩, i2, i3, i4, i5, i6, ?_, ?_, by simp⟩
    · intro h; simp [ha] at h
    · intro h _
      by_cases hn : s.notified = true
      · exact i8 h hn
      · exact absurd h (i9 (by simpa using hn) ha)
  | signal _ ha hn =>
    refine ⟨fun _ => ⟨by simp, hn⟩, fun h => ⟨by simp, (i2 h).2⟩, fun _ => .inl (.inl (by simp)), fun e he => by simp [i4 e he], fun _ => .inl (by simp), ?_, ?_,
      fun _ _ => .inl rfl, ?_⟩
    · intro r hr; obtain ⟨e, h1, h2⟩ := i6 r hr; exact ⟨e, h1, by simp [h2]⟩
    · intro h; simp [ha] at h
    · intro h; simp [hn] at h
  | kill _ ha hn =>
    refine ⟨fun h => ?_, fun h => ⟨by simp, (i2 h).2⟩, fun _ => .inl (.inl (by simp)), fun e he => by simp [i4 e he], fun _ => .inl (by simp), ?_, fun _ => hn, ?_,
      by simp⟩
    · have := (i1 h).2; rw [hn] at this; cases this
    · intro r hr; obtain ⟨e, h1, h2⟩ := i6 r hr; exact ⟨e, h1, by simp [h2]⟩
    · intro _ h; simp [hn] at h
  | receive _ ha hp hr =>
    have := i1 hp
    refine ⟨by simp, fun _ => ⟨this.1, rfl⟩, fun _ => .inl (.inl this.1), i4, i5, i6, i7, fun _ _ => .inr rfl, i9⟩
  | cancel _ ha =>
    refine ⟨fun h => ⟨by simp [(i1 h).1], (i1 h).2⟩, fun h => ⟨by simp [(i2 h).1], rfl⟩, fun _ => .inl (.inr (by simp)), fun e he => by simp [i4 e he],
      fun _ => .inr (by simp), ?_, i7, ?_, ?_⟩
    · intro r hr; obtain ⟨e, h1, h2⟩ := i6 r hr; exact ⟨e, h1, by simp [h2]⟩
    · intro h; exact i8 (by simpa using h)
    · intro h1 h2 h; exact i9 h1 h2 (by simpa using h)
  | request _ ha hl =>
    refine ⟨fun h => ⟨by simp [(i1 h).1], (i1 h).2⟩, fun h => ⟨by simp [(i2 h).1], (i2 h).2⟩, ?_, fun e he => by simp [i4 e he],
      fun h => by simpa using i5 h, ?_, i7, ?_, ?_⟩
    · intro h
      rcases i3 h with h | ⟨e, h1, h2⟩
      · exact .inl (by simpa using h)
      · exact .inr ⟨e, h1, by simp [h2]⟩
    · intro r hr; obtain ⟨e, h1, h2⟩ := i6 r hr; exact ⟨e, h1, by simp [h2]⟩
    · intro h; exact i8 (by simpa using h)
    · intro h1 h2 h; exact i9 h1 h2 (by simpa using h)
  | answer _ ha hl =>
    refine ⟨fun h => ⟨by simp [(i1 h).1], (i1 h).2⟩, fun h => ⟨by simp [(i2 h).1], (i2 h).2⟩, ?_, fun e he => by simp [i4 e he],
      fun h => by simpa using i5 h, ?_, i7, ?_, ?_⟩
    · intro h
      rcases i3 h with h | ⟨e, h1, h2⟩
      · exact .inl (by simpa using h)
      · exact .inr ⟨e, h1, by simp [h2]⟩
    · intro r hr; obtain ⟨e, h1, h2⟩ := i6 r hr; exact ⟨e, h1, by simp [h2]⟩
    · intro h; exact i8 (by simpa using h)
    · intro h1 h2 h; exact i9 h1 h2 (by simpa using h)
  | fail err _ ha hl =>
    refine ⟨fun h => ⟨by simp [(i1 h).1], (i1 h).2⟩, fun h => ⟨by simp [(i2 h).1], (i2 h).2⟩, ?_, ?_,
      fun h => by simpa using i5 h, ?_, i7, ?_, ?_⟩
    · intro h
      rcases i3 h with h | ⟨e, h1, h2⟩
      · exact .inl (by simpa using h)
      · exact .inr ⟨e, h1, by simp [h2]⟩
    · rintro e ⟨⟩; simp
    · intro r hr; obtain ⟨e, h1, h2⟩ := i6 r hr; exact ⟨e, h1, by simp [h2]⟩
    · intro h; exact i8 (by simpa using h)
    · intro h1 h2 h; exact i9 h1 h2 (by simpa using h)
  | stop _ ha hn hd =>
    have hh : .signal ∈ s.history ∨ .cancel ∈ s.history := by
      rcases i3 hd with h | ⟨e, h1, _⟩
      · exact h
      · rw [hn] at h1; cases h1
    exact ⟨i1, i2, fun _ => .inl hh, i4, fun _ => hh, by simp, i7, i8, i9⟩
  | report err _ ha hn ho =>
    refine ⟨i1, fun h => ⟨(i2 h).1, rfl⟩, fun _ => .inr ⟨err, rfl, i4 err ho⟩, by simp, by simp, ?_, i7, i8, i9⟩
    rintro r ⟨⟩; exact ⟨err, rfl, i4 err ho⟩

theorem serverInv_run {s : ServerState} (h : ServerRun {} s) : ServerInv s := by
  induction h with
  | refl => exact serverInv_start
  | step _ h ih => exact serverInv_step ih h

/-- C51: `Run` returns nil only after a signal or after its caller has cancelled it, and an error only when `ListenAndServe` has returned that
error. -/
theorem C51_reason {s : ServerState} (h : ServerRun {} s) :
    (s.result = some none → .signal ∈ s.history ∨ .cancel ∈ s.history) ∧
    (∀ r, s.result = some (some r) → ∃ e, r = str "server error, " ++ e ∧ .failed e ∈ s.history) :=
  ⟨(serverInv_run h).nil, (serverInv_run h).err⟩

/-- A server that has failed offers its error until it is reported. -/
theorem serving_run {s : ServerState} (h : ServerRun {} s) :
    (∀ e, .failed e ∈ s.history → s.serving = .offering e ∨ s.serving = .ended) ∧ (s.serving = .ended → s.result ≠ none) := by
  induction h with
  | refl => simp
  | @step t u _ h ih =>
    obtain ⟨i1, i2⟩ := ih
    cases h with
    | notify => exact ⟨i1, i2⟩
    | signal => exact ⟨fun e he => i1 e (by simpa using he), i2⟩
    | kill => exact ⟨fun e he => i1 e (by simpa using he), i2⟩
    | receive => exact ⟨i1, i2⟩
    | cancel => exact ⟨fun e he => i1 e (by simpa using he), i2⟩
    | request => exact ⟨fun e he => i1 e (by simpa using he), i2⟩
    | answer => exact ⟨fun e he => i1 e (by simpa using he), i2⟩
    | fail err _ ha hl =>
      refine ⟨fun e he => ?_, by simp⟩
      simp only [List.mem_append, List.mem_singleton] at he
      rcases he with he | he
      · rcases i1 e he with h | h <;> rw [hl] at h <;> cases h
      · cases he; exact .inl rfl
    | stop => exact ⟨i1, by simp⟩
    | report => exact ⟨fun e _ => .inr rfl, by simp⟩

/-- A context that has been cancelled stays so. -/
private theorem done_of_cancel {s : ServerState} (h : ServerRun {} s) (hc : .cancel ∈ s.history) : s.done = true := by
  generalize hs : ({} : ServerState) = s0 at h
  induction h with
  | refl => subst hs; cases hc
  | step h1 h2 ih => cases h2 <;> simp_all

/-- C51: once there has been a signal, a cancellation by the caller or a failure, `Run` can return, whatever else has happened, if the signal did not
end the process. -/
theorem C51_returns {s : ServerState} (h0 : ServerRun {} s) (ha : s.alive = true) (hr : s.result = none)
    (hev : .signal ∈ s.history ∨ .cancel ∈ s.history ∨ (∃ e, .failed e ∈ s.history)) : ∃ t, ServerRun s t ∧ t.result ≠ none := by
  have i := serverInv_run h0
  have stopRun : ∀ {u : ServerState}, ServerRun s u → u.alive = true → u.result = none → u.done = true → ∃ t, ServerRun s t ∧ t.result ≠ none :=
    fun hu h1 h2 h3 => ⟨_, .step hu (.stop _ h1 h2 h3), by simp⟩
  rcases hev with hs | hc | ⟨e, he⟩
  · have hn : s.notified = true := by
      cases hn : s.notified with
      | true => rfl
      | false => exact absurd hs (i.early hn ha)
    cases hrec : s.received with
    | true => exact stopRun (.refl s) ha hr (i.received hrec).2
    | false =>
      have hp : s.pending = true := by
        rcases i.waiting hs hn with h | h
        · exact h
        · rw [hrec] at h; cases h
      exact stopRun (.step (.refl s) (.receive s ha hp hrec)) ha hr rfl
  · exact stopRun (.refl s) ha hr (done_of_cancel h0 hc)
  · have : ∃ e', s.serving = .offering e' := by
      rcases (serving_run h0).1 e he with h | h
      · exact ⟨e, h⟩
      · exact absurd hr ((serving_run h0).2 h)
    obtain ⟨e', he'⟩ := this
    exact ⟨_, .step (.refl s) (.report e' s ha hr he'), by simp⟩

/-! ### What does not hold -/

/-- The orderly end a user may expect: when `Run` has returned nil, every request that came in has been answered and the server takes no more. -/
def C51_claim : Prop := ∀ s, ServerRun {} s → s.result = some none → s.open_ = 0 ∧ s.serving ≠ .listening

/-- The requests that are not answered: as many as have come in and have not been answered. -/
theorem C51_open {s : ServerState} (h : ServerRun {} s) :
    s.open_ + s.history.countP (· = .answer) = s.history.countP (· = .request) := by
  generalize hs : ({} : ServerState) = s0 at h
  induction h with
  | refl => subst hs; rfl
  | step h1 h2 ih =>
    cases h2 <;> simp_all <;> omega

/-- C51: `Run` returns nil while a request is open (it does not wait for the server, let alone shut it down). -/
theorem C51_cut_off : ∃ s, ServerRun {} s ∧ s.result = some none ∧ s.open_ = 1 ∧ s.serving = .listening := by
  refine ⟨{ notified := true, received := true, done := true, open_ := 1, result := some none, history := [.request, .signal] }, ?_, rfl, rfl, rfl⟩
  exact .step (.step (.step (.step (.step (.refl _) (.notify _ rfl)) (.request _ rfl rfl)) (.signal _ rfl rfl)) (.receive _ rfl rfl rfl)) (.stop _ rfl rfl rfl)

theorem C51_claim_false : ¬ C51_claim := by
  intro h
  obtain ⟨s, h1, h2, h3, _⟩ := C51_cut_off
  rw [(h s h1 h2).1] at h3
  cases h3

/-- C51: for the same reason a program that calls `Run` and lives on keeps the server: after the return it takes further requests, as many as come. -/
theorem C51_goes_on {s : ServerState} (ha : s.alive = true) (hl : s.serving = .listening) (n : Nat) :
    ∃ t, ServerRun s t ∧ t.result = s.result ∧ t.open_ = s.open_ + n := by
  have : ∃ t, ServerRun s t ∧ t.result = s.result ∧ t.open_ = s.open_ + n ∧ t.alive = true ∧ t.serving = .listening := by
    induction n with
    | zero => exact ⟨s, .refl s, rfl, rfl, ha, hl⟩
    | succ n ih =>
      obtain ⟨t, h1, h2, h3, h4, h5⟩ := ih
      exact ⟨_, .step h1 (.request t h4 h5), h2, by simp only [h3]; omega, h4, h5⟩
  obtain ⟨t, h1, h2, h3, _⟩ := this
  exact ⟨t, h1, h2, h3⟩

/-- C51: an error of the server is not always reported: when the context is done too, `select` may take that case, and then the goroutine offers its
error for ever. -/
theorem C51_error_lost (e : Bytes) : ∃ s, ServerRun {} s ∧ s.history = [.failed e, .cancel] ∧ s.result = some none ∧
    ∀ t, ServerRun s t → t.result = some none ∧ t.serving = .offering e := by
  refine ⟨{ done := true, serving := .offering e, result := some none, history := [.failed e, .cancel] }, ?_, rfl, rfl, ?_⟩
  · exact .step (.step (.step (.refl _) (.fail e _ rfl rfl)) (.cancel _ rfl)) (.stop _ rfl rfl rfl)
  · intro t ht
    induction ht with
    | refl => exact ⟨rfl, rfl⟩
    | step _ h ih =>
      obtain ⟨i1, i2⟩ := ih
      cases h <;> simp_all

/-- C51: a signal that comes before the goroutine has asked for signals ends the process; `Run` returns nothing. -/
theorem C51_early_signal : ∃ s, ServerRun {} s ∧ s.history = [.signal] ∧ ∀ t, ServerRun s t → t.result = none := by
  refine ⟨{ alive := false, history := [.signal] }, .step (.refl _) (.kill _ rfl rfl), rfl, ?_⟩
  intro t ht
  have : t.result = none ∧ t.alive = false := by
    induction ht with
    | refl => exact ⟨rfl, rfl⟩
    | step _ h ih =>
      obtain ⟨i1, i2⟩ := ih
      cases h <;> simp_all
  exact this.1

/-- The premises of `C51_returns` are met by a run with two requests, a signal that nobody has received yet, and a failure. -/
example : ∃ s, ServerRun {} s ∧ s.alive = true ∧ s.result = none ∧ .signal ∈ s.history ∧ .failed (str "x") ∈ s.history :=
  ⟨_, .step (.step (.step (.step (.step (.refl _) (.notify _ rfl)) (.request _ rfl rfl)) (.request _ rfl rfl)) (.signal _ rfl rfl)) (.fail (str "x") _ rfl rfl),
    rfl, rfl, by decide, by decide⟩

end Kagome
