import Verif.Model.SplitEffort
import Verif.Proof.Utf8

/-! The counted splitter is the splitter, and bounds of its counter. -/

namespace Kagome

/-! ## Without the number -/

theorem copyBytesN_erase (n : Nat) : ∀ (data : Bytes) (to fr k : Nat),
    (copyBytesN n data to fr k).map (·.1) = copyBytes n data to fr := by
  induction n with
  | zero => intros; rfl
  | succ n ih =>
    intro data to fr k
    unfold copyBytesN copyBytes
    cases data[fr]? with
    | none => rfl
    | some b =>
      simp only [Option.bind_eq_bind, Option.bind_some]
      cases setByte data to b with
      | none => rfl
      | some d => exact ih _ _ _ _

theorem moveRuneN_erase (size : Nat) (data : Bytes) (stop p k : Nat) :
    (moveRuneN size data stop p k).map (·.1) = moveRune size data stop p := by
  unfold moveRuneN moveRune
  split
  · exact copyBytesN_erase _ _ _ _ _
  · rfl

theorem fillSpacesN_erase (n : Nat) : ∀ (data : Bytes) (i k : Nat), (fillSpacesN n data i k).map (·.1) = fillSpaces n data i := by
  induction n with
  | zero => intros; rfl
  | succ n ih =>
    intro data i k
    unfold fillSpacesN fillSpaces
    cases setByte data i 0x20 with
    | none => rfl
    | some d => exact ih _ _ _

theorem returnTokenN_erase (data : Bytes) (p start stop k : Nat) :
    (returnTokenN data p start stop k).map (·.1) = returnToken data p start stop := by
  unfold returnTokenN
  cases returnToken data p start stop <;> rfl

theorem tailLoopN_erase (s : Splitter) (start fuel : Nat) : ∀ (data : Bytes) (p stop : Nat) (nn : Bool) (k : Nat),
    (s.tailLoopN start fuel data p stop nn k).map (·.1) = s.tailLoop start fuel data p stop nn := by
  induction fuel with
  | zero => intros; rfl
  | succ fuel ih =>
    intro data p stop nn k
    unfold Splitter.tailLoopN Splitter.tailLoop
    split
    · simp only
      split
      · split
        · split
          · exact returnTokenN_erase ..
          · exact ih ..
        · exact ih ..
      · split
        · rw [← moveRuneN_erase _ _ _ _ (k + 1)]
          cases moveRuneN (decodeRune (data.drop p)).2 data stop p (k + 1) with
          | none => rfl
          | some r => exact ih ..
        · exact returnTokenN_erase ..
    · exact returnTokenN_erase ..

theorem mainLoopN_erase (s : Splitter) (atEOF : Bool) (fuel : Nat) :
    ∀ (data : Bytes) (p start stop : Nat) (rcount : Int) (head nn : Bool) (k : Nat),
      (s.mainLoopN atEOF fuel data p start stop rcount head nn k).map (·.1) = s.mainLoop atEOF fuel data p start stop rcount head nn := by
  induction fuel with
  | zero => intros; rfl
  | succ fuel ih =>
    intro data p start stop rcount head nn k
    unfold Splitter.mainLoopN Splitter.mainLoop
    split
    · simp only
      split
      · split
        · exact ih ..
        · split
          · exact returnTokenN_erase ..
          · split
            · split
              · exact returnTokenN_erase ..
              · exact ih ..
            · exact ih ..
      · rw [← moveRuneN_erase _ _ _ _ (k + 1)]
        cases moveRuneN (decodeRune (data.drop p)).2 data stop p (k + 1) with
        | none => rfl
        | some r =>
          simp only [Option.bind_eq_bind, Option.bind_some, Option.map_some]
          split
          · exact returnTokenN_erase ..
          · split
            · exact ih ..
            · exact tailLoopN_erase ..
    · split
      · rw [← fillSpacesN_erase _ _ _ k]
        cases fillSpacesN (data.length - stop) data stop k <;> rfl
      · exact returnTokenN_erase ..

theorem scanSentencesN_erase (s : Splitter) (data : Bytes) (atEOF : Bool) :
    (s.scanSentencesN data atEOF).map (·.1) = s.scanSentences data atEOF := by
  unfold Splitter.scanSentencesN Splitter.scanSentences
  split
  · rfl
  · exact mainLoopN_erase ..

theorem drainN_erase {splitN : Bytes → Bool → Option (SplitResult × Nat)} {split : SplitFunc}
    (h : ∀ data e, (splitN data e).map (·.1) = split data e) (atEOF : Bool) (fuel : Nat) : ∀ buf : Bytes,
    (drainN splitN atEOF fuel buf).map (·.1) = drain split atEOF fuel buf := by
  induction fuel with
  | zero => intros; rfl
  | succ fuel ih =>
    intro buf
    unfold drainN drain
    split
    · rfl
    · rw [← h]
      cases splitN buf atEOF with
      | none => rfl
      | some r =>
        simp only [Option.bind_eq_bind, Option.bind_some, Option.map_some]
        split
        · cases r.1.token with
          | none => rfl
          | some ab =>
            simp only
            rw [← ih]
            cases drainN splitN atEOF fuel (r.1.data.drop r.1.advance) <;> rfl
        · rfl

theorem scanFromN_erase {splitN : Bytes → Bool → Option (SplitResult × Nat)} {split : SplitFunc}
    (h : ∀ data e, (splitN data e).map (·.1) = split data e) (reader : List ReadResult) : ∀ (empties : Nat) (buf : Bytes),
    (scanFromN splitN reader empties buf).map (·.1) = scanFrom split reader empties buf := by
  induction reader with
  | nil =>
    intro empties buf
    unfold scanFromN scanFrom
    rw [← drainN_erase h]
    cases drainN splitN true (buf.length + 1) buf <;> rfl
  | cons rd rds ih =>
    intro empties buf
    unfold scanFromN scanFrom
    split
    · rw [← drainN_erase h]
      cases drainN splitN true ((buf ++ rd.bytes).length + 1) (buf ++ rd.bytes) <;> rfl
    · split
      · split
        · rw [← drainN_erase h]
          cases drainN splitN true (buf.length + 1) buf <;> rfl
        · exact ih _ _
      · rw [← drainN_erase h]
        cases drainN splitN false ((buf ++ rd.bytes).length + 1) (buf ++ rd.bytes) with
        | none => rfl
        | some now =>
          simp only [Option.bind_eq_bind, Option.bind_some, Option.map_some]
          split
          · rfl
          · rw [← ih]
            cases scanFromN splitN rds 0 now.1.2 <;> rfl

/-! ## Bounds -/

theorem setByte_some {data d : Bytes} {i : Nat} {b : UInt8} (h : setByte data i b = some d) : d.length = data.length := by
  unfold setByte at h
  split at h
  · cases h; simp
  · cases h

theorem copyBytesN_bound (n : Nat) : ∀ (data : Bytes) (to fr k : Nat) (r : Bytes × Nat),
    copyBytesN n data to fr k = some r → r.1.length = data.length ∧ r.2 = k + n := by
  induction n with
  | zero => intro data to fr k r h; cases h; simp
  | succ n ih =>
    intro data to fr k r h
    unfold copyBytesN at h
    cases hb : data[fr]? with
    | none => rw [hb] at h; cases h
    | some b =>
      rw [hb] at h
      simp only [Option.bind_eq_bind, Option.bind_some] at h
      cases hd : setByte data to b with
      | none => rw [hd] at h; cases h
      | some d =>
        rw [hd] at h
        obtain ⟨h1, h2⟩ := ih _ _ _ _ _ h
        rw [setByte_some hd] at h1
        exact ⟨h1, by omega⟩

theorem moveRuneN_bound {size : Nat} {data : Bytes} {stop p k : Nat} {r : Bytes × Nat} (h : moveRuneN size data stop p k = some r) :
    r.1.length = data.length ∧ k ≤ r.2 ∧ r.2 ≤ k + size := by
  unfold moveRuneN at h
  split at h
  · obtain ⟨h1, h2⟩ := copyBytesN_bound _ _ _ _ _ _ h
    exact ⟨h1, by omega, by omega⟩
  · cases h; simp

theorem fillSpacesN_bound (n : Nat) : ∀ (data : Bytes) (i k : Nat) (r : Bytes × Nat),
    fillSpacesN n data i k = some r → r.1.length = data.length ∧ r.2 = k + n := by
  induction n with
  | zero => intro data i k r h; cases h; simp
  | succ n ih =>
    intro data i k r h
    unfold fillSpacesN at h
    cases hd : setByte data i 0x20 with
    | none => rw [hd] at h; cases h
    | some d =>
      rw [hd] at h
      obtain ⟨h1, h2⟩ := ih _ _ _ _ h
      rw [setByte_some hd] at h1
      exact ⟨h1, by omega⟩

theorem returnTokenN_bound {data : Bytes} {p start stop k : Nat} {r : SplitResult × Nat} (h : returnTokenN data p start stop k = some r) :
    r.1.data = data ∧ r.1.advance = p ∧ r.1.token = some (start, stop) ∧ r.2 = k := by
  unfold returnTokenN returnToken at h
  split at h
  · cases h; exact ⟨rfl, rfl, rfl, rfl⟩
  · cases h

theorem size_bounds {data : Bytes} {p : Nat} (h : p < data.length) :
    0 < (decodeRune (data.drop p)).2 ∧ (decodeRune (data.drop p)).2 ≤ 4 ∧ p + (decodeRune (data.drop p)).2 ≤ data.length := by
  have h1 : data.drop p ≠ [] := by
    intro h2
    have := congrArg List.length h2
    simp at this
    omega
  have h3 := decodeRune_width h1
  simp only [List.length_drop] at h3
  omega

/-- One round: `w` bytes further, at least one and at most `1 + w` units of work more. -/
theorem tailLoopN_bound (s : Splitter) (start fuel : Nat) : ∀ (data : Bytes) (p stop : Nat) (nn : Bool) (k : Nat) (r : SplitResult × Nat),
    p ≤ data.length → s.tailLoopN start fuel data p stop nn k = some r →
      r.1.data.length = data.length ∧ r.1.token ≠ none ∧ p ≤ r.1.advance ∧ r.1.advance ≤ data.length ∧
        r.2 ≤ k + 2 * (r.1.advance - p) + 1 ∧ 4 * k + (r.1.advance - p) ≤ 4 * r.2 := by
  induction fuel with
  | zero => intro data p stop nn k r _ h; cases h
  | succ fuel ih =>
    intro data p stop nn k r hp h
    unfold Splitter.tailLoopN at h
    split at h
    next hlt =>
      obtain ⟨w1, w2, w3⟩ := size_bounds hlt
      simp only at h
      split at h
      · split at h
        · split at h
          · obtain ⟨h1, h2, h3, h4⟩ := returnTokenN_bound h
            rw [h1, h2, h3, h4]
            exact ⟨rfl, by simp, by omega, by omega, by omega, by omega⟩
          · obtain ⟨h1, h2, h3, h4, h5, h6⟩ := ih _ _ _ _ _ _ w3 h
            exact ⟨h1, h2, by omega, h4, by omega, by omega⟩
        · obtain ⟨h1, h2, h3, h4, h5, h6⟩ := ih _ _ _ _ _ _ w3 h
          exact ⟨h1, h2, by omega, h4, by omega, by omega⟩
      · split at h
        · cases hm : moveRuneN (decodeRune (data.drop p)).2 data stop p (k + 1) with
          | none => rw [hm] at h; cases h
          | some m =>
            rw [hm] at h
            obtain ⟨m1, m2, m3⟩ := moveRuneN_bound hm
            obtain ⟨h1, h2, h3, h4, h5, h6⟩ := ih _ _ _ _ _ _ (by rw [m1]; exact w3) h
            rw [m1] at h1 h4
            exact ⟨h1, h2, by omega, h4, by omega, by omega⟩
        · obtain ⟨h1, h2, h3, h4⟩ := returnTokenN_bound h
          rw [h1, h2, h3, h4]
          exact ⟨rfl, by simp, by omega, by omega, by omega, by omega⟩
    next hge =>
      obtain ⟨h1, h2, h3, h4⟩ := returnTokenN_bound h
      rw [h1, h2, h3, h4]
      exact ⟨rfl, by simp, by omega, by omega, by omega, by omega⟩

theorem mainLoopN_bound (s : Splitter) (atEOF : Bool) (fuel : Nat) :
    ∀ (data : Bytes) (p start stop : Nat) (rcount : Int) (head nn : Bool) (k : Nat) (r : SplitResult × Nat),
      p ≤ data.length → start ≤ p → stop ≤ p → s.mainLoopN atEOF fuel data p start stop rcount head nn k = some r →
      r.1.data.length = data.length ∧ r.1.advance ≤ data.length ∧
        (r.1.token ≠ none → p ≤ r.1.advance ∧ r.2 ≤ k + 2 * (r.1.advance - p) + 1 ∧ 4 * k + (r.1.advance - p) ≤ 4 * r.2) ∧
        (r.1.token = none → r.2 + stop ≤ k + 2 * (data.length - p) + data.length ∧ 4 * k + (data.length - p) ≤ 4 * r.2) := by
  induction fuel with
  | zero => intro data p start stop rcount head nn k r _ _ _ h; cases h
  | succ fuel ih =>
    intro data p start stop rcount head nn k r hp hs hst h
    have ret : ∀ {data' : Bytes} {q stop' k' : Nat}, data'.length = data.length → p ≤ q → q ≤ data.length → k' ≤ k + 2 * (q - p) + 1 →
        4 * k + (q - p) ≤ 4 * k' → returnTokenN data' q start stop' k' = some r →
        r.1.data.length = data.length ∧ r.1.advance ≤ data.length ∧
        (r.1.token ≠ none → p ≤ r.1.advance ∧ r.2 ≤ k + 2 * (r.1.advance - p) + 1 ∧ 4 * k + (r.1.advance - p) ≤ 4 * r.2) ∧
        (r.1.token = none → r.2 + stop ≤ k + 2 * (data.length - p) + data.length ∧ 4 * k + (data.length - p) ≤ 4 * r.2) := by
      intro data' q stop' k' hd hpq hq hk1 hk2 h
      obtain ⟨h1, h2, h3, h4⟩ := returnTokenN_bound h
      rw [h1, h2, h3, h4]
      exact ⟨hd, hq, fun _ => ⟨hpq, hk1, hk2⟩, fun h => by cases h⟩
    unfold Splitter.mainLoopN at h
    split at h
    next hlt =>
      obtain ⟨w1, w2, w3⟩ := size_bounds hlt
      simp only at h
      split at h
      · split at h
        · obtain ⟨h1, h2, h3, h4⟩ := ih _ _ _ _ _ _ _ _ _ w3 (Nat.le_refl _) (Nat.le_refl _) h
          refine ⟨h1, h2, fun ht => ?_, fun ht => ?_⟩
          · have := h3 ht; omega
          · have := h4 ht; omega
        · split at h
          · exact ret rfl (by omega) w3 (by omega) (by omega) h
          · split at h
            · split at h
              · exact ret rfl (by omega) w3 (by omega) (by omega) h
              · obtain ⟨h1, h2, h3, h4⟩ := ih _ _ _ _ _ _ _ _ _ w3 (by omega) (by omega) h
                refine ⟨h1, h2, fun ht => ?_, fun ht => ?_⟩
                · have := h3 ht; omega
                · have := h4 ht; omega
            · obtain ⟨h1, h2, h3, h4⟩ := ih _ _ _ _ _ _ _ _ _ w3 (by omega) (by omega) h
              refine ⟨h1, h2, fun ht => ?_, fun ht => ?_⟩
              · have := h3 ht; omega
              · have := h4 ht; omega
      · cases hm : moveRuneN (decodeRune (data.drop p)).2 data stop p (k + 1) with
        | none => rw [hm] at h; cases h
        | some m =>
          rw [hm] at h
          obtain ⟨m1, m2, m3⟩ := moveRuneN_bound hm
          simp only [Option.bind_eq_bind, Option.bind_some] at h
          split at h
          · exact ret m1 (by omega) w3 (by omega) (by omega) h
          · split at h
            · obtain ⟨h1, h2, h3, h4⟩ := ih _ _ _ _ _ _ _ _ _ (by rw [m1]; exact w3) (by omega) (by omega) h
              rw [m1] at h1 h2 h4
              refine ⟨h1, h2, fun ht => ?_, fun ht => ?_⟩
              · have := h3 ht; omega
              · have := h4 ht; omega
            · obtain ⟨h1, h2, h3, h4, h5, h6⟩ := tailLoopN_bound _ _ _ _ _ _ _ _ _ (by rw [m1]; exact w3) h
              rw [m1] at h1 h4
              exact ⟨h1, h4, fun _ => by omega, fun ht => absurd ht h2⟩
    next hge =>
      split at h
      · cases hf : fillSpacesN (data.length - stop) data stop k with
        | none => rw [hf] at h; cases h
        | some f =>
          rw [hf] at h
          obtain ⟨f1, f2⟩ := fillSpacesN_bound _ _ _ _ _ hf
          cases h
          exact ⟨f1, by simp only; omega, fun h => absurd rfl h, fun _ => by simp only; omega⟩
      · exact ret rfl (by omega) (by omega) (by omega) (by omega) h

end Kagome
