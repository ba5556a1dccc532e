import Verif.Proof.Splitter
import Verif.Go.Scanner

/-! Facts about the direct definition of sentences, and about the scanner around it. -/

namespace Kagome

open Spec

/-- A character the splitter keeps. -/
abbrev kept (s : Splitter) (c : Piece) : Bool := !blank s c

theorem closing_split (s : Splitter) (fed : Bool) (cs : List Piece) :
    ∃ used, cs = used ++ (closing s fed cs).2 ∧ (closing s fed cs).1 = used.filter (kept s) ∧
      ∀ c ∈ (closing s fed cs).1, (s.isDelim c.1 || s.isFollower c.1) = true := by
  induction cs generalizing fed with
  | nil => exact ⟨[], rfl, rfl, by simp [closing]⟩
  | cons c cs ih =>
    by_cases hb : blank s c = true
    · by_cases hf : (feed s c && fed) = true
      · exact ⟨[c], by simp only [closing, hb, hf, if_true]; rfl, by simp [closing, hb, hf],
          by simp [closing, hb, hf]⟩
      · obtain ⟨u, h1, h2, h3⟩ := ih (fed || feed s c)
        have e : closing s fed (c :: cs) = closing s (fed || feed s c) cs := by
          conv => lhs; unfold closing
          rw [if_pos hb, if_neg hf]
        rw [e]
        exact ⟨c :: u, by rw [List.cons_append, ← h1], by simp [hb, h2], h3⟩
    · by_cases hd : (s.isDelim c.1 || s.isFollower c.1) = true
      · obtain ⟨u, h1, h2, h3⟩ := ih fed
        have e : closing s fed (c :: cs) = (c :: (closing s fed cs).1, (closing s fed cs).2) := by
          conv => lhs; unfold closing
          rw [if_neg hb, if_pos hd]
        rw [e]
        refine ⟨c :: u, by rw [List.cons_append, ← h1], by simp [hb, h2], ?_⟩
        intro x hx
        rcases List.mem_cons.mp hx with rfl | hx
        · exact hd
        · exact h3 x hx
      · have e : closing s fed (c :: cs) = ([], c :: cs) := by
          conv => lhs; unfold closing
          rw [if_neg hb, if_neg hd]
        rw [e]
        exact ⟨[], rfl, rfl, by simp⟩

/-- Case analysis of `body` on a non-empty text. -/
theorem body_cases (s : Splitter) (n : Int) (fed : Bool) (c : Piece) (cs : List Piece) :
    (blank s c = true ∧ (s.isDelim c.1 = true ∨ (feed s c = true ∧ fed = true)) ∧
      body s n fed (c :: cs) = ⟨[], [], some cs⟩) ∨
    (blank s c = true ∧ ¬ s.isDelim c.1 = true ∧ ¬ (feed s c = true ∧ fed = true) ∧
      body s n fed (c :: cs) = body s n (feed s c) cs) ∨
    (blank s c = false ∧ feed s c = true ∧ fed = true ∧ body s n fed (c :: cs) = ⟨[c], [], some cs⟩) ∨
    (blank s c = false ∧ ¬ (feed s c = true ∧ fed = true) ∧ (s.isDelim c.1 = true ∨ s.maxRuneLen ≤ n + 1) ∧
      body s n fed (c :: cs) = ⟨[c], (closing s false cs).1, some (closing s false cs).2⟩) ∨
    (blank s c = false ∧ ¬ (feed s c = true ∧ fed = true) ∧ ¬ s.isDelim c.1 = true ∧ n + 1 < s.maxRuneLen ∧
      body s n fed (c :: cs) = (body s (n + 1) (fed || feed s c) cs).cons c) := by
  by_cases hb : blank s c = true
  · by_cases hd : s.isDelim c.1 = true
    · left; exact ⟨hb, .inl hd, by simp [body, hb, hd]⟩
    · by_cases hf : feed s c = true
      · cases fed with
        | true => left; exact ⟨hb, .inr ⟨hf, rfl⟩, by simp [body, hb, hd, hf]⟩
        | false => right; left; exact ⟨hb, hd, by simp, by simp [body, hb, hd, hf]⟩
      · right; left
        exact ⟨hb, hd, by simp [hf], by simp [body, hb, hd, hf]⟩
  · have hb' : blank s c = false := by simpa using hb
    by_cases hf : (feed s c && fed) = true
    · right; right; left
      have := Bool.and_eq_true _ _ ▸ hf
      exact ⟨hb', this.1, this.2, by simp [body, hb', this.1, this.2]⟩
    · have hf2 : ¬ (feed s c = true ∧ fed = true) := by simpa using hf
      by_cases hm : (s.isDelim c.1 || decide (s.maxRuneLen ≤ n + 1)) = true
      · right; right; right; left
        refine ⟨hb', hf2, by simpa using hm, ?_⟩
        conv => lhs; unfold body
        rw [if_neg hb, if_neg hf, if_pos hm]
      · right; right; right; right
        have hm2 : ¬ s.isDelim c.1 = true ∧ ¬ s.maxRuneLen ≤ n + 1 := by
          rw [Bool.or_eq_true, decide_eq_true_eq, not_or] at hm; exact hm
        refine ⟨hb', hf2, hm2.1, by omega, ?_⟩
        conv => lhs; unfold body
        rw [if_neg hb, if_neg hf, if_neg hm]

theorem body_split (s : Splitter) (cs : List Piece) : ∀ (n : Int) (fed : Bool),
    ∃ used, cs = used ++ (body s n fed cs).rest.getD [] ∧
      (body s n fed cs).body ++ (body s n fed cs).closing = used.filter (kept s) ∧
      ((body s n fed cs).rest.isSome → used ≠ []) ∧
      ((body s n fed cs).rest = none → (body s n fed cs).closing = []) := by
  induction cs with
  | nil => intro n fed; exact ⟨[], rfl, rfl, by simp [body], fun _ => rfl⟩
  | cons c cs ih =>
    intro n fed
    rcases body_cases s n fed c cs with ⟨hb, -, e⟩ | ⟨hb, -, -, e⟩ | ⟨hb, -, -, e⟩ | ⟨hb, -, -, e⟩ | ⟨hb, -, -, -, e⟩ <;> rw [e]
    · exact ⟨[c], rfl, by simp [hb], by simp, by simp⟩
    · obtain ⟨u, h1, h2, h3, h4⟩ := ih n (feed s c)
      exact ⟨c :: u, by rw [List.cons_append, ← h1], by simp [hb, h2], by simp, h4⟩
    · exact ⟨[c], rfl, by simp [hb], by simp, by simp⟩
    · obtain ⟨u, h1, h2, h3⟩ := closing_split s false cs
      exact ⟨c :: u, by rw [List.cons_append, Option.getD_some, ← h1], by simp [hb, h2], by simp, by simp⟩
    · obtain ⟨u, h1, h2, h3, h4⟩ := ih (n + 1) (fed || feed s c)
      exact ⟨c :: u, by rw [List.cons_append]; simp only [Cut.cons]; rw [← h1], by simp [hb, h2, Cut.cons], by simp, h4⟩

theorem body_first (s : Splitter) (n : Int) (fed : Bool) (c : Piece) (cs : List Piece) (hb : blank s c = false) :
    ∃ b, (body s n fed (c :: cs)).body = c :: b := by
  rcases body_cases s n fed c cs with ⟨hb2, -, e⟩ | ⟨hb2, -, -, e⟩ | ⟨hb2, -, -, e⟩ | ⟨hb2, -, -, e⟩ | ⟨hb2, -, -, -, e⟩
  · rw [hb] at hb2; cases hb2
  · rw [hb] at hb2; cases hb2
  · rw [e]; exact ⟨_, rfl⟩
  · rw [e]; exact ⟨_, rfl⟩
  · rw [e]; exact ⟨_, rfl⟩

theorem body_at_most (s : Splitter) (cs : List Piece) : ∀ (n : Int) (fed : Bool),
    ((body s n fed cs).body.length : Int) ≤ max 1 (s.maxRuneLen - n) := by
  induction cs with
  | nil => intro n fed; simp [body]; omega
  | cons c cs ih =>
    intro n fed
    rcases body_cases s n fed c cs with ⟨hb, -, e⟩ | ⟨hb, -, -, e⟩ | ⟨hb, -, -, e⟩ | ⟨hb, -, -, e⟩ | ⟨hb, -, -, hm, e⟩ <;> rw [e]
    · simp; omega
    · exact ih n (feed s c)
    · simp; omega
    · simp; omega
    · have := ih (n + 1) (fed || feed s c)
      simp only [Cut.cons, List.length_cons]
      omega

theorem body_delim (s : Splitter) (cs : List Piece) : ∀ (n : Int) (fed : Bool),
    ∀ c ∈ (body s n fed cs).body.dropLast, s.isDelim c.1 = false := by
  induction cs with
  | nil => intro n fed; simp [body]
  | cons c cs ih =>
    intro n fed
    rcases body_cases s n fed c cs with ⟨hb, -, e⟩ | ⟨hb, -, -, e⟩ | ⟨hb, -, -, e⟩ | ⟨hb, -, -, e⟩ | ⟨hb, -, hd, hm, e⟩ <;> rw [e]
    · simp
    · exact ih n (feed s c)
    · simp
    · simp
    · intro x hx
      simp only [Cut.cons] at hx
      cases hb2 : (body s (n + 1) (fed || feed s c) cs).body with
      | nil => rw [hb2] at hx; simp at hx
      | cons y ys =>
        rw [hb2, List.dropLast_cons_of_ne_nil (by simp)] at hx
        rcases List.mem_cons.mp hx with rfl | hx
        · simpa using hd
        · exact ih (n + 1) (fed || feed s c) x (by rw [hb2]; exact hx)

/-- An unfinished body contains no delimiter and is short. -/
theorem body_unfinished (s : Splitter) (cs : List Piece) : ∀ (n : Int) (fed : Bool), (body s n fed cs).rest = none →
    (∀ c ∈ (body s n fed cs).body, s.isDelim c.1 = false) ∧
      ((body s n fed cs).body = [] ∨ n + (body s n fed cs).body.length < s.maxRuneLen) := by
  induction cs with
  | nil => intro n fed _; simp [body]
  | cons c cs ih =>
    intro n fed
    rcases body_cases s n fed c cs with ⟨hb, -, e⟩ | ⟨hb, -, -, e⟩ | ⟨hb, -, -, e⟩ | ⟨hb, -, -, e⟩ | ⟨hb, -, hd, hm, e⟩ <;> rw [e]
    · simp
    · exact ih n (feed s c)
    · simp
    · simp
    · intro h
      obtain ⟨h1, h2⟩ := ih (n + 1) (fed || feed s c) h
      simp only [Cut.cons, List.length_cons]
      refine ⟨?_, ?_⟩
      · intro x hx
        rcases List.mem_cons.mp hx with rfl | hx
        · simpa using hd
        · exact h1 x hx
      · right
        rcases h2 with h2 | h2
        · rw [h2]; simp; omega
        · omega

/-- The parts of the first sentence. -/
theorem sentence_split (s : Splitter) (cs : List Piece) :
    ∃ used, cs = leading s cs ++ used ++ (sentence s cs).rest.getD [] ∧
      (sentence s cs).body ++ (sentence s cs).closing = used.filter (kept s) ∧
      ((sentence s cs).rest.isSome → used ≠ []) ∧
      ((sentence s cs).rest = none → (sentence s cs).closing = []) := by
  obtain ⟨u, h1, h2, h3, h4⟩ := body_split s (cs.dropWhile (blank s)) 0 false
  refine ⟨u, ?_, h2, h3, h4⟩
  conv => lhs; rw [← List.takeWhile_append_dropWhile (p := blank s) (l := cs), h1]
  simp [leading, sentence]

theorem leading_filter (s : Splitter) (cs : List Piece) : (leading s cs).filter (kept s) = [] := by
  rw [List.filter_eq_nil_iff]
  intro c hc
  have := List.all_eq_true.mp (List.all_takeWhile (p := blank s) (l := cs)) c hc
  simp [this]

/-- A call of the splitter: what it consumed and what it kept, as characters. -/
theorem call_cases (s : Splitter) (data : Bytes) (atEOF : Bool) (h : atEOF = false ∨ data ≠ []) :
    (∃ (H G : Bytes) (used rest : List Piece), pieces data = leading s (pieces data) ++ used ++ rest ∧ used ≠ [] ∧
        (sentence s (pieces data)).rest = some rest ∧ H = text (leading s (pieces data)) ∧
        (sentence s (pieces data)).body ++ (sentence s (pieces data)).closing = used.filter (kept s) ∧
        H.length + (text (used.filter (kept s))).length + G.length + (text rest).length = data.length ∧
        s.scanSentences data atEOF = some (returned H (text (used.filter (kept s))) G (text rest))) ∨
    (atEOF = true ∧ ∃ (H G : Bytes) (used : List Piece), pieces data = leading s (pieces data) ++ used ∧
        (sentence s (pieces data)).rest = none ∧ H = text (leading s (pieces data)) ∧
        (sentence s (pieces data)).body = used.filter (kept s) ∧ (sentence s (pieces data)).closing = [] ∧
        H.length + (text (used.filter (kept s))).length + G.length = data.length ∧
        s.scanSentences data atEOF = some (returned H (text (used.filter (kept s))) G [])) ∨
    (atEOF = false ∧ ∃ (H : Bytes) (n : Nat) (used : List Piece), pieces data = leading s (pieces data) ++ used ∧
        (sentence s (pieces data)).rest = none ∧ H = text (leading s (pieces data)) ∧
        (sentence s (pieces data)).body = used.filter (kept s) ∧ (sentence s (pieces data)).closing = [] ∧
        H.length + (text (used.filter (kept s))).length + n = data.length ∧
        s.scanSentences data atEOF = some ⟨H ++ text (used.filter (kept s)) ++ List.replicate n 0x20, H.length, none⟩) := by
  have hA := scanSentences_spec s data atEOF h
  obtain ⟨u, h1, h2, h3, h4⟩ := sentence_split s (pieces data)
  unfold Answer at hA
  cases hr : (sentence s (pieces data)).rest with
  | some rest =>
    rw [hr] at hA h1 h3
    obtain ⟨G', hl, hres⟩ := hA
    left
    refine ⟨_, G', u, rest, h1, h3 rfl, rfl, rfl, h2, ?_, ?_⟩
    · rw [← h2, text_append, List.length_append]
      simp only [List.length_nil] at hl
      omega
    · rw [hres, h2]; simp
  | none =>
    rw [hr] at hA h1 h3
    have hc := h4 hr
    rw [hc, List.append_nil] at h2
    simp only [Option.getD_none, List.append_nil] at h1
    right
    cases atEOF with
    | true =>
      left
      obtain ⟨G', hl, hres⟩ := hA
      refine ⟨rfl, _, G', u, h1, rfl, rfl, h2, hc, ?_, ?_⟩
      · rw [← h2]; simp only [List.length_nil] at hl; omega
      · rw [hres, h2]; simp
    | false =>
      right
      obtain ⟨n, hl, hres⟩ := hA
      refine ⟨rfl, _, n, u, h1, rfl, rfl, h2, hc, ?_, ?_⟩
      · rw [← h2]; simp only [List.length_nil] at hl; omega
      · rw [hres, h2]; simp

theorem returned_data (H K G R : Bytes) : (returned H K G R).data = H ++ K ++ G ++ R := rfl
theorem returned_advance (H K G R : Bytes) : (returned H K G R).advance = (H ++ K ++ G).length := rfl
theorem returned_token (H K G R : Bytes) : (returned H K G R).token = some (H.length, (H ++ K).length) := rfl

theorem returned_text (H K G R : Bytes) :
    ((returned H K G R).data.take (H ++ K).length).drop H.length = K := by
  rw [returned_data, List.append_assoc (H ++ K), List.take_left, List.drop_left]

theorem returned_rest (H K G R : Bytes) :
    (returned H K G R).data.drop (returned H K G R).advance = R := by
  rw [returned_data, returned_advance, List.drop_left]

/-- Induction over the calls that empty a buffer. -/
theorem drain_induct (s : Splitter) (atEOF : Bool) (M : Bytes → List Bytes → Bytes → Prop)
    (nil : M [] [] [])
    (tok : ∀ data used rest toks left, pieces data = leading s (pieces data) ++ used ++ rest →
      (sentence s (pieces data)).rest = some rest →
      (sentence s (pieces data)).body ++ (sentence s (pieces data)).closing = used.filter (kept s) →
      data ≠ [] → M (text rest) toks left → M data (text (used.filter (kept s)) :: toks) left)
    (last : atEOF = true → ∀ data used, data ≠ [] → pieces data = leading s (pieces data) ++ used →
      (sentence s (pieces data)).rest = none →
      (sentence s (pieces data)).body = used.filter (kept s) → (sentence s (pieces data)).closing = [] →
      M data [text (used.filter (kept s))] [])
    (more : atEOF = false → ∀ data used n, data ≠ [] → pieces data = leading s (pieces data) ++ used →
      (sentence s (pieces data)).rest = none →
      (sentence s (pieces data)).body = used.filter (kept s) → (sentence s (pieces data)).closing = [] →
      (text (leading s (pieces data))).length + (text (used.filter (kept s))).length + n = data.length →
      M data [] (text (used.filter (kept s)) ++ List.replicate n 0x20))
    (fuel : Nat) : ∀ (buf : Bytes) (r : List Bytes × Bytes),
      drain s.scanSentences atEOF fuel buf = some r → M buf r.1 r.2 := by
  induction fuel with
  | zero => intro buf r h; cases h
  | succ fuel ih =>
    intro buf r h
    unfold drain at h
    by_cases hb : buf = []
    · subst hb
      cases atEOF with
      | false => cases h; exact nil
      | true =>
        simp only [List.isEmpty_nil, Bool.not_true, Bool.and_false, Bool.false_eq_true, if_false,
          Splitter.scanSentences, Bool.and_self, if_true, Option.bind_eq_bind, Option.bind_some, List.length_nil,
          Nat.le_refl, List.drop_nil] at h
        cases h; exact nil
    · have hne : (buf.isEmpty && !atEOF) = false := by simp [hb]
      rw [hne, if_neg (by simp)] at h
      rcases call_cases s buf atEOF (.inr hb) with ⟨H, G, u, rest, g1, hu, hr, hH, hbd, hl, e⟩ |
          ⟨hE, H, G, u, g1, hr, hH, hbd, hcl, hl, e⟩ | ⟨hE, H, n, u, g1, hr, hH, hbd, hcl, hl, e⟩
      · rw [e] at h
        simp only [Option.bind_eq_bind, Option.bind_some, returned_rest, returned_token, returned_text] at h
        rw [if_pos (by simp [returned_data, returned_advance])] at h
        cases hd : drain s.scanSentences atEOF fuel (text rest) with
        | none => rw [hd] at h; cases h
        | some r2 =>
          rw [hd] at h
          cases h
          exact tok buf u rest _ _ g1 hr hbd hb (ih _ _ hd)
      · rw [e] at h
        simp only [Option.bind_eq_bind, Option.bind_some, returned_rest, returned_token, returned_text] at h
        rw [if_pos (by simp [returned_data, returned_advance])] at h
        cases fuel with
        | zero => cases h
        | succ fuel =>
          subst hE
          simp only [drain, List.isEmpty_nil, Bool.not_true, Bool.and_false, Bool.false_eq_true, if_false,
            Splitter.scanSentences, Bool.and_self, if_true, Option.bind_eq_bind, Option.bind_some, List.length_nil,
            Nat.le_refl, List.drop_nil] at h
          cases h
          exact last rfl buf u hb g1 hr hbd hcl
      · rw [e] at h
        simp only [Option.bind_eq_bind, Option.bind_some] at h
        rw [if_pos (by simp only [List.length_append]; omega)] at h
        rw [List.append_assoc, List.drop_left] at h
        cases h
        exact more hE buf u n hb g1 hr hbd hcl (by rw [← hH]; exact hl)

theorem length_text_le {b : Bytes} {cs : List Piece} (h : ∀ c ∈ cs, c ∈ pieces b) : (text cs).length ≤ 4 * cs.length := by
  induction cs with
  | nil => simp
  | cons c cs ih =>
    have h1 := piece_length (h c (by simp))
    have h2 := ih fun x hx => h x (by simp [hx])
    simp only [text_cons, List.length_append, List.length_cons]
    omega

theorem blank_off {s : Splitter} (h : s.skipWhiteSpace = false) (c : Piece) : blank s c = false := by simp [blank, h]

theorem kept_off {s : Splitter} (h : s.skipWhiteSpace = false) (cs : List Piece) : cs.filter (kept s) = cs :=
  List.filter_eq_self.mpr fun c _ => by simp [blank_off h]

theorem leading_off {s : Splitter} (h : s.skipWhiteSpace = false) (cs : List Piece) : leading s cs = [] := by
  cases cs with
  | nil => rfl
  | cons c cs => simp [leading, blank_off h]

end Kagome
