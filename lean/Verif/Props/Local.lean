import Verif.Spec.Local
import Verif.Props.Choice
import Verif.Props.Tables

/-! C77: what was chosen on one side of a word matters for the other side only through that word. -/

namespace Kagome

open Spec

variable {t : Tokenizer} {ideo : Nat → Bool} {inp inp' : Bytes} {mode : Int} {toks toks' a a' b b' : List Token} {tok tok' : Token}
variable {d : Dict} {u : Option UserDict}

/-! ### Where a token of the result stands in the analysis -/

theorem shown_pieces (ext : Bool) (w : Word) : (shown ext w).length = (wordPieces ext w).length := by
  unfold shown splitUnknown wordPieces
  cases ext with
  | false => simp
  | true =>
    by_cases h : w.cls = .unknown
    · simp only [h, if_true, and_self, List.length_map]
      have : ∀ s : Bytes, (runes s).length = (chars s).length := by
        intro s
        induction s using runes_induction with
        | nil => rfl
        | cons s hs ih => rw [chars_cons hs, runes_cons hs, List.length_cons, List.length_cons, ih]
      exact this _
    · simp [h]

theorem shown_pieces_all (ext : Bool) (ws : List Word) : (ws.flatMap (shown ext)).length = (ws.flatMap (wordPieces ext)).length := by
  induction ws with
  | nil => rfl
  | cons w ws ih => simp only [List.flatMap_cons, List.length_append, ih, shown_pieces]

theorem pieces_text (ext : Bool) (ws : List Word) : (ws.flatMap (wordPieces ext)).flatten = textOf ws := by
  induction ws with
  | nil => rfl
  | cons w ws ih => simp only [List.flatMap_cons, List.flatten_append, ih, wordPieces_flatten, textOf_cons]

theorem located_position {rel : Token → Bytes → Prop} : ∀ {a : List Token} {pos cnt : Nat} {ps : List Bytes},
    Located rel pos cnt (a ++ tok :: b) ps → tok.position = pos + (ps.take a.length).flatten.length := by
  intro a
  induction a with
  | nil =>
    intro pos cnt ps h
    cases ps with
    | nil => exact absurd h (by simp [Located])
    | cons p ps => exact h.1
  | cons x a ih =>
    intro pos cnt ps h
    cases ps with
    | nil => exact absurd h (by simp [Located])
    | cons p ps =>
      have := ih h.2.2.2.2
      rw [this]
      simp only [List.length_cons, List.take_succ_cons, List.flatten_cons, List.length_append]
      omega

/-- A word shown that is not a single character of an unknown word is a word of the analysis. -/
theorem shown_split (ext : Bool) {w : Word} (hw : w.cls ≠ .dummy) : ∀ {ws : List Word} {x y : List Word}, ws.flatMap (shown ext) = x ++ w :: y →
    ∃ ws1 ws2, ws = ws1 ++ w :: ws2 ∧ x = ws1.flatMap (shown ext) ∧ y = ws2.flatMap (shown ext) := by
  intro ws
  induction ws with
  | nil => intro x y h; simp at h
  | cons v ws ih =>
    intro x y h
    rw [List.flatMap_cons] at h
    by_cases hv : ext = true ∧ v.cls = .unknown
    · have hs : shown ext v = (runes v.surface).map (fun r => ⟨.dummy, v.id, encodeRune r.1⟩) := by
        unfold shown splitUnknown
        rw [if_pos hv.1, if_pos hv.2]
      rcases List.append_eq_append_iff.mp h with ⟨z, h1, h2⟩ | ⟨z, h1, h2⟩
      · obtain ⟨ws1, ws2, e1, e2, e3⟩ := ih h2
        exact ⟨v :: ws1, ws2, by rw [e1]; rfl, by rw [h1, e2, List.flatMap_cons], e3⟩
      · cases z with
        | nil =>
          obtain ⟨ws1, ws2, e1, e2, e3⟩ := ih (x := []) (by simpa using h2.symm)
          refine ⟨v :: ws1, ws2, by rw [e1]; rfl, ?_, e3⟩
          rw [List.flatMap_cons, ← e2, List.append_nil, h1, List.append_nil]
        | cons z0 z =>
          simp only [List.cons_append, List.cons.injEq] at h2
          have hin : w ∈ shown ext v := by rw [h1, h2.1]; simp
          rw [hs] at hin
          obtain ⟨r, _, e⟩ := List.mem_map.mp hin
          exact absurd (by rw [← e]) hw
    · have hs : shown ext v = [v] := by
        unfold shown splitUnknown
        by_cases he : ext = true
        · rw [if_pos he, if_neg (fun hc => hv ⟨he, hc⟩)]
        · rw [if_neg he]
      rw [hs] at h
      cases x with
      | nil =>
        simp only [List.cons_append, List.nil_append, List.cons.injEq] at h
        exact ⟨[], ws, by rw [h.1]; rfl, rfl, h.2.symm⟩
      | cons x0 x =>
        simp only [List.cons_append, List.nil_append, List.cons.injEq] at h
        obtain ⟨ws1, ws2, e1, e2, e3⟩ := ih h.2
        exact ⟨v :: ws1, ws2, by rw [e1]; rfl, by rw [List.flatMap_cons, hs, ← e2, h.1]; rfl, e3⟩

/-- The analysis around a token of the result. -/
theorem token_place (h : Tame t inp) (ha : analyze t ideo inp mode = some toks) (e : inner toks = a ++ tok :: b) (hc : tok.cls ≠ .dummy) :
    ∃ ws1 ws2, Chosen t.dict t.userDict ideo (latticeMode mode) inp (ws1 ++ wordOfToken tok :: ws2) ∧
      a.map wordOfToken = ws1.flatMap (shown (isExt (latticeMode mode))) ∧ b.map wordOfToken = ws2.flatMap (shown (isExt (latticeMode mode))) ∧
      textOf ws1 = inp.take tok.position ∧ textOf ws2 = inp.drop (tok.position + tok.surface.length) := by
  obtain ⟨ws, ps, hana, hopt, hl, hw, hps, _, _⟩ := analyze_inner h ideo ha
  rw [e] at hw hl
  rw [List.map_append, List.map_cons] at hw
  obtain ⟨ws1, ws2, e1, e2, e3⟩ := shown_split (isExt (latticeMode mode)) (w := wordOfToken tok) hc hw.symm
  rw [e1] at hopt hana
  have hpos := located_position hl
  have hlen : a.length = (ws1.flatMap (wordPieces (isExt (latticeMode mode)))).length := by
    rw [← shown_pieces_all, ← e2, List.length_map]
  have htake : (ps.take a.length).flatten = textOf ws1 := by
    rw [hps, e1, List.flatMap_append, hlen, List.take_left, pieces_text]
  rw [htake, Nat.zero_add] at hpos
  have htext := analysis_textOf hana
  rw [textOf_append, textOf_cons] at htext
  refine ⟨ws1, ws2, hopt, e2, e3, ?_, ?_⟩
  · rw [hpos, ← htext, List.take_left]
  · rw [hpos, ← htext, ← List.append_assoc]
    have : (textOf ws1).length + tok.surface.length = (textOf ws1 ++ (wordOfToken tok).surface).length := by
      rw [List.length_append]; rfl
    rw [this, List.drop_left]

/-! ### Analyses can be cut at a word and put together again -/

theorem analysis_split {s : Bytes} : ∀ {x y : List Word}, Analysis d u s (x ++ y) → Analysis d u (textOf y) y := by
  intro x y
  induction x generalizing s with
  | nil => intro h; rw [List.nil_append] at h; rw [analysis_textOf h]; exact h
  | cons w x ih =>
    intro h
    rw [List.cons_append] at h
    cases h with
    | cons _ rest _ _ h => exact ih h

/-- Another analysis of the rest. -/
theorem analysis_replace {s : Bytes} {x y y' : List Word} (h : Analysis d u s (x ++ y)) (hy : Analysis d u (textOf y) y') : Analysis d u s (x ++ y') := by
  induction x generalizing s with
  | nil => rw [List.nil_append] at h ⊢; rw [← analysis_textOf h]; exact hy
  | cons w x ih =>
    rw [List.cons_append] at h ⊢
    cases h with
    | cons _ rest _ hw h => exact Analysis.cons w rest _ hw (ih h)

/-- Another text after it. -/
theorem analysis_follow (wf : WellFormed d u) {s s' : Bytes} {y y' : List Word} (hy : textOf y = s) (hy' : Analysis d u s' y') :
    ∀ {x : List Word}, SameWithin d u (textOf x) s s' → Analysis d u (textOf x ++ s) (x ++ y) → Analysis d u (textOf x ++ s') (x ++ y') := by
  intro x
  induction x with
  | nil => intro _ _; simpa using hy'
  | cons w x ih =>
    intro hsw h
    have hne := analysis_nonempty wf h w (by simp)
    rw [List.cons_append, textOf_cons, List.append_assoc] at h ⊢
    have hsw' : SameWithin d u (textOf x) s s' := by
      intro p q hpq hq
      exact hsw (w.surface ++ p) q (by rw [textOf_cons, hpq, List.append_assoc]) hq
    generalize hg : w.surface ++ (textOf x ++ s) = g at h
    cases h with
    | cons _ rest _ hw h =>
      have hrest := List.append_cancel_left hg
      rw [← hrest] at h hw
      refine Analysis.cons w _ _ ?_ (ih hsw' h)
      have hoff := hsw [] (w.surface ++ textOf x) rfl (by simp [hne])
      have hm : w ∈ offers d u (w.surface ++ textOf x ++ s) := by
        rw [C58_offers (by simp [hne]), List.append_assoc]; exact hw
      have hf : w ∈ (offers d u (w.surface ++ textOf x ++ s)).filter (fun v => decide (v.surface.length ≤ (w.surface ++ textOf x).length)) := by
        rw [List.mem_filter]
        exact ⟨hm, by simp⟩
      rw [hoff] at hf
      have := (List.mem_filter.mp hf).1
      rw [C58_offers (by simp [hne]), List.append_assoc] at this
      exact this

theorem cost_cut (m : LMode) (x y : List Word) (w : Word) : cost d ideo m (x ++ w :: y) =
    chainCost d ideo m (boundary :: x ++ [w]) + chainCost d ideo m (w :: y ++ [boundary]) := by
  unfold cost
  have := chainCost_join d ideo m (boundary :: x) w (y ++ [boundary])
  simpa using this

theorem same_text_suffix {y e : List Word} (hne : ∀ w ∈ e, w.surface ≠ []) (h : textOf (e ++ y) = textOf y) : e = [] := by
  rw [textOf_append] at h
  have hl := congrArg List.length h
  rw [List.length_append] at hl
  cases e with
  | nil => rfl
  | cons w e =>
    have := hne w (by simp)
    have : w.surface.length ≠ 0 := fun h0 => this (List.length_eq_zero_iff.mp h0)
    rw [textOf_cons, List.length_append] at hl
    omega

/-- The first difference, read from the end, of two analyses that begin alike is in what follows the common beginning. -/
theorem preferred_rest {x y y' : List Word} (hne : ∀ w ∈ y, w.surface ≠ []) (hne' : ∀ w ∈ y', w.surface ≠ []) (ht : textOf y = textOf y') (hyy : y ≠ y')
    (h : Preferred d u (x ++ y) (x ++ y')) : Preferred d u y y' := by
  obtain ⟨p, v, p', v', tail, h1, h2, h3⟩ := h
  -- `tail` is shorter than both
  have suff : ∀ {k l m n : List Word}, k ++ l = m ++ n → l.length ≤ n.length → ∃ e, n = e ++ l := by
    intro k l m n he hl
    rcases List.append_eq_append_iff.mp he with ⟨z, g1, g2⟩ | ⟨z, g1, g2⟩
    · have := congrArg List.length g2
      rw [List.length_append] at this
      have hz : z = [] := List.length_eq_zero_iff.mp (by omega)
      exact ⟨[], by rw [g2, hz]; rfl⟩
    · exact ⟨z, g2⟩
  have e1 : x ++ y = (p ++ [v]) ++ tail := by rw [h1]; simp
  have e2 : x ++ y' = (p' ++ [v']) ++ tail := by rw [h2]; simp
  have both : ¬ (y.length ≤ tail.length ∧ y'.length ≤ tail.length) := by
    rintro ⟨l1, l2⟩
    obtain ⟨z, hz⟩ := suff e1 l1
    obtain ⟨z', hz'⟩ := suff e2 l2
    rw [hz] at hz'
    rcases Nat.le_total y.length y'.length with hl | hl
    · obtain ⟨k, hk⟩ := suff hz' hl
      have := same_text_suffix (fun w hw => hne' w (by rw [hk]; exact List.mem_append_left _ hw)) (by rw [← hk, ht])
      exact hyy (by rw [hk, this]; rfl)
    · obtain ⟨k, hk⟩ := suff hz'.symm hl
      have := same_text_suffix (fun w hw => hne w (by rw [hk]; exact List.mem_append_left _ hw)) (by rw [← hk, ht])
      exact hyy (by rw [hk, this]; rfl)
  have l1 : tail.length < y.length := by
    apply Nat.lt_of_not_le
    intro l1
    have l2 : tail.length < y'.length := Nat.lt_of_not_le (fun l2 => both ⟨l1, l2⟩)
    obtain ⟨z, hz⟩ := suff e1 l1
    obtain ⟨z', hz'⟩ := suff e2.symm (Nat.le_of_lt l2)
    rw [hz, ← List.append_assoc] at hz'
    have := same_text_suffix (fun w hw => hne' w (by rw [hz']; exact List.mem_append_left _ hw)) (by rw [← hz', ht])
    rw [this, List.nil_append] at hz'
    exact hyy hz'.symm
  have l2 : tail.length < y'.length := by
    apply Nat.lt_of_not_le
    intro l2
    obtain ⟨z, hz⟩ := suff e2 l2
    obtain ⟨z', hz'⟩ := suff e1.symm (Nat.le_of_lt l1)
    rw [hz, ← List.append_assoc] at hz'
    have := same_text_suffix (fun w hw => hne w (by rw [hz']; exact List.mem_append_left _ hw)) (by rw [← hz', ht])
    rw [this, List.nil_append] at hz'
    exact hyy hz'
  obtain ⟨q, hq⟩ := suff (k := p) (l := v :: tail) h1.symm (by rw [List.length_cons]; omega)
  obtain ⟨q', hq'⟩ := suff (k := p') (l := v' :: tail) h2.symm (by rw [List.length_cons]; omega)
  exact ⟨q, v, q', v', tail, hq, hq', h3⟩

/-- The chosen words after a word depend on that word and the text after it only. -/
theorem chosen_rest (wf : WellFormed d u) {m : LMode} {w : Word} {x y x' y' : List Word} (h : Chosen d u ideo m inp (x ++ w :: y))
    (h' : Chosen d u ideo m inp' (x' ++ w :: y')) (ht : textOf y = textOf y') : y = y' := by
  apply Classical.byContradiction
  intro hne
  have hy : Analysis d u (textOf y) y := analysis_split (x := x ++ [w]) (by simpa using h.1)
  have hy' : Analysis d u (textOf y') y' := analysis_split (x := x' ++ [w]) (by simpa using h'.1)
  have n1 := analysis_nonempty wf hy
  have n2 := analysis_nonempty wf hy'
  have s1 : Analysis d u inp (x ++ w :: y') := by
    have := analysis_replace (x := x ++ [w]) (y := y) (y' := y') (by simpa using h.1) (by rw [ht]; exact hy')
    simpa using this
  have s2 : Analysis d u inp' (x' ++ w :: y) := by
    have := analysis_replace (x := x' ++ [w]) (y := y') (y' := y) (by simpa using h'.1) (by rw [← ht]; exact hy)
    simpa using this
  have c1 := h.2 _ s1 (by intro e; have := List.append_cancel_left e; simp only [List.cons.injEq, true_and] at this; exact hne this.symm)
  have c2 := h'.2 _ s2 (by intro e; have := List.append_cancel_left e; simp only [List.cons.injEq, true_and] at this; exact hne this)
  simp only [cost_cut] at c1 c2
  have p1 : Preferred d u (x ++ w :: y) (x ++ w :: y') := by
    rcases c1 with c1 | ⟨_, p⟩
    · rcases c2 with c2 | ⟨c2, _⟩ <;> omega
    · exact p
  have p2 : Preferred d u (x' ++ w :: y') (x' ++ w :: y) := by
    rcases c2 with c2 | ⟨_, p⟩
    · rcases c1 with c1 | ⟨c1, _⟩ <;> omega
    · exact p
  have q1 := preferred_rest (x := x ++ [w]) n1 n2 ht hne (by simpa using p1)
  have q2 := preferred_rest (x := x' ++ [w]) n2 n1 ht.symm (Ne.symm hne) (by simpa using p2)
  exact preferred_asymm q1 q2

theorem idxOf_other {α : Type} [DecidableEq α] {z v : α} (l : List α) (h : z ≠ v) : (z :: l).idxOf v = l.idxOf v + 1 := by
  have : (z == v) = false := by simpa using h
  rw [List.idxOf_cons, this, cond_false]

theorem idxOf_within {α : Type} [DecidableEq α] (p : α → Bool) {v w : α} (hv : p v = true) (hw : p w = true) :
    ∀ l : List α, l.idxOf v < l.idxOf w ↔ (l.filter p).idxOf v < (l.filter p).idxOf w := by
  intro l
  induction l with
  | nil => simp
  | cons z l ih =>
    by_cases hz : p z = true
    · rw [List.filter_cons_of_pos hz]
      by_cases h1 : z = v
      · subst h1
        by_cases h2 : z = w
        · subst h2; simp
        · rw [List.idxOf_cons_self, List.idxOf_cons_self, idxOf_other _ h2, idxOf_other _ h2]
          omega
      · by_cases h2 : z = w
        · subst h2; simp
        · rw [idxOf_other _ h1, idxOf_other _ h1, idxOf_other _ h2, idxOf_other _ h2]
          omega
    · rw [List.filter_cons_of_neg hz]
      have h1 : z ≠ v := by rintro rfl; exact hz hv
      have h2 : z ≠ w := by rintro rfl; exact hz hw
      rw [idxOf_other _ h1, idxOf_other _ h2, ← ih]
      omega

/-- The preference between two analyses that end alike is the same with another ending. -/
theorem preferred_before {p s s' : Bytes} {x x' y y' : List Word} (hne : ∀ w ∈ x, w.surface ≠ []) (hx : textOf x = p) (hsw : SameWithin d u p s s')
    (hy : textOf y = s) (hy' : textOf y' = s') (h : Preferred d u (x ++ y) (x' ++ y)) : Preferred d u (x ++ y') (x' ++ y') := by
  obtain ⟨q, v, q', v', tail, h1, h2, h3⟩ := h
  have hv : v ≠ v' := by
    rintro rfl
    rcases h3 with h3 | ⟨_, h3⟩ <;> omega
  have hl : y.length ≤ tail.length := by
    apply Nat.le_of_not_lt
    intro hlt
    have f : ∀ {x q : List Word} {v : Word}, x ++ y = q ++ v :: tail → ∃ e, y = e ++ v :: tail := by
      intro x q v he
      rcases List.append_eq_append_iff.mp he with ⟨z, _, g2⟩ | ⟨z, _, g2⟩
      · exact ⟨z, g2⟩
      · have := congrArg List.length g2
        rw [List.length_append, List.length_cons] at this
        have hz : z = [] := List.length_eq_zero_iff.mp (by omega)
        exact ⟨[], by rw [g2, hz]; rfl⟩
    obtain ⟨e, he⟩ := f h1
    obtain ⟨e', he'⟩ := f h2
    rw [he] at he'
    have hlen := congrArg List.length he'
    simp only [List.length_append, List.length_cons] at hlen
    have := List.append_inj_right he' (by omega)
    simp only [List.cons.injEq, and_true] at this
    exact hv this
  have g : ∀ {x q : List Word} {v : Word}, x ++ y = q ++ v :: tail → x = q ++ v :: tail.take (tail.length - y.length) ∧
      y = tail.drop (tail.length - y.length) := by
    intro x q v he
    have he2 : x ++ y = (q ++ v :: tail.take (tail.length - y.length)) ++ tail.drop (tail.length - y.length) := by
      rw [he]; simp
    exact List.append_inj' he2 (by rw [List.length_drop]; omega)
  obtain ⟨g1, g2⟩ := g h1
  obtain ⟨g3, _⟩ := g h2
  generalize tail.take (tail.length - y.length) = e at g1 g3
  have ht : tail = e ++ y := by
    have : q ++ v :: tail = q ++ v :: (e ++ y) := by rw [← h1, g1]; simp
    have := List.append_cancel_left this
    simpa using this
  refine ⟨q, v, q', v', e ++ y', by rw [g1]; simp, by rw [g3]; simp, ?_⟩
  rcases h3 with h3 | ⟨hs, h3⟩
  · exact Or.inl h3
  · refine Or.inr ⟨hs, ?_⟩
    have hvne : v.surface ≠ [] := hne v (by rw [g1]; simp)
    have hoff := hsw (textOf q) (v.surface ++ textOf e) (by rw [← hx, g1, textOf_append, textOf_cons]) (by simp [hvne])
    have pv : decide (v.surface.length ≤ (v.surface ++ textOf e).length) = true := by simp
    have pv' : decide (v'.surface.length ≤ (v.surface ++ textOf e).length) = true := by rw [hs]; simp
    rw [ht, textOf_append, hy, ← List.append_assoc] at h3
    rw [textOf_append, hy', ← List.append_assoc]
    rw [idxOf_within (fun w => decide (w.surface.length ≤ (v.surface ++ textOf e).length)) pv pv'] at h3 ⊢
    rw [← hoff]
    exact h3

/-- The chosen words before a word depend on that word and the text before it only, as far as the dictionaries do. -/
theorem chosen_before (wf : WellFormed d u) {m : LMode} {w : Word} {x y x' y' : List Word} (h : Chosen d u ideo m inp (x ++ w :: y))
    (h' : Chosen d u ideo m inp' (x' ++ w :: y')) (ht : textOf x = textOf x')
    (hsw : SameWithin d u (textOf x) (textOf (w :: y)) (textOf (w :: y'))) : x = x' := by
  apply Classical.byContradiction
  intro hne
  have hsw' : SameWithin d u (textOf x) (textOf (w :: y')) (textOf (w :: y)) := fun p q e hq => (hsw p q e hq).symm
  have ei : inp = textOf x ++ textOf (w :: y) := by rw [← analysis_textOf h.1, textOf_append]
  have ei' : inp' = textOf x' ++ textOf (w :: y') := by rw [← analysis_textOf h'.1, textOf_append]
  have hy : Analysis d u (textOf (w :: y)) (w :: y) := analysis_split h.1
  have hy' : Analysis d u (textOf (w :: y')) (w :: y') := analysis_split h'.1
  have n1 : ∀ v ∈ x, v.surface ≠ [] := fun v hv => analysis_nonempty wf h.1 v (by simp [hv])
  have n2 : ∀ v ∈ x', v.surface ≠ [] := fun v hv => analysis_nonempty wf h'.1 v (by simp [hv])
  have s1 : Analysis d u inp (x' ++ w :: y) := by
    rw [ei, ht]
    exact analysis_follow (y := w :: y') wf rfl hy (by rw [← ht]; exact hsw') (by rw [← ei']; exact h'.1)
  have s2 : Analysis d u inp' (x ++ w :: y') := by
    rw [ei', ← ht]
    exact analysis_follow (y := w :: y) wf rfl hy' hsw (by rw [← ei]; exact h.1)
  have c1 := h.2 _ s1 (by intro e; exact hne (List.append_cancel_right e).symm)
  have c2 := h'.2 _ s2 (by intro e; exact hne (List.append_cancel_right e))
  simp only [cost_cut] at c1 c2
  have p1 : Preferred d u (x ++ w :: y) (x' ++ w :: y) := by
    rcases c1 with c1 | ⟨_, p⟩
    · rcases c2 with c2 | ⟨c2, _⟩ <;> omega
    · exact p
  have p2 : Preferred d u (x' ++ w :: y') (x ++ w :: y') := by
    rcases c2 with c2 | ⟨_, p⟩
    · rcases c1 with c1 | ⟨c1, _⟩ <;> omega
    · exact p
  exact preferred_asymm (preferred_before n1 rfl hsw rfl rfl p1) p2

theorem text_from {x y : List Word} {w : Word} {n : Nat} (h1 : textOf (x ++ w :: y) = inp) (h2 : textOf x = inp.take n) : inp.drop n = textOf (w :: y) := by
  rw [textOf_append, h2] at h1
  exact List.append_cancel_left ((List.take_append_drop n inp).trans h1.symm)

/-! ### The claims -/

/-- C77: if the same word is in the results for two texts, and the same text follows it, then the same words follow it. (In Extended mode the word
must not be a character of an unknown word.) -/
theorem C77_rest (h : Tame t inp) (h' : Tame t inp') (ha : analyze t ideo inp mode = some toks) (ha' : analyze t ideo inp' mode = some toks')
    (e : inner toks = a ++ tok :: b) (e' : inner toks' = a' ++ tok' :: b') (hc : tok.cls ≠ .dummy) (hw : wordOfToken tok = wordOfToken tok')
    (ht : inp.drop (tok.position + tok.surface.length) = inp'.drop (tok'.position + tok'.surface.length)) :
    b.map wordOfToken = b'.map wordOfToken := by
  have hc' : tok'.cls ≠ .dummy := by
    have : tok'.cls = tok.cls := (congrArg Word.cls hw).symm
    rw [this]; exact hc
  obtain ⟨x, y, c, _, m, _, r⟩ := token_place h ha e hc
  obtain ⟨x', y', c', _, m', _, r'⟩ := token_place h' ha' e' hc'
  rw [← hw] at c'
  rw [m, m', chosen_rest h.wf c c' (by rw [r, r', ht])]

/-- C77: if the same word is in the results for two texts, and the same text precedes it, then the same words precede it, provided that the words the
dictionaries offer within the text before it do not depend on what follows. -/
theorem C77_before (h : Tame t inp) (h' : Tame t inp') (ha : analyze t ideo inp mode = some toks) (ha' : analyze t ideo inp' mode = some toks')
    (e : inner toks = a ++ tok :: b) (e' : inner toks' = a' ++ tok' :: b') (hc : tok.cls ≠ .dummy) (hw : wordOfToken tok = wordOfToken tok')
    (ht : inp.take tok.position = inp'.take tok'.position)
    (hs : SameWithin t.dict t.userDict (inp.take tok.position) (inp.drop tok.position) (inp'.drop tok'.position)) :
    a.map wordOfToken = a'.map wordOfToken := by
  have hc' : tok'.cls ≠ .dummy := by
    have : tok'.cls = tok.cls := (congrArg Word.cls hw).symm
    rw [this]; exact hc
  obtain ⟨x, y, c, m, _, l, _⟩ := token_place h ha e hc
  obtain ⟨x', y', c', m', _, l', _⟩ := token_place h' ha' e' hc'
  rw [← hw] at c'
  rw [m, m', chosen_before h.wf c c' (by rw [l, l', ht])
    (by rw [l, ← text_from (analysis_textOf c.1) l, ← text_from (analysis_textOf c'.1) l']; exact hs)]

/-! ### Places no word crosses -/

theorem firstChars_fits {y s : Bytes} (hr : runes (y ++ s) = runes y ++ runes s) {k : Nat} (hk : k ≤ (runes (y ++ s)).length)
    (h : (firstChars (y ++ s) k).length ≤ y.length) : k ≤ (runes y).length := by
  apply Nat.le_of_not_lt
  intro hlt
  unfold firstChars at h
  rw [List.length_take] at h
  have e := wsum_runes (y ++ s)
  have e1 := wsum_runes y
  unfold wsum at e e1
  rw [hr] at h hk e
  rw [List.take_append, List.take_of_length_le (Nat.le_of_lt hlt)] at h
  rw [List.map_append, List.sum_append] at h e
  have hpos : 0 < (((runes s).take (k - (runes y).length)).map Prod.snd).sum := by
    rw [List.length_append] at hk
    cases hs : runes s with
    | nil => rw [hs] at hk; simp at hk; omega
    | cons r rs =>
      have hw := (width_pos (s := s) (d := r) (by rw [hs]; simp)).1
      obtain ⟨j, hj⟩ : ∃ j, k - (runes y).length = j + 1 := ⟨k - (runes y).length - 1, by omega⟩
      rw [hj, List.take_succ_cons, List.map_cons, List.sum_cons]
      omega
  rw [List.length_append] at h e
  have hle : (((runes s).take (k - (runes y).length)).map Prod.snd).sum ≤ ((runes s).map Prod.snd).sum := by
    have := List.take_append_drop (k - (runes y).length) (runes s)
    have h2 := congrArg (fun l => (l.map Prod.snd).sum) this
    simp only [List.map_append, List.sum_append] at h2
    omega
  omega

theorem firstChars_within {y s : Bytes} (hr : runes (y ++ s) = runes y ++ runes s) {k : Nat} (hk : k ≤ (runes y).length) :
    firstChars (y ++ s) k = firstChars y k := by
  unfold firstChars
  rw [hr, List.take_append_of_le_length hk]
  have e1 := wsum_runes y
  unfold wsum at e1
  have hle : (((runes y).take k).map Prod.snd).sum ≤ y.length := by
    have := List.take_append_drop k (runes y)
    have h2 := congrArg (fun l => (l.map Prod.snd).sum) this
    simp only [List.map_append, List.sum_append] at h2
    omega
  rw [List.take_append_of_le_length hle]

theorem takeWhile_min {α : Type} (p : α → Bool) (k : Nat) : ∀ (a b : List α), min k ((a ++ b).takeWhile p).length ≤ a.length →
    min k ((a ++ b).takeWhile p).length = min k (a.takeWhile p).length := by
  intro a
  induction a generalizing k with
  | nil => intro b h; simp only [List.nil_append, List.length_nil, List.takeWhile_nil] at h ⊢; omega
  | cons x a ih =>
    intro b h
    rw [List.cons_append] at h ⊢
    by_cases hx : p x = true
    · rw [List.takeWhile_cons_of_pos hx, List.takeWhile_cons_of_pos hx]
      rw [List.takeWhile_cons_of_pos hx] at h
      simp only [List.length_cons] at h ⊢
      have := ih (k - 1) b (by omega)
      omega
    · rw [List.takeWhile_cons_of_neg hx, List.takeWhile_cons_of_neg hx]

theorem unknownLength_le {s : Bytes} (hs : s ≠ []) : unknownLength d s ≤ (runes s).length := by
  unfold unknownLength
  split
  · have := (List.takeWhile_sublist (fun r => decide (d.category r.1 = d.category (firstChar s))) (l := runes s)).length_le
    omega
  · have : (runes s).length ≠ 0 := fun h => hs (runes_eq_nil.mp (List.length_eq_zero_iff.mp h))
    omega

/-- If the words offered fit into `y`, they are those offered by `y` alone. -/
theorem offers_apart (wf : WellFormed d u) (hb : ByPrefix d u) {y s : Bytes} (hy : y ≠ []) (hr : runes (y ++ s) = runes y ++ runes s)
    (hfit : ∀ w ∈ offers d u (y ++ s), w.surface.length ≤ y.length) : offers d u (y ++ s) = offers d u y := by
  have hne : y ++ s ≠ [] := by simp [hy]
  obtain ⟨bk, bu⟩ := hb y s
  have taken : ∀ {l : List (Nat × Nat)} {c : NodeClass}, (∀ h ∈ l, h.2 ≤ y.length) →
      l.map (fun h => (⟨c, h.1, (y ++ s).take h.2⟩ : Word)) = l.map (fun h => ⟨c, h.1, y.take h.2⟩) := by
    intro l c hl
    apply List.map_congr_left
    intro h hh
    rw [List.take_append_of_le_length (hl h hh)]
  have keep : ∀ {l : List (Nat × Nat)}, (∀ h ∈ l, h.2 ≤ y.length) → l.filter (fun h => decide (h.2 ≤ y.length)) = l := by
    intro l hl
    rw [List.filter_eq_self]
    intro h hh
    exact decide_eq_true (hl h hh)
  have hdec : decodeRune (y ++ s) = decodeRune y := by
    rw [runes_cons hne, runes_cons hy, List.cons_append] at hr
    exact (List.cons.inj hr).1
  by_cases hu : userEntries u (y ++ s) = []
  · have hu' : userEntries u y = [] := by rw [← bu, hu]; rfl
    have hk : ∀ h ∈ d.prefixSearch (y ++ s), h.2 ≤ y.length := by
      intro h hh
      have hm : (⟨.known, h.1, (y ++ s).take h.2⟩ : Word) ∈ offers d u (y ++ s) := (C58_offers hne _).mpr (Candidate.known h.1 h.2 hu hh)
      have h1 := hfit _ hm
      have h2 := (wf.known_hit _ _ _ hh).2.1
      simp only [List.length_take] at h1
      omega
    have ek : d.prefixSearch (y ++ s) = d.prefixSearch y := by rw [← bk, keep hk]
    have efc : firstChar (y ++ s) = firstChar y := by unfold firstChar; rw [hdec]
    unfold offers
    rw [if_neg (fun h : userEntries u (y ++ s) ≠ [] => h hu), if_neg (fun h : userEntries u y ≠ [] => h hu'), taken hk, ek, efc]
    congr 1
    split
    · rename_i hg
      have hd := (wf.unk_entry (firstChar y)).2.1
      have hlong : unknownLength d (y ++ s) ≤ (runes y).length := by
        apply firstChars_fits hr (unknownLength_le hne)
        have hm : (⟨.unknown, d.unk.index (d.category (firstChar (y ++ s))) + ((0 : Nat) : Int), firstChars (y ++ s) (unknownLength d (y ++ s))⟩ : Word) ∈ offers d u (y ++ s) :=
          (C58_offers hne _).mpr (Candidate.unknown 0 _ hu hne (by rw [ek, efc]; exact hg) (by rw [efc]; simpa using hd) (Or.inl rfl))
        exact hfit _ hm
      have elen : unknownLength d (y ++ s) = unknownLength d y := by
        have elim : unknownLimit (y ++ s) = unknownLimit y := by unfold unknownLimit; rw [hdec]
        unfold unknownLength at hlong ⊢
        rw [efc, elim, hr] at hlong ⊢
        split
        · rename_i hgr
          rw [if_pos hgr] at hlong
          exact takeWhile_min _ _ _ _ hlong
        · rfl
      congr 1
      funext x
      unfold unknownOffers
      rw [elen] at hlong ⊢
      rw [firstChars_within hr hlong, firstChars_within hr (Nat.le_trans (Nat.sub_le _ _) hlong), hr]
      by_cases h2 : 2 ≤ unknownLength d y
      · rw [List.getElem?_append_left (by omega)]
      · rw [if_neg (fun h => h2 h.1), if_neg (fun h => h2 h.1)]
    · rfl
  · have hk : ∀ h ∈ userEntries u (y ++ s), h.2 ≤ y.length := by
      intro h hh
      have hm : (⟨.user, h.1, (y ++ s).take h.2⟩ : Word) ∈ offers d u (y ++ s) := (C58_offers hne _).mpr (Candidate.user h.1 h.2 hh)
      have h1 := hfit _ hm
      have h2 : h.2 ≤ (y ++ s).length := by
        cases u with
        | none => simp [userEntries] at hh
        | some ud => exact (wf.user_hit ud rfl _ _ _ hh).2.1
      simp only [List.length_take] at h1
      omega
    have ek : userEntries u (y ++ s) = userEntries u y := by rw [← bu, keep hk]
    have hu' : userEntries u y ≠ [] := by rw [← ek]; exact hu
    unfold offers
    rw [if_pos hu, if_pos hu', taken hk, ek]

theorem sameWithin_apart (wf : WellFormed d u) (hb : ByPrefix d u) {p s s' : Bytes} (hr : ∀ y, runes (y ++ s) = runes y ++ runes s)
    (hr' : ∀ y, runes (y ++ s') = runes y ++ runes s') (hc : NoneCross d u p s) (hc' : NoneCross d u p s') : SameWithin d u p s s' := by
  intro x y e hy
  rw [offers_apart wf hb hy (hr y) (hc x y e hy), offers_apart wf hb hy (hr' y) (hc' x y e hy)]

/-- C77: so if no word reaches over the beginning of the word that the two texts have in common, the words before it are the same. -/
theorem C77_apart (h : Tame t inp) (h' : Tame t inp') (ha : analyze t ideo inp mode = some toks) (ha' : analyze t ideo inp' mode = some toks')
    (e : inner toks = a ++ tok :: b) (e' : inner toks' = a' ++ tok' :: b') (hc : tok.cls ≠ .dummy) (hw : wordOfToken tok = wordOfToken tok')
    (ht : inp.take tok.position = inp'.take tok'.position) (hv : ValidUtf8 tok.surface) (hb : ByPrefix t.dict t.userDict)
    (hx : NoneCross t.dict t.userDict (inp.take tok.position) (inp.drop tok.position))
    (hx' : NoneCross t.dict t.userDict (inp.take tok.position) (inp'.drop tok'.position)) :
    a.map wordOfToken = a'.map wordOfToken := by
  have hc' : tok'.cls ≠ .dummy := by
    have : tok'.cls = tok.cls := (congrArg Word.cls hw).symm
    rw [this]; exact hc
  obtain ⟨x, y, c, _, _, l, _⟩ := token_place h ha e hc
  obtain ⟨x', y', c', _, _, l', _⟩ := token_place h' ha' e' hc'
  have hne : tok.surface ≠ [] := analysis_nonempty h.wf c.1 (wordOfToken tok) (by simp)
  have hs : (wordOfToken tok').surface = tok.surface := (congrArg Word.surface hw).symm
  have start : ∀ r : Bytes, ∀ y, runes (y ++ (tok.surface ++ r)) = runes y ++ runes (tok.surface ++ r) := by
    intro r y
    obtain ⟨cs, hcs⟩ := hv
    cases cs with
    | nil => exact absurd hcs hne
    | cons ch cs =>
      obtain ⟨z, zs, hz, h0, _⟩ := encode_shape ch
      have : tok.surface = z :: (zs ++ cs.flatMap String.utf8EncodeChar) := by rw [hcs, List.flatMap_cons, hz]; rfl
      rw [this, List.cons_append]
      exact runes_append_start y h0 _
  refine C77_before h h' ha ha' e e' hc hw ht (sameWithin_apart h.wf hb ?_ ?_ hx hx')
  · rw [text_from (analysis_textOf c.1) l, textOf_cons]
    exact start _
  · rw [text_from (analysis_textOf c'.1) l', textOf_cons, hs]
    exact start _

theorem startingWords_prefix (y s : Bytes) : ∀ (ws : List (List Char)) (i : Nat),
    (startingWords (y ++ s) i ws).filter (fun h => decide (h.2 ≤ y.length)) = startingWords y i ws := by
  intro ws
  induction ws with
  | nil => intro i; rfl
  | cons w ws ih =>
    intro i
    rw [startingWords, startingWords, List.filter_append, ih]
    congr 1
    by_cases h : utf8 w <+: y
    · rw [if_pos h, if_pos (h.trans (List.prefix_append y s)), List.filter_cons_of_pos (by simpa using h.length_le)]
      rfl
    · rw [if_neg h]
      by_cases h2 : utf8 w <+: y ++ s
      · rw [if_pos h2, List.filter_cons_of_neg]
        · rfl
        · intro hl
          exact h (List.prefix_of_prefix_length_le h2 (List.prefix_append y s) (of_decide_eq_true hl))
      · rw [if_neg h2]; rfl

/-- C77: dictionaries made of word lists look words up by the text they consist of. -/
theorem C77_tables (T : Tables) (users : Option (List (List Char × UserContent))) : ByPrefix T.dict (users.map userTables) := by
  intro y s
  refine ⟨startingWords_prefix y s _ 0, ?_⟩
  cases users with
  | none => rfl
  | some l => exact startingWords_prefix y s _ 0

/-! ### The hypotheses can be met, and the condition of C77_before is needed -/

namespace Toy

/-- A long word, ybc, that is never chosen. -/
def reach : Tables where
  words := [(['x'], ⟨0, 0, 100⟩), (['x', 'y'], ⟨0, 0, 5000⟩), (['b'], ⟨0, 0, 100⟩), (['c'], ⟨0, 0, 100⟩), (['y', 'b', 'c'], ⟨0, 0, 30000⟩)]
  matrix := [[0]]
  categories := [⟨false, false, [⟨0, 0, 10⟩]⟩]
  categoryOf := fun _ => 0

theorem reach_ok : reach.Ok where
  words := by
    have h : ∀ w ∈ reach.words, w.1 ≠ [] ∧ (0 ≤ w.2.left.toInt ∧ w.2.left.toInt < 1) ∧ (0 ≤ w.2.right.toInt ∧ w.2.right.toInt < 1) := by decide
    exact h
  matrix := by decide
  unknowns := by
    have h : ∀ e ∈ reach.categories, e.unknowns ≠ [] ∧ ∀ m ∈ e.unknowns, (0 ≤ m.left.toInt ∧ m.left.toInt < 1) ∧ (0 ≤ m.right.toInt ∧ m.right.toInt < 1) := by decide
    exact h
  category := fun _ => Nat.zero_lt_one

theorem reach_tame {inp : Bytes} (h1 : (0xFFFD, 3) ∉ runes inp) (h2 : runeCount inp ≤ 16000) : Tame ⟨reach.dict, none, true⟩ inp :=
  ⟨C73_well_formed reach_ok none (by simp), .inr h1, fits_short _ h2⟩

theorem noneCross_check {p s : Bytes}
    (h : ∀ n, n < p.length → ∀ w ∈ offers reach.dict none (p.drop n ++ s), w.surface.length ≤ (p.drop n).length) : NoneCross reach.dict none p s := by
  intro x y e hy w hw
  have hl : 0 < y.length := List.length_pos_iff.mpr hy
  have : p.drop x.length = y := by rw [e, List.drop_left]
  have h1 := h x.length (by rw [e, List.length_append]; omega) w
  rw [this] at h1
  exact h1 hw

end Toy

/-- The word b and the same rest: C77_rest applies. -/
example : Tame ⟨Toy.reach.dict, none, true⟩ (str "xybxyx") ∧ Tame ⟨Toy.reach.dict, none, true⟩ (str "cbxyx") ∧
    (analyze ⟨Toy.reach.dict, none, true⟩ Toy.ideo (str "xybxyx") modeNormal).map (List.map (fun tok => (tok.position, wordOfToken tok))) =
      some [(0, ⟨.known, 0, str "x"⟩), (1, ⟨.unknown, 0, str "y"⟩), (2, ⟨.known, 2, str "b"⟩), (3, ⟨.known, 0, str "x"⟩), (4, ⟨.unknown, 0, str "y"⟩),
        (5, ⟨.known, 0, str "x"⟩)] ∧
    (analyze ⟨Toy.reach.dict, none, true⟩ Toy.ideo (str "cbxyx") modeNormal).map (List.map (fun tok => (tok.position, wordOfToken tok))) =
      some [(0, ⟨.known, 3, str "c"⟩), (1, ⟨.known, 2, str "b"⟩), (2, ⟨.known, 0, str "x"⟩), (3, ⟨.unknown, 0, str "y"⟩), (4, ⟨.known, 0, str "x"⟩)] ∧
    (str "xybxyx").drop (2 + (str "b").length) = (str "cbxyx").drop (1 + (str "b").length) :=
  ⟨Toy.reach_tame (by decide +kernel) (by decide +kernel), Toy.reach_tame (by decide +kernel) (by decide +kernel), by decide +kernel, by decide +kernel,
    by decide +kernel⟩

/-- The word b and the same text before, which no word leaves: C77_apart applies. -/
example : NoneCross Toy.reach.dict none (str "xy") (str "bxyx") ∧ NoneCross Toy.reach.dict none (str "xy") (str "b") ∧ ValidUtf8 (str "b") ∧
    (analyze ⟨Toy.reach.dict, none, true⟩ Toy.ideo (str "xyb") modeNormal).map (List.map (fun tok => (tok.position, wordOfToken tok))) =
      some [(0, ⟨.known, 0, str "x"⟩), (1, ⟨.unknown, 0, str "y"⟩), (2, ⟨.known, 2, str "b"⟩)] :=
  ⟨Toy.noneCross_check (by decide +kernel), Toy.noneCross_check (by decide +kernel), ⟨['b'], by decide⟩, by decide +kernel⟩

/-- C77: the condition on the words within the common text is needed. With c at the end the long word ybc may stand after x, so y is no unknown
word any more, and xy is taken: other words before b, although the text before b is the same and ybc is not chosen. -/
theorem C77_reaches :
    ∃ (T : Tables) (toks toks' : List Token) (a a' b b' : List Token) (tok tok' : Token), T.Ok ∧
      Tame ⟨T.dict, none, true⟩ (str "xyb") ∧ Tame ⟨T.dict, none, true⟩ (str "xybc") ∧
      analyze ⟨T.dict, none, true⟩ Toy.ideo (str "xyb") modeNormal = some toks ∧ analyze ⟨T.dict, none, true⟩ Toy.ideo (str "xybc") modeNormal = some toks' ∧
      inner toks = a ++ tok :: b ∧ inner toks' = a' ++ tok' :: b' ∧ tok.cls = .known ∧ wordOfToken tok = wordOfToken tok' ∧
      (str "xyb").take tok.position = (str "xybc").take tok'.position ∧
      a.map (·.surface) = [str "x", str "y"] ∧ a'.map (·.surface) = [str "xy"] := by
  have h1 : ∃ toks, analyze ⟨Toy.reach.dict, none, true⟩ Toy.ideo (str "xyb") modeNormal = some toks ∧ inner toks = toks.take 2 ++ toks.drop 2 ∧
      (toks.take 2).map (·.surface) = [str "x", str "y"] ∧ (toks.drop 2).map (fun tok => (wordOfToken tok, tok.position)) = [(⟨.known, 2, str "b"⟩, 2)] := by
    cases h : analyze ⟨Toy.reach.dict, none, true⟩ Toy.ideo (str "xyb") modeNormal with
    | none => exact absurd h (by decide +kernel)
    | some toks =>
      have e : (analyze ⟨Toy.reach.dict, none, true⟩ Toy.ideo (str "xyb") modeNormal).map (fun toks => (toks.all (fun tok => decide (tok.id ≠ -1)),
          (toks.take 2).map (·.surface), (toks.drop 2).map (fun tok => (wordOfToken tok, tok.position)))) =
          some (true, [str "x", str "y"], [(⟨.known, 2, str "b"⟩, 2)]) := by decide +kernel
      rw [h] at e
      simp only [Option.map_some, Option.some.injEq, Prod.mk.injEq, List.all_eq_true] at e
      exact ⟨toks, rfl, by rw [List.take_append_drop]; exact List.filter_eq_self.mpr e.1, e.2.1, e.2.2⟩
  have h2 : ∃ toks, analyze ⟨Toy.reach.dict, none, true⟩ Toy.ideo (str "xybc") modeNormal = some toks ∧ inner toks = toks.take 1 ++ toks.drop 1 ∧
      (toks.take 1).map (·.surface) = [str "xy"] ∧
      (toks.drop 1).map (fun tok => (wordOfToken tok, tok.position)) = [(⟨.known, 2, str "b"⟩, 2), (⟨.known, 3, str "c"⟩, 3)] := by
    cases h : analyze ⟨Toy.reach.dict, none, true⟩ Toy.ideo (str "xybc") modeNormal with
    | none => exact absurd h (by decide +kernel)
    | some toks =>
      have e : (analyze ⟨Toy.reach.dict, none, true⟩ Toy.ideo (str "xybc") modeNormal).map (fun toks => (toks.all (fun tok => decide (tok.id ≠ -1)),
          (toks.take 1).map (·.surface), (toks.drop 1).map (fun tok => (wordOfToken tok, tok.position)))) =
          some (true, [str "xy"], [(⟨.known, 2, str "b"⟩, 2), (⟨.known, 3, str "c"⟩, 3)]) := by decide +kernel
      rw [h] at e
      simp only [Option.map_some, Option.some.injEq, Prod.mk.injEq, List.all_eq_true] at e
      exact ⟨toks, rfl, by rw [List.take_append_drop]; exact List.filter_eq_self.mpr e.1, e.2.1, e.2.2⟩
  obtain ⟨toks, a1, i1, s1, d1⟩ := h1
  obtain ⟨toks', a2, i2, s2, d2⟩ := h2
  generalize toks.take 2 = a at *
  generalize toks.drop 2 = r at *
  generalize toks'.take 1 = a' at *
  generalize toks'.drop 1 = r' at *
  obtain ⟨tok, r1, rfl, t1, f1⟩ := List.map_eq_cons_iff.mp d1
  obtain ⟨tok', r2, rfl, t2, f2⟩ := List.map_eq_cons_iff.mp d2
  have w1 := congrArg Prod.fst t1
  have p1 := congrArg Prod.snd t1
  have w2 := congrArg Prod.fst t2
  have p2 := congrArg Prod.snd t2
  exact ⟨Toy.reach, toks, toks', a, a', r1, r2, tok, tok', Toy.reach_ok, Toy.reach_tame (by decide +kernel) (by decide +kernel),
    Toy.reach_tame (by decide +kernel) (by decide +kernel), a1, a2, i1, i2, congrArg Word.cls w1, w1.trans w2.symm,
    by rw [show tok.position = 2 from p1, show tok'.position = 2 from p2]; decide +kernel, s1, s2⟩

end Kagome
