import Verif.Proof.LatticeApi

/-! What is in a lattice stays there, whatever is called. -/

namespace Kagome

open Spec

/-- Every node of `a` is at the same place in `b`, but for cost and predecessor. -/
def Keeps (a b : Cols) : Prop := a.length = b.length ∧ ∀ i j n, getNode a i j = some n → ∃ n', getNode b i j = some n' ∧ skel n' = skel n

theorem Keeps.refl (a : Cols) : Keeps a a := ⟨rfl, fun _ _ n h => ⟨n, h, rfl⟩⟩

theorem Keeps.trans {a b c : Cols} (h : Keeps a b) (h' : Keeps b c) : Keeps a c := by
  refine ⟨h.1.trans h'.1, fun i j n hn => ?_⟩
  obtain ⟨n1, h1, e1⟩ := h.2 i j n hn
  obtain ⟨n2, h2, e2⟩ := h'.2 i j n1 h1
  exact ⟨n2, h2, e2.trans e1⟩

theorem keeps_modify {cols : Cols} {p : Nat} {f : List Node → List Node}
    (h : ∀ c, cols[p]? = some c → ∀ (j : Nat) n, c[j]? = some n → ∃ n', (f c)[j]? = some n' ∧ skel n' = skel n) : Keeps cols (cols.modify p f) := by
  refine ⟨by simp, fun i j n hn => ?_⟩
  unfold getNode at hn ⊢
  cases hc : cols[i]? with
  | none => rw [hc] at hn; cases hn
  | some c =>
    rw [hc] at hn
    rw [List.getElem?_modify, hc]
    by_cases hp : p = i
    · subst hp
      obtain ⟨n', h1, h2⟩ := h c hc j n hn
      exact ⟨n', by simpa using h1, h2⟩
    · exact ⟨n, by simpa [hp] using hn, rfl⟩

theorem keeps_addNode {d : Dict} {cols cols' : Cols} {pos : Nat} {id : Int} {position start : Nat} {cls : NodeClass} {s : Bytes}
    (h : addNode d cols pos id position start cls s = some cols') : Keeps cols cols' := by
  unfold addNode at h
  cases hm : morphOf d cls id with
  | none => rw [hm] at h; cases h
  | some m =>
    rw [hm] at h
    simp only at h
    split at h
    · cases h
      apply keeps_modify
      intro c _ j n hn
      exact ⟨n, by rw [List.getElem?_append_left (List.getElem?_eq_some_iff.mp hn).1, hn], rfl⟩
    · cases h

theorem keeps_addHits {d : Dict} {inp : Bytes} {runePos pos : Nat} {cls : NodeClass} : ∀ (hits : List (Nat × Nat)) {cols cols' : Cols},
    addHits d inp runePos pos cls hits cols = some cols' → Keeps cols cols' := by
  intro hits
  induction hits with
  | nil => intro cols cols' h; simp only [addHits, Option.some.injEq] at h; subst h; exact Keeps.refl _
  | cons x hits ih =>
    intro cols cols' h
    obtain ⟨id, l⟩ := x
    rw [addHits] at h
    cases hs : slice inp pos (pos + l) with
    | none => rw [hs] at h; cases h
    | some s =>
      rw [hs] at h
      simp only at h
      cases ha : addNode d cols runePos id pos runePos cls s with
      | none => rw [ha] at h; cases h
      | some c => rw [ha] at h; exact (keeps_addNode ha).trans (ih h)

theorem keeps_addUnks {d : Dict} {inp : Bytes} {runePos pos prev stop : Nat} : ∀ (ids : List Int) {cols cols' : Cols},
    addUnks d inp runePos pos prev stop ids cols = some cols' → Keeps cols cols' := by
  intro ids
  induction ids with
  | nil => intro cols cols' h; simp only [addUnks, Option.some.injEq] at h; subst h; exact Keeps.refl _
  | cons id ids ih =>
    intro cols cols' h
    rw [addUnks] at h
    have first : ∀ c1, (if pos < prev then
        match slice inp pos prev with
        | none => none
        | some s => addNode d cols runePos id pos runePos .unknown s
      else some cols) = some c1 → Keeps cols c1 := by
      intro c1 h1
      split at h1
      · cases hs : slice inp pos prev with
        | none => rw [hs] at h1; cases h1
        | some s => rw [hs] at h1; exact keeps_addNode h1
      · cases h1; exact Keeps.refl _
    revert h first
    generalize (if pos < prev then
        match slice inp pos prev with
        | none => none
        | some s => addNode d cols runePos id pos runePos .unknown s
      else some cols) = x
    intro h first
    cases x with
    | none => cases h
    | some c1 =>
      cases hs : slice inp pos stop with
      | none => rw [hs] at h; cases h
      | some s =>
        rw [hs] at h
        simp only at h
        cases ha : addNode d c1 runePos id pos runePos .unknown s with
        | none => rw [ha] at h; cases h
        | some c2 => rw [ha] at h; exact (first c1 rfl).trans ((keeps_addNode ha).trans (ih h))

theorem keeps_addUnknown {d : Dict} {inp : Bytes} {runePos pos ch : Nat} {cols cols' : Cols}
    (h : addUnknown d inp runePos pos ch cols = some cols') : Keeps cols cols' := by
  unfold addUnknown at h
  cases he : unkEnd d inp pos ch with
  | none => rw [he] at h; cases h
  | some e =>
    rw [he] at h
    simp only at h
    cases hs : slice inp pos e with
    | none => rw [hs] at h; cases h
    | some s => rw [hs] at h; exact keeps_addUnks _ h

theorem keeps_buildAt {d : Dict} {u : Option UserDict} {inp : Bytes} {runePos pos ch : Nat} {cols cols' : Cols}
    (h : buildAt d u inp runePos pos ch cols = some cols') : Keeps cols cols' := by
  unfold buildAt at h
  simp only at h
  cases h1 : addHits d inp runePos pos .user (userHits u (inp.drop pos)) cols with
  | none => rw [h1] at h; cases h
  | some c1 =>
    rw [h1] at h
    simp only at h
    have k1 := keeps_addHits _ h1
    split at h
    · cases h; exact k1
    · cases h2 : addHits d inp runePos pos .known (d.prefixSearch (inp.drop pos)) c1 with
      | none => rw [h2] at h; cases h
      | some c2 =>
        rw [h2] at h
        simp only at h
        have k2 := k1.trans (keeps_addHits _ h2)
        split at h
        · exact k2.trans (keeps_addUnknown h)
        · cases hi : d.invokeList[d.category ch]? with
          | none => rw [hi] at h; cases h
          | some b =>
            rw [hi] at h
            cases b with
            | true => exact k2.trans (keeps_addUnknown h)
            | false => cases h; exact k2

theorem keeps_buildLoop {d : Dict} {u : Option UserDict} {inp : Bytes} : ∀ (rs : List (Nat × Nat)) {runePos : Nat} {cols cols' : Cols},
    buildLoop d u inp runePos rs cols = some cols' → Keeps cols cols' := by
  intro rs
  induction rs with
  | nil => intro rp cols cols' h; simp only [buildLoop, Option.some.injEq] at h; subst h; exact Keeps.refl _
  | cons x rs ih =>
    intro rp cols cols' h
    obtain ⟨pos, ch⟩ := x
    rw [buildLoop] at h
    cases ha : buildAt d u inp rp pos ch cols with
    | none => rw [ha] at h; cases h
    | some c => rw [ha] at h; exact (keeps_buildAt ha).trans (ih h)

theorem keeps_buildOn {d : Dict} {u : Option UserDict} {inp : Bytes} {cols cols' : Cols} (h : buildOn d u inp cols = some cols') : Keeps cols cols' := by
  unfold buildOn at h
  cases h1 : addNode d cols 0 bosEosID 0 0 .dummy [] with
  | none => rw [h1] at h; cases h
  | some c1 =>
    rw [h1] at h
    simp only at h
    cases hs : slice inp (runeCount inp) (runeCount inp) with
    | none => rw [hs] at h; cases h
    | some s =>
      rw [hs] at h
      simp only at h
      cases h2 : addNode d c1 (runeCount inp + 1) bosEosID inp.length (runeCount inp) .dummy s with
      | none => rw [h2] at h; cases h
      | some c2 => rw [h2] at h; exact (keeps_addNode h1).trans ((keeps_addNode h2).trans (keeps_buildLoop _ h))

/-! ### `Forward` -/

theorem keeps_setNode {cols : Cols} {i j : Nat} {n t : Node} (hn : getNode cols i j = some n) (ht : skel t = skel n) : Keeps cols (setNode cols i j t) := by
  apply keeps_modify
  intro c hc k x hx
  unfold getNode at hn
  rw [hc] at hn
  change c[j]? = some n at hn
  rw [List.getElem?_set]
  by_cases hk : j = k
  · subst hk
    rw [hx] at hn
    cases hn
    refine ⟨t, ?_, ht⟩
    simp [(List.getElem?_eq_some_iff.mp hx).1]
  · exact ⟨x, by simp [hk, hx], rfl⟩

theorem keeps_relax {d : Dict} {ideo : Nat → Bool} {m : LMode} {i idx : Nat} : ∀ (js : List Nat) {cols cols' : Cols},
    relax d ideo m i idx js cols = some cols' → Keeps cols cols' := by
  intro js
  induction js with
  | nil => intro cols cols' h; simp only [relax, Option.some.injEq] at h; subst h; exact Keeps.refl _
  | cons j js ih =>
    intro cols cols' h
    rw [relax] at h
    cases h1 : getNode cols i idx with
    | none => rw [h1] at h; cases h
    | some target =>
      rw [h1] at h
      simp only at h
      cases h2 : getNode cols target.start j with
      | none => rw [h2] at h; cases h
      | some n =>
        rw [h2] at h
        simp only at h
        cases h3 : connCost d n target with
        | none => rw [h3] at h; cases h
        | some c =>
          rw [h3] at h
          simp only at h
          split at h
          · refine (keeps_setNode h1 ?_).trans (ih h)
            rfl
          · exact ih h

theorem keeps_forwardNode {d : Dict} {ideo : Nat → Bool} {m : LMode} {i idx : Nat} {cols cols' : Cols}
    (h : forwardNode d ideo m i idx cols = some cols') : Keeps cols cols' := by
  unfold forwardNode at h
  cases h1 : getNode cols i idx with
  | none => rw [h1] at h; cases h
  | some target =>
    rw [h1] at h
    simp only at h
    cases h2 : cols[target.start]? with
    | none => rw [h2] at h; cases h
    | some P =>
      rw [h2] at h
      simp only at h
      split at h
      · cases h; exact keeps_setNode h1 rfl
      · exact keeps_relax _ h

theorem keeps_forwardCol {d : Dict} {ideo : Nat → Bool} {m : LMode} {i : Nat} : ∀ (js : List Nat) {cols cols' : Cols},
    forwardCol d ideo m i js cols = some cols' → Keeps cols cols' := by
  intro js
  induction js with
  | nil => intro cols cols' h; simp only [forwardCol, Option.some.injEq] at h; subst h; exact Keeps.refl _
  | cons j js ih =>
    intro cols cols' h
    rw [forwardCol] at h
    cases h1 : forwardNode d ideo m i j cols with
    | none => rw [h1] at h; cases h
    | some c => rw [h1] at h; exact (keeps_forwardNode h1).trans (ih h)

theorem keeps_forwardLoop {d : Dict} {ideo : Nat → Bool} {m : LMode} : ∀ (is : List Nat) {cols cols' : Cols},
    forwardLoop d ideo m is cols = some cols' → Keeps cols cols' := by
  intro is
  induction is with
  | nil => intro cols cols' h; simp only [forwardLoop, Option.some.injEq] at h; subst h; exact Keeps.refl _
  | cons i is ih =>
    intro cols cols' h
    rw [forwardLoop] at h
    cases h1 : cols[i]? with
    | none => rw [h1] at h; cases h
    | some col =>
      rw [h1] at h
      simp only at h
      cases h2 : forwardCol d ideo m i (List.range col.length) cols with
      | none => rw [h2] at h; cases h
      | some c => rw [h2] at h; exact (keeps_forwardCol _ h2).trans (ih h)

/-! ### The whole object -/

theorem keeps_front {a b rest : Cols} (h : Keeps a b) : Keeps (a ++ rest) (b ++ rest) := by
  refine ⟨by simp [h.1], fun i j n hn => ?_⟩
  unfold getNode at hn ⊢
  by_cases hi : i < a.length
  · rw [List.getElem?_append_left hi] at hn
    rw [List.getElem?_append_left (by rw [← h.1]; exact hi)]
    exact h.2 i j n hn
  · rw [List.getElem?_append_right (by omega)] at hn
    rw [List.getElem?_append_right (by rw [← h.1]; omega), ← h.1]
    exact ⟨n, hn, rfl⟩

theorem keeps_output {a b : Cols} (h : Keeps a b) {refs : List OutRef} {out : List Node} (ho : refs.mapM (OutRef.deref a) = some out) :
    ∃ out', refs.mapM (OutRef.deref b) = some out' ∧ out'.map skel = out.map skel := by
  induction refs generalizing out with
  | nil => cases ho; exact ⟨[], rfl, rfl⟩
  | cons r refs ih =>
    rw [List.mapM_cons] at ho
    cases h1 : r.deref a with
    | none => rw [h1] at ho; cases ho
    | some n =>
      cases h2 : refs.mapM (OutRef.deref a) with
      | none => rw [h1, h2] at ho; cases ho
      | some ns =>
        rw [h1, h2] at ho
        cases ho
        obtain ⟨ns', e1, e2⟩ := ih h2
        have : ∃ n', r.deref b = some n' ∧ skel n' = skel n := by
          cases r with
          | own x => exact ⟨n, h1, rfl⟩
          | «at» q => exact h.2 _ _ _ h1
        obtain ⟨n', f1, f2⟩ := this
        refine ⟨n' :: ns', ?_, by rw [List.map_cons, List.map_cons, f2, e2]⟩
        rw [List.mapM_cons, f1, e1]
        rfl

theorem detach_output {a b : Cols} {refs : List OutRef} {out : List Node} (ho : refs.mapM (OutRef.deref a) = some out) :
    (refs.map (OutRef.detach a)).mapM (OutRef.deref b) = some out := by
  induction refs generalizing out with
  | nil => exact ho
  | cons r refs ih =>
    rw [List.mapM_cons] at ho
    cases h1 : r.deref a with
    | none => rw [h1] at ho; cases ho
    | some n =>
      cases h2 : refs.mapM (OutRef.deref a) with
      | none => rw [h1, h2] at ho; cases ho
      | some ns =>
        rw [h1, h2] at ho
        cases ho
        rw [List.map_cons, List.mapM_cons, ih h2]
        have : OutRef.detach a r = .own n := by unfold OutRef.detach; rw [h1]
        rw [this]
        rfl

theorem reserve_nodes {o : Lattice} {n : Nat} {out : List Node} (h : o.nodes = some out) : (o.reserve n).nodes = some out := by
  unfold Lattice.reserve
  split
  · exact detach_output h
  · exact h

/-- A node that `walkRef` names is there. -/
theorem walkRef_nodes (m : LMode) (cols : Cols) (fuel : Nat) : ∀ (q : Option Ptr) (refs : List OutRef), walkRef m cols fuel q = some refs →
    ∃ out, refs.mapM (OutRef.deref cols) = some out := by
  induction fuel with
  | zero =>
    intro q refs h
    cases q with
    | none => cases h; exact ⟨[], rfl⟩
    | some q => cases h
  | succ fuel ih =>
    intro q refs h
    cases q with
    | none => rw [walkRef] at h; cases h; exact ⟨[], rfl⟩
    | some q =>
      obtain ⟨i, j⟩ := q
      rw [walkRef] at h
      cases hp : getNode cols i j with
      | none => rw [hp] at h; cases h
      | some p =>
        rw [hp] at h
        simp only [Option.map_eq_some_iff] at h
        obtain ⟨refs', h1, rfl⟩ := h
        obtain ⟨out, h2⟩ := ih _ _ h1
        exact ⟨_, mapM_append_some (emitRef_deref hp) h2⟩

theorem call_kept {ideo : Nat → Bool} {o o' : Lattice} {op : LatOp} (h : o.call ideo op = some o') {out : List Node} (hn : o.nodes = some out) :
    ∃ out' more, o'.nodes = some (out' ++ more) ∧ out'.map skel = out.map skel ∧ ((∀ m, op ≠ .backward m) → more = []) := by
  cases op with
  | build inp =>
    rw [Lattice.call] at h
    unfold Lattice.build at h
    simp only [Option.map_eq_some_iff] at h
    obtain ⟨cols, h1, rfl⟩ := h
    have hr := reserve_nodes (n := runeCount inp + 2) hn
    have hk := keeps_front (rest := (o.reserve (runeCount inp + 2)).store.drop (runeCount inp + 2)) (keeps_buildOn h1)
    rw [List.take_append_drop] at hk
    obtain ⟨out', e1, e2⟩ := keeps_output hk hr
    exact ⟨out', [], by rw [List.append_nil]; exact e1, e2, fun _ => rfl⟩
  | forward m =>
    rw [Lattice.call] at h
    unfold Lattice.forward at h
    simp only [Option.map_eq_some_iff] at h
    obtain ⟨cols, h1, rfl⟩ := h
    have hk := keeps_front (rest := o.store.drop o.len) (keeps_forwardLoop _ h1)
    rw [List.take_append_drop] at hk
    obtain ⟨out', e1, e2⟩ := keeps_output hk hn
    exact ⟨out', [], by rw [List.append_nil]; exact e1, e2, fun _ => rfl⟩
  | backward m =>
    rw [Lattice.call] at h
    unfold Lattice.backward at h
    split at h
    · cases h; exact ⟨out, [], by rw [List.append_nil]; exact hn, rfl, fun _ => rfl⟩
    · simp only [Option.map_eq_some_iff] at h
      obtain ⟨refs, h1, rfl⟩ := h
      obtain ⟨more, h2⟩ := walkRef_nodes _ _ _ _ _ h1
      have h3 := mapM_deref_more (rest := o.store.drop o.len) h2
      rw [List.take_append_drop] at h3
      exact ⟨out, more, mapM_append_some hn h3, rfl, fun hb => absurd rfl (hb m)⟩

end Kagome
