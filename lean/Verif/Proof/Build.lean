import Verif.Proof.Utf8
import Verif.Model.Tokenizer
import Verif.Spec.Words

/-! `build` adds exactly the candidates of the specification. -/

namespace Kagome

open Spec (WellFormed ReplacementOk Candidate firstChars firstChar userEntries unknownLength unknownLimit UnknownText ValidUtf8)

/-- Appending nodes to columns, one after the other. -/
def applyAdds (cols : Cols) (adds : List (Nat × Node)) : Cols :=
  adds.foldl (fun c a => c.modify a.1 (· ++ [a.2])) cols

@[simp] theorem applyAdds_nil (cols : Cols) : applyAdds cols [] = cols := rfl
@[simp] theorem applyAdds_cons (cols : Cols) (a : Nat × Node) (adds) :
    applyAdds cols (a :: adds) = applyAdds (cols.modify a.1 (· ++ [a.2])) adds := rfl
theorem applyAdds_append (cols : Cols) (a b : List (Nat × Node)) :
    applyAdds cols (a ++ b) = applyAdds (applyAdds cols a) b := by
  simp [applyAdds, List.foldl_append]

@[simp] theorem applyAdds_length (cols : Cols) (adds) : (applyAdds cols adds).length = cols.length := by
  induction adds generalizing cols with
  | nil => rfl
  | cons a adds ih => simp [ih]

theorem applyAdds_get (cols : Cols) (adds : List (Nat × Node)) (p : Nat) :
    (applyAdds cols adds)[p]? = cols[p]?.map (· ++ (adds.filter (fun a => a.1 = p)).map Prod.snd) := by
  induction adds generalizing cols with
  | nil => simp
  | cons a adds ih =>
    rw [applyAdds_cons, ih, List.getElem?_modify]
    by_cases h : a.1 = p
    · simp [h]
      cases cols[p]? <;> simp
    · simp [h]

/-- The cut before the `k`-th rune: byte position and remaining text. -/
structure At (inp : Bytes) (k pos : Nat) (rest : Bytes) : Prop where
  drop : inp.drop pos = rest
  len : pos + rest.length = inp.length
  pre : wsum ((runes inp).take k) = pos
  rns : (runes inp).drop k = runes rest
  le : k ≤ (runes inp).length

theorem at_of_le {inp : Bytes} {k : Nat} (h : k ≤ (runes inp).length) :
    At inp k (wsum ((runes inp).take k)) (inp.drop (wsum ((runes inp).take k))) := by
  have h1 := runes_split (s := inp) (a := (runes inp).take k) (b := (runes inp).drop k) (by simp)
  refine ⟨rfl, ?_, rfl, h1.2.symm, h⟩
  have h2 : wsum ((runes inp).take k) ≤ inp.length := by
    rw [← wsum_runes inp]
    conv => rhs; rw [← List.take_append_drop k (runes inp)]
    rw [wsum_append]; omega
  simp; omega

theorem At.next {inp : Bytes} {k pos : Nat} {rest : Bytes} (h : At inp k pos rest) (hr : rest ≠ []) :
    At inp (k + 1) (pos + (decodeRune rest).2) (rest.drop (decodeRune rest).2) := by
  have h1 := h.rns
  rw [runes_cons hr] at h1
  have h2 : (runes inp)[k]? = some (decodeRune rest) := by
    have := congrArg (·[0]?) h1
    simpa using this
  have h3 : k < (runes inp).length := by
    have := List.getElem?_eq_some_iff.mp h2
    exact this.1
  have h4 : wsum ((runes inp).take (k + 1)) = pos + (decodeRune rest).2 := by
    rw [List.take_add_one, h2, wsum_append, h.pre]; simp
  have := at_of_le (inp := inp) (k := k + 1) h3
  rw [h4] at this
  rw [← List.drop_drop, h.drop] at this
  exact this

theorem At.cut {inp : Bytes} {k pos : Nat} {rest : Bytes} (h : At inp k pos rest) {l : Nat} (hl : l ≤ rest.length) :
    slice inp pos (pos + l) = some (rest.take l) := by
  have := h.len
  unfold Kagome.slice
  rw [if_pos (by omega), ← h.drop, List.drop_take]
  simp

/-- The node a candidate becomes. -/
def mkNode (d : Dict) (cls : NodeClass) (id : Int) (position start : Nat) (surface : Bytes) : Node :=
  newNode ((morphOf d cls id).getD Morph.zero) id position start cls surface

/-- What a word at `(k, pos)` adds. -/
def wordAdd (d : Dict) (k pos : Nat) (w : Spec.Word) : Nat × Node :=
  (k + runeCount w.surface, mkNode d w.cls w.id pos k w.surface)

theorem addNode_eq {d : Dict} {cols : Cols} {k : Nat} {id : Int} {pos : Nat} {cls : NodeClass} {s : Bytes}
    (hm : (morphOf d cls id).isSome) (hp : k + runeCount s < cols.length) :
    addNode d cols k id pos k cls s = some (applyAdds cols [wordAdd d k pos ⟨cls, id, s⟩]) := by
  unfold addNode
  obtain ⟨m, hm⟩ := Option.isSome_iff_exists.mp hm
  simp [hm, hp, wordAdd, mkNode]

theorem addHits_eq {d : Dict} {inp : Bytes} {k pos : Nat} {rest : Bytes} (hat : At inp k pos rest) {cls : NodeClass}
    {hits : List (Nat × Nat)} {cols : Cols}
    (hh : ∀ h ∈ hits, h.2 ≤ rest.length ∧ (morphOf d cls h.1).isSome ∧ k + runeCount (rest.take h.2) < cols.length) :
    addHits d inp k pos cls hits cols =
      some (applyAdds cols (hits.map (fun h => wordAdd d k pos ⟨cls, h.1, rest.take h.2⟩))) := by
  induction hits generalizing cols with
  | nil => simp [addHits]
  | cons h hits ih =>
    obtain ⟨id, l⟩ := h
    have h1 := hh (id, l) (by simp)
    simp only at h1
    unfold addHits
    rw [hat.cut h1.1]
    simp only
    rw [addNode_eq h1.2.1 h1.2.2]
    simp only
    rw [ih]
    · simp
    · intro h hmem
      have := hh h (by simp [hmem])
      simpa using this

theorem groupLoop_eq (d : Dict) (c : Nat) (rs : List (Nat × Nat)) (e n : Nat) (hn : n < 1024) :
    groupLoop d c rs e n =
      e + wsum (rs.take (min (1024 - n) (rs.takeWhile (fun r => d.category r.1 = c)).length)) := by
  induction rs generalizing e n with
  | nil => simp [groupLoop]
  | cons r rs ih =>
    obtain ⟨x, w⟩ := r
    unfold groupLoop
    by_cases h : d.category x = c
    · simp only [h, ne_eq, not_true_eq_false, if_false, maximumUnknownWordLength]
      by_cases h2 : n + 1 ≥ 1024
      · have : n = 1023 := by omega
        subst this
        simp [h]
      · simp only [h2, if_false]
        rw [ih _ _ (by omega)]
        simp only [List.takeWhile_cons, h, decide_true, if_true, List.length_cons]
        have : min (1024 - n) ((rs.takeWhile (fun r => d.category r.1 = c)).length + 1)
            = min (1024 - (n + 1)) (rs.takeWhile (fun r => d.category r.1 = c)).length + 1 := by omega
        rw [this]
        simp; omega
    · simp [h]

theorem at_first {inp : Bytes} {k pos : Nat} {rest : Bytes} (h : At inp k pos rest) (hr : rest ≠ []) :
    decodeRune rest ∈ runes inp := by
  have h1 : decodeRune rest ∈ (runes inp).drop k := by rw [h.rns, runes_cons hr]; simp
  exact List.mem_of_mem_drop h1

/-- An error rune of width other than 1 is an encoded U+FFFD. -/
theorem decode_error_wide {s : Bytes} (hs : s ≠ []) (h : (decodeRune s).1 = runeError) (hw : (decodeRune s).2 ≠ 1) :
    ∃ t, s = 0xEF :: 0xBF :: 0xBD :: t ∧ decodeRune s = (runeError, 3) := by
  cases hv : decodeValid s with
  | none => rw [decodeRune_of_none hs hv] at hw; simp at hw
  | some d =>
    obtain ⟨r, w⟩ := d
    rw [decodeRune_of_valid hv] at h hw ⊢
    obtain ⟨c, h1, h2, h3⟩ := decodeValid_some hv
    simp only at h hw
    have hc : c = '\uFFFD' := by
      apply Char.ext
      rw [← UInt32.toNat_inj, h1, h]; rfl
    subst hc
    refine ⟨s.drop w, ?_, ?_⟩
    · conv => lhs; rw [h3]
      rfl
    · rw [h, ← h2]; rfl

theorem runes_drop_fffd (t : Bytes) :
    runes (0xBF :: 0xBD :: t) = (runeError, 1) :: (runeError, 1) :: runes t := by
  have h1 : ∀ (b : UInt8) (t : Bytes), isCont b = true → decodeRune (b :: t) = (runeError, 1) := by
    intro b t hb
    apply decodeRune_of_none (by simp)
    cases hv : decodeValid (b :: t) with
    | none => rfl
    | some d =>
      exfalso
      obtain ⟨r, w⟩ := d
      obtain ⟨c, _, _, h3⟩ := decodeValid_some hv
      obtain ⟨x, y, hxy, hx, _⟩ := encode_shape c
      rw [hxy] at h3
      simp only [List.cons_append, List.cons.injEq] at h3
      rw [h3.1] at hb
      simp [hx] at hb
  rw [runes_cons (by simp), h1 _ _ (by decide), runes_cons (by simp)]
  simp only [List.drop_succ_cons, List.drop_zero]
  rw [h1 _ _ (by decide)]
  simp

theorem unknownLength_pos {d : Dict} {s : Bytes} (hs : s ≠ []) :
    1 ≤ unknownLength d s ∧ unknownLength d s ≤ (runes s).length ∧ unknownLength d s ≤ 1024 := by
  unfold unknownLength
  have h1 : 1 ≤ (runes s).length := by rw [runes_cons hs]; simp
  split
  · have h2 : ((runes s).takeWhile (fun r => d.category r.1 = d.category (firstChar s))).length ≤ (runes s).length :=
      (List.takeWhile_prefix _).length_le
    have h3 : 1 ≤ ((runes s).takeWhile (fun r => d.category r.1 = d.category (firstChar s))).length := by
      rw [runes_cons hs, List.takeWhile_cons]
      simp [firstChar]
    have h4 : unknownLimit s = 1022 ∨ unknownLimit s = 1024 := by unfold unknownLimit; split <;> simp
    omega
  · omega

/-- An encoded U+FFFD in a category that does not group: the code then takes its first byte only. -/
def Quirk (d : Dict) (s : Bytes) : Prop := decodeRune s = (0xFFFD, 3) ∧ d.groupList[d.category 0xFFFD]? ≠ some true

/-- The longest unknown word ends where the specification says. -/
theorem unkEnd_eq {d : Dict} {u : Option UserDict} (wf : WellFormed d u) {inp : Bytes} {k pos : Nat} {rest : Bytes} (hat : At inp k pos rest) (hr : rest ≠ [])
    (hrep : ¬ Quirk d rest) :
    unkEnd d inp pos (decodeRune rest).1 = some (pos + wsum ((runes rest).take (unknownLength d rest))) := by
  have hcat := wf.group_flag (decodeRune rest).1
  obtain ⟨g, hg⟩ : ∃ g, d.groupList[d.category (decodeRune rest).1]? = some g :=
    ⟨_, List.getElem?_eq_getElem hcat⟩
  have hmem := at_first hat hr
  have hnext := hat.next hr
  have hcons := runes_cons hr
  generalize hch : decodeRune rest = p at *
  obtain ⟨ch, w⟩ := p
  simp only at *
  by_cases hw : ch ≠ runeError ∨ w = 1
  · have hend : (if ch ≠ runeError then pos + runeLen ch else pos + 1) = pos + w := by
      split
      · have := decodeRune_runeLen hr (by rw [hch]; assumption)
        rw [hch] at this; simp only at this; omega
      · rcases hw with hw | hw
        · contradiction
        · omega
    have hlim : unknownLimit rest = 1024 := by
      unfold unknownLimit
      rw [hch, if_neg]
      simp only [Prod.mk.injEq]
      rcases hw with hw | hw
      · simp [runeError] at hw; omega
      · omega
    unfold unkEnd
    simp only [hend, hg]
    cases g with
    | true =>
      simp only
      rw [hnext.drop, groupLoop_eq _ _ _ _ _ (by omega)]
      unfold unknownLength
      simp only [firstChar, hch, hg, if_true, hlim]
      rw [hcons]
      simp only [List.takeWhile_cons, decide_true, if_true, List.length_cons]
      have : ∀ n, min 1024 (n + 1) = min (1024 - 1) n + 1 := by omega
      rw [this]
      simp; omega
    | false =>
      unfold unknownLength
      simp only [firstChar, hch, hg, hcons]
      simp
  · have hce : ch = runeError := by
      apply Decidable.byContradiction; intro h; exact hw (Or.inl h)
    have hw1 : w ≠ 1 := fun h => hw (Or.inr h)
    obtain ⟨t, ht, hdec⟩ := decode_error_wide hr (by rw [hch]; exact hce) (by rw [hch]; exact hw1)
    rw [hch] at hdec
    simp only [Prod.mk.injEq] at hdec
    obtain ⟨_, hw3⟩ := hdec
    subst hce hw3
    have hgt : g = true := by
      apply Decidable.byContradiction
      intro hgf
      apply hrep
      refine ⟨hch, ?_⟩
      change d.groupList[d.category runeError]? ≠ some true
      rw [hg]; simpa using hgf
    subst hgt
    have hlim : unknownLimit rest = 1022 := by
      unfold unknownLimit
      rw [hch, if_pos]; rfl
    unfold unkEnd
    simp only [ne_eq, not_true_eq_false, if_false, hg]
    have hd1 : inp.drop (pos + 1) = 0xBF :: 0xBD :: t := by
      rw [← List.drop_drop, hat.drop, ht]; rfl
    have hd3 : List.drop 3 rest = t := by rw [ht]; rfl
    rw [hd1, runes_drop_fffd, groupLoop_eq _ _ _ _ _ (by omega)]
    unfold unknownLength
    simp only [firstChar, hch, hg, if_true, hlim, hcons]
    simp only [List.takeWhile_cons, decide_true, if_true, List.length_cons, hd3]
    have e1 : ∀ n, min (1024 - 1) (n + 1 + 1) = min 1021 n + 1 + 1 := by omega
    have e2 : ∀ n, min 1022 (n + 1) = min 1021 n + 1 := by omega
    rw [e1, e2]
    simp; omega

theorem runes_firstChars (s : Bytes) (k : Nat) : runes (firstChars s k) = (runes s).take k :=
  (runes_split (s := s) (a := (runes s).take k) (b := (runes s).drop k) (by simp)).1

theorem runeCount_firstChars {s : Bytes} {k : Nat} (h : k ≤ (runes s).length) : runeCount (firstChars s k) = k := by
  unfold runeCount
  rw [runes_firstChars]; simp; omega

theorem wsum_take_le (s : Bytes) (k : Nat) : wsum ((runes s).take k) ≤ s.length := by
  rw [← wsum_runes s]
  conv => rhs; rw [← List.take_append_drop k (runes s)]
  rw [wsum_append]; omega

theorem firstChars_length (s : Bytes) (k : Nat) : (firstChars s k).length = wsum ((runes s).take k) := by
  have := wsum_take_le s k
  rw [← wsum_runes (firstChars s k), runes_firstChars]

/-- The last rune of the longest unknown word allows the shorter one. -/
def shortOk (d : Dict) (s : Bytes) : Prop :=
  2 ≤ unknownLength d s ∧ ∀ r, (runes s)[unknownLength d s - 1]? = some r → r.1 ≠ 0xFFFD

theorem unkPrev_eq {d : Dict} {rest : Bytes} (hr : rest ≠ []) (pos : Nat) :
    (pos < unkPrev pos (pos + wsum ((runes rest).take (unknownLength d rest))) (firstChars rest (unknownLength d rest)) ↔
      shortOk d rest) ∧
    (shortOk d rest →
      unkPrev pos (pos + wsum ((runes rest).take (unknownLength d rest))) (firstChars rest (unknownLength d rest)) =
        pos + wsum ((runes rest).take (unknownLength d rest - 1))) := by
  have hL := unknownLength_pos (d := d) hr
  unfold shortOk
  generalize unknownLength d rest = L at *
  obtain ⟨L', rfl⟩ : ∃ L', L = L' + 1 := ⟨_, (Nat.sub_add_cancel hL.1).symm⟩
  have hlt : L' < (runes rest).length := by omega
  have hlast : (runes rest)[L']? = some (runes rest)[L'] := List.getElem?_eq_getElem hlt
  have hrun : runes (firstChars rest (L' + 1)) = (runes rest).take L' ++ [(runes rest)[L']] := by
    rw [runes_firstChars, List.take_add_one, hlast]; rfl
  have herr := decodeLastRune_error_iff hrun
  have hsum : wsum ((runes rest).take (L' + 1)) = wsum ((runes rest).take L') + (runes rest)[L'].2 := by
    rw [List.take_add_one, hlast, wsum_append]; simp
  have hpos : 2 ≤ L' + 1 ↔ 0 < wsum ((runes rest).take L') := by
    constructor
    · intro h
      have h0 : 0 < (runes rest).length := by omega
      obtain ⟨M, rfl⟩ : ∃ M, L' = M + 1 := ⟨L' - 1, by omega⟩
      rw [runes_cons hr] 
      have := decodeRune_width hr
      simp; omega
    · intro h
      cases L' with
      | zero => simp at h
      | succ n => omega
  simp only [Nat.add_sub_cancel]
  rw [hlast]
  simp only [Option.some.injEq, forall_eq']
  by_cases hc : (runes rest)[L'].1 = runeError
  · have h1 := herr.mpr hc
    have hc' : (runes rest)[L'].1 = 0xFFFD := hc
    simp [unkPrev, h1, hc']
  · have h1 := decodeLastRune_complete (c := (runes rest)[L'].1) (n := (runes rest)[L'].2) hrun hc
    have hc' : ¬ (runes rest)[L'].1 = 0xFFFD := hc
    simp only [unkPrev, h1, ne_eq, hc, not_false_eq_true, if_true, hc', and_true, hpos, hsum]
    constructor
    · omega
    · intro _; omega

open Classical in
/-- The longest unknown word that `build` adds. -/
noncomputable def fullText (d : Dict) (s : Bytes) : Bytes :=
  if Quirk d s then s.take 1 else firstChars s (unknownLength d s)

theorem fullText_take (d : Dict) (s : Bytes) : s.take (fullText d s).length = fullText d s := by
  unfold fullText
  split
  · simp
  · rw [firstChars_length]; rfl

theorem fullText_le (d : Dict) (s : Bytes) : (fullText d s).length ≤ s.length := by
  unfold fullText
  split
  · simp; omega
  · rw [firstChars_length]; exact wsum_take_le _ _

theorem quirk_bytes {d : Dict} {s : Bytes} (h : Quirk d s) : ∃ t, s = 0xEF :: 0xBF :: 0xBD :: t := by
  have hs : s ≠ [] := by rintro rfl; have := h.1; simp [decodeRune] at this
  obtain ⟨t, ht, _⟩ := decode_error_wide hs (by rw [h.1]; rfl) (by rw [h.1]; simp)
  exact ⟨t, ht⟩

theorem fullText_count {d : Dict} {s : Bytes} (hs : s ≠ []) :
    1 ≤ runeCount (fullText d s) ∧ runeCount (fullText d s) ≤ (runes s).length := by
  unfold fullText
  split
  · rename_i h
    obtain ⟨t, rfl⟩ := quirk_bytes h
    have h1 : runeCount (List.take 1 ((0xEF : UInt8) :: 0xBF :: 0xBD :: t)) = 1 := by
      simp [runeCount, runes, runesAux, decodeRune]
    rw [h1, runes_cons hs]; simp
  · have hL := unknownLength_pos (d := d) hs
    rw [runeCount_firstChars hL.2.1]
    exact ⟨hL.1, hL.2.1⟩

theorem unkEnd_full {d : Dict} {u : Option UserDict} (wf : WellFormed d u) {inp : Bytes} {k pos : Nat} {rest : Bytes}
    (hat : At inp k pos rest) (hr : rest ≠ []) :
    unkEnd d inp pos (decodeRune rest).1 = some (pos + (fullText d rest).length) := by
  by_cases hq : Quirk d rest
  · have hcat := wf.group_flag 0xFFFD
    obtain ⟨g, hg⟩ : ∃ g, d.groupList[d.category 0xFFFD]? = some g := ⟨_, List.getElem?_eq_getElem hcat⟩
    have hgf : g = false := by
      have := hq.2
      rw [hg] at this; simpa using this
    subst hgf
    have hlen : (fullText d rest).length = 1 := by
      obtain ⟨t, ht⟩ := quirk_bytes hq
      unfold fullText; rw [if_pos hq, ht]; rfl
    rw [hq.1, hlen]
    unfold unkEnd
    simp [runeError, hg]
  · rw [unkEnd_eq wf hat hr hq]
    unfold fullText
    rw [if_neg hq, firstChars_length]

theorem unkPrev_full {d : Dict} {rest : Bytes} (hr : rest ≠ []) (pos : Nat) :
    (pos < unkPrev pos (pos + (fullText d rest).length) (fullText d rest) ↔ shortOk d rest) ∧
    (shortOk d rest →
      unkPrev pos (pos + (fullText d rest).length) (fullText d rest) =
        pos + wsum ((runes rest).take (unknownLength d rest - 1))) := by
  by_cases hq : Quirk d rest
  · have hns : ¬ shortOk d rest := by
      rintro ⟨h2, _⟩
      unfold unknownLength at h2
      have hfc : firstChar rest = 0xFFFD := by unfold firstChar; rw [hq.1]
      rw [hfc, if_neg hq.2] at h2
      omega
    have hft : fullText d rest = [0xEF] := by
      obtain ⟨t, ht⟩ := quirk_bytes hq
      unfold fullText; rw [if_pos hq, ht]; rfl
    have hdl : (decodeLastRune [0xEF]).1 = runeError := by decide
    constructor
    · constructor
      · intro h
        rw [hft] at h
        simp [unkPrev, hdl] at h
      · intro h; exact absurd h hns
    · intro h; exact absurd h hns
  · have := unkPrev_eq (d := d) hr pos
    unfold fullText
    rw [if_neg hq, firstChars_length]
    exact this

open Classical in
/-- What unknown words add at one position. -/
noncomputable def unkAdds (d : Dict) (k pos : Nat) (rest : Bytes) (ids : List Int) : List (Nat × Node) :=
  ids.flatMap (fun id =>
    (if shortOk d rest then [wordAdd d k pos ⟨.unknown, id, firstChars rest (unknownLength d rest - 1)⟩] else []) ++
    [wordAdd d k pos ⟨.unknown, id, fullText d rest⟩])

theorem at_count {inp : Bytes} {k pos : Nat} {rest : Bytes} (hat : At inp k pos rest) :
    k + (runes rest).length = runeCount inp := by
  have := hat.le
  rw [← hat.rns]; unfold runeCount; simp; omega

theorem At.cut_firstChars {inp : Bytes} {k pos : Nat} {rest : Bytes} (hat : At inp k pos rest) (j : Nat) :
    slice inp pos (pos + wsum ((runes rest).take j)) = some (firstChars rest j) :=
  hat.cut (wsum_take_le rest j)

theorem At.cut_full {d : Dict} {inp : Bytes} {k pos : Nat} {rest : Bytes} (hat : At inp k pos rest) :
    slice inp pos (pos + (fullText d rest).length) = some (fullText d rest) := by
  rw [hat.cut (fullText_le d rest), fullText_take]

theorem addUnks_eq {d : Dict} {inp : Bytes} {k pos : Nat} {rest : Bytes} (hat : At inp k pos rest) (hr : rest ≠ [])
    {ids : List Int} {cols : Cols} (hids : ∀ id ∈ ids, (morphOf d .unknown id).isSome)
    (hcols : cols.length = runeCount inp + 2) :
    addUnks d inp k pos (unkPrev pos (pos + (fullText d rest).length) (fullText d rest))
      (pos + (fullText d rest).length) ids cols =
      some (applyAdds cols (unkAdds d k pos rest ids)) := by
  have hL := unknownLength_pos (d := d) hr
  have hF := fullText_count (d := d) hr
  have hcnt := at_count hat
  obtain ⟨hp1, hp2⟩ := unkPrev_full (d := d) hr pos
  induction ids generalizing cols with
  | nil => simp [addUnks, unkAdds]
  | cons id ids ih =>
    have hm := hids id (by simp)
    unfold addUnks
    simp only [hat.cut_full]
    by_cases hs : shortOk d rest
    · rw [if_pos (hp1.mpr hs), hp2 hs, hat.cut_firstChars]
      simp only
      rw [addNode_eq hm (by rw [runeCount_firstChars (by omega)]; omega)]
      simp only
      rw [addNode_eq hm (by simp; omega)]
      simp only
      rw [← hp2 hs, ih (fun i hi => hids i (by simp [hi])) (by simp [hcols])]
      simp [unkAdds, hs]
    · rw [if_neg (fun h => hs (hp1.mp h))]
      simp only
      rw [addNode_eq hm (by omega)]
      simp only
      rw [ih (fun i hi => hids i (by simp [hi])) (by simp [hcols])]
      simp [unkAdds, hs]

theorem morphOf_unknown {d : Dict} {u : Option UserDict} (wf : WellFormed d u) (r : Nat) :
    ∀ id ∈ unkIds d (d.category r), (morphOf d .unknown id).isSome := by
  intro id hid
  obtain ⟨h1, h2, h3⟩ := wf.unk_entry r
  simp only [unkIds, List.mem_map, List.mem_range] at hid
  obtain ⟨x, hx, rfl⟩ := hid
  obtain ⟨n, hn⟩ := Int.eq_ofNat_of_zero_le h1
  rw [hn] at h3 ⊢
  have : (n : Int) + (x : Int) = ((n + x : Nat) : Int) := by simp
  rw [this]
  change (d.unk.morphs[n + x]?).isSome
  rw [List.getElem?_eq_getElem (by omega)]; rfl

theorem addUnknown_eq {d : Dict} {u : Option UserDict} (wf : WellFormed d u) {inp : Bytes}
    {k pos : Nat} {rest : Bytes} (hat : At inp k pos rest) (hr : rest ≠ []) {cols : Cols}
    (hcols : cols.length = runeCount inp + 2) :
    addUnknown d inp k pos (decodeRune rest).1 cols =
      some (applyAdds cols (unkAdds d k pos rest (unkIds d (d.category (firstChar rest))))) := by
  unfold addUnknown
  rw [unkEnd_full wf hat hr]
  simp only
  rw [hat.cut_full]
  simp only
  exact addUnks_eq hat hr (morphOf_unknown wf _) hcols

open Classical in
/-- All nodes that one position of the text adds. -/
noncomputable def addsAt (d : Dict) (u : Option UserDict) (k pos : Nat) (rest : Bytes) : List (Nat × Node) :=
  if userEntries u rest ≠ [] then
    (userEntries u rest).map (fun h => wordAdd d k pos ⟨.user, h.1, rest.take h.2⟩)
  else
    (d.prefixSearch rest).map (fun h => wordAdd d k pos ⟨.known, h.1, rest.take h.2⟩) ++
    (if d.prefixSearch rest = [] ∨ d.invokeList[d.category (firstChar rest)]? = some true then
      unkAdds d k pos rest (unkIds d (d.category (firstChar rest))) else [])

theorem valid_take_count {inp : Bytes} {k pos : Nat} {rest : Bytes} (hat : At inp k pos rest) {l : Nat}
    (hv : ValidUtf8 (rest.take l)) : k + runeCount (rest.take l) ≤ runeCount inp := by
  have h1 := runes_valid_append hv (rest.drop l)
  rw [List.take_append_drop] at h1
  have h2 := at_count hat
  rw [h1] at h2
  unfold runeCount at *
  simp at h2; omega

theorem buildAt_eq {d : Dict} {u : Option UserDict} (wf : WellFormed d u) {inp : Bytes}
    {k pos : Nat} {rest : Bytes} (hat : At inp k pos rest) (hr : rest ≠ []) {cols : Cols}
    (hcols : cols.length = runeCount inp + 2) :
    buildAt d u inp k pos (decodeRune rest).1 cols = some (applyAdds cols (addsAt d u k pos rest)) := by
  have huser : userHits u rest = userEntries u rest := by
    cases u <;> rfl
  have hu : ∀ h ∈ userEntries u rest, h.2 ≤ rest.length ∧ (morphOf d .user h.1).isSome ∧
      k + runeCount (rest.take h.2) < cols.length := by
    intro h hh
    cases u with
    | none => simp [userEntries] at hh
    | some ud =>
      obtain ⟨h1, h2, h3, h4⟩ := wf.user_hit ud rfl rest h.1 h.2 hh
      have := valid_take_count hat h3
      refine ⟨h2, rfl, by omega⟩
  have hk : ∀ h ∈ d.prefixSearch rest, h.2 ≤ rest.length ∧ (morphOf d .known h.1).isSome ∧
      k + runeCount (rest.take h.2) < cols.length := by
    intro h hh
    obtain ⟨h1, h2, h3, h4⟩ := wf.known_hit rest h.1 h.2 hh
    have := valid_take_count hat h3
    refine ⟨h2, ?_, by omega⟩
    change (d.morphs[h.1]?).isSome
    rw [List.getElem?_eq_getElem h4]; rfl
  unfold buildAt addsAt
  simp only [hat.drop, huser]
  rw [addHits_eq hat hu]
  by_cases h1 : userEntries u rest = []
  · simp only [h1, ne_eq, not_true_eq_false, if_false, List.map_nil, applyAdds_nil]
    rw [addHits_eq hat hk]
    by_cases h2 : d.prefixSearch rest = []
    · simp only [h2, List.map_nil, applyAdds_nil, if_true, true_or, List.nil_append]
      exact addUnknown_eq wf hat hr hcols
    · simp only [h2, if_false, false_or]
      have hinv := wf.invoke_flag (decodeRune rest).1
      have hinv' := List.getElem?_eq_getElem hinv
      simp only [firstChar, hinv']
      cases d.invokeList[d.category (decodeRune rest).1] with
      | true =>
        simp only [if_true]
        rw [addUnknown_eq wf hat hr (by simp [hcols]), applyAdds_append]
        rfl
      | false => simp
  · simp [h1]

/-- All nodes that the text from rune `k` on adds, position by position. -/
noncomputable def addsFrom (d : Dict) (u : Option UserDict) (inp : Bytes) (k n : Nat) : List (Nat × Node) :=
  (List.range' k n).flatMap (fun k =>
    addsAt d u k (wsum ((runes inp).take k)) (inp.drop (wsum ((runes inp).take k))))

theorem buildLoop_eq {d : Dict} {u : Option UserDict} (wf : WellFormed d u) {inp : Bytes}
    (n : Nat) {k pos : Nat} {rest : Bytes} (hat : At inp k pos rest) (hn : (runes rest).length = n) {cols : Cols}
    (hcols : cols.length = runeCount inp + 2) :
    buildLoop d u inp k (withPos pos (runes rest)) cols = some (applyAdds cols (addsFrom d u inp k n)) := by
  induction n generalizing k pos rest cols with
  | zero =>
    have : runes rest = [] := List.length_eq_zero_iff.mp hn
    rw [this]
    simp [withPos, buildLoop, addsFrom]
  | succ n ih =>
    have hr : rest ≠ [] := by rintro rfl; simp at hn
    have hd : inp.drop (wsum ((runes inp).take k)) = rest := by rw [hat.pre, hat.drop]
    rw [runes_cons hr] at hn ⊢
    simp only [List.length_cons, Nat.add_right_cancel_iff] at hn
    simp only [withPos, buildLoop]
    rw [buildAt_eq wf hat hr hcols]
    simp only
    rw [ih (hat.next hr) hn (by simp [hcols])]
    rw [← applyAdds_append]
    simp only [addsFrom, List.range'_succ, List.flatMap_cons, hat.pre, hat.drop]

/-- The two boundary nodes. -/
def bosNode : Node := newNode Morph.zero bosEosID 0 0 .dummy []
@[inherit_doc bosNode] def eosNode (inp : Bytes) : Node := newNode Morph.zero bosEosID inp.length (runeCount inp) .dummy []

theorem build_eq {d : Dict} {u : Option UserDict} (wf : WellFormed d u) {inp : Bytes} :
    build d u inp = some (applyAdds (List.replicate (runeCount inp + 2) [])
      ((0, bosNode) :: (runeCount inp + 1, eosNode inp) :: addsFrom d u inp 0 (runeCount inp))) := by
  have hrc := runeCount_le_length inp
  have h0 : At inp 0 0 inp := by
    have := at_of_le (inp := inp) (k := 0) (by omega)
    simpa using this
  have hsl : slice inp (runeCount inp) (runeCount inp) = some [] := by
    unfold slice
    rw [if_pos (by omega)]
    simp
  have hn : runeCount ([] : Bytes) = 0 := rfl
  unfold build
  simp only
  unfold addNode
  simp only [morphOf, hn, Nat.add_zero, List.length_replicate]
  rw [if_pos (by omega)]
  simp only [hsl, List.length_modify, List.length_replicate, hn, Nat.add_zero]
  rw [if_pos (by omega)]
  simp only
  unfold rangeString
  rw [buildLoop_eq wf (runeCount inp) h0 rfl (by simp)]
  simp [bosNode, eosNode]

end Kagome
