import Verif.Proof.Build

/-! The columns of the lattice hold exactly the candidates of the specification. -/

namespace Kagome

open Spec (WellFormed ReplacementOk Candidate firstChars firstChar userEntries unknownLength unknownLimit UnknownText ValidUtf8 Word)

/-- What every candidate at the beginning of `rest` satisfies. -/
structure CandOk (d : Dict) (rest : Bytes) (w : Word) : Prop where
  app : rest = w.surface ++ rest.drop w.surface.length
  rns : runes rest = runes w.surface ++ runes (rest.drop w.surface.length)
  cnt : 1 ≤ runeCount w.surface
  cls : w.cls ≠ .dummy
  id : 0 ≤ w.id
  morph : (morphOf d w.cls w.id).isSome

theorem candOk_firstChars {s : Bytes} {k : Nat} (hk : 1 ≤ k) (hk2 : k ≤ (runes s).length) :
    s = firstChars s k ++ s.drop (firstChars s k).length ∧
    runes s = runes (firstChars s k) ++ runes (s.drop (firstChars s k).length) ∧
    1 ≤ runeCount (firstChars s k) := by
  have h := runes_split (s := s) (a := (runes s).take k) (b := (runes s).drop k) (by simp)
  rw [runeCount_firstChars hk2, firstChars_length, runes_firstChars]
  refine ⟨?_, ?_, hk⟩
  · exact (List.take_append_drop _ _).symm
  · rw [h.2]; simp

theorem candOk_valid {s : Bytes} {l : Nat} (h1 : 1 ≤ l) (h2 : l ≤ s.length) (hv : ValidUtf8 (s.take l)) :
    s = s.take l ++ s.drop (s.take l).length ∧
    runes s = runes (s.take l) ++ runes (s.drop (s.take l).length) ∧
    1 ≤ runeCount (s.take l) := by
  have hl : (s.take l).length = l := by simp; omega
  rw [hl]
  refine ⟨(List.take_append_drop _ _).symm, ?_, ?_⟩
  · rw [← runes_valid_append hv, List.take_append_drop]
  · have hne : s.take l ≠ [] := by
      intro h; rw [h] at hl; simp at hl; omega
    unfold runeCount
    rw [runes_cons hne]; simp

theorem cand_ok {d : Dict} {u : Option UserDict} (wf : WellFormed d u) {rest : Bytes} {w : Word}
    (h : Candidate d u rest w) : CandOk d rest w := by
  cases h with
  | user id l hh =>
    cases u with
    | none => simp [userEntries] at hh
    | some ud =>
      obtain ⟨h1, h2, h3, h4⟩ := wf.user_hit ud rfl rest id l hh
      obtain ⟨a, b, c⟩ := candOk_valid h1 h2 h3
      exact ⟨a, b, c, by simp, by simp, rfl⟩
  | known id l hu hh =>
    obtain ⟨h1, h2, h3, h4⟩ := wf.known_hit rest id l hh
    obtain ⟨a, b, c⟩ := candOk_valid h1 h2 h3
    refine ⟨a, b, c, by simp, by simp, ?_⟩
    change (d.morphs[id]?).isSome
    rw [List.getElem?_eq_getElem h4]; rfl
  | unknown x w hu hr hk hx hw =>
    have hL := unknownLength_pos (d := d) hr
    obtain ⟨e1, e2, e3⟩ := wf.unk_entry (firstChar rest)
    have hm := morphOf_unknown wf (firstChar rest) (d.unk.index (d.category (firstChar rest)) + x) (by
      simp only [unkIds, List.mem_map, List.mem_range]
      exact ⟨x, by omega, rfl⟩)
    rcases hw with rfl | ⟨h2, _, rfl⟩
    · obtain ⟨a, b, c⟩ := candOk_firstChars (s := rest) hL.1 hL.2.1
      exact ⟨a, b, c, by simp, by simp only; omega, hm⟩
    · obtain ⟨a, b, c⟩ := candOk_firstChars (s := rest) (k := unknownLength d rest - 1) (by omega) (by omega)
      exact ⟨a, b, c, by simp, by simp only; omega, hm⟩

theorem mem_unkIds {d : Dict} {u : Option UserDict} (wf : WellFormed d u) (r : Nat) {id : Int} :
    id ∈ unkIds d (d.category r) ↔
      ∃ x : Nat, (x : Int) ≤ d.unk.indexDup (d.category r) ∧ id = d.unk.index (d.category r) + x := by
  obtain ⟨e1, e2, e3⟩ := wf.unk_entry r
  simp only [unkIds, List.mem_map, List.mem_range]
  constructor
  · rintro ⟨x, hx, rfl⟩
    exact ⟨x, by omega, rfl⟩
  · rintro ⟨x, hx, rfl⟩
    exact ⟨x, by omega, rfl⟩

theorem not_quirk {d : Dict} {inp : Bytes} (hrep : ReplacementOk d inp) {k pos : Nat} {rest : Bytes}
    (hat : At inp k pos rest) (hr : rest ≠ []) : ¬ Quirk d rest := by
  rintro ⟨h1, h2⟩
  rcases hrep with h | h
  · exact h2 h
  · have := at_first hat hr
    rw [h1] at this
    exact h this

theorem mem_addsAt {d : Dict} {u : Option UserDict} (wf : WellFormed d u) {k pos : Nat} {rest : Bytes} (hr : rest ≠ [])
    (hq : ¬ Quirk d rest) (a : Nat × Node) : a ∈ addsAt d u k pos rest ↔ ∃ w, Candidate d u rest w ∧ a = wordAdd d k pos w := by
  have hfull : fullText d rest = firstChars rest (unknownLength d rest) := by unfold fullText; rw [if_neg hq]
  unfold addsAt
  by_cases hu : userEntries u rest = []
  · simp only [hu, ne_eq, not_true_eq_false, if_false, List.mem_append, List.mem_map]
    constructor
    · rintro (⟨h, hh, rfl⟩ | h)
      · exact ⟨_, Candidate.known h.1 h.2 hu hh, rfl⟩
      · split at h
        · rename_i hk
          simp only [unkAdds, hfull, List.mem_flatMap] at h
          obtain ⟨id, hid, h⟩ := h
          obtain ⟨x, hx, rfl⟩ := (mem_unkIds wf _).mp hid
          simp only [List.mem_append, List.mem_singleton] at h
          rcases h with h | rfl
          · split at h
            · rename_i hs
              simp only [List.mem_singleton] at h
              subst h
              exact ⟨_, Candidate.unknown x _ hu hr hk hx (Or.inr ⟨hs.1, hs.2, rfl⟩), rfl⟩
            · simp at h
          · exact ⟨_, Candidate.unknown x _ hu hr hk hx (Or.inl rfl), rfl⟩
        · simp at h
    · rintro ⟨w, hw, rfl⟩
      cases hw with
      | user id l hh => rw [hu] at hh; simp at hh
      | known id l _ hh => exact Or.inl ⟨(id, l), hh, rfl⟩
      | unknown x w _ _ hk hx hw =>
        right
        rw [if_pos hk]
        simp only [unkAdds, hfull, List.mem_flatMap]
        refine ⟨_, (mem_unkIds wf _).mpr ⟨x, hx, rfl⟩, ?_⟩
        simp only [List.mem_append, List.mem_singleton]
        rcases hw with rfl | ⟨h1, h2, rfl⟩
        · exact Or.inr rfl
        · left
          rw [if_pos ⟨h1, h2⟩]; simp
  · simp only [hu, ne_eq, not_false_eq_true, if_true, List.mem_map]
    constructor
    · rintro ⟨h, hh, rfl⟩
      exact ⟨_, Candidate.user h.1 h.2 hh, rfl⟩
    · rintro ⟨w, hw, rfl⟩
      cases hw with
      | user id l hh => exact ⟨(id, l), hh, rfl⟩
      | known id l h _ => exact absurd h hu
      | unknown x w h _ _ _ _ => exact absurd h hu

/-- A candidate, or the first byte of an encoded U+FFFD whose category does not group. -/
def WeakCandidate (d : Dict) (u : Option UserDict) (s : Bytes) (w : Word) : Prop :=
  Candidate d u s w ∨
  (Quirk d s ∧ userEntries u s = [] ∧
    (d.prefixSearch s = [] ∨ d.invokeList[d.category (firstChar s)]? = some true) ∧
    ∃ x : Nat, (x : Int) ≤ d.unk.indexDup (d.category (firstChar s)) ∧
      w = ⟨.unknown, d.unk.index (d.category (firstChar s)) + x, [0xEF]⟩)

/-- What every node that `build` adds satisfies. -/
structure WeakOk (d : Dict) (rest : Bytes) (w : Word) : Prop where
  cnt : 1 ≤ runeCount w.surface
  le : runeCount w.surface ≤ (runes rest).length
  cls : w.cls ≠ .dummy
  id : 0 ≤ w.id

theorem weak_ok {d : Dict} {u : Option UserDict} (wf : WellFormed d u) {rest : Bytes} {w : Word}
    (h : WeakCandidate d u rest w) : WeakOk d rest w := by
  rcases h with h | ⟨hq, hu, hk, x, hx, rfl⟩
  · have hok := cand_ok wf h
    refine ⟨hok.cnt, ?_, hok.cls, hok.id⟩
    rw [hok.rns]; unfold runeCount; simp
  · obtain ⟨t, rfl⟩ := quirk_bytes hq
    obtain ⟨e1, e2, e3⟩ := wf.unk_entry (firstChar (0xEF :: 0xBF :: 0xBD :: t))
    have h1 : runeCount [0xEF] = 1 := by decide
    refine ⟨by simp only [h1]; omega, ?_, by simp, by simp only; omega⟩
    simp only [h1]
    rw [runes_cons (by simp)]; simp

theorem addsAt_weak {d : Dict} {u : Option UserDict} (wf : WellFormed d u) {k pos : Nat} {rest : Bytes} (hr : rest ≠ [])
    (a : Nat × Node) (ha : a ∈ addsAt d u k pos rest) : ∃ w, WeakCandidate d u rest w ∧ a = wordAdd d k pos w := by
  by_cases hq : Quirk d rest
  · obtain ⟨t, ht⟩ := quirk_bytes hq
    have hfull : fullText d rest = [0xEF] := by unfold fullText; rw [if_pos hq, ht]; rfl
    have hns : ¬ shortOk d rest := by
      rintro ⟨h2, _⟩
      unfold unknownLength at h2
      have hfc : firstChar rest = 0xFFFD := by unfold firstChar; rw [hq.1]
      rw [hfc, if_neg hq.2] at h2
      omega
    unfold addsAt at ha
    by_cases hu : userEntries u rest = []
    · simp only [hu, ne_eq, not_true_eq_false, if_false, List.mem_append, List.mem_map] at ha
      rcases ha with ⟨h, hh, rfl⟩ | h
      · exact ⟨_, Or.inl (Candidate.known h.1 h.2 hu hh), rfl⟩
      · split at h
        · rename_i hk
          simp only [unkAdds, hfull, hns, if_false, List.nil_append, List.mem_flatMap] at h
          obtain ⟨id, hid, h⟩ := h
          obtain ⟨x, hx, rfl⟩ := (mem_unkIds wf _).mp hid
          simp only [List.mem_singleton] at h
          subst h
          exact ⟨_, Or.inr ⟨hq, hu, hk, x, hx, rfl⟩, rfl⟩
        · simp at h
    · simp only [hu, ne_eq, not_false_eq_true, if_true, List.mem_map] at ha
      obtain ⟨h, hh, rfl⟩ := ha
      exact ⟨_, Or.inl (Candidate.user h.1 h.2 hh), rfl⟩
  · obtain ⟨w, hw, rfl⟩ := (mem_addsAt wf hr hq a).mp ha
    exact ⟨w, Or.inl hw, rfl⟩

/-- There is always a candidate. -/
theorem cand_exists {d : Dict} {u : Option UserDict} (wf : WellFormed d u) {rest : Bytes} (hr : rest ≠ []) :
    ∃ w, Candidate d u rest w := by
  cases hu : userEntries u rest with
  | cons h t => exact ⟨_, Candidate.user h.1 h.2 (by rw [hu]; simp)⟩
  | nil =>
    cases hk : d.prefixSearch rest with
    | cons h t => exact ⟨_, Candidate.known h.1 h.2 hu (by rw [hk]; simp)⟩
    | nil => 
      have := (wf.unk_entry (firstChar rest)).2.1
      exact ⟨_, Candidate.unknown 0 _ hu hr (Or.inl hk) (by simpa using this) (Or.inl rfl)⟩

/-- The lattice before `Forward`. -/
structure Lat (d : Dict) (u : Option UserDict) (inp : Bytes) (cols : Cols) : Prop where
  len : cols.length = runeCount inp + 2
  bos : cols[0]? = some [bosNode]
  eos : cols[runeCount inp + 1]? = some [eosNode inp]
  mid : ∀ p, 1 ≤ p → p ≤ runeCount inp → ∃ col, cols[p]? = some col ∧ ∀ n, n ∈ col ↔
    ∃ k pos rest w, At inp k pos rest ∧ Candidate d u rest w ∧ p = k + runeCount w.surface ∧ n = mkNode d w.cls w.id pos k w.surface

theorem at_unique {inp : Bytes} {k pos pos' : Nat} {rest rest' : Bytes} (h : At inp k pos rest) (h' : At inp k pos' rest') :
    pos = pos' ∧ rest = rest' := by
  have h1 : pos = pos' := by rw [← h.pre, ← h'.pre]
  subst h1
  exact ⟨rfl, by rw [← h.drop, ← h'.drop]⟩

theorem at_rest_ne {inp : Bytes} {k pos : Nat} {rest : Bytes} (h : At inp k pos rest) (hk : k < runeCount inp) : rest ≠ [] := by
  have h1 := at_count h
  rintro rfl
  simp at h1; omega

theorem mem_addsFrom {d : Dict} {u : Option UserDict} (wf : WellFormed d u) {inp : Bytes} (hrep : ReplacementOk d inp) (a : Nat × Node) :
    a ∈ addsFrom d u inp 0 (runeCount inp) ↔
      ∃ k pos rest w, At inp k pos rest ∧ Candidate d u rest w ∧ a = wordAdd d k pos w := by
  unfold addsFrom
  simp only [List.mem_flatMap, List.mem_range'_1]
  constructor
  · rintro ⟨k, hk, ha⟩
    have hat := at_of_le (inp := inp) (k := k) (by unfold runeCount at hk; omega)
    have hr := at_rest_ne hat (by omega)
    obtain ⟨w, hw, rfl⟩ := (mem_addsAt wf hr (not_quirk hrep hat hr) a).mp ha
    exact ⟨k, _, _, w, hat, hw, rfl⟩
  · rintro ⟨k, pos, rest, w, hat, hw, rfl⟩
    have hok := cand_ok wf hw
    have hr : rest ≠ [] := by
      rintro rfl
      have := hok.app
      simp at this
      have h2 := hok.cnt
      rw [this] at h2
      simp [runeCount] at h2
    have hk : k < runeCount inp := by
      have := at_count hat
      have h2 : 0 < (runes rest).length := by rw [runes_cons hr]; simp
      omega
    refine ⟨k, by omega, ?_⟩
    rw [hat.pre, hat.drop]
    exact (mem_addsAt wf hr (not_quirk hrep hat hr) _).mpr ⟨w, hw, rfl⟩

theorem cand_range {d : Dict} {inp : Bytes} {k pos : Nat} {rest : Bytes} (hat : At inp k pos rest) {w : Word}
    (hw : CandOk d rest w) : 1 ≤ k + runeCount w.surface ∧ k + runeCount w.surface ≤ runeCount inp := by
  have h1 := at_count hat
  have h2 := hw.rns
  have h3 := hw.cnt
  rw [h2] at h1
  unfold runeCount at *
  simp at h1; omega

theorem build_lat {d : Dict} {u : Option UserDict} (wf : WellFormed d u) {inp : Bytes} (hrep : ReplacementOk d inp) :
    ∃ cols, build d u inp = some cols ∧ Lat d u inp cols := by
  refine ⟨_, build_eq wf, ?_⟩
  have hmem := fun a => mem_addsFrom (d := d) (u := u) wf (inp := inp) hrep a
  constructor
  · simp
  · rw [applyAdds_get]
    have : (addsFrom d u inp 0 (runeCount inp)).filter (fun a => a.1 = 0) = [] := by
      rw [List.filter_eq_nil_iff]
      intro a ha
      obtain ⟨k, pos, rest, w, hat, hw, rfl⟩ := (hmem a).mp ha
      have := cand_range hat (cand_ok wf hw)
      rw [decide_eq_true_eq]; simp only [wordAdd]; omega
    simp [this]
  · rw [applyAdds_get]
    have : (addsFrom d u inp 0 (runeCount inp)).filter (fun a => a.1 = runeCount inp + 1) = [] := by
      rw [List.filter_eq_nil_iff]
      intro a ha
      obtain ⟨k, pos, rest, w, hat, hw, rfl⟩ := (hmem a).mp ha
      have := cand_range hat (cand_ok wf hw)
      rw [decide_eq_true_eq]; simp only [wordAdd]; omega
    simp [this]
  · intro p h1 h2
    refine ⟨((addsFrom d u inp 0 (runeCount inp)).filter (fun a => a.1 = p)).map Prod.snd, ?_, ?_⟩
    · rw [applyAdds_get]
      have e1 : ¬ 0 = p := by omega
      have e2 : ¬ runeCount inp + 1 = p := by omega
      simp [e1, e2, List.getElem?_replicate]
      omega
    · intro n
      simp only [List.mem_map, List.mem_filter, decide_eq_true_eq]
      constructor
      · rintro ⟨a, ⟨ha, rfl⟩, rfl⟩
        obtain ⟨k, pos, rest, w, hat, hw, rfl⟩ := (hmem a).mp ha
        exact ⟨k, pos, rest, w, hat, hw, rfl, rfl⟩
      · rintro ⟨k, pos, rest, w, hat, hw, rfl, rfl⟩
        exact ⟨_, ⟨(hmem _).mpr ⟨k, pos, rest, w, hat, hw, rfl⟩, rfl⟩, rfl⟩

/-- What holds of the built lattice for every text. -/
structure Safe (d : Dict) (u : Option UserDict) (inp : Bytes) (cols : Cols) : Prop where
  len : cols.length = runeCount inp + 2
  bos : cols[0]? = some [bosNode]
  eos : cols[runeCount inp + 1]? = some [eosNode inp]
  mid : ∀ p, 1 ≤ p → p ≤ runeCount inp → ∃ col, cols[p]? = some col ∧ ∀ n, n ∈ col →
    ∃ k pos rest w, At inp k pos rest ∧ WeakCandidate d u rest w ∧ p = k + runeCount w.surface ∧
      n = mkNode d w.cls w.id pos k w.surface

theorem Lat.safe {d : Dict} {u : Option UserDict} {inp : Bytes} {cols : Cols} (h : Lat d u inp cols) : Safe d u inp cols := by
  refine ⟨h.len, h.bos, h.eos, ?_⟩
  intro p h1 h2
  obtain ⟨col, hc, hm⟩ := h.mid p h1 h2
  refine ⟨col, hc, ?_⟩
  intro n hn
  obtain ⟨k, pos, rest, w, hat, hw, hp, rfl⟩ := (hm n).mp hn
  exact ⟨k, pos, rest, w, hat, Or.inl hw, hp, rfl⟩

theorem weak_range {d : Dict} {inp : Bytes} {k pos : Nat} {rest : Bytes} (hat : At inp k pos rest) {w : Word}
    (hw : WeakOk d rest w) : 1 ≤ k + runeCount w.surface ∧ k + runeCount w.surface ≤ runeCount inp := by
  have h1 := at_count hat
  have h2 := hw.le
  have h3 := hw.cnt
  omega

theorem build_safe {d : Dict} {u : Option UserDict} (wf : WellFormed d u) (inp : Bytes) :
    ∃ cols, build d u inp = some cols ∧ Safe d u inp cols := by
  refine ⟨_, build_eq wf, ?_⟩
  have hmem : ∀ a, a ∈ addsFrom d u inp 0 (runeCount inp) →
      ∃ k pos rest w, At inp k pos rest ∧ WeakCandidate d u rest w ∧ a = wordAdd d k pos w := by
    intro a ha
    unfold addsFrom at ha
    simp only [List.mem_flatMap, List.mem_range'_1] at ha
    obtain ⟨k, hk, ha⟩ := ha
    have hat := at_of_le (inp := inp) (k := k) (by unfold runeCount at hk; omega)
    have hr := at_rest_ne hat (by omega)
    obtain ⟨w, hw, rfl⟩ := addsAt_weak wf hr a ha
    exact ⟨k, _, _, w, hat, hw, rfl⟩
  constructor
  · simp
  · rw [applyAdds_get]
    have : (addsFrom d u inp 0 (runeCount inp)).filter (fun a => a.1 = 0) = [] := by
      rw [List.filter_eq_nil_iff]
      intro a ha
      obtain ⟨k, pos, rest, w, hat, hw, rfl⟩ := hmem a ha
      have := weak_range hat (weak_ok wf hw)
      rw [decide_eq_true_eq]; simp only [wordAdd]; omega
    simp [this]
  · rw [applyAdds_get]
    have : (addsFrom d u inp 0 (runeCount inp)).filter (fun a => a.1 = runeCount inp + 1) = [] := by
      rw [List.filter_eq_nil_iff]
      intro a ha
      obtain ⟨k, pos, rest, w, hat, hw, rfl⟩ := hmem a ha
      have := weak_range hat (weak_ok wf hw)
      rw [decide_eq_true_eq]; simp only [wordAdd]; omega
    simp [this]
  · intro p h1 h2
    refine ⟨((addsFrom d u inp 0 (runeCount inp)).filter (fun a => a.1 = p)).map Prod.snd, ?_, ?_⟩
    · rw [applyAdds_get]
      have e1 : ¬ 0 = p := by omega
      have e2 : ¬ runeCount inp + 1 = p := by omega
      simp [e1, e2, List.getElem?_replicate]
      omega
    · intro n
      simp only [List.mem_map, List.mem_filter, decide_eq_true_eq]
      rintro ⟨a, ⟨ha, rfl⟩, rfl⟩
      obtain ⟨k, pos, rest, w, hat, hw, rfl⟩ := hmem a ha
      exact ⟨k, pos, rest, w, hat, hw, rfl, rfl⟩

end Kagome
