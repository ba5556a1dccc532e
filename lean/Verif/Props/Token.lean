import Verif.Spec.Features
import Verif.Model.Token
import Verif.Props.Modes

/-! C19-C25: the accessors of a token. -/

namespace Kagome

open Spec

theorem goGet_nat {α : Type} (l : List α) (n : Nat) : goGet l (n : Int) = l[n]? := rfl

theorem goGet_toNat {α : Type} (l : List α) {i : Int} (h : 0 ≤ i) : goGet l i = l[i.toNat]? := by
  obtain ⟨n, rfl⟩ := Int.eq_ofNat_of_zero_le h
  rfl

theorem posNames_some {d : Dict} {ids : List Nat} (h : ∀ i ∈ ids, i < d.nameList.length) :
    ∃ ns, posNames d ids = some ns ∧ ns.length = ids.length ∧
      ∀ (k i : Nat), ids[k]? = some i → ns[k]? = d.nameList[i]? ∧ i < d.nameList.length := by
  induction ids with
  | nil => exact ⟨[], rfl, rfl, by simp⟩
  | cons a ids ih =>
    obtain ⟨ns, h1, h2, h3⟩ := ih (fun i hi => h i (by simp [hi]))
    have ha := h a (by simp)
    refine ⟨d.nameList[a] :: ns, by simp [posNames, ha, h1], by simp [h2], ?_⟩
    intro k i hk
    cases k with
    | zero => simp only [List.getElem?_cons_zero, Option.some.injEq] at hk; subst hk; simp [ha]
    | succ k => simpa using h3 k i (by simpa using hk)

/-- The features of a token in range, class by class. -/
theorem features_spec {t : Token} (h : InRange t) :
    ∃ fs, features t = some fs ∧ (fs = none ↔ t.cls = .dummy) ∧ HasFeatures t (fs.getD []) := by
  unfold InRange at h
  unfold features
  split at h <;> rename_i hc
  · obtain ⟨d, n, hd, hn, tab, hlt⟩ := h
    have hp : n < d.poss.length := Nat.lt_of_lt_of_le hlt tab.poss
    obtain ⟨ns, h1, h2, h3⟩ := posNames_some (d := d) (ids := d.poss[n]) (tab.names _ (List.getElem_mem _))
    simp only [hc, hd, hn, goGet_nat, List.getElem?_eq_getElem hp]
    cases hcon : d.contents with
    | none =>
      refine ⟨some (ns ++ []), by simp [h1], by simp, ?_⟩
      exact .known d n _ ns [] hc hd hn (List.getElem?_eq_getElem hp) h2 h3 (Or.inl ⟨hcon, rfl⟩)
    | some cs =>
      have hl : n < cs.length := Nat.lt_of_lt_of_le hlt (tab.contents cs hcon)
      refine ⟨some (ns ++ cs[n]), by simp [h1, hl], by simp, ?_⟩
      exact .known d n _ ns _ hc hd hn (List.getElem?_eq_getElem hp) h2 h3
        (Or.inr ⟨cs, hcon, List.getElem?_eq_getElem hl⟩)
  · obtain ⟨d, n, hd, hn, tab, hlt⟩ := h
    have hp : n < d.unk.contents.length := Nat.lt_of_lt_of_le hlt tab.unk
    simp only [hc, hd, hn, goGet_nat, List.getElem?_eq_getElem hp]
    exact ⟨_, rfl, by simp, .unknown d n _ hc hd hn (List.getElem?_eq_getElem hp)⟩
  · obtain ⟨u, n, hd, hn, hp⟩ := h
    simp only [hc, hd, hn, goGet_nat, List.getElem?_eq_getElem hp]
    exact ⟨_, rfl, by simp, .user u n _ hc hd hn (List.getElem?_eq_getElem hp)⟩
  · simp only [hc]
    exact ⟨_, rfl, by simp, .dummy hc⟩

theorem at?_append (a b : List Bytes) {i : Int} (h : (a.length : Int) ≤ i) : at? (a ++ b) i = at? b (i - a.length) := by
  unfold at?
  have hi : (i - a.length).toNat = i.toNat - a.length := by omega
  by_cases hb : i.toNat < (a ++ b).length
  · have hb' : (i - a.length).toNat < b.length := by simp at hb; omega
    rw [dif_pos ⟨by omega, hb⟩, dif_pos ⟨by omega, hb'⟩, List.getElem_append_right (by omega)]
    simp [hi]
  · rw [dif_neg (fun h => hb h.2), dif_neg]
    simp at hb
    omega

theorem at?_left (a b : List Bytes) {i : Int} (h0 : 0 ≤ i) (h : i < a.length) : at? (a ++ b) i = at? a i := by
  unfold at?
  have ha : i.toNat < a.length := by omega
  rw [dif_pos ⟨h0, by simp; omega⟩, dif_pos ⟨h0, ha⟩, List.getElem_append_left ha]

theorem at?_get (c : List Bytes) {i : Int} (h0 : 0 ≤ i) :
    (if i ≥ (c.length : Int) then some noFeature else (goGet c i).map (fun n => (n, true))) = some (at? c i) := by
  unfold at? noFeature
  split
  · rw [dif_neg]; omega
  · have hl : i.toNat < c.length := by omega
    rw [dif_pos ⟨h0, hl⟩, goGet_toNat c h0]
    simp [hl]

theorem at?_neg (c : List Bytes) {i : Int} (h0 : i < 0) : at? c i = ([], false) := by
  unfold at?; rw [dif_neg]; omega

theorem featureAt_spec {t : Token} (h : InRange t) {fs : List Bytes} (hf : HasFeatures t fs) (i : Int) :
    featureAt t i = some (at? fs i) := by
  unfold featureAt
  split
  · rename_i hi; rw [at?_neg fs hi]; rfl
  · rename_i hi
    have hi : 0 ≤ i := by omega
    cases hf with
    | known d n ids names c hc hd hn hp hl hnm hcon =>
      simp only [hc, hd, hn, goGet_nat, hp]
      unfold InRange at h
      simp only [hc] at h
      obtain ⟨d', n', hd', hn', tab, hlt⟩ := h
      rw [hd] at hd'; cases hd'
      rw [hn] at hn'; cases hn'
      by_cases hii : i < (ids.length : Int)
      · have hin : i.toNat < ids.length := by omega
        obtain ⟨e1, e2⟩ := hnm i.toNat ids[i.toNat] (List.getElem?_eq_getElem hin)
        have hng : ¬ ids[i.toNat] > d.nameList.length := by omega
        rw [at?_left names c hi (by omega)]
        simp only [hii, if_true, goGet_toNat ids hi, List.getElem?_eq_getElem hin, hng, if_false]
        unfold at?
        have hnn : i.toNat < names.length := by omega
        rw [dif_pos ⟨hi, hnn⟩]
        rw [List.getElem?_eq_getElem hnn] at e1
        rw [← e1]; rfl
      · simp only [hii, if_false]
        rw [at?_append names c (by omega), hl]
        rcases hcon with ⟨hcn, rfl⟩ | ⟨cs, hcs, hcc⟩
        · simp only [hcn, Option.getD_none, List.length_nil]
          rw [if_pos (by omega)]
          unfold at?
          rw [dif_neg (by simp)]
          rfl
        · have hcl : n < cs.length := by
            rw [List.getElem?_eq_some_iff] at hcc; exact hcc.1
          simp only [hcs, Option.getD_some, hcc]
          rw [if_neg (by omega)]
          exact at?_get c (by omega)
    | unknown d n c hc hd hn hcc =>
      have hcl : n < d.unk.contents.length := by rw [List.getElem?_eq_some_iff] at hcc; exact hcc.1
      simp only [hc, hd, hn, goGet_nat, hcc]
      rw [if_neg (by omega)]
      exact at?_get fs hi
    | user u n c hc hd hn hcc =>
      have hcl : n < u.contents.length := by rw [List.getElem?_eq_some_iff] at hcc; exact hcc.1
      simp only [hc, hd, hn, goGet_nat, hcc]
      rw [if_neg (by omega)]
      by_cases h0 : i = 0
      · subst h0; simp [at?]
      · by_cases h1 : i = 1
        · subst h1; simp [at?]
        · by_cases h2 : i = 2
          · subst h2; simp [at?]
          · simp only [h0, h1, h2, if_false]
            unfold at?
            rw [dif_neg (by simp; omega)]
            rfl
    | dummy hc =>
      simp only [hc]
      unfold at?
      rw [dif_neg (by simp)]
      rfl

/-! ### C19 -/

/-- C19: `Features` and `FeatureAt` of a token whose id is in range of the tables never panic; the features are the ones of the
specification, `FeatureAt(i)` is the `i`-th of them, and ("", false) for every other integer. -/
theorem C19_feature_at {t : Token} (h : InRange t) :
    ∃ fs, features t = some fs ∧ HasFeatures t (fs.getD []) ∧ (fs = none ↔ t.cls = .dummy) ∧
      (∀ (k : Nat) (hk : k < (fs.getD []).length), featureAt t k = some ((fs.getD [])[k], true)) ∧
      (∀ i : Int, i < 0 ∨ (fs.getD []).length ≤ i → featureAt t i = some ([], false)) := by
  obtain ⟨fs, h1, h2, h3⟩ := features_spec h
  refine ⟨fs, h1, h3, h2, ?_, ?_⟩
  · intro k hk
    rw [featureAt_spec h h3]
    unfold at?
    rw [dif_pos ⟨by omega, by simpa using hk⟩]
    simp
  · intro i hi
    rw [featureAt_spec h h3]
    unfold at?
    rw [dif_neg (by omega)]

/-- The features of a token are determined by the tables. -/
theorem C19_features_unique {t : Token} {a b : List Bytes} (ha : HasFeatures t a) (hb : HasFeatures t b) : a = b := by
  cases ha with
  | known d n ids names c hc hd hn hp hl hnm hcon =>
    cases hb with
    | known d' n' ids' names' c' hc' hd' hn' hp' hl' hnm' hcon' =>
      rw [hd] at hd'; cases hd'
      rw [hn] at hn'; cases hn'
      rw [hp] at hp'; cases hp'
      have hnames : names = names' := by
        apply List.ext_getElem?
        intro k
        by_cases hk : k < ids.length
        · rw [(hnm k _ (List.getElem?_eq_getElem hk)).1, (hnm' k _ (List.getElem?_eq_getElem hk)).1]
        · rw [List.getElem?_eq_none (by omega), List.getElem?_eq_none (by omega)]
      rcases hcon with ⟨e, rfl⟩ | ⟨cs, e, f⟩ <;> rcases hcon' with ⟨e', rfl⟩ | ⟨cs', e', f'⟩
      · rw [hnames]
      · rw [e] at e'; cases e'
      · rw [e] at e'; cases e'
      · rw [e] at e'; cases e'; rw [f] at f'; cases f'; rw [hnames]
    | unknown => simp_all
    | user => simp_all
    | dummy => simp_all
  | unknown d n c hc hd hn hcc =>
    cases hb with
    | known => simp_all
    | unknown d' n' c' hc' hd' hn' hcc' =>
      rw [hd] at hd'; cases hd'
      rw [hn] at hn'; cases hn'
      rw [hcc] at hcc'; cases hcc'; rfl
    | user => simp_all
    | dummy => simp_all
  | user u n c hc hd hn hcc =>
    cases hb with
    | known => simp_all
    | unknown => simp_all
    | user u' n' c' hc' hd' hn' hcc' =>
      rw [hd] at hd'; cases hd'
      rw [hn] at hn'; cases hn'
      rw [hcc] at hcc'; cases hcc'; rfl
    | dummy => simp_all
  | dummy hc =>
    cases hb <;> simp_all

/-- The premises of C19 are met by the words of the toy dictionary. -/
theorem Toy.featureTables : FeatureTables Toy.dict where
  poss := by decide
  names := by decide
  contents := by intro cs h; cases h; decide
  unk := by decide
  pos_start := by
    intro v h
    simp [Toy.dict, Toy.unk] at h
    rw [← h]; decide

/-- A token of the toy dictionary. -/
def Toy.token (cls : NodeClass) (id : Int) : Token :=
  { index := 0, id := id, cls := cls, position := 0, start := 0, stop := 0, surface := [], dict := some Toy.dict, udict := some Toy.user }

theorem Toy.inRange_known {n : Nat} (h : n < 8) : InRange (Toy.token .known n) := ⟨Toy.dict, n, rfl, rfl, Toy.featureTables, h⟩
theorem Toy.inRange_unknown {n : Nat} (h : n < 5) : InRange (Toy.token .unknown n) := ⟨Toy.dict, n, rfl, rfl, Toy.featureTables, h⟩
theorem Toy.inRange_user : InRange (Toy.token .user 0) := ⟨Toy.user, 0, rfl, rfl, by decide⟩

example : InRange (Toy.token .known 4) ∧
    features (Toy.token .known 4) = some (some [str "助詞", str "連体化", str "の"]) ∧
    featureAt (Toy.token .known 4) 2 = some (str "の", true) ∧ featureAt (Toy.token .known 4) 3 = some ([], false) ∧
    featureAt (Toy.token .known 4) (-1) = some ([], false) := ⟨Toy.inRange_known (by decide), by decide +kernel⟩

/-- The bound check of `FeatureAt` on the POS name is one too lax: for an id equal to the number of names it panics, where for
larger ones it reports that there is no such feature. (`FeatureTables` excludes both.) -/
theorem C19_name_check_off_by_one :
    featureAt { Toy.token .known 0 with dict := some { Toy.dict with poss := [[4]] } } 0 = none ∧
    featureAt { Toy.token .known 0 with dict := some { Toy.dict with poss := [[5]] } } 0 = some ([], false) := by decide +kernel

/-! ### C20 -/

/-- Where the POS features of unknown words start, by the metadata: 0 when it does not say. -/
def unkStart (d : Dict) : Int := match d.unk.contentsMeta (str "_pos_start") with | some v => v.toInt | none => 0

/-- Where they end: as many further on as the metadata gives for the hierarchy, and at 1 when it does not say. -/
def unkStop (d : Dict) : Int := match d.unk.contentsMeta (str "_pos_hierarchy") with | some v => unkStart d + v.toInt | none => 1

theorem featureRange_some (feature : List Bytes) (s n : Nat) (h : s + n ≤ feature.length) :
    featureRange feature (s : Int) n = some ((feature.drop s).take n) := by
  induction n generalizing s with
  | zero => simp [featureRange]
  | succ n ih =>
    have h1 := ih (s + 1) (by omega)
    have h0 : s < feature.length := by omega
    rw [Int.natCast_add] at h1
    simp only [featureRange, goGet_nat, List.getElem?_eq_getElem h0]
    rw [show ((s : Int) + 1) = (s : Int) + ((1 : Nat) : Int) from rfl, h1]
    simp only [Option.map_some, Option.some.injEq]
    rw [List.drop_eq_getElem_cons h0, List.take_succ_cons]

/-- C20, known words: POS is the block of POS names with which the features start. -/
theorem C20_known {t : Token} (h : InRange t) (hc : t.cls = .known) :
    ∃ d n ids pos fs, t.dict = some d ∧ t.id = (n : Nat) ∧ d.poss[n]? = some ids ∧
      tokenPOS t = some (some pos) ∧ features t = some (some fs) ∧ pos <+: fs ∧ pos.length = ids.length := by
  have h' := h
  unfold InRange at h'
  simp only [hc] at h'
  obtain ⟨d, n, hd, hn, tab, hlt⟩ := h'
  have hp : n < d.poss.length := Nat.lt_of_lt_of_le hlt tab.poss
  obtain ⟨ns, h1, h2, h3⟩ := posNames_some (d := d) (ids := d.poss[n]) (tab.names _ (List.getElem_mem _))
  obtain ⟨fs, hfs, hnone, _⟩ := features_spec h
  refine ⟨d, n, d.poss[n], ns, fs.getD [], hd, hn, List.getElem?_eq_getElem hp, ?_, ?_, ?_, h2⟩
  · simp [tokenPOS, hc, hd, hn, goGet_nat, List.getElem?_eq_getElem hp, h1]
  · cases fs with
    | none => rw [hc] at hnone; simp at hnone
    | some fs => exact hfs
  · unfold features at hfs
    simp only [hc, hd, hn, goGet_nat, List.getElem?_eq_getElem hp, h1] at hfs
    revert hfs
    cases hcon : d.contents with
    | none => intro hfs; cases hfs; simp
    | some cs =>
      have hl : n < cs.length := Nat.lt_of_lt_of_le hlt (tab.contents cs hcon)
      simp only [List.getElem?_eq_getElem hl]
      intro hfs; cases hfs; simp

/-- C20, unknown words: POS is the block of the features from `unkStart` to `unkStop` when that is a non-empty block of existing
features, and nil otherwise. -/
theorem C20_unknown {t : Token} (h : InRange t) (hc : t.cls = .unknown) :
    ∃ d fs, t.dict = some d ∧ features t = some (some fs) ∧
      tokenPOS t = some (if unkStart d < unkStop d ∧ unkStop d ≤ fs.length then
        some ((fs.drop (unkStart d).toNat).take (unkStop d - unkStart d).toNat) else none) := by
  unfold InRange at h
  simp only [hc] at h
  obtain ⟨d, n, hd, hn, tab, hlt⟩ := h
  have hp : n < d.unk.contents.length := Nat.lt_of_lt_of_le hlt tab.unk
  refine ⟨d, d.unk.contents[n], hd, ?_, ?_⟩
  · simp [features, hc, hd, hn, goGet_nat, List.getElem?_eq_getElem hp]
  · simp only [tokenPOS, hc, hd, hn, goGet_nat, List.getElem?_eq_getElem hp]
    change (if unkStart d ≥ unkStop d ∨ unkStop d > d.unk.contents[n].length then some none
      else (featureRange d.unk.contents[n] (unkStart d) (unkStop d - unkStart d).toNat).map some) = _
    have h0 : 0 ≤ unkStart d := by
      unfold unkStart
      split
      · rename_i v hv; exact tab.pos_start v hv
      · exact Int.le_refl _
    by_cases hb : unkStart d < unkStop d ∧ unkStop d ≤ d.unk.contents[n].length
    · rw [if_neg (by omega), if_pos hb]
      have := featureRange_some d.unk.contents[n] (unkStart d).toNat (unkStop d - unkStart d).toNat (by omega)
      rw [Int.toNat_of_nonneg h0] at this
      rw [this]; rfl
    · rw [if_pos (by omega), if_neg hb]

/-- C20, user words: POS is the first feature. -/
theorem C20_user {t : Token} (h : InRange t) (hc : t.cls = .user) :
    ∃ p a b, features t = some (some [p, a, b]) ∧ tokenPOS t = some (some [p]) := by
  unfold InRange at h
  simp only [hc] at h
  obtain ⟨u, n, hd, hn, hp⟩ := h
  refine ⟨u.contents[n].pos, join (str "/") u.contents[n].tokens, join (str "/") u.contents[n].yomi, ?_, ?_⟩
  · simp [features, hc, hd, hn, goGet_nat, List.getElem?_eq_getElem hp]
  · simp [tokenPOS, hc, hd, hn, goGet_nat, List.getElem?_eq_getElem hp]

/-- C20, BOS, EOS and the characters of unknown words: nil. -/
theorem C20_dummy {t : Token} (hc : t.cls = .dummy) : tokenPOS t = some none ∧ features t = some none := by
  simp [tokenPOS, features, hc]

/-- Metadata saying that the POS features start before the first feature make `POS` panic (no such dictionary is known). -/
theorem C20_negative_start :
    tokenPOS { Toy.token .unknown 0 with
      dict := some { Toy.dict with unk := { Toy.unk with contentsMeta := fun k => if k = str "_pos_start" then some (-1) else none } } } = none := by
  decide +kernel

example : tokenPOS (Toy.token .known 4) = some (some [str "助詞", str "連体化"]) ∧
    tokenPOS (Toy.token .unknown 1) = some (some [str "名詞"]) ∧
    tokenPOS (Toy.token .user 0) = some (some [str "カスタム"]) ∧
    tokenPOS { Toy.token .unknown 0 with
      dict := some { Toy.dict with unk := { Toy.unk with contentsMeta := fun k => if k = str "_pos_hierarchy" then some 3 else none } } } =
      some none := by decide +kernel

/-! ### C21 -/

/-- The accessor for a named feature. -/
def namedFeature : Named → Token → Option (Bytes × Bool)
  | .inflectionalType => inflectionalType
  | .inflectionalForm => inflectionalForm
  | .baseForm => baseForm
  | .reading => reading
  | .pronunciation => pronunciation

/-- C21: a named feature is the feature at the position the metadata gives for it; there is none when the metadata does not
mention it, when the position is not one of a feature, and for user words and dummies. -/
theorem C21_named {t : Token} (h : InRange t) (f : Named) :
    ∃ fs, features t = some fs ∧
      match metaOf t f.key with
      | none => namedFeature f t = some ([], false)
      | some v =>
        (∀ (k : Nat) (hk : k < (fs.getD []).length), v.toInt = k → namedFeature f t = some ((fs.getD [])[k], true)) ∧
        ((v.toInt < 0 ∨ (fs.getD []).length ≤ v.toInt) → namedFeature f t = some ([], false)) := by
  obtain ⟨fs, h1, h2, h3, h4, h5⟩ := C19_feature_at h
  refine ⟨fs, h1, ?_⟩
  have hget : ∀ key : MetaKey, key.name = f.key → namedFeature f t = pickup t key → 
      namedFeature f t = match metaOf t f.key with | none => some ([], false) | some v => featureAt t v.toInt := by
    intro key hk he
    rw [he, ← hk]
    unfold pickup metaOf
    unfold InRange at h
    split at h <;> rename_i hc
    · obtain ⟨d, n, hd, _⟩ := h
      simp only [hc, hd, Option.bind_some]
      cases d.contentsMeta key.name <;> rfl
    · obtain ⟨d, n, hd, _⟩ := h
      simp only [hc, hd, Option.bind_some]
      cases d.unk.contentsMeta key.name <;> rfl
    · simp only [hc]; rfl
    · simp only [hc]; rfl
  have hg : namedFeature f t = match metaOf t f.key with | none => some ([], false) | some v => featureAt t v.toInt := by
    cases f
    · exact hget .inflectionalType rfl rfl
    · exact hget .inflectionalForm rfl rfl
    · exact hget .base rfl rfl
    · exact hget .reading rfl rfl
    · exact hget .pronunciation rfl rfl
  revert hg
  cases metaOf t f.key with
  | none => exact id
  | some v =>
    intro hg
    refine ⟨?_, ?_⟩
    · intro k hk hv
      rw [hg]; simp only [hv]; exact h4 k hk
    · intro hv
      rw [hg]; exact h5 _ hv

/-- C21: user words and dummies have no named features (whatever their id). -/
theorem C21_none {t : Token} (hc : t.cls = .user ∨ t.cls = .dummy) (f : Named) : namedFeature f t = some ([], false) := by
  cases f <;> rcases hc with hc | hc <;> simp [namedFeature, inflectionalType, inflectionalForm, baseForm, reading, pronunciation, pickup, hc, noFeature]

example : baseForm (Toy.token .known 1) = some (str "すもも", true) ∧ baseForm (Toy.token .known 4) = some (str "連体化", true) ∧
    reading (Toy.token .known 1) = some ([], false) ∧ baseForm (Toy.token .user 0) = some ([], false) := by decide +kernel

/-! ### C22 -/

/-- The slices of the user dictionary `u` are in the heap `h` at the addresses `contents`. -/
def HoldsUser (h : Heap) (contents : List UserCell) (u : UserDict) : Prop :=
  contents.length = u.contents.length ∧
  ∀ (n : Nat) cell c, contents[n]? = some cell → u.contents[n]? = some c → h[cell.tokens]? = some c.tokens ∧ h[cell.yomi]? = some c.yomi

/-- What a caller may do with the slices of a result: overwrite their elements, in any order, any number of times. -/
def overwrite : List (Nat × Nat × Bytes) → Heap → Heap
  | [], h => h
  | (a, i, s) :: rest, h => overwrite rest (h.modify a (fun l => l.set i s))

theorem overwrite_other {ws : List (Nat × Nat × Bytes)} {h : Heap} {a : Nat} (hw : ∀ w ∈ ws, w.1 ≠ a) : (overwrite ws h)[a]? = h[a]? := by
  induction ws generalizing h with
  | nil => rfl
  | cons w ws ih =>
    obtain ⟨b, i, s⟩ := w
    simp only [overwrite]
    rw [ih (fun w hw' => hw w (by simp [hw'])), List.getElem?_modify]
    have : b ≠ a := hw (b, i, s) (by simp)
    simp [this]

/-- C22: `UserExtra` is nil exactly for tokens that are not user words. -/
theorem C22_nil {contents : List UserCell} {t : Token} {h h' : Heap} {r : Option UserExtra}
    (hr : userExtra contents t h = some (h', r)) : r = none ↔ t.cls ≠ .user := by
  unfold userExtra at hr
  split at hr
  · cases hr; simpa
  · rename_i hc
    constructor
    · intro hn
      exfalso
      revert hr
      cases goGet contents t.id with
      | none => simp
      | some c =>
        simp only
        cases copySlice h c.tokens with
        | none => simp
        | some p =>
          obtain ⟨h1, a⟩ := p
          simp only
          cases copySlice h1 c.yomi with
          | none => simp
          | some p => simp [hn]
    · intro h; exact absurd h hc

/-- C22: for a user word `UserExtra` returns the tokens and readings of its entry, in slices of their own: whatever the caller
writes into them, the dictionary in memory stays as it was, and a later call returns the same again. -/
theorem C22_user {u : UserDict} {contents : List UserCell} {t : Token} {h : Heap} {n : Nat} {c : UserContent}
    (hold : HoldsUser h contents u) (hc : t.cls = .user) (hn : t.id = n) (he : u.contents[n]? = some c) :
    ∃ h' e, userExtra contents t h = some (h', some e) ∧ h'[e.tokens]? = some c.tokens ∧ h'[e.readings]? = some c.yomi ∧
      HoldsUser h' contents u ∧
      ∀ ws : List (Nat × Nat × Bytes), (∀ w ∈ ws, w.1 = e.tokens ∨ w.1 = e.readings) →
        HoldsUser (overwrite ws h') contents u ∧ (∀ a, a < h.length → (overwrite ws h')[a]? = h[a]?) ∧
        ∃ h'' e', userExtra contents t (overwrite ws h') = some (h'', some e') ∧
          h''[e'.tokens]? = some c.tokens ∧ h''[e'.readings]? = some c.yomi := by
  have key : ∀ h : Heap, HoldsUser h contents u → ∃ h' e, userExtra contents t h = some (h', some e) ∧
      h'[e.tokens]? = some c.tokens ∧ h'[e.readings]? = some c.yomi ∧ h <+: h' ∧ h.length ≤ e.tokens ∧ h.length ≤ e.readings := by
    intro h hold
    have hlt : n < contents.length := by
      rw [hold.1]; rw [List.getElem?_eq_some_iff] at he; exact he.1
    obtain ⟨h1, h2⟩ := hold.2 n _ c (List.getElem?_eq_getElem hlt) he
    have h2' : (h ++ [c.tokens])[contents[n].yomi]? = some c.yomi := by
      rw [List.getElem?_append_left, h2]
      rw [List.getElem?_eq_some_iff] at h2; exact h2.1
    refine ⟨h ++ [c.tokens] ++ [c.yomi], ⟨h.length, h.length + 1⟩, ?_, ?_, ?_, ?_, ?_, ?_⟩
    · simp [userExtra, hc, hn, goGet_nat, List.getElem?_eq_getElem hlt, copySlice, h1, h2']
    · simp
    · simp
    · simp
    · simp
    · simp
  have ext : ∀ h h' : Heap, HoldsUser h contents u → (∀ a, a < h.length → h'[a]? = h[a]?) → HoldsUser h' contents u := by
    intro h h' hold hp
    refine ⟨hold.1, ?_⟩
    intro m cell cc h1 h2
    obtain ⟨e1, e2⟩ := hold.2 m cell cc h1 h2
    refine ⟨?_, ?_⟩
    · rw [hp, e1]; rw [List.getElem?_eq_some_iff] at e1; exact e1.1
    · rw [hp, e2]; rw [List.getElem?_eq_some_iff] at e2; exact e2.1
  obtain ⟨h', e, h1, h2, h3, h4, h5, h6⟩ := key h hold
  have hpre : ∀ a, a < h.length → h'[a]? = h[a]? := by
    intro a ha
    obtain ⟨tl, rfl⟩ := h4
    rw [List.getElem?_append_left ha]
  refine ⟨h', e, h1, h2, h3, ext h h' hold hpre, ?_⟩
  intro ws hw
  have hsame : ∀ a, a < h.length → (overwrite ws h')[a]? = h[a]? := by
    intro a ha
    rw [overwrite_other, hpre a ha]
    intro w hw'
    rcases hw w hw' with h | h <;> omega
  have hh := ext h _ hold hsame
  refine ⟨hh, hsame, ?_⟩
  obtain ⟨h'', e', k1, k2, k3, _⟩ := key _ hh
  exact ⟨h'', e', k1, k2, k3⟩

/-- The premises of C22 with a user entry in memory, and a caller that scribbles over the result. -/
example : HoldsUser [[str "トウキョウ"], [str "東京"]] [⟨1, 0⟩] Toy.user := by
  refine ⟨rfl, ?_⟩
  intro n cell c h1 h2
  cases n with
  | zero => cases h1; cases h2; exact ⟨rfl, rfl⟩
  | succ n => simp at h1

example : (userExtra [⟨1, 0⟩] (Toy.token .user 0) [[str "トウキョウ"], [str "東京"]]).map
      (fun r => overwrite [(2, 0, str "x"), (3, 0, str "y")] r.1) =
    some [[str "トウキョウ"], [str "東京"], [str "x"], [str "y"]] := by decide +kernel

/-! ### C23 -/

theorem equalLoop_spec (l r : List Bytes) (i n : Nat) (hl : i + n = l.length) (hr : i + n = r.length) :
    equalLoop l r i n = some (decide (l.drop i = r.drop i)) := by
  induction n generalizing i with
  | zero => simp [equalLoop, show i = l.length by omega, show l.length = r.length by omega]
  | succ n ih =>
    have h1 : i < l.length := by omega
    have h2 : i < r.length := by omega
    simp only [equalLoop, List.getElem?_eq_getElem h1, List.getElem?_eq_getElem h2]
    rw [List.drop_eq_getElem_cons h1, List.drop_eq_getElem_cons h2]
    split
    · rename_i hne; simp only [List.cons.injEq, hne, false_and, decide_false]
    · rename_i he
      rw [ih (i + 1) (by omega) (by omega)]
      simp only [ne_eq, Decidable.not_not] at he
      simp only [List.cons.injEq, he, true_and]

/-- C23: `EqualFeatures` of two lists is equality. -/
theorem C23_equal_features (l r : List Bytes) : equalFeatures l r = some (decide (l = r)) := by
  unfold equalFeatures
  split
  · rename_i h
    have : l ≠ r := fun e => h (by rw [e])
    simp [this]
  · rename_i h
    have := equalLoop_spec l r 0 l.length (by omega) (by omega)
    simpa using this

/-- C23: on tokens, `EqualFeatures` and `EqualPOS` compare the lists `Features` and `POS` return. -/
theorem C23_token_features {a b : Token} {fa fb : Option (List Bytes)} (ha : features a = some fa) (hb : features b = some fb) :
    tokenEqualFeatures a b = some (decide (fa.getD [] = fb.getD [])) := by
  simp only [tokenEqualFeatures, ha, hb, C23_equal_features]

@[inherit_doc C23_token_features]
theorem C23_token_pos {a b : Token} {fa fb : Option (List Bytes)} (ha : tokenPOS a = some fa) (hb : tokenPOS b = some fb) :
    tokenEqualPOS a b = some (decide (fa.getD [] = fb.getD [])) := by
  simp only [tokenEqualPOS, ha, hb, C23_equal_features]

/-- `f` is an equivalence on the tokens for which `ok` holds. -/
structure IsEquivOn (ok : Token → Prop) (f : Token → Token → Option Bool) : Prop where
  total : ∀ a b, ok a → ok b → (f a b).isSome
  refl : ∀ a, ok a → f a a = some true
  symm : ∀ a b, ok a → ok b → f a b = f b a
  trans : ∀ a b c, ok a → ok b → ok c → f a b = some true → f b c = some true → f a c = some true

/-- C23: `EqualFeatures` on tokens is an equivalence, wherever `Features` does not panic. -/
theorem C23_equal_features_equiv : IsEquivOn (fun t => (features t).isSome) tokenEqualFeatures where
  total := by
    intro a b ha hb
    obtain ⟨fa, ha⟩ := Option.isSome_iff_exists.mp ha
    obtain ⟨fb, hb⟩ := Option.isSome_iff_exists.mp hb
    rw [C23_token_features ha hb]; rfl
  refl := by
    intro a ha
    obtain ⟨fa, ha⟩ := Option.isSome_iff_exists.mp ha
    rw [C23_token_features ha ha]; simp
  symm := by
    intro a b ha hb
    obtain ⟨fa, ha⟩ := Option.isSome_iff_exists.mp ha
    obtain ⟨fb, hb⟩ := Option.isSome_iff_exists.mp hb
    rw [C23_token_features ha hb, C23_token_features hb ha]
    congr 1
    exact decide_eq_decide.mpr eq_comm
  trans := by
    intro a b c ha hb hc h1 h2
    obtain ⟨fa, ha⟩ := Option.isSome_iff_exists.mp ha
    obtain ⟨fb, hb⟩ := Option.isSome_iff_exists.mp hb
    obtain ⟨fc, hc⟩ := Option.isSome_iff_exists.mp hc
    rw [C23_token_features ha hb] at h1
    rw [C23_token_features hb hc] at h2
    rw [C23_token_features ha hc]
    simp only [Option.some.injEq, decide_eq_true_eq] at h1 h2 ⊢
    exact h1.trans h2

/-- C23: `EqualPOS` on tokens is an equivalence, wherever `POS` does not panic. -/
theorem C23_equal_pos_equiv : IsEquivOn (fun t => (tokenPOS t).isSome) tokenEqualPOS where
  total := by
    intro a b ha hb
    obtain ⟨fa, ha⟩ := Option.isSome_iff_exists.mp ha
    obtain ⟨fb, hb⟩ := Option.isSome_iff_exists.mp hb
    rw [C23_token_pos ha hb]; rfl
  refl := by
    intro a ha
    obtain ⟨fa, ha⟩ := Option.isSome_iff_exists.mp ha
    rw [C23_token_pos ha ha]; simp
  symm := by
    intro a b ha hb
    obtain ⟨fa, ha⟩ := Option.isSome_iff_exists.mp ha
    obtain ⟨fb, hb⟩ := Option.isSome_iff_exists.mp hb
    rw [C23_token_pos ha hb, C23_token_pos hb ha]
    congr 1
    exact decide_eq_decide.mpr eq_comm
  trans := by
    intro a b c ha hb hc h1 h2
    obtain ⟨fa, ha⟩ := Option.isSome_iff_exists.mp ha
    obtain ⟨fb, hb⟩ := Option.isSome_iff_exists.mp hb
    obtain ⟨fc, hc⟩ := Option.isSome_iff_exists.mp hc
    rw [C23_token_pos ha hb] at h1
    rw [C23_token_pos hb hc] at h2
    rw [C23_token_pos ha hc]
    simp only [Option.some.injEq, decide_eq_true_eq] at h1 h2 ⊢
    exact h1.trans h2

/-- C23: `Equal` holds exactly when id, class and surface are the same, wherever the tokens stand; so it is an equivalence. -/
theorem C23_equal (a b : Token) : tokenEqual a b = true ↔ a.id = b.id ∧ a.cls = b.cls ∧ a.surface = b.surface := by
  simp [tokenEqual, and_assoc]

@[inherit_doc C23_equal]
theorem C23_equal_equiv : IsEquivOn (fun _ => True) (fun a b => some (tokenEqual a b)) where
  total := by intros; rfl
  refl := by intro a _; simp only [Option.some.injEq]; rw [C23_equal]; simp
  symm := by
    intro a b _ _
    simp only [Option.some.injEq]
    rw [Bool.eq_iff_iff, C23_equal, C23_equal]
    constructor <;> rintro ⟨h1, h2, h3⟩ <;> exact ⟨h1.symm, h2.symm, h3.symm⟩
  trans := by
    intro a b c _ _ _ h1 h2
    simp only [Option.some.injEq] at h1 h2 ⊢
    rw [C23_equal] at h1 h2 ⊢
    exact ⟨h1.1.trans h2.1, h1.2.1.trans h2.2.1, h1.2.2.trans h2.2.2⟩

/-- C23: moving a token does not matter. -/
theorem C23_equal_position (t : Token) (i p s e : Nat) : tokenEqual t { t with index := i, position := p, start := s, stop := e } = true := by
  rw [C23_equal]; exact ⟨rfl, rfl, rfl⟩

example : (features (Toy.token .known 0)).isSome ∧ tokenEqualFeatures (Toy.token .known 0) (Toy.token .known 1) = some false ∧
    tokenEqualPOS (Toy.token .known 0) (Toy.token .known 1) = some true ∧ equalFeatures [str "a"] [str "a", str "b"] = some false := by
  decide +kernel

/-! ### C24, C25 -/

theorem tokenPOS_total {t : Token} (h : InRange t) : ∃ p, tokenPOS t = some p := by
  cases hc : t.cls with
  | known => obtain ⟨_, _, _, p, _, _, _, _, h, _⟩ := C20_known h hc; exact ⟨_, h⟩
  | unknown => obtain ⟨_, _, _, _, h⟩ := C20_unknown h hc; exact ⟨_, h⟩
  | user => obtain ⟨_, _, _, _, h⟩ := C20_user h hc; exact ⟨_, h⟩
  | dummy => exact ⟨_, (C20_dummy hc).1⟩

theorem named_total {t : Token} (h : InRange t) (f : Named) : ∃ p, namedFeature f t = some p := by
  obtain ⟨fs, _, hm⟩ := C21_named h f
  revert hm
  cases metaOf t f.key with
  | none => exact fun h => ⟨_, h⟩
  | some v =>
    simp only
    intro ⟨h1, h2⟩
    by_cases hv : v.toInt < 0 ∨ (fs.getD []).length ≤ v.toInt
    · exact ⟨_, h2 hv⟩
    · exact ⟨_, h1 v.toInt.toNat (by omega) (by omega)⟩

/-- C24: `NewTokenData` copies the token; POS and features are those of the token with nil replaced by an empty list (so they
are never nil), and a named feature that does not exist is the empty string. -/
theorem C24_token_data {t : Token} (h : InRange t) :
    ∃ data pos fs b r p, newTokenData t = some data ∧ tokenPOS t = some pos ∧ features t = some fs ∧
      baseForm t = some b ∧ reading t = some r ∧ pronunciation t = some p ∧
      data.id = t.id ∧ data.start = t.start ∧ data.stop = t.stop ∧ data.surface = t.surface ∧
      data.cls = (match t.cls with | .dummy => str "DUMMY" | .known => str "KNOWN" | .unknown => str "UNKNOWN" | .user => str "USER") ∧
      data.pos = some (pos.getD []) ∧ data.features = some (fs.getD []) ∧
      data.baseForm = (if b.2 then b.1 else []) ∧ data.reading = (if r.2 then r.1 else []) ∧
      data.pronunciation = (if p.2 then p.1 else []) := by
  obtain ⟨pos, hp⟩ := tokenPOS_total h
  obtain ⟨fs, hf, _⟩ := features_spec h
  have hnm : ∀ f : Named, ∃ v, namedFeature f t = some v ∧ v.1 = (if v.2 then v.1 else []) := by
    intro f
    obtain ⟨v, hv⟩ := named_total h f
    refine ⟨v, hv, ?_⟩
    obtain ⟨fs, _, hm⟩ := C21_named h f
    revert hm
    cases metaOf t f.key with
    | none => simp only; intro hm; rw [hv] at hm; cases hm; rfl
    | some w =>
      simp only
      intro ⟨h1, h2⟩
      by_cases hw : w.toInt < 0 ∨ (fs.getD []).length ≤ w.toInt
      · have := h2 hw; rw [hv] at this; cases this; rfl
      · have := h1 w.toInt.toNat (by omega) (by omega); rw [hv] at this; cases this; rfl
  obtain ⟨b, hb, hb'⟩ := hnm .baseForm
  obtain ⟨r, hr, hr'⟩ := hnm .reading
  obtain ⟨p, hpr, hp'⟩ := hnm .pronunciation
  change baseForm t = _ at hb
  change reading t = _ at hr
  change pronunciation t = _ at hpr
  refine ⟨_, pos, fs, b, r, p, by simp only [newTokenData, hp, hf, hb, hr, hpr]; rfl, hp, hf, hb, hr, hpr, rfl, rfl, rfl, rfl, ?_, ?_, ?_, hb', hr', hp'⟩
  · cases t.cls <;> rfl
  · cases pos <;> rfl
  · cases fs <;> rfl

example : newTokenData { Toy.token .known 1 with surface := str "すもも", start := 2, stop := 5 } =
    some { id := 1, start := 2, stop := 5, surface := str "すもも", cls := str "KNOWN", pos := some [str "名詞"], baseForm := str "すもも",
           reading := [], pronunciation := [], features := some [str "名詞", str "すもも"] } ∧
    newTokenData (Toy.token .dummy (-1)) =
    some { id := -1, start := 0, stop := 0, surface := [], cls := str "DUMMY", pos := some [], baseForm := [],
           reading := [], pronunciation := [], features := some [] } := by decide +kernel

/-- Every token of a result is in range of the tables. -/
theorem analyze_inRange {t : Tokenizer} (wf : WellFormed t.dict t.userDict) (tab : FeatureTables t.dict) {ideo : Nat → Bool} {inp : Bytes}
    {mode : Int} {toks : List Token} (ha : analyze t ideo inp mode = some toks) {tok : Token} (ht : tok ∈ toks) : InRange tok := by
  by_cases hid : tok.id = -1
  · have hc : tok.cls = .dummy := by
      apply Decidable.byContradiction
      intro hc
      obtain ⟨k, pos, rest, w, hat, hw, hcase⟩ := analyze_weak wf ha ht (Or.inr hc)
      have := (weak_ok wf hw).id
      rcases hcase with h | h
      · rw [← h.2.1, hid] at this; omega
      · exact hc h.2.2.1
    simp [InRange, hc]
  · obtain ⟨hd, hu, _, hs⟩ := C08_source wf ha ht hid
    cases hc : tok.cls <;> simp only [hc] at hs
    · simp [InRange, hc]
    · obtain ⟨id, l, hm, he, _⟩ := hs
      simp only [InRange, hc]
      exact ⟨t.dict, id, hd, he, tab, (wf.known_hit _ id l hm).2.2.2⟩
    · obtain ⟨_, x, hx, he⟩ := hs
      simp only [InRange, hc]
      obtain ⟨e1, e2, e3⟩ := wf.unk_entry (firstChar (inp.drop tok.position))
      refine ⟨t.dict, (t.dict.unk.index (t.dict.category (firstChar (inp.drop tok.position)))).toNat + x, hd, by omega, tab, by omega⟩
    · obtain ⟨ud, id, l, hud, hm, he, _⟩ := hs
      simp only [InRange, hc]
      exact ⟨ud, id, hu.trans hud, he, (wf.user_hit ud hud _ id l hm).2.2.2⟩

/-- None of the accessors panics. `UserExtra` runs in any memory that holds the user dictionary of the token. -/
structure Harmless (tok : Token) : Prop where
  features : (features tok).isSome
  featureAt : ∀ i, (featureAt tok i).isSome
  pos : (tokenPOS tok).isSome
  named : ∀ f : Named, (namedFeature f tok).isSome
  tokenData : (newTokenData tok).isSome
  userExtra : ∀ h contents u, tok.udict = some u → HoldsUser h contents u → (userExtra contents tok h).isSome
  userExtra_nil : tok.udict = none → ∀ h contents, (Kagome.userExtra contents tok h).isSome

theorem harmless {tok : Token} (h : InRange tok) : Harmless tok where
  features := by obtain ⟨_, h, _⟩ := features_spec h; rw [h]; rfl
  featureAt := by
    intro i
    obtain ⟨_, _, h3⟩ := features_spec h
    rw [featureAt_spec h h3.2]; rfl
  pos := by obtain ⟨_, h⟩ := tokenPOS_total h; rw [h]; rfl
  named := by intro f; obtain ⟨_, h⟩ := named_total h f; rw [h]; rfl
  tokenData := by obtain ⟨_, _, _, _, _, _, h, _⟩ := C24_token_data h; rw [h]; rfl
  userExtra := by
    intro hp contents u hu hold
    by_cases hc : tok.cls = .user
    · simp only [InRange, hc] at h
      obtain ⟨u', n, hd, hn, hlt⟩ := h
      rw [hu] at hd; cases hd
      obtain ⟨_, _, h, _⟩ := C22_user hold hc hn (List.getElem?_eq_getElem hlt)
      rw [h]; rfl
    · simp [Kagome.userExtra, hc]
  userExtra_nil := by
    intro hu hp contents
    have hc : tok.cls ≠ .user := by
      intro hc
      simp only [InRange, hc] at h
      obtain ⟨u', n, hd, hn, hlt⟩ := h
      rw [hu] at hd; cases hd
    simp [Kagome.userExtra, hc]

/-- C25: no accessor panics on a token that `Analyze` or `AnalyzeGraph` returned. -/
theorem C25_harmless {t : Tokenizer} (wf : WellFormed t.dict t.userDict) (tab : FeatureTables t.dict) {ideo : Nat → Bool} {inp : Bytes}
    {mode : Int} {toks : List Token} (ha : analyze t ideo inp mode = some toks ∨ analyzeGraph t ideo inp mode = some toks)
    {tok : Token} (ht : tok ∈ toks) : Harmless tok := by
  rcases ha with ha | ha
  · exact harmless (analyze_inRange wf tab ha ht)
  · rw [C16_graph, Option.map_eq_some_iff] at ha
    obtain ⟨toks', ha, rfl⟩ := ha
    rw [List.mem_map] at ht
    obtain ⟨tok', ht', rfl⟩ := ht
    have h : InRange tok' := analyze_inRange (t := { t with omitBosEos := false }) wf tab ha ht'
    exact harmless h

example : WellFormed Toy.tokUser.dict Toy.tokUser.userDict ∧ FeatureTables Toy.tokUser.dict := ⟨Toy.wellFormed, Toy.featureTables⟩

example : (analyze Toy.tokUser Toy.ideo (str "東京のABC") modeNormal).map (·.map (fun t => (t.surface, (features t)))) =
    some [(str "BOS", some none), (str "東京", some (some [str "カスタム", str "東京", str "トウキョウ"])),
      (str "の", some (some [str "助詞", str "連体化", str "の"])), (str "ABC", some (some [str "名詞"])), (str "EOS", some none)] := by
  decide +kernel

end Kagome
