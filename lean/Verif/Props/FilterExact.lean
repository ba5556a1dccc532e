import Verif.Props.Filter

/-! C26 for all lists of patterns, clashing ones too. -/

namespace Kagome

open Spec (any ownFeatures restsAfter Accepts Matches)

variable {pats : List (List Bytes)} {v x : Bytes} {rest : List Bytes}

/-- The heads that come first, each once. -/
def firstOnes (l : List Bytes) : List Bytes := l.foldl (fun acc v => if v ∈ acc then acc else acc ++ [v]) []

theorem firstOnes_snoc (l : List Bytes) (v : Bytes) : firstOnes (l ++ [v]) = if v ∈ firstOnes l then firstOnes l else firstOnes l ++ [v] := by
  unfold firstOnes
  rw [List.foldl_append]
  rfl

theorem snoc_induction {α : Type} {P : List α → Prop} (nil : P []) (snoc : ∀ l a, P l → P (l ++ [a])) (l : List α) : P l := by
  have : ∀ l : List α, P l.reverse := by
    intro l
    induction l with
    | nil => exact nil
    | cons a l ih => rw [List.reverse_cons]; exact snoc _ _ ih
  rw [← List.reverse_reverse l]
  exact this _

theorem mem_firstOnes (l : List Bytes) (x : Bytes) : x ∈ firstOnes l ↔ x ∈ l := by
  induction l using snoc_induction with
  | nil => simp [firstOnes]
  | snoc l v ih =>
    rw [firstOnes_snoc]
    split
    · rename_i hv
      rw [ih, List.mem_append, List.mem_singleton]
      constructor
      · exact Or.inl
      · rintro (h | rfl)
        · exact h
        · exact ih.mp hv
    · rw [List.mem_append, List.mem_append, ih]

/-- Some pattern begins with `any`. -/
def AnyHead (pats : List (List Bytes)) : Prop := any ∈ pats.filterMap List.head?

instance (pats : List (List Bytes)) : Decidable (AnyHead pats) := inferInstanceAs (Decidable (_ ∈ _))

/-- The labels of the edges at the root. -/
def labels (pats : List (List Bytes)) : List Bytes := firstOnes (ownFeatures pats) ++ (if AnyHead pats then [any] else [])

theorem any_not_own : any ∉ ownFeatures pats := by
  intro h
  have := List.all_takeWhile (p := fun v => decide (v ≠ any)) (l := pats.filterMap List.head?)
  rw [List.all_eq_true] at this
  have := this any h
  simp at this

theorem own_all (h : ¬ AnyHead pats) : ownFeatures pats = pats.filterMap List.head? := by
  unfold ownFeatures
  have hl : ∀ a ∈ pats.filterMap List.head?, decide (a ≠ any) = true := by
    intro a ha
    apply decide_eq_true
    rintro rfl
    exact h ha
  have := List.takeWhile_append_of_pos (l₂ := []) hl
  rw [List.append_nil, List.takeWhile_nil, List.append_nil] at this
  exact this

theorem own_snoc_any (h : AnyHead pats) (v : Bytes) (rest : List Bytes) : ownFeatures (pats ++ [v :: rest]) = ownFeatures pats := by
  unfold ownFeatures
  rw [List.filterMap_append]
  unfold AnyHead at h
  generalize pats.filterMap List.head? = l at h ⊢
  induction l with
  | nil => simp at h
  | cons a l ih =>
    by_cases ha : a = any
    · subst ha; simp
    · have : any ∈ l := by
        rcases List.mem_cons.mp h with e | e
        · exact absurd e.symm ha
        · exact e
      rw [List.cons_append, List.takeWhile_cons_of_pos (by simpa using ha), List.takeWhile_cons_of_pos (by simpa using ha), ih this]

theorem own_snoc (h : ¬ AnyHead pats) (v : Bytes) (rest : List Bytes) :
    ownFeatures (pats ++ [v :: rest]) = ownFeatures pats ++ (if v = any then [] else [v]) := by
  rw [own_all h]
  unfold ownFeatures
  rw [List.filterMap_append]
  have hl : ∀ a ∈ pats.filterMap List.head?, decide (a ≠ any) = true := by
    intro a ha
    apply decide_eq_true
    rintro rfl
    exact h ha
  rw [List.takeWhile_append_of_pos hl]
  congr 1
  by_cases hv : v = any
  · subst hv; simp
  · simp [hv]

theorem anyHead_snoc : AnyHead (pats ++ [v :: rest]) ↔ AnyHead pats ∨ v = any := by
  unfold AnyHead
  rw [List.filterMap_append, List.mem_append]
  simp [eq_comm]

/-- The label of the edge that a feature takes. -/
def labelOf (pats : List (List Bytes)) (v : Bytes) : Bytes := if v ∈ ownFeatures pats then v else any

theorem rests_label (pats : List (List Bytes)) (v : Bytes) : restsAfter pats (labelOf pats v) = restsAfter pats v := by
  unfold labelOf
  split
  · rfl
  · rename_i h
    unfold restsAfter
    simp only [h, any_not_own, if_false]

theorem own_mem_snoc (hv : v ∈ ownFeatures pats ∨ AnyHead pats) : ∀ x, x ∈ ownFeatures (pats ++ [v :: rest]) ↔ x ∈ ownFeatures pats := by
  intro x
  by_cases h : AnyHead pats
  · rw [own_snoc_any h]
  · have hv : v ∈ ownFeatures pats := hv.resolve_right h
    rw [own_snoc h, if_neg (fun e => any_not_own (e ▸ hv)), List.mem_append, List.mem_singleton]
    constructor
    · rintro (h | rfl)
      · exact h
      · exact hv
    · exact Or.inl

theorem labels_snoc_old (hv : v ∈ ownFeatures pats ∨ AnyHead pats) : labels (pats ++ [v :: rest]) = labels pats := by
  unfold labels
  by_cases h : AnyHead pats
  · rw [own_snoc_any h, if_pos h, if_pos (anyHead_snoc.mpr (Or.inl h))]
  · have hv : v ∈ ownFeatures pats := hv.resolve_right h
    have hne : v ≠ any := fun e => any_not_own (e ▸ hv)
    rw [own_snoc h, if_neg hne, firstOnes_snoc, if_pos ((mem_firstOnes _ _).mpr hv), if_neg h,
      if_neg (fun h' => (anyHead_snoc.mp h').elim h hne)]

theorem labels_snoc_new (hv : v ∉ ownFeatures pats) (h : ¬ AnyHead pats) : labels (pats ++ [v :: rest]) = labels pats ++ [v] := by
  unfold labels
  rw [own_snoc h, if_neg h]
  by_cases he : v = any
  · rw [if_pos he, if_pos (anyHead_snoc.mpr (Or.inr he)), he]; simp
  · rw [if_neg he, if_neg (fun h' => (anyHead_snoc.mp h').elim h he), firstOnes_snoc, if_neg (fun h' => hv ((mem_firstOnes _ _).mp h'))]; simp

theorem mem_labels (x : Bytes) : x ∈ labels pats ↔ x ∈ ownFeatures pats ∨ (x = any ∧ AnyHead pats) := by
  unfold labels
  rw [List.mem_append, mem_firstOnes]
  by_cases h : AnyHead pats <;> simp [h]

theorem firstOnes_nodup (l : List Bytes) : (firstOnes l).Nodup := by
  induction l using snoc_induction with
  | nil => exact List.nodup_nil
  | snoc l v ih =>
    rw [firstOnes_snoc]
    split
    · exact ih
    · rename_i h
      rw [List.nodup_append]
      refine ⟨ih, by simp, ?_⟩
      intro a ha b hb e
      rw [List.mem_singleton] at hb
      exact h (hb ▸ e ▸ ha)

theorem labels_nodup : (labels pats).Nodup := by
  unfold labels
  rw [List.nodup_append]
  refine ⟨firstOnes_nodup _, by split <;> simp, ?_⟩
  intro a ha b hb e
  split at hb
  · rw [List.mem_singleton] at hb
    rw [e, hb] at ha
    exact any_not_own ((mem_firstOnes _ _).mp ha)
  · simp at hb

theorem nodup_index {α : Type} {l : List α} (hl : l.Nodup) {i j : Nat} {a : α} (hi : l[i]? = some a) (hj : l[j]? = some a) : i = j := by
  obtain ⟨h1, e1⟩ := List.getElem?_eq_some_iff.mp hi
  obtain ⟨h2, e2⟩ := List.getElem?_eq_some_iff.mp hj
  exact (List.getElem_inj hl).mp (e1.trans e2.symm)

theorem set_same {α : Type} {l : List α} {i : Nat} {a : α} (hi : l[i]? = some a) : l.set i a = l := by
  obtain ⟨h, e⟩ := List.getElem?_eq_some_iff.mp hi
  rw [← e]
  exact List.set_getElem_self h

/-- The rests after another pattern, where its feature has an edge already. -/
theorem rests_snoc_old (hv : v ∈ ownFeatures pats ∨ AnyHead pats) {e : Bytes} (he : e ∈ labels pats) :
    restsAfter (pats ++ [v :: rest]) e = restsAfter pats e ++ (if e = labelOf pats v then [rest] else []) := by
  unfold restsAfter
  rw [List.filterMap_append]
  simp only [own_mem_snoc hv]
  congr 1
  rw [mem_labels] at he
  unfold labelOf
  by_cases h1 : e ∈ ownFeatures pats
  · by_cases h2 : v ∈ ownFeatures pats
    · by_cases h3 : v = e
      · simp [h1, h3]
      · simp [h1, h2, h3, Ne.symm h3]
    · have h3 : v ≠ e := fun h => h2 (h ▸ h1)
      have h4 : e ≠ any := fun h => any_not_own (h ▸ h1)
      simp [h1, h2, h3, h4]
  · have h4 : e = any := (he.resolve_left h1).1
    by_cases h2 : v ∈ ownFeatures pats
    · have h3 : v ≠ any := fun h => any_not_own (h ▸ h2)
      have h5 : any ≠ v := Ne.symm h3
      simp [h2, h4, any_not_own, h5]
    · simp [h2, h4, any_not_own]

theorem head_own (h : ¬ AnyHead pats) {p : List Bytes} (hp : p ∈ pats) {a : Bytes} {r : List Bytes} (e : p = a :: r) : a ∈ ownFeatures pats := by
  rw [own_all h]
  exact List.mem_filterMap.mpr ⟨p, hp, by rw [e]; rfl⟩

/-- ... and where it has none. -/
theorem rests_snoc_new (hv : v ∉ ownFeatures pats) (h : ¬ AnyHead pats) {e : Bytes} (he : e ∈ labels pats) :
    restsAfter (pats ++ [v :: rest]) e = restsAfter pats e := by
  have he1 : e ∈ ownFeatures pats := by
    rw [mem_labels] at he
    exact he.resolve_right (fun h' => h h'.2)
  have hne : v ≠ e := fun h' => hv (h' ▸ he1)
  have hm : e ∈ ownFeatures (pats ++ [v :: rest]) := by rw [own_snoc h]; exact List.mem_append_left _ he1
  unfold restsAfter
  rw [List.filterMap_append]
  simp only [hm, he1, if_true]
  simp [hne]

theorem rests_new (hv : v ∉ ownFeatures pats) (h : ¬ AnyHead pats) : restsAfter (pats ++ [v :: rest]) v = [rest] := by
  have hnone : ∀ p ∈ pats, p.head? ≠ some v := by
    intro p hp e
    cases p with
    | nil => simp at e
    | cons a r =>
      simp only [List.head?_cons, Option.some.injEq] at e
      exact hv (e ▸ head_own h hp rfl)
  have hall : ∀ p ∈ pats, ∀ a r, p = a :: r → a ∈ ownFeatures pats := fun p hp a r e => head_own h hp e
  unfold restsAfter
  rw [List.filterMap_append]
  have h1 : ∀ f : List Bytes → Option (List Bytes), (∀ p ∈ pats, f p = none) → pats.filterMap f = [] := by
    intro f hf
    rw [List.filterMap_eq_nil_iff]
    exact hf
  by_cases he : v = any
  · have hm : v ∉ ownFeatures (pats ++ [v :: rest]) := by rw [he]; exact any_not_own
    rw [h1]
    · simp [hm]
    · intro p hp
      cases p with
      | nil => rfl
      | cons a r =>
        have ha : a ∈ ownFeatures (pats ++ [v :: rest]) := by rw [own_snoc h]; exact List.mem_append_left _ (hall _ hp a r rfl)
        simp [hm, ha]
  · have hm : v ∈ ownFeatures (pats ++ [v :: rest]) := by rw [own_snoc h, if_neg he]; simp
    rw [h1]
    · simp [hm]
    · intro p hp
      cases p with
      | nil => rfl
      | cons a r =>
        have ha : a ≠ v := fun e => hv (e ▸ hall _ hp a r rfl)
        simp [hm, ha]

/-- The node for the rests of patterns: a leaf if one of them is used up. -/
def subTree (rests : List (List Bytes)) : FNode := if [] ∈ rests then .mk [] else addAll (.mk []) rests

theorem addAll_snoc (n : FNode) (pats : List (List Bytes)) (p : List Bytes) : addAll n (pats ++ [p]) = (addAll n pats).add p := by
  induction pats generalizing n with
  | nil => rfl
  | cons q pats ih => rw [List.cons_append, addAll, addAll, ih]

theorem addAll_not_leaf (hne : pats ≠ []) (hn : [] ∉ pats) : (addAll (.mk []) pats).isLeaf = false := by
  induction pats using snoc_induction with
  | nil => exact absurd rfl hne
  | snoc l a _ =>
    rw [addAll_snoc]
    cases a with
    | nil => exact absurd (by simp) hn
    | cons v r => exact add_not_leaf _ _ _

theorem rests_nonempty (he : x ∈ labels pats) : restsAfter pats x ≠ [] := by
  have : ∃ p ∈ pats, ∃ r, p = x :: r := by
    have hx : x ∈ pats.filterMap List.head? := by
      rcases (mem_labels x).mp he with h | ⟨h1, h2⟩
      · exact (List.takeWhile_sublist _).subset h
      · rw [h1]; exact h2
    obtain ⟨p, hp, e⟩ := List.mem_filterMap.mp hx
    cases p with
    | nil => simp at e
    | cons a r => simp only [List.head?_cons, Option.some.injEq] at e; exact ⟨_, hp, r, by rw [e]⟩
  obtain ⟨p, hp, r, rfl⟩ := this
  have hm : r ∈ restsAfter pats x := by
    unfold restsAfter
    rw [List.mem_filterMap]
    refine ⟨_, hp, ?_⟩
    by_cases h : x ∈ ownFeatures pats <;> simp [h]
  intro h
  rw [h] at hm
  simp at hm

theorem subTree_leaf (hr : rest ∈ pats) : (subTree pats).isLeaf = true ↔ [] ∈ pats := by
  unfold subTree
  split
  · rename_i h; simp [h, FNode.isLeaf]
  · rename_i h
    rw [addAll_not_leaf (fun e => by rw [e] at hr; simp at hr) h]
    simp [h]

theorem has_tree {n : FNode} (hn : n.fanout = (labels pats).map (fun e => (e, subTree (restsAfter pats e)))) (x : Bytes) :
    (x ∈ ownFeatures pats ∨ AnyHead pats → ∃ k, n.has x = some k ∧ (labels pats)[k]? = some (labelOf pats x)) ∧
    (¬ (x ∈ ownFeatures pats ∨ AnyHead pats) → n.has x = none) := by
  have hidx : n.has x = (labels pats).findIdx? (fun e => decide (e = any ∨ e = x)) := by
    rw [FNode.has_eq, hn, List.findIdx?_map]
    rfl
  constructor
  · intro hx
    have hex : ∃ e ∈ labels pats, e = any ∨ e = x := by
      rcases hx with h | h
      · exact ⟨x, (mem_labels x).mpr (Or.inl h), Or.inr rfl⟩
      · exact ⟨any, (mem_labels any).mpr (Or.inr ⟨rfl, h⟩), Or.inl rfl⟩
    cases hk : (labels pats).findIdx? (fun e => decide (e = any ∨ e = x)) with
    | none =>
      rw [List.findIdx?_eq_none_iff] at hk
      obtain ⟨e, h1, h2⟩ := hex
      have := hk e h1
      simp [h2] at this
    | some k =>
      refine ⟨k, by rw [hidx, hk], ?_⟩
      rw [List.findIdx?_eq_some_iff_getElem] at hk
      obtain ⟨hlt, h1, h2⟩ := hk
      rw [List.getElem?_eq_getElem hlt, Option.some.injEq]
      simp only [decide_eq_true_eq] at h1
      unfold labelOf
      by_cases hown : x ∈ ownFeatures pats
      · rw [if_pos hown]
        rcases h1 with h1 | h1
        · -- the edge `any` comes after all others
          exfalso
          obtain ⟨j, hj, ej⟩ := List.getElem_of_mem ((mem_firstOnes (ownFeatures pats) x).mpr hown)
          have hjl : j < (labels pats).length := by unfold labels; rw [List.length_append]; omega
          have ej' : (labels pats)[j] = x := (List.getElem_append_left hj).trans ej
          have hkj : ¬ k ≤ j := by
            intro hkj
            have hk1 : k < (firstOnes (ownFeatures pats)).length := by omega
            have : (labels pats)[k] = (firstOnes (ownFeatures pats))[k] := List.getElem_append_left hk1
            rw [this] at h1
            have : any ∈ firstOnes (ownFeatures pats) := by rw [← h1]; exact List.getElem_mem hk1
            exact any_not_own ((mem_firstOnes _ _).mp this)
          have := h2 j (by omega)
          simp [ej'] at this
        · exact h1
      · rw [if_neg hown]
        rcases h1 with h1 | h1
        · exact h1
        · have hm : x ∈ labels pats := by rw [← h1]; exact List.getElem_mem hlt
          rcases (mem_labels x).mp hm with h | ⟨h, _⟩
          · exact absurd h hown
          · exact h1.trans h
  · intro hx
    rw [hidx, List.findIdx?_eq_none_iff]
    intro e he
    apply decide_eq_false
    rintro (rfl | rfl)
    · rcases (mem_labels any).mp he with h | ⟨_, h⟩
      · exact any_not_own h
      · exact hx (Or.inr h)
    · rcases (mem_labels e).mp he with h | ⟨_, h⟩
      · exact hx (Or.inl h)
      · exact hx (Or.inr h)

/-- The tree: an edge for each label, and below it the tree for the rests. -/
theorem tree_fanout (hn : [] ∉ pats) : (addAll (.mk []) pats).fanout = (labels pats).map (fun e => (e, subTree (restsAfter pats e))) := by
  induction pats using snoc_induction with
  | nil => rfl
  | snoc l p ih =>
    have ih := ih (fun h => hn (List.mem_append_left _ h))
    cases p with
    | nil => exact absurd (by simp) hn
    | cons v rest =>
      rw [addAll_snoc]
      generalize addAll (.mk []) l = n at ih ⊢
      have hhas := has_tree ih v
      by_cases hv : v ∈ ownFeatures l ∨ AnyHead l
      · obtain ⟨k, hk, hlab⟩ := hhas.1 hv
        have hmem : labelOf l v ∈ labels l := List.mem_of_getElem? hlab
        have hget : n.fanout[k]? = some (labelOf l v, subTree (restsAfter l (labelOf l v))) := by
          rw [ih, List.getElem?_map, hlab]; rfl
        obtain ⟨r0, hr0⟩ := List.exists_mem_of_ne_nil _ (rests_nonempty hmem)
        have key : ∀ c, c = subTree (restsAfter l (labelOf l v) ++ [rest]) → n.fanout.set k (labelOf l v, c) =
            (labels (l ++ [v :: rest])).map (fun e => (e, subTree (restsAfter (l ++ [v :: rest]) e))) := by
          intro c hc
          rw [labels_snoc_old hv, ih]
          apply List.ext_getElem?
          intro i
          rw [List.getElem?_set, List.getElem?_map, List.getElem?_map, List.length_map]
          by_cases hi : k = i
          · subst hi
            have hlt : k < (labels l).length := by
              apply Nat.lt_of_not_le
              intro hle
              rw [List.getElem?_eq_none hle] at hlab
              cases hlab
            rw [if_pos rfl, if_pos hlt, hlab, Option.map_some, rests_snoc_old hv hmem, if_pos rfl, hc]
          · rw [if_neg hi]
            cases hg : (labels l)[i]? with
            | none => rfl
            | some e =>
              have heq : e ≠ labelOf l v := by
                intro heq
                exact hi (nodup_index labels_nodup hlab (heq ▸ hg))
              simp only [Option.map_some]
              rw [rests_snoc_old hv (List.mem_of_getElem? hg), if_neg heq, List.append_nil]
        rw [FNode.add, hk]
        simp only [hget]
        by_cases hleaf : (subTree (restsAfter l (labelOf l v))).isLeaf = true
        · rw [if_pos hleaf]
          rw [← key (subTree (restsAfter l (labelOf l v)))]
          · exact (set_same hget).symm
          · have := (subTree_leaf hr0).mp hleaf
            unfold subTree
            rw [if_pos this, if_pos (List.mem_append_left _ this)]
        · rw [if_neg hleaf]
          have hnl : [] ∉ restsAfter l (labelOf l v) := fun h => hleaf ((subTree_leaf hr0).mpr h)
          by_cases hrest : rest = []
          · rw [if_pos hrest, fanout_mk]
            apply key
            unfold subTree
            rw [if_pos (by simp [hrest])]
          · rw [if_neg hrest, fanout_mk]
            apply key
            unfold subTree
            rw [if_neg hnl, if_neg (by simp [hnl, Ne.symm hrest]), addAll_snoc]
      · have hv1 : v ∉ ownFeatures l := fun h => hv (Or.inl h)
        have hv2 : ¬ AnyHead l := fun h => hv (Or.inr h)
        rw [FNode.add, hhas.2 hv]
        simp only [fanout_mk]
        rw [labels_snoc_new hv1 hv2, List.map_append, ih]
        congr 1
        · apply List.map_congr_left
          intro e he
          rw [rests_snoc_new hv1 hv2 he]
        · simp only [List.map_cons, List.map_nil]
          rw [rests_new hv1 hv2]
          congr 2
          unfold subTree
          by_cases hrest : rest = []
          · rw [if_pos (by simp [hrest]), hrest]; rfl
          · rw [if_neg (by simp [Ne.symm hrest])]; rfl

theorem addAll_nonempty (n : FNode) (pats : List (List Bytes)) : addAll n pats = addAll n (pats.filter (fun p => decide (p ≠ []))) := by
  induction pats generalizing n with
  | nil => rfl
  | cons p pats ih =>
    cases p with
    | nil => rw [addAll, ih]; rfl
    | cons v r => rw [addAll, ih, List.filter_cons_of_pos (by simp), addAll]

theorem own_nonempty (pats : List (List Bytes)) : ownFeatures (pats.filter (fun p => decide (p ≠ []))) = ownFeatures pats := by
  unfold ownFeatures
  congr 1
  induction pats with
  | nil => rfl
  | cons p pats ih =>
    cases p with
    | nil => exact ih
    | cons v r => rw [List.filter_cons_of_pos (by simp), List.filterMap_cons, List.filterMap_cons, ih]

theorem rests_of_nonempty (pats : List (List Bytes)) (v : Bytes) : restsAfter (pats.filter (fun p => decide (p ≠ []))) v = restsAfter pats v := by
  unfold restsAfter
  rw [own_nonempty]
  generalize ownFeatures pats = o
  induction pats with
  | nil => rfl
  | cons p pats ih =>
    cases p with
    | nil => exact ih
    | cons a r => rw [List.filter_cons_of_pos (by simp), List.filterMap_cons, List.filterMap_cons, ih]

/-- Patterns among which no feature has an edge have no rests. -/
theorem rests_none (h1 : x ∉ ownFeatures pats) (h2 : ¬ AnyHead pats) : restsAfter pats x = [] := by
  unfold restsAfter
  rw [List.filterMap_eq_nil_iff]
  intro p hp
  cases p with
  | nil => rfl
  | cons a r =>
    have := head_own h2 hp rfl
    simp [h1, this]

theorem accepts_nil (fs : List Bytes) : ¬ Accepts [] fs := by
  induction fs with
  | nil => exact id
  | cons v fs ih =>
    rintro (h | h)
    · exact absurd h (by simp [restsAfter])
    · exact ih h

/-- For every list of patterns and every feature vector, the filter matches exactly when the patterns accept the vector. -/
theorem C26_exact (pats : List (List Bytes)) (fs : List Bytes) : (newFeaturesFilter pats).matchFeatures fs = true ↔ Accepts pats fs := by
  unfold newFeaturesFilter
  induction fs generalizing pats with
  | nil => simp [FNode.matchFeatures, Accepts]
  | cons v fs ih =>
    rw [addAll_nonempty, matchFeatures_cons, Accepts, ← rests_of_nonempty]
    have hn : [] ∉ pats.filter (fun p => decide (p ≠ [])) := by simp
    generalize pats.filter (fun p => decide (p ≠ [])) = ps at hn ⊢
    have htree := tree_fanout hn
    have hhas := has_tree htree v
    by_cases hv : v ∈ ownFeatures ps ∨ AnyHead ps
    · obtain ⟨k, hk, hlab⟩ := hhas.1 hv
      have hmem : labelOf ps v ∈ labels ps := List.mem_of_getElem? hlab
      obtain ⟨r0, hr0⟩ := List.exists_mem_of_ne_nil _ (rests_nonempty hmem)
      have hget : (addAll (.mk []) ps).fanout[k]? = some (labelOf ps v, subTree (restsAfter ps v)) := by
        rw [htree, List.getElem?_map, hlab, Option.map_some, rests_label]
      rw [rests_label] at hr0
      rw [hk]
      simp only [hget]
      by_cases hleaf : [] ∈ restsAfter ps v
      · rw [(subTree_leaf hr0).mpr hleaf]
        simp [hleaf]
      · rw [Bool.eq_false_iff.mpr (fun h => hleaf ((subTree_leaf hr0).mp h)), Bool.false_or]
        unfold subTree
        rw [if_neg hleaf, ih]
        simp [hleaf]
    · rw [hhas.2 hv, rests_none (fun h => hv (Or.inl h)) (fun h => hv (Or.inr h))]
      simp [accepts_nil]

/-- Patterns that do not clash accept what starts with one of them. -/
theorem C26_noclash {pats : List (List Bytes)} (h : Spec.NoClash pats) (fs : List Bytes) : Accepts pats fs ↔ Matches pats fs :=
  (C26_exact pats fs).symm.trans (C26_matches h fs)

/-- The rests after any feature, with one more pattern at the end: those there were, and perhaps the rest of that pattern. -/
theorem rests_snoc (pats : List (List Bytes)) (p : List Bytes) (x : Bytes) :
    restsAfter (pats ++ [p]) x = restsAfter pats x ∨
      ∃ v rest, p = v :: rest ∧ restsAfter (pats ++ [p]) x = restsAfter pats x ++ [rest] ∧
        (p ∈ pats → rest ∈ restsAfter pats x) := by
  cases p with
  | nil =>
    left
    rw [← rests_of_nonempty, ← rests_of_nonempty pats]
    simp
  | cons v rest =>
    by_cases hv : v ∈ ownFeatures pats ∨ AnyHead pats
    · have e : restsAfter (pats ++ [v :: rest]) x = restsAfter pats x ++
          (if (if x ∈ ownFeatures pats then v = x else v ∉ ownFeatures pats) then [rest] else []) := by
        unfold restsAfter
        rw [List.filterMap_append]
        simp only [own_mem_snoc hv]
        congr 1
        by_cases h : if x ∈ ownFeatures pats then v = x else v ∉ ownFeatures pats <;> simp [h]
      by_cases h : if x ∈ ownFeatures pats then v = x else v ∉ ownFeatures pats
      · right
        rw [if_pos h] at e
        refine ⟨v, rest, rfl, e, fun hp => ?_⟩
        unfold restsAfter
        rw [List.mem_filterMap]
        exact ⟨_, hp, by simp only [h, if_true]⟩
      · left
        rw [if_neg h, List.append_nil] at e
        exact e
    · have hv1 : v ∉ ownFeatures pats := fun h => hv (Or.inl h)
      have hv2 : ¬ AnyHead pats := fun h => hv (Or.inr h)
      by_cases hx : x ∈ ownFeatures pats
      · left
        exact rests_snoc_new hv1 hv2 ((mem_labels x).mpr (Or.inl hx))
      · rw [rests_none hx hv2]
        by_cases hx' : x ∈ ownFeatures (pats ++ [v :: rest]) ∨ AnyHead (pats ++ [v :: rest])
        · right
          refine ⟨v, rest, rfl, ?_, fun hp => absurd (head_own hv2 hp rfl) hv1⟩
          rw [List.nil_append, ← rests_new (rest := rest) hv1 hv2]
          by_cases hxv : x = v
          · rw [hxv]
          · have hxo : x ∉ ownFeatures (pats ++ [v :: rest]) := by
              rw [own_snoc hv2, List.mem_append]
              rintro (h | h)
              · exact hx h
              · split at h
                · simp at h
                · exact hxv (List.mem_singleton.mp h)
            have hva : v = any := (anyHead_snoc.mp (hx'.resolve_left hxo)).resolve_left hv2
            rw [hva] at hxo ⊢
            unfold restsAfter
            simp only [hxo, any_not_own, if_false]
        · left
          exact rests_none (fun h => hx' (Or.inl h)) (fun h => hx' (Or.inr h))

/-- C27 for all patterns: giving a pattern again at the end changes nothing. -/
theorem C27_again {p : List Bytes} (hp : p ∈ pats) (fs : List Bytes) :
    (newFeaturesFilter (pats ++ [p])).matchFeatures fs = (newFeaturesFilter pats).matchFeatures fs := by
  rw [Bool.eq_iff_iff, C26_exact, C26_exact]
  induction fs generalizing pats p with
  | nil => exact Iff.rfl
  | cons v fs ih =>
    rw [Accepts, Accepts]
    rcases rests_snoc pats p v with e | ⟨_, rest, rfl, e, hr⟩
    · rw [e]
    · have hr := hr hp
      rw [e, ih hr, List.mem_append, List.mem_singleton]
      constructor
      · rintro ((h | h) | h)
        · exact Or.inl h
        · exact Or.inl (h ▸ hr)
        · exact Or.inr h
      · rintro (h | h)
        · exact Or.inl (Or.inl h)
        · exact Or.inr h

/-- More patterns at the end match more: what matched still does, whatever the patterns. -/
theorem C27_more (pats more : List (List Bytes)) (fs : List Bytes) (h : (newFeaturesFilter pats).matchFeatures fs = true) :
    (newFeaturesFilter (pats ++ more)).matchFeatures fs = true := by
  have one : ∀ (fs : List Bytes) (pats : List (List Bytes)) (p : List Bytes), Accepts pats fs → Accepts (pats ++ [p]) fs := by
    intro fs
    induction fs with
    | nil => intro _ _ h; exact h
    | cons v fs ih =>
      intro pats p h
      rw [Accepts] at h ⊢
      rcases rests_snoc pats p v with e | ⟨_, rest, rfl, e, _⟩
      · rw [e]; exact h
      · rw [e]
        exact h.imp (List.mem_append_left _) (ih _ _)
  induction more using snoc_induction with
  | nil => rw [List.append_nil]; exact h
  | snoc l p ih =>
    rw [← List.append_assoc, C26_exact]
    exact one _ _ _ ((C26_exact _ _).mp ih)

/-- A pattern put in front can take matches away: the order of the patterns matters. -/
theorem C27_less : ∃ p pats fs, (newFeaturesFilter pats).matchFeatures fs = true ∧ (newFeaturesFilter (p :: pats)).matchFeatures fs = false :=
  ⟨[str "a", str "b"], [[any]], [str "a", str "c"], by decide +kernel⟩

/-- A clash: the pattern is in the list, but the list accepts what it does not match. -/
example : [str "a", str "c"] ∈ [[any, str "b"], [str "a", str "c"]] ∧
    (newFeaturesFilter ([[any, str "b"], [str "a", str "c"]] ++ [[str "a", str "c"]])).matchFeatures [str "x", str "c"] = true := by decide +kernel

/-- Both kinds of clash: the pattern `any` after `a` is not looked at for `a`, and the pattern `a, c` after `any` is looked at for every feature. -/
example : ¬ Accepts [[str "a", str "b"], [any]] [str "a", str "c"] ∧ Accepts [[str "a", str "b"], [any]] [str "x"] ∧
    Accepts [[any, str "b"], [str "a", str "c"]] [str "x", str "c"] ∧ ¬ Accepts [[any, str "b"], [str "a", str "c"]] [str "x", str "d"] := by
  simp only [← C26_exact]
  decide +kernel

end Kagome
