import Verif.Model.Filter
import Verif.Spec.Filter

/-! The pattern tree behind a features filter. -/

namespace Kagome

open Spec (any)

@[simp] theorem fanout_mk (es : List (Bytes × FNode)) : (FNode.mk es).fanout = es := rfl

/-- The edge test of `has`. -/
def edgeTest (x : Bytes) : Bytes × FNode → Bool := fun e => decide (e.1 = anyFeature ∨ e.1 = x)

theorem FNode.has_eq (n : FNode) (x : Bytes) : n.has x = n.fanout.findIdx? (edgeTest x) := rfl

/-- Pattern prefix, by recursion. -/
def patMatch : List Bytes → List Bytes → Bool
  | [], _ => true
  | _ :: _, [] => false
  | a :: p, x :: fs => (decide (a = anyFeature ∨ a = x)) && patMatch p fs

theorem patMatch_iff (p fs : List Bytes) : patMatch p fs = true ↔ Spec.PatternPrefix p fs := by
  unfold Spec.PatternPrefix
  induction p generalizing fs with
  | nil => simp [patMatch]
  | cons a p ih =>
    cases fs with
    | nil => simp [patMatch]
    | cons x fs =>
      simp only [patMatch, Bool.and_eq_true, decide_eq_true_eq, ih, List.length_cons, Nat.add_le_add_iff_right]
      constructor
      · rintro ⟨h1, h2, h3⟩
        refine ⟨h2, ?_⟩
        intro i b hb
        cases i with
        | zero =>
          simp only [List.getElem?_cons_zero, Option.some.injEq] at hb ⊢
          subst hb
          rcases h1 with h1 | h1
          · exact Or.inl h1
          · exact Or.inr h1.symm
        | succ i =>
          simp only [List.getElem?_cons_succ] at hb ⊢
          exact h3 i b hb
      · rintro ⟨h2, h3⟩
        refine ⟨?_, h2, ?_⟩
        · have := h3 0 a (by simp)
          simp only [List.getElem?_cons_zero, Option.some.injEq] at this
          rcases this with h | h
          · exact Or.inl h
          · exact Or.inr h.symm
        · intro i b hb
          have := h3 (i + 1) b (by simpa using hb)
          simpa using this

theorem findIdx?_set_label {l : List (Bytes × FNode)} {k : Nat} {val : Bytes} {c c' : FNode} (h : l[k]? = some (val, c)) (x : Bytes) :
    (l.set k (val, c')).findIdx? (edgeTest x) = l.findIdx? (edgeTest x) := by
  induction l generalizing k with
  | nil => simp at h
  | cons e l ih =>
    cases k with
    | zero =>
      simp only [List.getElem?_cons_zero, Option.some.injEq] at h
      subst h
      simp [List.findIdx?_cons, edgeTest]
    | succ k =>
      simp only [List.getElem?_cons_succ] at h
      simp only [List.set_cons_succ, List.findIdx?_cons, ih h]

/-- The edges of `n` and a feature `v` of a pattern fit together: `any` is alone. -/
def HeadFits (n : FNode) (v : Bytes) : Prop :=
  (v = anyFeature → ∀ e ∈ n.fanout, e.1 = anyFeature) ∧ (v ≠ anyFeature → ∀ e ∈ n.fanout, e.1 ≠ anyFeature)

/-- A pattern fits a tree: along its path in the tree, `any` is alone. -/
def Compat (n : FNode) : List Bytes → Prop
  | [] => True
  | v :: rest => HeadFits n v ∧ ∀ k c, n.has v = some k → n.fanout[k]? = some (v, c) → c.isLeaf = false → Compat c rest

/-- Two patterns do not clash. -/
def Agree : List Bytes → List Bytes → Prop
  | a :: p, b :: q => (a = b → Agree p q) ∧ (a ≠ b → a ≠ anyFeature ∧ b ≠ anyFeature)
  | _, _ => True

theorem compat_leaf (p : List Bytes) : Compat (.mk []) p := by
  cases p with
  | nil => trivial
  | cons v rest =>
    refine ⟨⟨by simp [fanout_mk], by simp [fanout_mk]⟩, ?_⟩
    intro k c h
    simp [FNode.has, fanout_mk] at h

theorem has_label {n : FNode} {v : Bytes} (hf : HeadFits n v) {k : Nat} (h : n.has v = some k) : ∃ c, n.fanout[k]? = some (v, c) := by
  rw [FNode.has_eq, List.findIdx?_eq_some_iff_getElem] at h
  obtain ⟨hk, h1, _⟩ := h
  refine ⟨n.fanout[k].2, ?_⟩
  rw [List.getElem?_eq_getElem hk, Option.some.injEq]
  have hm := List.getElem_mem hk
  simp only [edgeTest, decide_eq_true_eq] at h1
  have : n.fanout[k].1 = v := by
    by_cases hv : v = anyFeature
    · rw [hf.1 hv _ hm, hv]
    · rcases h1 with h1 | h1
      · exact absurd h1 (hf.2 hv _ hm)
      · exact h1
  exact Prod.ext this rfl

theorem findIdx?_congr' {l : List (Bytes × FNode)} {p q : Bytes × FNode → Bool} (h : ∀ e ∈ l, p e = q e) : l.findIdx? p = l.findIdx? q := by
  induction l with
  | nil => rfl
  | cons e l ih =>
    rw [List.findIdx?_cons, List.findIdx?_cons, h e (by simp), ih (fun e he => h e (by simp [he]))]

theorem has_same {n : FNode} {v x : Bytes} (hf : HeadFits n v) (h : v = anyFeature ∨ v = x) : n.has x = n.has v := by
  rcases h with h | rfl
  · rw [FNode.has_eq, FNode.has_eq]
    apply findIdx?_congr'
    intro e he
    simp [edgeTest, hf.1 h e he]
  · rfl

theorem has_other {n : FNode} {v x : Bytes} {k : Nat} {c : FNode} (hk : n.fanout[k]? = some (v, c)) (h : ¬ (v = anyFeature ∨ v = x)) :
    n.has x ≠ some k := by
  intro hx
  rw [FNode.has_eq, List.findIdx?_eq_some_iff_getElem] at hx
  obtain ⟨hl, h1, _⟩ := hx
  rw [List.getElem?_eq_getElem hl, Option.some.injEq] at hk
  rw [hk] at h1
  simp only [edgeTest, decide_eq_true_eq] at h1
  exact h h1

theorem has_lt {n : FNode} {x : Bytes} {k : Nat} (h : n.has x = some k) : k < n.fanout.length := by
  rw [FNode.has_eq, List.findIdx?_eq_some_iff_getElem] at h
  exact h.1

theorem matchFeatures_cons (n : FNode) (x : Bytes) (xs : List Bytes) :
    n.matchFeatures (x :: xs) = match n.has x with
      | none => false
      | some k => match n.fanout[k]? with
        | none => false
        | some (_, c) => c.isLeaf || c.matchFeatures xs := by
  rw [FNode.matchFeatures]
  cases n.has x with
  | none => rfl
  | some k =>
    simp only
    cases n.fanout[k]? with
    | none => rfl
    | some e => obtain ⟨_, c⟩ := e; cases h : c.isLeaf <;> simp [h]

theorem isLeaf_iff (n : FNode) : n.isLeaf = true ↔ n = .mk [] := by
  cases n with
  | mk es => simp [FNode.isLeaf, fanout_mk]

/-- Replacing what an edge points to changes the matches below that edge only. -/
theorem match_set {n : FNode} {k : Nat} {v : Bytes} {c c' : FNode} (hk : n.fanout[k]? = some (v, c)) (x : Bytes) (xs : List Bytes) :
    (FNode.mk (n.fanout.set k (v, c'))).matchFeatures (x :: xs) =
      if n.has x = some k then c'.isLeaf || c'.matchFeatures xs else n.matchFeatures (x :: xs) := by
  rw [matchFeatures_cons, matchFeatures_cons]
  have h1 : (FNode.mk (n.fanout.set k (v, c'))).has x = n.has x := by
    rw [FNode.has_eq, FNode.has_eq]
    exact findIdx?_set_label hk x
  rw [h1]
  cases hx : n.has x with
  | none => simp
  | some j =>
    have hj := has_lt hx
    simp only [Option.some.injEq]
    by_cases hjk : j = k
    · subst hjk
      simp [fanout_mk, hj]
    · simp only [fanout_mk, hjk, if_false]
      rw [List.getElem?_set_ne (fun h => hjk h.symm)]

/-- Adding an edge changes the matches of the features that had no edge. -/
theorem match_append {n : FNode} {v : Bytes} {c : FNode} (x : Bytes) (xs : List Bytes) :
    (FNode.mk (n.fanout ++ [(v, c)])).matchFeatures (x :: xs) =
      if n.has x = none then decide (v = anyFeature ∨ v = x) && (c.isLeaf || c.matchFeatures xs) else n.matchFeatures (x :: xs) := by
  rw [matchFeatures_cons, matchFeatures_cons]
  have h1 : (FNode.mk (n.fanout ++ [(v, c)])).has x =
      (n.has x).or (if decide (v = anyFeature ∨ v = x) then some n.fanout.length else none) := by
    rw [FNode.has_eq, FNode.has_eq]
    simp only [fanout_mk, List.findIdx?_append, List.findIdx?_cons, List.findIdx?_nil, edgeTest]
    by_cases h : v = anyFeature ∨ v = x
    · simp only [h, decide_true, if_true, Option.map_some, Nat.zero_add]
    · simp only [h, decide_false, Bool.false_eq_true, if_false, Option.map_none]
  rw [h1]
  cases hx : n.has x with
  | none =>
    by_cases hv : v = anyFeature ∨ v = x
    · simp [hv, fanout_mk]
    · simp [hv]
  | some j =>
    have hj := has_lt hx
    simp only [Option.some_or]
    rw [if_neg (by simp)]
    simp only [fanout_mk]
    rw [List.getElem?_append_left hj]

theorem match_nil (n : FNode) : n.matchFeatures [] = false := by rw [FNode.matchFeatures]

theorem match_leaf (fs : List Bytes) : (FNode.mk []).matchFeatures fs = false := by
  cases fs with
  | nil => exact match_nil _
  | cons x xs => rw [matchFeatures_cons]; rfl

theorem add_not_leaf (n : FNode) (v : Bytes) (rest : List Bytes) : (n.add (v :: rest)).isLeaf = false := by
  rw [FNode.add]
  have key : ∀ k, n.has v = some k → n.isLeaf = false := by
    intro k hk
    have := has_lt hk
    cases hl : n.isLeaf with
    | false => rfl
    | true =>
      rw [isLeaf_iff] at hl
      subst hl; simp [fanout_mk] at this
  cases hk : n.has v with
  | none => simp [FNode.isLeaf, fanout_mk]
  | some k =>
    simp only
    cases he : n.fanout[k]? with
    | none => exact key k hk
    | some e =>
      obtain ⟨val, to⟩ := e
      have hne : n.fanout ≠ [] := by intro h; rw [h] at he; simp at he
      simp only
      split
      · exact key k hk
      · split <;> simp [FNode.isLeaf, fanout_mk, hne] <;> exact hne

/-- Adding a pattern that fits the tree adds exactly its matches. -/
theorem add_match {p : List Bytes} (hp : p ≠ []) {n : FNode} (hc : Compat n p) (fs : List Bytes) :
    (n.add p).matchFeatures fs = (n.matchFeatures fs || patMatch p fs) := by
  induction p generalizing n fs with
  | nil => exact absurd rfl hp
  | cons v rest ih =>
    cases fs with
    | nil => rw [match_nil, match_nil]; rfl
    | cons x xs =>
      obtain ⟨hf, hsub⟩ := hc
      simp only [patMatch]
      rw [FNode.add]
      cases hk : n.has v with
      | none =>
        simp only
        rw [match_append]
        by_cases hv : v = anyFeature ∨ v = x
        · have hx : n.has x = none := (has_same hf hv).trans hk
          have hnx : n.matchFeatures (x :: xs) = false := by rw [matchFeatures_cons, hx]
          simp only [hx, if_true, hnx, hv, decide_true, Bool.true_and, Bool.false_or]
          cases rest with
          | nil => simp [FNode.add, FNode.isLeaf, fanout_mk, patMatch]
          | cons w r =>
            rw [add_not_leaf, ih (by simp) (compat_leaf _), match_leaf]
            simp
        · simp only [hv, decide_false, Bool.false_and, Bool.or_false]
          split
          · rename_i hx; rw [matchFeatures_cons, hx]
          · rfl
      | some k =>
        obtain ⟨c, he⟩ := has_label hf hk
        simp only [he]
        by_cases hl : c.isLeaf = true
        · simp only [hl, if_true]
          by_cases hv : v = anyFeature ∨ v = x
          · have hx : n.has x = some k := (has_same hf hv).trans hk
            rw [matchFeatures_cons, hx]
            simp [he, hl]
          · simp [hv]
        · simp only [hl]
          have hl' : c.isLeaf = false := by simpa using hl
          have hgen : ∀ c' : FNode, (c'.isLeaf || c'.matchFeatures xs) = (c.matchFeatures xs || patMatch rest xs) →
              (FNode.mk (n.fanout.set k (v, c'))).matchFeatures (x :: xs) =
                (n.matchFeatures (x :: xs) || decide (v = anyFeature ∨ v = x) && patMatch rest xs) := by
            intro c' hc'
            rw [match_set he]
            by_cases hv : v = anyFeature ∨ v = x
            · have hx : n.has x = some k := (has_same hf hv).trans hk
              rw [if_pos hx, hc', matchFeatures_cons, hx]
              simp [he, hl', hv]
            · rw [if_neg (has_other he hv)]
              simp [hv]
          cases rest with
          | nil =>
            exact hgen (.mk []) (by simp [FNode.isLeaf, fanout_mk, patMatch])
          | cons w r =>
            simp only [List.cons_ne_nil, if_false]
            apply hgen
            rw [add_not_leaf, ih (by simp) (hsub k c hk he hl')]
            simp

theorem compat_set {n : FNode} {k : Nat} {v w : Bytes} {c c' : FNode} {q : List Bytes} (hk : n.fanout[k]? = some (v, c))
    (hq : Compat n (w :: q)) (hc' : n.has w = some k → w = v → c'.isLeaf = false → Compat c' q) :
    Compat (.mk (n.fanout.set k (v, c'))) (w :: q) := by
  obtain ⟨hf, hsub⟩ := hq
  have hm := List.mem_of_getElem? hk
  refine ⟨⟨?_, ?_⟩, ?_⟩
  · intro hw e he
    rcases List.mem_or_eq_of_mem_set he with h | rfl
    · exact hf.1 hw e h
    · exact hf.1 hw (v, c) hm
  · intro hw e he
    rcases List.mem_or_eq_of_mem_set he with h | rfl
    · exact hf.2 hw e h
    · exact hf.2 hw (v, c) hm
  · intro j d hj hd hleaf
    have h1 : (FNode.mk (n.fanout.set k (v, c'))).has w = n.has w := by
      rw [FNode.has_eq, FNode.has_eq]
      exact findIdx?_set_label hk w
    rw [h1] at hj
    have hjl := has_lt hj
    simp only [fanout_mk] at hd
    by_cases hjk : j = k
    · subst hjk
      change (n.fanout.set j (v, c'))[j]? = _ at hd
      rw [List.getElem?_set_self hjl, Option.some.injEq, Prod.mk.injEq] at hd
      obtain ⟨rfl, rfl⟩ := hd
      exact hc' hj rfl hleaf
    · change (n.fanout.set k (v, c'))[j]? = _ at hd
      rw [List.getElem?_set_ne (fun h => hjk h.symm)] at hd
      exact hsub j d hj hd hleaf

/-- A pattern that fits a tree still fits after adding one that it does not clash with. -/
theorem add_compat {p q : List Bytes} {n : FNode} (hp : Compat n p) (hq : Compat n q) (ha : Agree p q) : Compat (n.add p) q := by
  induction p generalizing n q with
  | nil => rw [FNode.add]; exact hq
  | cons v rest ih =>
    cases q with
    | nil => trivial
    | cons w q =>
      obtain ⟨ha1, ha2⟩ := ha
      obtain ⟨hf, hsub⟩ := hp
      rw [FNode.add]
      cases hk : n.has v with
      | none =>
        simp only
        obtain ⟨hqf, hqsub⟩ := hq
        refine ⟨⟨?_, ?_⟩, ?_⟩
        · intro hw e he
          simp only [fanout_mk, List.mem_append, List.mem_singleton] at he
          rcases he with he | rfl
          · exact hqf.1 hw e he
          · by_cases h : v = w
            · simp only; rw [h]; exact hw
            · exact absurd hw (ha2 h).2
        · intro hw e he
          simp only [fanout_mk, List.mem_append, List.mem_singleton] at he
          rcases he with he | rfl
          · exact hqf.2 hw e he
          · by_cases h : v = w
            · simp only; rw [h]; exact hw
            · exact (ha2 h).1
        · intro j d hj hd hleaf
          rw [FNode.has_eq] at hj
          simp only [fanout_mk, List.findIdx?_append] at hj
          cases ho : n.has w with
          | some i =>
            have ho' := ho
            rw [FNode.has_eq] at ho
            change Option.or (n.fanout.findIdx? (edgeTest w)) _ = _ at hj
            rw [ho, Option.some_or, Option.some.injEq] at hj
            subst hj
            simp only [fanout_mk] at hd
            rw [List.getElem?_append_left (has_lt ho')] at hd
            exact hqsub i d ho' hd hleaf
          | none =>
            rw [FNode.has_eq] at ho
            change Option.or (n.fanout.findIdx? (edgeTest w)) _ = _ at hj
            rw [ho, Option.none_or] at hj
            have hj' : j = n.fanout.length := by
              simp only [List.findIdx?_cons, List.findIdx?_nil] at hj
              split at hj <;> simp at hj
              exact hj.symm
            subst hj'
            simp only [fanout_mk] at hd
            change (n.fanout ++ [(v, (FNode.mk []).add rest)])[n.fanout.length]? = _ at hd
            rw [List.getElem?_concat_length, Option.some.injEq, Prod.mk.injEq] at hd
            obtain ⟨rfl, rfl⟩ := hd
            exact ih (compat_leaf _) (compat_leaf _) (ha1 rfl)
      | some k =>
        obtain ⟨c, he⟩ := has_label hf hk
        simp only [he]
        by_cases hl : c.isLeaf = true
        · simp only [hl, if_true]; exact hq
        · have hl' : c.isLeaf = false := by simpa using hl
          simp only [hl]
          by_cases hr : rest = []
          · simp only [hr, if_true]
            apply compat_set he hq
            intro _ _ h; simp [FNode.isLeaf, fanout_mk] at h
          · simp only [hr, if_false]
            apply compat_set he hq
            intro hw hwv _
            subst hwv
            exact ih (hsub k c hk he hl') (hq.2 k c hw he hl') (ha1 rfl)

theorem addAll_match {pats : List (List Bytes)} {n : FNode} (hc : ∀ p ∈ pats, Compat n p) (ha : ∀ p ∈ pats, ∀ q ∈ pats, Agree p q)
    (fs : List Bytes) :
    (addAll n pats).matchFeatures fs = (n.matchFeatures fs || pats.any (fun p => decide (p ≠ []) && patMatch p fs)) := by
  induction pats generalizing n with
  | nil => simp [addAll]
  | cons p pats ih =>
    rw [addAll, ih]
    · rw [List.any_cons, ← Bool.or_assoc]
      congr 1
      by_cases hp : p = []
      · subst hp; simp [FNode.add]
      · rw [add_match hp (hc p (by simp))]; simp [hp]
    · intro q hq
      exact add_compat (hc p (by simp)) (hc q (by simp [hq])) (ha p (by simp) q (by simp [hq]))
    · exact fun p hp q hq => ha p (by simp [hp]) q (by simp [hq])

theorem agree_of {p q : List Bytes}
    (h : ∀ common a b p' q', p = common ++ a :: p' → q = common ++ b :: q' → a ≠ b → a ≠ anyFeature ∧ b ≠ anyFeature) : Agree p q := by
  induction p generalizing q with
  | nil => trivial
  | cons v p ih =>
    cases q with
    | nil => trivial
    | cons w q =>
      refine ⟨?_, fun hne => h [] v w p q rfl rfl hne⟩
      rintro rfl
      apply ih
      intro common a b p' q' hp hq hne
      exact h (v :: common) a b p' q' (by rw [hp]; rfl) (by rw [hq]; rfl) hne

theorem agree_split {p q : List Bytes} (h : Agree p q) {common p' q' : List Bytes} {a b : Bytes} (hp : p = common ++ a :: p')
    (hq : q = common ++ b :: q') (hne : a ≠ b) : a ≠ anyFeature ∧ b ≠ anyFeature := by
  induction common generalizing p q with
  | nil =>
    subst hp; subst hq
    exact h.2 hne
  | cons c common ih =>
    subst hp; subst hq
    exact ih (h.1 rfl) rfl rfl

instance decAgree : (p q : List Bytes) → Decidable (Agree p q)
  | [], _ => .isTrue trivial
  | _ :: _, [] => .isTrue trivial
  | a :: p, b :: q =>
    have := decAgree p q
    inferInstanceAs (Decidable ((a = b → Agree p q) ∧ (a ≠ b → a ≠ anyFeature ∧ b ≠ anyFeature)))

end Kagome
