import Verif.Proof.Filter
import Verif.Props.Token

/-! C26-C30 and C32: the filters. -/

namespace Kagome

open Spec

/-! ### C26 -/

/-- C26: a features filter matches exactly the feature vectors that start with one of its patterns, when no two patterns clash. -/
theorem C26_matches {pats : List (List Bytes)} (h : NoClash pats) (fs : List Bytes) :
    (newFeaturesFilter pats).matchFeatures fs = true ↔ Matches pats fs := by
  unfold newFeaturesFilter
  rw [addAll_match (fun p _ => compat_leaf p) (fun p hp q hq => agree_of (h p hp q hq)), match_leaf, Bool.false_or, List.any_eq_true]
  constructor
  · rintro ⟨p, hp, hm⟩
    simp only [Bool.and_eq_true, decide_eq_true_eq] at hm
    exact ⟨p, hp, hm.1, (patMatch_iff p fs).mp hm.2⟩
  · rintro ⟨p, hp, hne, hm⟩
    refine ⟨p, hp, ?_⟩
    simp only [Bool.and_eq_true, decide_eq_true_eq]
    exact ⟨hne, (patMatch_iff p fs).mpr hm⟩

/-- Patterns without `Any` never clash. -/
theorem noClash_literal {pats : List (List Bytes)} (h : ∀ p ∈ pats, any ∉ p) : NoClash pats := by
  intro p hp q hq common a b p' q' e1 e2 _
  refine ⟨?_, ?_⟩
  · rintro rfl; exact h p hp (by rw [e1]; simp)
  · rintro rfl; exact h q hq (by rw [e2]; simp)

/-- C26 for patterns without `Any`: some pattern is a prefix of the vector. -/
theorem C26_literal {pats : List (List Bytes)} (h : ∀ p ∈ pats, any ∉ p) (fs : List Bytes) :
    (newFeaturesFilter pats).matchFeatures fs = true ↔ ∃ p ∈ pats, p ≠ [] ∧ p <+: fs := by
  rw [C26_matches (noClash_literal h)]
  constructor
  · rintro ⟨p, hp, hne, hl, hm⟩
    refine ⟨p, hp, hne, ?_⟩
    rw [List.prefix_iff_getElem?]
    intro i hi
    rcases hm i p[i] (List.getElem?_eq_getElem hi) with h' | h'
    · exact absurd (h' ▸ List.getElem_mem hi) (h p hp)
    · exact h'
  · rintro ⟨p, hp, hne, hpre⟩
    refine ⟨p, hp, hne, hpre.length_le, ?_⟩
    intro i a ha
    right
    obtain ⟨t, rfl⟩ := hpre
    rw [List.getElem?_append_left (List.getElem?_eq_some_iff.mp ha).1, ha]

/-- A way to check that patterns do not clash. -/
theorem noClash_of_agree {pats : List (List Bytes)} (h : ∀ p ∈ pats, ∀ q ∈ pats, Agree p q) : NoClash pats :=
  fun p hp q hq _ _ _ _ _ e1 e2 hne => agree_split (h p hp q hq) e1 e2 hne

/-- Patterns with `Any` that do not clash: C26 applies to them. -/
example : NoClash [[str "動詞", any, str "一般"], [str "動詞", any, str "*"], [str "名詞"]] := noClash_of_agree (by decide +kernel)

example : (newFeaturesFilter [[str "動詞", any, str "一般"], [str "名詞"]]).matchFeatures [str "動詞", str "自立", str "一般", str "x"] = true ∧
    (newFeaturesFilter [[str "動詞", any, str "一般"], [str "名詞"]]).matchFeatures [str "動詞", str "自立"] = false ∧
    (newFeaturesFilter [[str "名詞", str "一般"], [str "名詞"]]).matchFeatures [str "名詞", str "固有"] = true := by decide +kernel

/-- In general C26 fails in both directions: an earlier literal hides a later `Any` (a matching vector is refused) ... -/
theorem C26_clash_missed :
    ∃ pats fs, Matches pats fs ∧ (newFeaturesFilter pats).matchFeatures fs = false := by
  refine ⟨[[str "a", str "b"], [any]], [str "a", str "c"], ⟨[any], by simp, by simp, ?_⟩, by decide +kernel⟩
  exact (patMatch_iff _ _).mp (by decide +kernel)

/-- ... and an earlier `Any` takes in the rest of a later literal pattern (a vector that matches no pattern is accepted). -/
theorem C26_clash_spurious :
    ∃ pats fs, ¬ Matches pats fs ∧ (newFeaturesFilter pats).matchFeatures fs = true := by
  refine ⟨[[any, str "b"], [str "a", str "c"]], [str "x", str "c"], ?_, by decide +kernel⟩
  rintro ⟨p, hp, _, hm⟩
  rw [← patMatch_iff] at hm
  simp only [List.mem_cons, List.not_mem_nil, or_false] at hp
  rcases hp with rfl | rfl <;> exact absurd hm (by decide +kernel)

/-! ### C27 -/

/-- C27: order and repetition of the patterns do not matter, when they do not clash. -/
theorem C27_order {pats pats' : List (List Bytes)} (h : NoClash pats) (hs : ∀ p, p ∈ pats ↔ p ∈ pats') (fs : List Bytes) :
    (newFeaturesFilter pats).matchFeatures fs = (newFeaturesFilter pats').matchFeatures fs := by
  have h' : NoClash pats' := fun p hp q hq => h p ((hs p).mpr hp) q ((hs q).mpr hq)
  rw [Bool.eq_iff_iff, C26_matches h, C26_matches h']
  constructor <;> rintro ⟨p, hp, hr⟩
  · exact ⟨p, (hs p).mp hp, hr⟩
  · exact ⟨p, (hs p).mpr hp, hr⟩

/-- When patterns clash, their order matters. -/
theorem C27_clash : ∃ p q fs, (newFeaturesFilter [p, q]).matchFeatures fs ≠ (newFeaturesFilter [q, p]).matchFeatures fs :=
  ⟨[any], [str "a", str "b"], [str "a", str "c"], by decide +kernel⟩

/-! ### C28 -/

theorem insertWords_spec (f : WordFilter) (ws : List Bytes) (w : Bytes) : insertWords f ws w = true ↔ w ∈ ws ∨ f w = true := by
  induction ws generalizing f with
  | nil => simp [insertWords]
  | cons v vs ih =>
    rw [insertWords, ih]
    simp only [Bool.or_eq_true, decide_eq_true_eq, List.mem_cons]
    constructor
    · rintro (h | h | h)
      · exact Or.inl (Or.inr h)
      · exact Or.inl (Or.inl h)
      · exact Or.inr h
    · rintro ((h | h) | h)
      · exact Or.inr (Or.inl h)
      · exact Or.inl h
      · exact Or.inr (Or.inr h)

/-- C28: a word filter matches exactly its words. -/
theorem C28_words (ws : List Bytes) (w : Bytes) : wordMatch (newWordFilter ws) w = true ↔ w ∈ ws := by
  unfold wordMatch newWordFilter
  rw [insertWords_spec]; simp

/-! ### C29 -/

/-- Calling a match function once for each token, in order: its answers and its last state; `none` if it panics. -/
def verdicts {σ : Type} (m : σ → Token → Option (Bool × σ)) : σ → List Token → Option (List Bool × σ)
  | s, [] => some ([], s)
  | s, t :: ts =>
    match m s t with
    | none => none
    | some (b, s) => (verdicts m s ts).map (fun r => (b :: r.1, r.2))

/-- The tokens with a given answer. -/
def withVerdict (b : Bool) (ts : List Token) (bs : List Bool) : List Token := ((ts.zip bs).filter (fun x => x.2 = b)).map Prod.fst

theorem applyLoop_spec {σ : Type} (m : σ → Token → Option (Bool × σ)) (drop : Bool) (n : Nat) :
    ∀ (i tail : Nat) (s : σ) (arr : List Token), tail ≤ i → i + n ≤ arr.length →
      match verdicts m s ((arr.drop i).take n) with
      | none => applyLoop m drop n i tail s arr = none
      | some (bs, s') => ∃ arr' tail', applyLoop m drop n i tail s arr = some (arr', tail', s') ∧
          arr'.take tail' = arr.take tail ++ withVerdict (!drop) ((arr.drop i).take n) bs ∧
          tail' = tail + (withVerdict (!drop) ((arr.drop i).take n) bs).length ∧
          arr'.length = arr.length ∧ arr'.drop tail' = arr.drop tail' := by
  induction n with
  | zero =>
    intro i tail s arr _ _
    simp only [List.take_zero, verdicts]
    exact ⟨arr, tail, rfl, by simp [withVerdict], by simp [withVerdict], rfl, rfl⟩
  | succ n ih =>
    intro i tail s arr ht hn
    have hi : i < arr.length := by omega
    rw [List.drop_eq_getElem_cons hi, List.take_succ_cons]
    simp only [verdicts, applyLoop, List.getElem?_eq_getElem hi]
    cases hm : m s arr[i] with
    | none => rfl
    | some r =>
      obtain ⟨b, s1⟩ := r
      simp only
      by_cases hb : b = drop
      · rw [if_pos hb]
        have := ih (i + 1) tail s1 arr (by omega) (by omega)
        revert this
        cases hv : verdicts m s1 ((arr.drop (i + 1)).take n) with
        | none => simp
        | some r =>
          obtain ⟨bs, s'⟩ := r
          simp only [Option.map_some]
          have hw : withVerdict (!drop) (arr[i] :: (arr.drop (i + 1)).take n) (b :: bs) =
              withVerdict (!drop) ((arr.drop (i + 1)).take n) bs := by
            simp [withVerdict, hb]
          rw [hw]
          exact id
      · rw [if_neg hb]
        have hset : (if i ≠ tail then arr.set tail arr[i] else arr) = arr.set tail arr[i] := by
          split
          · rfl
          · rename_i h
            simp only [ne_eq, Decidable.not_not] at h
            subst h
            simp
        rw [hset]
        have := ih (i + 1) (tail + 1) s1 (arr.set tail arr[i]) (by omega) (by simp; omega)
        rw [List.drop_set_of_lt (by omega)] at this
        revert this
        cases hv : verdicts m s1 ((arr.drop (i + 1)).take n) with
        | none => simp
        | some r =>
          obtain ⟨bs, s'⟩ := r
          simp only [Option.map_some]
          have hw : withVerdict (!drop) (arr[i] :: (arr.drop (i + 1)).take n) (b :: bs) =
              arr[i] :: withVerdict (!drop) ((arr.drop (i + 1)).take n) bs := by
            have : b = !drop := by cases b <;> cases drop <;> simp_all
            simp [withVerdict, this]
          rw [hw]
          rintro ⟨arr', tail', h1, h2, h3, h4, h5⟩
          refine ⟨arr', tail', h1, ?_, ?_, ?_, ?_⟩
          · rw [h2, List.take_succ_eq_append_getElem (by simp; omega)]
            simp [List.take_set_of_le]
          · simp only [List.length_cons]; omega
          · rw [h4]; simp
          · rw [h5, List.drop_set_of_lt (by omega)]

/-- C29, generic: `Drop` and `Keep` ask the match function once for each token, in order, and leave exactly the tokens it answered
`false` (for `Drop`) or `true` (for `Keep`) to, in order, at the beginning of the same array; the cells after them keep what they
held. The match function may have a state; if it panics, so do they. -/
theorem C29_generic {σ : Type} (m : σ → Token → Option (Bool × σ)) (s : σ) {arr : List Token} {len : Nat} (hl : len ≤ arr.length) :
    match verdicts m s (arr.take len) with
    | none => dropTokens s (some (arr, len)) m = none ∧ keepTokens s (some (arr, len)) m = none
    | some (bs, s') =>
      (∃ arr' n, dropTokens s (some (arr, len)) m = some (some (arr', n), s') ∧ arr'.take n = withVerdict false (arr.take len) bs ∧
        n ≤ len ∧ n = (withVerdict false (arr.take len) bs).length ∧ arr'.length = arr.length ∧ arr'.drop n = arr.drop n) ∧
      (∃ arr' n, keepTokens s (some (arr, len)) m = some (some (arr', n), s') ∧ arr'.take n = withVerdict true (arr.take len) bs ∧
        n ≤ len ∧ n = (withVerdict true (arr.take len) bs).length ∧ arr'.length = arr.length ∧ arr'.drop n = arr.drop n) := by
  have hD := applyLoop_spec m true len 0 0 s arr (by omega) (by omega)
  have hK := applyLoop_spec m false len 0 0 s arr (by omega) (by omega)
  simp only [List.drop_zero] at hD hK
  unfold dropTokens keepTokens applyFilter
  revert hD hK
  cases verdicts m s (arr.take len) with
  | none => intro hD hK; exact ⟨by simp only [hD]; rfl, by simp only [hK]; rfl⟩
  | some r =>
    obtain ⟨bs, s'⟩ := r
    have hle : ∀ b, (withVerdict b (arr.take len) bs).length ≤ len := by
      intro b
      unfold withVerdict
      rw [List.length_map]
      refine Nat.le_trans (List.length_filter_le _ _) ?_
      rw [List.length_zip, List.length_take]; omega
    simp only
    rintro ⟨a1, n1, h1, h2, h3, h4, h5⟩ ⟨a2, n2, k1, k2, k3, k4, k5⟩
    simp only [List.take_zero, List.nil_append, Nat.zero_add, Bool.not_true, Bool.not_false] at h2 h3 k2 k3
    refine ⟨⟨a1, n1, by rw [h1]; rfl, h2, by rw [h3]; exact hle _, h3, h4, h5⟩,
      ⟨a2, n2, by rw [k1]; rfl, k2, by rw [k3]; exact hle _, k3, k4, k5⟩⟩

/-- C29: a nil pointer is left alone. -/
theorem C29_nil {σ : Type} (m : σ → Token → Option (Bool × σ)) (s : σ) (f : FNode) (w : WordFilter) :
    dropTokens s none m = some (none, s) ∧ keepTokens s none m = some (none, s) ∧
    posDrop f none = some none ∧ posKeep f none = some none ∧ wordDrop w none = some none ∧ wordKeep w none = some none :=
  ⟨rfl, rfl, rfl, rfl, rfl, rfl⟩

/-- A match function without state. -/
def pureMatch (p : Token → Bool) : Unit → Token → Option (Bool × Unit) := fun _ t => some (p t, ())

theorem verdicts_pure (p : Token → Bool) (ts : List Token) : verdicts (pureMatch p) () ts = some (ts.map p, ()) := by
  induction ts with
  | nil => rfl
  | cons t ts ih =>
    rw [verdicts]
    simp only [pureMatch]
    rw [ih]; rfl

theorem withVerdict_pure (p : Token → Bool) (b : Bool) (ts : List Token) : withVerdict b ts (ts.map p) = ts.filter (fun t => p t = b) := by
  induction ts with
  | nil => rfl
  | cons t ts ih =>
    unfold withVerdict at ih ⊢
    simp only [List.map_cons, List.zip_cons_cons, List.filter_cons]
    split <;> simp [ih]

/-- `arr'` and `n` are what is left of the slice `arr[:len]` when only the tokens with `p t = b` stay. -/
def Left (p : Token → Bool) (b : Bool) (arr : List Token) (len : Nat) (arr' : List Token) (n : Nat) : Prop :=
  arr'.take n = (arr.take len).filter (fun t => p t = b) ∧ n ≤ len ∧ n = ((arr.take len).filter (fun t => p t = b)).length ∧
  arr'.length = arr.length ∧ arr'.drop n = arr.drop n

/-- C29 for a match function without state: `Drop` leaves the tokens that do not match, `Keep` those that do. -/
theorem C29_pure (p : Token → Bool) {arr : List Token} {len : Nat} (hl : len ≤ arr.length) :
    (∃ arr' n, dropTokens () (some (arr, len)) (pureMatch p) = some (some (arr', n), ()) ∧ Left p false arr len arr' n) ∧
    (∃ arr' n, keepTokens () (some (arr, len)) (pureMatch p) = some (some (arr', n), ()) ∧ Left p true arr len arr' n) := by
  have h := C29_generic (pureMatch p) () hl
  rw [verdicts_pure] at h
  simp only [withVerdict_pure] at h
  exact h

/-- C29: filtering twice with a match function without state leaves the slice as it was after the first time. -/
theorem C29_idempotent (p : Token → Bool) {arr : List Token} {len : Nat} (hl : len ≤ arr.length) {arr' : List Token} {n : Nat} {b : Bool}
    (h : applyFilter (pureMatch p) b () (some (arr, len)) = some (some (arr', n), ())) :
    ∃ arr'', applyFilter (pureMatch p) b () (some (arr', n)) = some (some (arr'', n), ()) ∧ arr'' = arr' := by
  have key : ∀ (a : List Token) (l : Nat), l ≤ a.length → ∃ a' k, applyFilter (pureMatch p) b () (some (a, l)) = some (some (a', k), ()) ∧
      Left p (!b) a l a' k := by
    intro a l hal
    obtain ⟨h1, h2⟩ := C29_pure p hal
    cases b with
    | true => exact h1
    | false => exact h2
  obtain ⟨a', k, e, hL⟩ := key arr len hl
  rw [h] at e
  cases e
  obtain ⟨h1, h2, h3, h4, h5⟩ := hL
  obtain ⟨a'', k', e', g1, g2, g3, g4, g5⟩ := key arr' n (by omega)
  have hff : (arr'.take n).filter (fun t => p t = !b) = arr'.take n := by rw [h1]; simp
  rw [hff] at g1 g3
  have hk : k' = n := by rw [g3, List.length_take]; omega
  subst hk
  refine ⟨a'', e', ?_⟩
  rw [← List.take_append_drop k' a'', g1, g5, List.take_append_drop]

theorem posLoop_eq (f : FNode) (drop : Bool) (n : Nat) (i tail : Nat) (arr : List Token) :
    posLoop f drop n i tail arr =
      (applyLoop (fun (_ : Unit) t => (tokenPOS t).map (fun p => (posMatch f p, ()))) drop n i tail () arr).map (fun r => (r.1, r.2.1)) := by
  induction n generalizing i tail arr with
  | zero => rfl
  | succ n ih =>
    simp only [posLoop, applyLoop]
    cases arr[i]? with
    | none => rfl
    | some v =>
      simp only
      cases tokenPOS v with
      | none => rfl
      | some p =>
        simp only [Option.map_some]
        split
        · exact ih _ _ _
        · exact ih _ _ _

theorem wordLoop_eq (f : WordFilter) (drop : Bool) (n : Nat) (i tail : Nat) (arr : List Token) :
    wordLoop f drop n i tail arr =
      (applyLoop (pureMatch (fun t => wordMatch f t.surface)) drop n i tail () arr).map (fun r => (r.1, r.2.1)) := by
  induction n generalizing i tail arr with
  | zero => rfl
  | succ n ih =>
    simp only [wordLoop, applyLoop]
    cases arr[i]? with
    | none => rfl
    | some v =>
      simp only [pureMatch]
      split
      · exact ih _ _ _
      · exact ih _ _ _

/-- The POS of a token as a list (empty when there is none). -/
def posOf (t : Token) : List Bytes := match tokenPOS t with | some (some p) => p | _ => []

theorem posLoop_pure {f : FNode} {drop : Bool} {n : Nat} {i tail : Nat} {arr : List Token} (ht : tail ≤ i) (hn : i + n ≤ arr.length)
    (h : ∀ t ∈ (arr.drop i).take n, (tokenPOS t).isSome) :
    posLoop f drop n i tail arr =
      (applyLoop (pureMatch (fun t => f.matchFeatures (posOf t))) drop n i tail () arr).map (fun r => (r.1, r.2.1)) := by
  rw [posLoop_eq]
  congr 1
  induction n generalizing i tail arr with
  | zero => rfl
  | succ n ih =>
    have hi : i < arr.length := by omega
    rw [List.drop_eq_getElem_cons hi, List.take_succ_cons] at h
    simp only [applyLoop, List.getElem?_eq_getElem hi]
    have h0 := h arr[i] (by simp)
    obtain ⟨p, hp⟩ := Option.isSome_iff_exists.mp h0
    have hpm : posMatch f p = f.matchFeatures (posOf arr[i]) := by
      unfold posMatch posOf
      rw [hp]
      cases p <;> rfl
    simp only [hp, Option.map_some, pureMatch, hpm]
    split
    · exact ih (by omega) (by omega) (fun t ht => h t (by simp [ht]))
    · apply ih (by omega)
      · split
        · rw [List.length_set]; omega
        · omega
      · intro t ht
        apply h t
        simp only [List.mem_cons]
        right
        split at ht
        · rwa [List.drop_set_of_lt (by omega)] at ht
        · exact ht

/-- C29 for the POS filter, on tokens whose POS exists (C25): it goes by the POS of each token. -/
theorem C29_pos (f : FNode) {arr : List Token} {len : Nat} (hl : len ≤ arr.length) (h : ∀ t ∈ arr.take len, (tokenPOS t).isSome) :
    (∃ arr' n, posDrop f (some (arr, len)) = some (some (arr', n)) ∧ Left (fun t => f.matchFeatures (posOf t)) false arr len arr' n) ∧
    (∃ arr' n, posKeep f (some (arr, len)) = some (some (arr', n)) ∧ Left (fun t => f.matchFeatures (posOf t)) true arr len arr' n) := by
  obtain ⟨⟨a1, n1, h1, h2⟩, ⟨a2, n2, h3, h4⟩⟩ := C29_pure (fun t => f.matchFeatures (posOf t)) hl
  unfold posDrop posKeep posApply
  have hp : ∀ drop, posLoop f drop len 0 0 arr =
      (applyLoop (pureMatch (fun t => f.matchFeatures (posOf t))) drop len 0 0 () arr).map (fun r => (r.1, r.2.1)) := fun drop =>
    posLoop_pure (Nat.le_refl 0) (show 0 + len ≤ arr.length by omega) (by simpa using h)
  simp only [hp]
  unfold dropTokens keepTokens applyFilter at *
  simp only [Option.map_eq_some_iff] at h1 h3
  obtain ⟨r1, e1, e2⟩ := h1
  obtain ⟨r2, e3, e4⟩ := h3
  cases e2; cases e4
  exact ⟨⟨r1.1, r1.2.1, by rw [e1]; rfl, h2⟩, ⟨r2.1, r2.2.1, by rw [e3]; rfl, h4⟩⟩

/-- C29 for the word filter: it goes by the surface of each token. -/
theorem C29_word (f : WordFilter) {arr : List Token} {len : Nat} (hl : len ≤ arr.length) :
    (∃ arr' n, wordDrop f (some (arr, len)) = some (some (arr', n)) ∧ Left (fun t => wordMatch f t.surface) false arr len arr' n) ∧
    (∃ arr' n, wordKeep f (some (arr, len)) = some (some (arr', n)) ∧ Left (fun t => wordMatch f t.surface) true arr len arr' n) := by
  obtain ⟨⟨a1, n1, h1, h2⟩, ⟨a2, n2, h3, h4⟩⟩ := C29_pure (fun t => wordMatch f t.surface) hl
  unfold wordDrop wordKeep wordApply
  simp only [wordLoop_eq]
  unfold dropTokens keepTokens applyFilter at *
  simp only [Option.map_eq_some_iff] at h1 h3
  obtain ⟨r1, e1, e2⟩ := h1
  obtain ⟨r2, e3, e4⟩ := h3
  cases e2; cases e4
  exact ⟨⟨r1.1, r1.2.1, by rw [e1]; rfl, h2⟩, ⟨r2.1, r2.2.1, by rw [e3]; rfl, h4⟩⟩

/-- A slice with a cell beyond its length, the words の and も dropped from it. -/
def Toy.slice : List Token :=
  [{ Toy.token .known 4 with surface := str "の" }, { Toy.token .known 2 with surface := str "もも" }, { Toy.token .known 3 with surface := str "も" },
   { Toy.token .known 5 with surface := str "うち" }]

example : (∀ t ∈ Toy.slice.take 3, (tokenPOS t).isSome) ∧
    (wordDrop (newWordFilter [str "の", str "も"]) (some (Toy.slice, 3))).map (Option.map (fun r => (r.1.map (·.surface), r.2))) =
      some (some ([str "もも", str "もも", str "も", str "うち"], 1)) ∧
    (posKeep (newFeaturesFilter [[str "助詞"]]) (some (Toy.slice, 3))).map (Option.map (fun r => (r.1.map (·.surface), r.2))) =
      some (some ([str "の", str "も", str "も", str "うち"], 2)) := by decide +kernel

/-! ### C30 -/

/-- The word a token contributes to `Yield`. -/
def yielded (f : JaFilter) (t : Token) : Option Bytes :=
  if f.baseForm.matchFeatures (posOf t) then
    match baseForm t with
    | some (b, true) => some b
    | _ => none
  else some t.surface

/-- The tokens that neither filter stops. -/
def passes (f : JaFilter) (t : Token) : Bool := !f.stopTags.matchFeatures (posOf t) && !wordMatch f.stopWords t.surface

theorem yieldWords_spec (f : JaFilter) {ts : List Token} (h : ∀ t ∈ ts, InRange t) :
    yieldWords f ts = some ((ts.filter (passes f)).filterMap (yielded f)) := by
  induction ts with
  | nil => rfl
  | cons t ts ih =>
    have ih := ih (fun t ht => h t (by simp [ht]))
    have ht := h t (by simp)
    obtain ⟨p, hp⟩ := tokenPOS_total ht
    obtain ⟨b, hb⟩ := named_total ht .baseForm
    change baseForm t = some b at hb
    have hpm : ∀ g : FNode, posMatch g p = g.matchFeatures (posOf t) := by
      intro g
      unfold posMatch posOf
      rw [hp]
      cases p <;> rfl
    obtain ⟨bs, ok⟩ := b
    simp only [yieldWords, hp, hpm, ih, List.filter_cons, passes, hb]
    by_cases h1 : f.stopTags.matchFeatures (posOf t) = true
    · simp [h1]
    · by_cases h2 : wordMatch f.stopWords t.surface = true
      · simp [h2]
      · by_cases h3 : f.baseForm.matchFeatures (posOf t) = true
        · cases ok <;> simp [h1, h2, h3, yielded, hb]
        · simp [h1, h2, h3, yielded]

/-- C30: `Drop` leaves the tokens that pass both filters, in order, at the beginning of the slice; `Yield` returns one word for
each of these tokens, in order: the base form if the base-form filter matches (nothing if there is none), else the surface. -/
theorem C30_yield_drop (f : JaFilter) {arr : List Token} {len : Nat} (hl : len ≤ arr.length) (h : ∀ t ∈ arr.take len, InRange t) :
    ∃ arr' n, jaDrop f (some (arr, len)) = some (some (arr', n)) ∧ n ≤ len ∧
      arr'.take n = (arr.take len).filter (passes f) ∧ arr'.length = arr.length ∧ arr'.drop len = arr.drop len ∧
      yieldWords f (arr.take len) = some ((arr'.take n).filterMap (yielded f)) := by
  obtain ⟨⟨a1, n1, h1, k1, k2, k3, k4, k5⟩, _⟩ := C29_pos f.stopTags hl
    (fun t ht => by obtain ⟨p, hp⟩ := tokenPOS_total (h t ht); rw [hp]; rfl)
  obtain ⟨⟨a2, n2, h2, j1, j2, j3, j4, j5⟩, _⟩ := C29_word f.stopWords (arr := a1) (len := n1) (by omega)
  have htake : a2.take n2 = (arr.take len).filter (passes f) := by
    rw [j1, k1, List.filter_filter]
    congr 1
    funext t
    simp only [passes]
    by_cases h1 : f.stopTags.matchFeatures (posOf t) = true <;> by_cases h2 : wordMatch f.stopWords t.surface = true <;> simp [h1, h2]
  have hdrop : ∀ {a b : List Token} {k l : Nat}, k ≤ l → a.drop k = b.drop k → a.drop l = b.drop l := by
    intro a b k l hkl he
    have := congrArg (List.drop (l - k)) he
    rwa [List.drop_drop, List.drop_drop, show k + (l - k) = l by omega] at this
  refine ⟨a2, n2, by simp only [jaDrop, h1, h2], by omega, htake, by omega, ?_, ?_⟩
  · exact (hdrop (by omega) j5).trans (hdrop k2 k5)
  · rw [htake]; exact yieldWords_spec f h

/-- C30: a nil slice pointer is left alone. -/
theorem C30_drop_nil (f : JaFilter) : jaDrop f none = some none := rfl

/-- The options of the Japanese filter. -/
inductive JaOpt
  | baseForm (p : List (List Bytes))
  | stopTags (p : List (List Bytes))
  | stopWords (p : List Bytes)

/-- The option functions of the package. -/
def JaOpt.run : JaOpt → JaOption
  | .baseForm p => baseFormOption p
  | .stopTags p => stopTagsOption p
  | .stopWords p => stopWordsOption p

/-- C30: each option replaces the filter it names; of several the last one counts, and filters that no option names stay the
default ones. -/
theorem C30_options (f : JaFilter) (opts : List JaOpt) :
    applyJaOptions (opts.map JaOpt.run) f =
      { baseForm := ((opts.filterMap (fun o => match o with | .baseForm p => some p | _ => none)).getLast?.map newFeaturesFilter).getD f.baseForm,
        stopTags := ((opts.filterMap (fun o => match o with | .stopTags p => some p | _ => none)).getLast?.map newFeaturesFilter).getD f.stopTags,
        stopWords := ((opts.filterMap (fun o => match o with | .stopWords p => some p | _ => none)).getLast?.map newWordFilter).getD f.stopWords } := by
  have hlast : ∀ {α : Type} (a : α) (l : List α), (a :: l).getLast? = some (l.getLast?.getD a) := by
    intro α a l
    cases l with
    | nil => rfl
    | cons b l => rw [List.getLast?_cons_cons, List.getLast?_cons]; rfl
  induction opts generalizing f with
  | nil => rfl
  | cons o os ih =>
    simp only [List.map_cons, applyJaOptions, ih, List.filterMap_cons]
    cases o with
    | baseForm p =>
      simp only [JaOpt.run, baseFormOption, hlast]
      cases (os.filterMap (fun o => match o with | .baseForm p => some p | _ => none)).getLast? <;> rfl
    | stopTags p =>
      simp only [JaOpt.run, stopTagsOption, hlast]
      cases (os.filterMap (fun o => match o with | .stopTags p => some p | _ => none)).getLast? <;> rfl
    | stopWords p =>
      simp only [JaOpt.run, stopWordsOption, hlast]
      cases (os.filterMap (fun o => match o with | .stopWords p => some p | _ => none)).getLast? <;> rfl

/-- Stop words are compared with surfaces only: `Yield` may return a stop word as the base form of another word. -/
theorem C30_base_form_not_filtered :
    yieldWords { baseForm := newFeaturesFilter [[str "助詞"]], stopTags := newFeaturesFilter [], stopWords := newWordFilter [str "連体化"] }
      Toy.slice = some [str "連体化", str "もも", str "係助詞", str "うち"] := by decide +kernel

/-! ### C32 -/

theorem splitLines_line (cur l rest : Bytes) (h : (0x0A : UInt8) ∉ l) : splitLines cur (l ++ 0x0A :: rest) = (cur.reverse ++ l) :: splitLines [] rest := by
  induction l generalizing cur with
  | nil => simp [splitLines]
  | cons c l ih =>
    have hc : c ≠ 0x0A := by rintro rfl; simp at h
    simp only [List.cons_append, splitLines, hc, if_false]
    rw [ih _ (by intro hm; exact h (by simp [hm]))]
    simp

theorem splitLines_last (cur l : Bytes) (h : (0x0A : UInt8) ∉ l) :
    splitLines cur l = if cur.reverse ++ l = [] then [] else [cur.reverse ++ l] := by
  induction l generalizing cur with
  | nil => simp [splitLines]
  | cons c l ih =>
    have hc : c ≠ 0x0A := by rintro rfl; simp at h
    simp only [splitLines, hc, if_false]
    rw [ih _ (by intro hm; exact h (by simp [hm]))]
    simp

theorem splitLines_spec {lines : List Bytes} {last : Bytes} (h : ∀ l ∈ lines, (0x0A : UInt8) ∉ l) (hlast : (0x0A : UInt8) ∉ last) :
    splitLines [] (lines.flatMap (· ++ [0x0A]) ++ last) = lines ++ (if last = [] then [] else [last]) := by
  induction lines with
  | nil => exact splitLines_last [] last hlast
  | cons l lines ih =>
    have he : (l :: lines).flatMap (· ++ [0x0A]) ++ last = l ++ 0x0A :: (lines.flatMap (· ++ [0x0A]) ++ last) := by simp
    rw [he, splitLines_line _ _ _ (h l (by simp)), ih (fun l hl => h l (by simp [hl]))]
    simp

theorem dropCR_eq (line : Bytes) : dropCR line = withoutCR line := by
  unfold dropCR withoutCR
  rw [List.getLast?_eq_head?_reverse]
  have hl : line = line.reverse.reverse := by simp
  generalize line.reverse = r at hl
  subst hl
  cases r with
  | nil => rfl
  | cons c r =>
    simp only [List.head?_cons, Option.some.injEq, List.reverse_cons, List.dropLast_concat]
    by_cases hc : c = 13
    · subst hc; rfl
    · rw [if_neg hc]
      split
      · rename_i h; cases h; exact absurd rfl hc
      · rfl

theorem cutHash_eq {line : Bytes} (h : line.head? ≠ some 0x23) : cutHash line = line.takeWhile (· ≠ 0x23) := by
  have gen : ∀ l : Bytes, (match indexHash l with | some i => l.take i | none => l) = l.takeWhile (· ≠ 0x23) := by
    intro l
    unfold indexHash
    induction l with
    | nil => rfl
    | cons a l ih =>
      by_cases ha : a = 0x23
      · subst ha; rfl
      · rw [List.findIdx?_cons, List.takeWhile_cons]
        simp only [ha, decide_false, Bool.false_eq_true, if_false, ne_eq, not_false_eq_true, decide_true, if_true]
        rw [← ih]
        cases l.findIdx? (· = (0x23 : UInt8)) <;> simp
  rw [← gen]
  unfold cutHash
  cases hf : indexHash line with
  | none => rfl
  | some i =>
    have : i > 0 := by
      cases i with
      | zero =>
        cases line with
        | nil => simp [indexHash] at hf
        | cons c cs =>
          simp only [indexHash, List.findIdx?_cons] at hf
          split at hf
          · rename_i hc; simp only [decide_eq_true_eq] at hc; subst hc; simp at h
          · simp at hf
      | succ i => omega
    simp [this]

theorem loadLine_eq (line : Bytes) : loadLine line = (let text := line.takeWhile (· ≠ 0x23); if text = [] then none else some text) := by
  unfold loadLine
  by_cases h : line.head? = some 0x23
  · rw [if_pos h]
    cases line with
    | nil => simp at h
    | cons c cs => simp only [List.head?_cons, Option.some.injEq] at h; subst h; rfl
  · rw [if_neg h, cutHash_eq h]

theorem loadLoop_spec {lines : List Bytes} (h : ∀ l ∈ lines, l.length ≤ 65535) : loadLoop lines = (lines.filterMap entry, false) := by
  induction lines with
  | nil => rfl
  | cons l lines ih =>
    have hl := h l (by simp)
    have : ¬ l.length > maxLine := by unfold maxLine; omega
    simp only [loadLoop, this, if_false, ih (fun l hl => h l (by simp [hl])), dropCR_eq, loadLine_eq, List.filterMap_cons, entry]
    split <;> rename_i h1 <;> rw [h1]

/-- C32: the entries of a file are its lines, in order, cut at the first `#`, without those that are then empty. `lines` are the
lines that end in a line feed, `last` is what comes after the last line feed. A carriage return at the end of a line is dropped. -/
theorem C32_load {lines : List Bytes} {last : Bytes} (h : ∀ l ∈ lines, (0x0A : UInt8) ∉ l) (hlast : (0x0A : UInt8) ∉ last)
    (hs : ∀ l ∈ last :: lines, l.length ≤ 65535) :
    loadConfig (lines.flatMap (· ++ [0x0A]) ++ last) = .ok ((lines ++ [last]).filterMap entry) := by
  unfold loadConfig
  rw [splitLines_spec h hlast, loadLoop_spec]
  · simp only [Bool.false_eq_true, if_false]
    by_cases hl : last = []
    · subst hl
      rw [List.filterMap_append, List.filterMap_append]; rfl
    · simp [hl]
  · intro l hl
    simp only [List.mem_append] at hl
    rcases hl with hl | hl
    · exact hs l (by simp [hl])
    · split at hl
      · simp at hl
      · simp only [List.mem_singleton] at hl; subst hl; exact hs l (by simp)

/-- Every file has the form C32 speaks about. -/
theorem C32_lines (b : Bytes) : ∃ (lines : List Bytes) (last : Bytes), b = lines.flatMap (· ++ [0x0A]) ++ last ∧ (∀ l ∈ lines, (0x0A : UInt8) ∉ l) ∧ (0x0A : UInt8) ∉ last := by
  induction b with
  | nil => exact ⟨[], [], rfl, by simp, by simp⟩
  | cons c b ih =>
    obtain ⟨lines, last, rfl, h1, h2⟩ := ih
    by_cases hc : c = 0x0A
    · subst hc
      refine ⟨[] :: lines, last, rfl, ?_, h2⟩
      intro l hl
      simp only [List.mem_cons] at hl
      rcases hl with rfl | hl
      · simp
      · exact h1 l hl
    · cases lines with
      | nil => exact ⟨[], c :: last, rfl, by simp, by simp [h2, Ne.symm hc]⟩
      | cons l lines =>
        refine ⟨(c :: l) :: lines, last, rfl, ?_, h2⟩
        intro l' hl
        simp only [List.mem_cons] at hl
        rcases hl with rfl | hl
        · simp [Ne.symm hc, h1 l (by simp)]
        · exact h1 l' (by simp [hl])

/-- C32: a line of more than 65535 bytes makes the loader fail. -/
theorem C32_too_long {lines : List Bytes} {last : Bytes} (h : ∀ l ∈ lines, (0x0A : UInt8) ∉ l) (hlast : (0x0A : UInt8) ∉ last)
    (hs : ∃ l ∈ last :: lines, 65535 < l.length) : ∃ e, loadConfig (lines.flatMap (· ++ [0x0A]) ++ last) = .error e := by
  have key : ∀ ls : List Bytes, (∃ l ∈ ls, 65535 < l.length) → (loadLoop ls).2 = true := by
    intro ls
    induction ls with
    | nil => rintro ⟨l, hl, _⟩; simp at hl
    | cons l ls ih =>
      rintro ⟨l', hl', hlen⟩
      simp only [loadLoop]
      split
      · rfl
      · rename_i hnl
        have : (loadLoop ls).2 = true := by
          apply ih
          simp only [List.mem_cons] at hl'
          rcases hl' with rfl | hl'
          · exact absurd hlen hnl
          · exact ⟨l', hl', hlen⟩
        split <;> exact this
  unfold loadConfig
  rw [splitLines_spec h hlast]
  have hk : (loadLoop (lines ++ if last = [] then [] else [last])).2 = true := by
    apply key
    obtain ⟨l, hl, hlen⟩ := hs
    refine ⟨l, ?_, hlen⟩
    simp only [List.mem_cons] at hl
    rcases hl with rfl | hl
    · have : l ≠ [] := by rintro rfl; simp at hlen
      simp [this]
    · simp [hl]
  simp only [hk, if_true]
  exact ⟨_, rfl⟩

/-- C32: no entry is empty or holds a `#` or a line feed. -/
theorem C32_entries {b : Bytes} {es : List Bytes} (h : loadConfig b = .ok es) : ∀ e ∈ es, e ≠ [] ∧ (0x23 : UInt8) ∉ e ∧ (0x0A : UInt8) ∉ e := by
  obtain ⟨lines, last, rfl, h1, h2⟩ := C32_lines b
  by_cases hs : ∀ l ∈ last :: lines, l.length ≤ 65535
  · rw [C32_load h1 h2 hs] at h
    cases h
    intro e he
    rw [List.mem_filterMap] at he
    obtain ⟨l, hl, he⟩ := he
    simp only [entry] at he
    split at he
    · cases he
    · rename_i hne
      cases he
      refine ⟨hne, ?_, ?_⟩
      · intro hm
        have := List.all_takeWhile (l := withoutCR l) (p := fun c => decide (c ≠ (0x23 : UInt8)))
        rw [List.all_eq_true] at this
        simpa using this _ hm
      · intro hm
        have hm := (List.takeWhile_prefix _).subset hm
        have hnl : (0x0A : UInt8) ∉ l := by
          simp only [List.mem_append, List.mem_singleton] at hl
          rcases hl with hl | rfl
          · exact h1 l hl
          · exact h2
        rw [← dropCR_eq] at hm
        unfold dropCR at hm
        split at hm
        · exact hnl (List.dropLast_subset _ hm)
        · exact hnl hm
  · obtain ⟨e, he⟩ := C32_too_long h1 h2 (by
      apply Classical.byContradiction
      intro hn
      apply hs
      intro l hl
      apply Classical.byContradiction
      intro hlen
      exact hn ⟨l, hl, by omega⟩)
    rw [he] at h; cases h

example : loadConfig (str "# c\nの#x\r\n\n\r\nabc\r\nd") = .ok [str "の", str "abc", str "d"] :=
  C32_load (lines := [str "# c", str "の#x\r", [], str "\r", str "abc\r"]) (last := str "d") (by decide +kernel) (by decide +kernel) (by decide +kernel)

end Kagome
