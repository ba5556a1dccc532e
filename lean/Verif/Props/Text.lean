import Verif.Spec.Text
import Verif.Spec.CommandLine
import Verif.Proof.Quote
import Verif.Proof.Filter

/-! C52: printed forms tell what they print. -/

namespace Kagome

open Spec

theorem expect_append (p t : Bytes) : expect p (p ++ t) = some t := by
  unfold expect
  rw [if_pos (List.prefix_append p t), List.drop_left]

theorem numEnd_str {b : UInt8} (h : Spec.isDigit b = false ∧ b ≠ 0x2E ∧ b ≠ 0x45 ∧ b ≠ 0x65) {p : Bytes} (hp : p.head? = some b) (t : Bytes) :
    NumEnd (p ++ t) := by
  cases p with
  | nil => cases hp
  | cons x p =>
    simp only [List.head?_cons, Option.some.injEq] at hp
    subst hp
    exact numEnd_cons h _

/-- C52: the printed form of a token can be read back: it tells the index, the surface byte by byte, the offsets, the class and the id. -/
theorem C52_token {isPrint : Nat → Bool} (hp : isPrint 10 = false) (t : Token) :
    readToken (tokenString isPrint t) = some ⟨t.index, t.surface, t.position, t.start, t.stop, className t.cls, t.id⟩ := by
  have hcls : ∀ c : NodeClass, ∀ s : Bytes, (className c ++ (str " [" ++ s)).dropWhile (fun b => b ≠ 0x20) = str " [" ++ s ∧
      (className c ++ (str " [" ++ s)).takeWhile (fun b => b ≠ 0x20) = className c := by
    intro c s
    have h1 : ∀ b ∈ className c, (decide (b ≠ 0x20)) = true := by cases c <;> decide
    have h2 : str " [" ++ s = 0x20 :: 0x5B :: s := by rw [show str " [" = [0x20, 0x5B] from by decide]; rfl
    rw [h2]
    constructor
    · rw [List.dropWhile_append_of_pos h1]; simp
    · rw [List.takeWhile_append_of_pos h1]; simp
  unfold tokenString readToken
  simp only [List.append_assoc]
  rw [readInt_itoa _ (numEnd_str (b := 0x3A) (by decide) (by decide) _), Option.bind_some, expect_append, Option.bind_some, unquote_quote hp,
    Option.bind_some, expect_append, Option.bind_some, readInt_itoa _ (numEnd_str (b := 0x3A) (by decide) (by decide) _), Option.bind_some, expect_append,
    Option.bind_some, readInt_itoa _ (numEnd_str (b := 0x2C) (by decide) (by decide) _), Option.bind_some, expect_append, Option.bind_some,
    readInt_itoa _ (numEnd_str (b := 0x29) (by decide) (by decide) _), Option.bind_some, expect_append, Option.bind_some, (hcls _ _).1, expect_append,
    Option.bind_some]
  have : NumEnd (str "]") := by
    have := numEnd_str (b := 0x5D) (by decide) (p := str "]") (by decide) []
    rwa [List.append_nil] at this
  rw [readInt_itoa _ this, Option.bind_some, if_pos rfl, (hcls _ _).2]

/-- C52: so two tokens have the same printed form exactly if they agree in all of that. -/
theorem C52_token_determined {isPrint : Nat → Bool} (hp : isPrint 10 = false) (a b : Token) :
    tokenString isPrint a = tokenString isPrint b ↔
      a.index = b.index ∧ a.surface = b.surface ∧ a.position = b.position ∧ a.start = b.start ∧ a.stop = b.stop ∧ a.cls = b.cls ∧ a.id = b.id := by
  constructor
  · intro h
    have ha := C52_token hp a
    rw [h, C52_token hp b] at ha
    simp only [Option.some.injEq, TokenText.mk.injEq] at ha
    obtain ⟨h1, h2, h3, h4, h5, h6, h7⟩ := ha
    refine ⟨by omega, h2.symm, by omega, by omega, by omega, ?_, h7.symm⟩
    revert h6
    cases a.cls <;> cases b.cls <;> decide
  · rintro ⟨h1, h2, h3, h4, h5, h6, h7⟩
    unfold tokenString
    rw [h1, h2, h3, h4, h5, h6, h7]

/-- C52: the printed forms of two modes differ, also for values that are not modes. -/
theorem C52_mode (m n : Int) : modeString m = modeString n ↔ m = n := by
  refine ⟨fun h => ?_, fun h => by rw [h]⟩
  have other : ∀ x y : Int, str "unknown tokenize mode (" ++ itoa x ++ str ")" = str "unknown tokenize mode (" ++ itoa y ++ str ")" → x = y := by
    intro x y h
    rw [List.append_assoc, List.append_assoc] at h
    have h := List.append_cancel_left h
    have e : NumEnd (str ")") := by
      have := numEnd_str (b := 0x29) (by decide) (p := str ")") (by decide) []
      rwa [List.append_nil] at this
    have h1 := readInt_itoa x e
    rw [h, readInt_itoa y e] at h1
    simp only [Option.some.injEq, Prod.mk.injEq, and_true] at h1
    exact h1.symm
  have head : ∀ x : Int, (str "unknown tokenize mode (" ++ itoa x ++ str ")").head? = some 0x75 := by
    intro x
    rw [List.append_assoc, show str "unknown tokenize mode (" = 0x75 :: str "nknown tokenize mode (" from by decide +kernel]
    rfl
  have h1 : (str "normal").head? = some 0x6E := by decide
  have h2 : (str "search").head? = some 0x73 := by decide
  have h3 : (str "extend").head? = some 0x65 := by decide
  have hh := congrArg List.head? h
  unfold modeString at h hh
  by_cases m1 : m = modeNormal <;> by_cases m2 : m = modeSearch <;> by_cases m3 : m = modeExtended <;>
    by_cases n1 : n = modeNormal <;> by_cases n2 : n = modeSearch <;> by_cases n3 : n = modeExtended <;>
    simp only [m1, m2, m3, n1, n2, n3, if_true, if_false, h1, h2, h3, head] at hh h ⊢ <;>
    first
    | rfl
    | exact other _ _ h
    | (exfalso; revert hh; decide)
    | skip

/-- C52: `normal` and `search` can be given back to `-mode`; the printed form of the third mode cannot. -/
theorem C52_mode_flag : ModeText (modeString 1) 1 ∧ ModeText (modeString 2) 2 ∧ ∀ m, ¬ ModeText (modeString 3) m := by
  have h1 : modeString 1 = str "normal" := by decide
  have h2 : modeString 2 = str "search" := by decide
  have h3 : modeString 3 = str "extend" := by decide
  refine ⟨h1 ▸ ModeText.normal, h2 ▸ ModeText.search, ?_⟩
  intro m h
  rw [h3] at h
  have : ∀ t m, ModeText t m → t ≠ str "extend" := by
    intro t m h
    cases h <;> decide
  exact this _ _ h rfl

/-! ### Filters -/

mutual

/-- Every value in the tree is plain. -/
def FNode.AllPlain : FNode → Prop
  | .mk es => plainEdges es

/-- Every value below the edges is plain. -/
def plainEdges : List (Bytes × FNode) → Prop
  | [] => True
  | e :: es => Plain e.1 ∧ e.2.AllPlain ∧ plainEdges es

end

theorem plainEdges_iff (es : List (Bytes × FNode)) : plainEdges es ↔ ∀ e ∈ es, Plain e.1 ∧ e.2.AllPlain := by
  induction es with
  | nil => simp [plainEdges]
  | cons e es ih => simp [plainEdges, ih, and_assoc]

theorem allPlain_iff (n : FNode) : n.AllPlain ↔ ∀ e ∈ n.fanout, Plain e.1 ∧ e.2.AllPlain := by
  cases n with
  | mk es => rw [FNode.AllPlain, plainEdges_iff, fanout_mk]

theorem allPlain_leaf : (FNode.mk []).AllPlain := by
  rw [allPlain_iff]; simp

theorem add_allPlain {vs : List Bytes} (hv : ∀ v ∈ vs, Plain v) {n : FNode} (hn : n.AllPlain) : (n.add vs).AllPlain := by
  induction vs generalizing n with
  | nil => rw [FNode.add]; exact hn
  | cons v rest ih =>
    have hrest : ∀ v ∈ rest, Plain v := fun v h => hv v (by simp [h])
    rw [FNode.add]
    split
    · rename_i k hk
      split
      · exact hn
      · rename_i val to hto
        have hmem := (allPlain_iff n).1 hn _ (List.mem_of_getElem? hto)
        split
        · exact hn
        · split
          · rw [allPlain_iff, fanout_mk]
            intro e he
            rcases List.mem_or_eq_of_mem_set he with he | rfl
            · exact (allPlain_iff n).1 hn e he
            · exact ⟨hmem.1, allPlain_leaf⟩
          · rw [allPlain_iff, fanout_mk]
            intro e he
            rcases List.mem_or_eq_of_mem_set he with he | rfl
            · exact (allPlain_iff n).1 hn e he
            · exact ⟨hmem.1, ih hrest hmem.2⟩
    · rw [allPlain_iff, fanout_mk]
      intro e he
      rcases List.mem_append.1 he with he | he
      · exact (allPlain_iff n).1 hn e he
      · rw [List.mem_singleton] at he
        subst he
        exact ⟨hv v (by simp), ih hrest allPlain_leaf⟩

theorem newFeaturesFilter_allPlain {fs : List (List Bytes)} (h : ∀ f ∈ fs, ∀ v ∈ f, Plain v) : (newFeaturesFilter fs).AllPlain := by
  have : ∀ (fs : List (List Bytes)) (n : FNode), (∀ f ∈ fs, ∀ v ∈ f, Plain v) → n.AllPlain → (addAll n fs).AllPlain := by
    intro fs
    induction fs with
    | nil => intro n _ hn; exact hn
    | cons f fs ih =>
      intro n h hn
      rw [addAll]
      exact ih _ (fun g hg => h g (by simp [hg])) (add_allPlain (h f (by simp)) hn)
  exact this fs _ h allPlain_leaf

/-- The number of spaces in front. -/
def leadSpaces (s : Bytes) : Nat := (s.takeWhile (· = 0x20)).length

theorem indent_eq (d : Nat) : (List.replicate d (str "  ")).flatten = List.replicate (2 * d) 0x20 := by
  induction d with
  | zero => rfl
  | succ d ih =>
    rw [List.replicate_succ, List.flatten_cons, ih, show str "  " = [0x20, 0x20] from by decide, show 2 * (d + 1) = 2 * d + 1 + 1 from by omega,
      List.replicate_succ, List.replicate_succ]
    rfl

theorem line_eq (d : Nat) (e : Bytes × FNode) (es : List (Bytes × FNode)) (rest : Bytes) :
    printEdges d (e :: es) ++ rest = List.replicate (2 * d) 0x20 ++ (e.1 ++ 0x0A :: (e.2.print (d + 1) ++ (printEdges d es ++ rest))) := by
  rw [printEdges, indent_eq, show str "\n" = [0x0A] from by decide]
  simp

theorem lead_line (d : Nat) {e : Bytes × FNode} (h : Plain e.1) (es : List (Bytes × FNode)) (rest : Bytes) :
    leadSpaces (printEdges d (e :: es) ++ rest) = 2 * d := by
  rw [line_eq, leadSpaces, List.takeWhile_append_of_pos (by simp)]
  cases hv : e.1 with
  | nil => simp
  | cons b v =>
    have := h.2
    rw [hv] at this
    simp only [List.head?_cons, ne_eq, Option.some.injEq] at this
    simp [this]

/-- What follows the edges of a node at depth `d`. -/
def Shallow (d : Nat) (rest : Bytes) : Prop := rest = [] ∨ leadSpaces rest < 2 * d

theorem shallow_line {d : Nat} {es : List (Bytes × FNode)} (hp : plainEdges es) {rest : Bytes} (h : Shallow d rest) :
    Shallow (d + 1) (printEdges d es ++ rest) := by
  cases es with
  | nil =>
    rw [printEdges, List.nil_append]
    rcases h with h | h
    · exact Or.inl h
    · exact Or.inr (by omega)
  | cons e es =>
    right
    rw [plainEdges] at hp
    rw [lead_line d hp.1]
    omega

theorem line_ne_shallow {d : Nat} {e : Bytes × FNode} {es : List (Bytes × FNode)} (hp : Plain e.1) {rest rest' : Bytes} (h : Shallow d rest)
    (he : rest = printEdges d (e :: es) ++ rest') : False := by
  rcases h with h | h
  · rw [h, line_eq] at he
    simp at he
  · rw [he, lead_line d hp] at h
    omega

theorem cut_at_line_feed {a b x y : Bytes} (ha : (0x0A : UInt8) ∉ a) (hb : (0x0A : UInt8) ∉ b) (h : a ++ 0x0A :: x = b ++ 0x0A :: y) : a = b ∧ x = y := by
  induction a generalizing b with
  | nil =>
    cases b with
    | nil => simpa using h
    | cons c b =>
      simp only [List.nil_append, List.cons_append, List.cons.injEq] at h
      exact absurd (by simp [h.1]) hb
  | cons c a ih =>
    cases b with
    | nil =>
      simp only [List.nil_append, List.cons_append, List.cons.injEq] at h
      exact absurd (by simp [h.1]) ha
    | cons c' b =>
      simp only [List.cons_append, List.cons.injEq] at h
      have := ih (fun hm => ha (by simp [hm])) (fun hm => hb (by simp [hm])) h.2
      exact ⟨by rw [h.1, this.1], this.2⟩

mutual

theorem print_inj (n n' : FNode) (d : Nat) (rest rest' : Bytes) (hp : n.AllPlain) (hp' : n'.AllPlain) (hr : Shallow d rest) (hr' : Shallow d rest')
    (h : n.print d ++ rest = n'.print d ++ rest') : n = n' ∧ rest = rest' := by
  match n, n' with
  | .mk es, .mk es' =>
    rw [FNode.AllPlain] at hp hp'
    rw [FNode.print, FNode.print] at h
    have := printEdges_inj es es' d rest rest' hp hp' hr hr' h
    exact ⟨by rw [this.1], this.2⟩

theorem printEdges_inj (es es' : List (Bytes × FNode)) (d : Nat) (rest rest' : Bytes) (hp : plainEdges es) (hp' : plainEdges es')
    (hr : Shallow d rest) (hr' : Shallow d rest') (h : printEdges d es ++ rest = printEdges d es' ++ rest') : es = es' ∧ rest = rest' := by
  match es, es' with
  | [], [] => exact ⟨rfl, by simpa [printEdges] using h⟩
  | [], e' :: es' =>
    rw [plainEdges] at hp'
    exact (line_ne_shallow hp'.1 hr (by rw [← h, printEdges, List.nil_append])).elim
  | e :: es, [] =>
    rw [plainEdges] at hp
    exact (line_ne_shallow hp.1 hr' (by rw [h, printEdges, List.nil_append])).elim
  | (v, n) :: es, (v', n') :: es' =>
    rw [plainEdges] at hp hp'
    rw [line_eq, line_eq] at h
    have h := cut_at_line_feed hp.1.1 hp'.1.1 (List.append_cancel_left h)
    have h1 := print_inj n n' (d + 1) _ _ hp.2.1 hp'.2.1 (shallow_line hp.2.2 hr) (shallow_line hp'.2.2 hr') h.2
    have h2 := printEdges_inj es es' d rest rest' hp.2.2 hp'.2.2 hr hr' h1.2
    have hv : v = v' := h.1
    exact ⟨by rw [hv, h1.1, h2.1], h2.2⟩

end

/-- C52: two filters with the same printed form match the same features, if no feature they were built from has a line break or a space in front. -/
theorem C52_filter {fs gs : List (List Bytes)} (hf : ∀ f ∈ fs, ∀ v ∈ f, Plain v) (hg : ∀ f ∈ gs, ∀ v ∈ f, Plain v)
    (h : filterText (newFeaturesFilter fs) = filterText (newFeaturesFilter gs)) (features : List Bytes) :
    (newFeaturesFilter fs).matchFeatures features = (newFeaturesFilter gs).matchFeatures features := by
  have := print_inj _ _ 0 [] [] (newFeaturesFilter_allPlain hf) (newFeaturesFilter_allPlain hg) (Or.inl rfl) (Or.inl rfl)
    (by rw [List.append_nil, List.append_nil]; exact h)
  rw [this.1]

/-- C52: with a line break in a feature this can fail. -/
theorem C52_filter_line_break : ∃ fs gs features, filterText (newFeaturesFilter fs) = filterText (newFeaturesFilter gs) ∧
    (newFeaturesFilter fs).matchFeatures features ≠ (newFeaturesFilter gs).matchFeatures features :=
  ⟨[[str "a\n  b"]], [[str "a", str "b"]], [str "a", str "b"], by decide +kernel, by decide +kernel⟩

/-- The hypotheses of `C52_filter` are met by two filters that are given differently. -/
example : (∀ f ∈ [[str "a", str "b"], [str "a", str "c"], [str "a", str "b"]], ∀ v ∈ f, Plain v) ∧ (∀ f ∈ [[str "a", str "b"], [str "a", str "c"]], ∀ v ∈ f, Plain v) ∧
    filterText (newFeaturesFilter [[str "a", str "b"], [str "a", str "c"], [str "a", str "b"]]) = str "a\n  b\n  c\n" ∧
    filterText (newFeaturesFilter [[str "a", str "b"], [str "a", str "c"]]) = str "a\n  b\n  c\n" := by
  unfold Plain
  decide +kernel

/-- A token and its printed form. -/
example : tokenString (fun c => 0x20 ≤ c) { index := 3, id := 7, cls := .user, dict := none, udict := none, position := 2, start := 1, stop := 3, surface := [0x61, 0x22, 0xFF] } =
    str "3:\"a\\\"\\xff\" (2: 1, 3) USER [7]" := by decide +kernel

end Kagome
