import Verif.Spec.Form
import Verif.Props.LiveText

/-! C68: the demo page from the bytes of a request; what the form submits. -/

namespace Kagome

open Spec

/-! ### Escapes -/

theorem unhex_table : ∀ n, n < 256 → unhex (UInt8.ofNat n) = hexVal (UInt8.ofNat n) := by decide +kernel

theorem unhex_eq (b : UInt8) : unhex b = hexVal b := by
  have := unhex_table b.toNat b.toNat_lt
  rwa [UInt8.ofNat_toNat] at this

theorem unescape_cons {b : UInt8} (h : b ≠ 0x25) (s : Bytes) :
    queryUnescape (b :: s) = (queryUnescape s).map ((if b = 0x2B then 0x20 else b) :: ·) := by
  match s with
  | [] => simp only [queryUnescape, if_neg h]; rfl
  | [c] =>
    simp only [queryUnescape, if_neg h]
    split <;> rfl
  | c :: d :: s => simp only [queryUnescape, if_neg h]

theorem unescape_percent (c d : UInt8) (s : Bytes) :
    queryUnescape (0x25 :: c :: d :: s) =
      match unhex c, unhex d with
      | some x, some y => (queryUnescape s).map (UInt8.ofNat (16 * x + y) :: ·)
      | _, _ => none := by
  simp only [queryUnescape, if_true]
  cases unhex c <;> cases unhex d <;> rfl

theorem unescape_sound : ∀ (n : Nat) (raw s : Bytes), raw.length ≤ n → queryUnescape raw = some s → Unescaped raw s := by
  intro n
  induction n with
  | zero =>
    intro raw s hl h
    cases raw with
    | nil => cases h; exact .nil
    | cons b raw => simp at hl
  | succ n ih =>
    intro raw s hl h
    cases raw with
    | nil => cases h; exact .nil
    | cons b raw =>
      simp only [List.length_cons] at hl
      by_cases hb : b = 0x25
      · subst hb
        match raw, h with
        | [], h => simp [queryUnescape] at h
        | [c], h => simp [queryUnescape] at h
        | c :: d :: raw, h =>
          rw [unescape_percent, unhex_eq, unhex_eq] at h
          split at h
          · rename_i x y hx hy
            rw [Option.map_eq_some_iff] at h
            obtain ⟨s', h1, rfl⟩ := h
            exact .percent c d x y hx hy (ih raw s' (by simp only [List.length_cons] at hl; omega) h1)
          · cases h
      · rw [unescape_cons hb, Option.map_eq_some_iff] at h
        obtain ⟨s', h1, rfl⟩ := h
        have := ih raw s' (by omega) h1
        by_cases hp : b = 0x2B
        · subst hp; exact .plus this
        · rw [if_neg hp]; exact .plain b hb hp this

theorem unescape_iff {raw s : Bytes} : queryUnescape raw = some s ↔ Unescaped raw s := by
  constructor
  · exact unescape_sound _ raw s (Nat.le_refl _)
  · intro h
    induction h with
    | nil => rfl
    | plain b h1 h2 _ ih => rw [unescape_cons h1, ih, if_neg h2]; rfl
    | plus _ ih => rw [unescape_cons (by decide), ih]; rfl
    | percent a b x y h1 h2 _ ih => rw [unescape_percent, unhex_eq, unhex_eq, h1, h2]; simp only [ih]; rfl

/-! ### Pieces -/

theorem cutByte_spec (sep : UInt8) (s : Bytes) :
    sep ∉ (cutByte sep s).1 ∧ (s = (cutByte sep s).1 ++ sep :: (cutByte sep s).2 ∨ s = (cutByte sep s).1 ∧ (cutByte sep s).2 = []) := by
  induction s with
  | nil => exact ⟨by simp [cutByte], .inr ⟨rfl, rfl⟩⟩
  | cons b s ih =>
    rw [cutByte]
    by_cases h : b = sep
    · rw [if_pos h]; exact ⟨by simp, .inl (by rw [h]; rfl)⟩
    · rw [if_neg h]
      refine ⟨?_, ?_⟩
      · simp only [List.mem_cons, not_or]; exact ⟨fun e => h e.symm, ih.1⟩
      · rcases ih.2 with e | ⟨e1, e2⟩
        · exact .inl (by simp only [List.cons_append]; rw [← e])
        · exact .inr ⟨by simp only; rw [← e1], e2⟩

theorem cutByte_unique {sep : UInt8} {a b : Bytes} (h : sep ∉ a) : cutByte sep (a ++ sep :: b) = (a, b) := by
  induction a with
  | nil => simp [cutByte]
  | cons c a ih =>
    rw [List.mem_cons, not_or] at h
    rw [List.cons_append, cutByte, if_neg (fun e => h.1 e.symm), ih h.2]

theorem cutByte_none {sep : UInt8} {a : Bytes} (h : sep ∉ a) : cutByte sep a = (a, []) := by
  induction a with
  | nil => rfl
  | cons c a ih =>
    rw [List.mem_cons, not_or] at h
    rw [cutByte, if_neg (fun e => h.1 e.symm), ih h.2]

theorem queryPair_iff {p k v : Bytes} : queryPair p = some (k, v) ↔ IsPair p k v := by
  unfold queryPair IsPair
  by_cases h1 : 0x3B ∈ p
  · rw [if_pos h1]; constructor
    · intro h; cases h
    · intro h; exact absurd h1 h.1
  rw [if_neg h1]
  by_cases h2 : p = []
  · rw [if_pos h2]; constructor
    · intro h; cases h
    · intro h; exact absurd h2 h.2.1
  rw [if_neg h2]
  constructor
  · intro h
    split at h
    · rename_i k' v' e1 e2
      cases h
      obtain ⟨c1, c2⟩ := cutByte_spec 0x3D p
      exact ⟨h1, h2, _, _, c1, c2, unescape_iff.mp e1, unescape_iff.mp e2⟩
    · cases h
  · rintro ⟨-, -, rn, rv, c1, c2, e1, e2⟩
    have hc : cutByte 0x3D p = (rn, rv) := by
      rcases c2 with rfl | ⟨rfl, rfl⟩
      · exact cutByte_unique c1
      · exact cutByte_none c1
    rw [hc]
    simp only [unescape_iff.mpr e1, unescape_iff.mpr e2]

theorem piecesAt_ne (sep : UInt8) (s : Bytes) : piecesAt sep s ≠ [] := by
  cases s with
  | nil => simp [piecesAt]
  | cons b s => rw [piecesAt]; split <;> (try split) <;> simp

theorem piecesAt_spec (sep : UInt8) (s : Bytes) : join [sep] (piecesAt sep s) = s ∧ ∀ p ∈ piecesAt sep s, sep ∉ p := by
  induction s with
  | nil => exact ⟨rfl, by simp [piecesAt]⟩
  | cons b s ih =>
    rw [piecesAt]
    have hne := piecesAt_ne sep s
    split
    · rename_i h; exact absurd h hne
    · rename_i p ps h
      rw [h] at ih
      by_cases hb : b = sep
      · rw [if_pos hb]
        refine ⟨?_, ?_⟩
        · rw [join_cons_cons, ih.1, hb]; rfl
        · intro q hq
          rw [List.mem_cons] at hq
          rcases hq with rfl | hq
          · simp
          · exact ih.2 q hq
      · rw [if_neg hb]
        refine ⟨?_, ?_⟩
        · cases ps with
          | nil => have := ih.1; rw [join] at this ⊢; rw [this]
          | cons q qs => have := ih.1; rw [join_cons_cons] at this ⊢; rw [← this]; rfl
        · intro q hq
          rw [List.mem_cons] at hq
          rcases hq with rfl | hq
          · rw [List.mem_cons, not_or]
            exact ⟨fun e => hb e.symm, ih.2 p (by simp)⟩
          · exact ih.2 q (by simp [hq])

theorem piecesAt_plain {sep : UInt8} {p : Bytes} (h : sep ∉ p) : piecesAt sep p = [p] := by
  induction p with
  | nil => rfl
  | cons b p ih =>
    rw [List.mem_cons, not_or] at h
    rw [piecesAt, ih h.2]
    simp only
    rw [if_neg (fun e => h.1 e.symm)]

theorem piecesAt_append {sep : UInt8} {p : Bytes} (h : sep ∉ p) (s : Bytes) : piecesAt sep (p ++ sep :: s) = p :: piecesAt sep s := by
  induction p with
  | nil =>
    rw [List.nil_append, piecesAt]
    split
    · rename_i e; exact absurd e (piecesAt_ne sep s)
    · rename_i e; rw [if_pos rfl, e]
  | cons b p ih =>
    rw [List.mem_cons, not_or] at h
    rw [List.cons_append, piecesAt, ih h.2]
    simp only
    rw [if_neg (fun e => h.1 e.symm)]

theorem pieces_unique {text : Bytes} {ps : List Bytes} (h : Pieces text ps) : piecesAt 0x26 text = ps := by
  obtain ⟨h1, rfl, h3⟩ := h
  rw [show str "&" = [0x26] by decide]
  induction ps with
  | nil => exact absurd rfl h1
  | cons p ps ih =>
    cases ps with
    | nil => rw [join]; exact piecesAt_plain (h3 p (by simp))
    | cons q qs =>
      rw [join_cons_cons, List.append_assoc]
      show piecesAt 0x26 (p ++ 0x26 :: join [0x26] (q :: qs)) = _
      rw [piecesAt_append (h3 p (by simp)), ih (by simp) (fun x hx => h3 x (by simp [hx]))]

theorem pieces_pieces (text : Bytes) : Pieces text (piecesAt 0x26 text) := by
  obtain ⟨h1, h2⟩ := piecesAt_spec 0x26 text
  exact ⟨piecesAt_ne _ _, by rw [show str "&" = [0x26] by decide]; exact h1, h2⟩

/-! ### Values -/

/-- The value of the first pair of that name. -/
def valueIn (pairs : List (Bytes × Bytes)) (key : Bytes) : Bytes :=
  match pairs.find? (fun p => p.1 = key) with
  | some p => p.2
  | none => []

theorem firstValue_iff {ps : List Bytes} {k v : Bytes} : FirstValue ps k v ↔ valueIn (ps.filterMap queryPair) k = v := by
  induction ps with
  | nil =>
    constructor
    · rintro (⟨b, p, a, h, -⟩ | ⟨rfl, -⟩)
      · cases b <;> cases h
      · rfl
    · intro h; exact .inr ⟨h.symm, by simp⟩
  | cons p ps ih =>
    have skip : (∀ v, ¬ IsPair p k v) → (FirstValue (p :: ps) k v ↔ FirstValue ps k v) := by
      intro hn
      constructor
      · rintro (⟨b, q, a, h, h1, h2⟩ | ⟨rfl, h⟩)
        · cases b with
          | nil => cases h; exact absurd h1 (hn v)
          | cons x b => cases h; exact .inl ⟨b, q, a, rfl, h1, fun q hq => h2 q (by simp [hq])⟩
        · exact .inr ⟨rfl, fun q hq => h q (by simp [hq])⟩
      · rintro (⟨b, q, a, h, h1, h2⟩ | ⟨rfl, h⟩)
        · refine .inl ⟨p :: b, q, a, by rw [h]; rfl, h1, ?_⟩
          intro q hq
          rw [List.mem_cons] at hq
          rcases hq with rfl | hq
          · exact hn
          · exact h2 q hq
        · refine .inr ⟨rfl, ?_⟩
          intro q hq
          rw [List.mem_cons] at hq
          rcases hq with rfl | hq
          · exact hn
          · exact h q hq
    cases e : queryPair p with
    | none =>
      rw [List.filterMap_cons_none e, skip (fun v h => by rw [queryPair_iff.mpr h] at e; cases e), ih]
    | some kv =>
      obtain ⟨k', v'⟩ := kv
      rw [List.filterMap_cons_some e]
      by_cases hk : k' = k
      · subst hk
        have e' : valueIn ((k', v') :: ps.filterMap queryPair) k' = v' := by simp [valueIn]
        rw [e']
        constructor
        · rintro (⟨b, q, a, h, h1, h2⟩ | ⟨-, h⟩)
          · cases b with
            | nil => cases h; rw [queryPair_iff.mpr h1] at e; cases e; rfl
            | cons x b => cases h; exact absurd (queryPair_iff.mp e) (h2 p (by simp) v')
          · exact absurd (queryPair_iff.mp e) (h p (by simp) v')
        · rintro rfl
          exact .inl ⟨[], p, ps, rfl, queryPair_iff.mp e, by simp⟩
      · have e' : valueIn ((k', v') :: ps.filterMap queryPair) k = valueIn (ps.filterMap queryPair) k := by simp [valueIn, hk]
        rw [e', skip, ih]
        intro w h
        rw [queryPair_iff.mpr h] at e
        cases e
        exact hk rfl

theorem bodyCounts_iff (r : HttpRequest) :
    ((r.method = str "POST" ∨ r.method = str "PUT" ∨ r.method = str "PATCH") ∧ r.isForm = true ∧ r.body.length ≤ 10485760) ↔ BodyCounts r := by
  unfold BodyCounts
  simp only [List.mem_cons, List.not_mem_nil, or_false]

/-- C68: the values that the demo page works with are those that the request has, for every request. -/
theorem C68_value (r : HttpRequest) (name value : Bytes) : formValue r name = value ↔ FieldValue r name value := by
  have e : formValue r name = valueIn (parseForm r) name := rfl
  have key : ∀ ps, Pieces r.query ps → ps = piecesAt 0x26 r.query := fun ps h => (pieces_unique h).symm
  rw [e, parseForm]
  unfold FieldValue
  by_cases hb : BodyCounts r
  · rw [if_pos ((bodyCounts_iff r).mpr hb), parseQuery, parseQuery, ← List.filterMap_append, ← firstValue_iff]
    constructor
    · intro h; exact ⟨_, pieces_pieces _, .inl ⟨hb, _, pieces_pieces _, h⟩⟩
    · rintro ⟨ps, h1, ⟨-, qs, h2, h3⟩ | ⟨h2, -⟩⟩
      · rw [pieces_unique h1, pieces_unique h2]; exact h3
      · exact absurd hb h2
  · rw [if_neg (fun h => hb ((bodyCounts_iff r).mp h)), List.nil_append, parseQuery, ← firstValue_iff]
    constructor
    · intro h; exact ⟨_, pieces_pieces _, .inr ⟨hb, h⟩⟩
    · rintro ⟨ps, h1, ⟨h2, -⟩ | ⟨-, h2⟩⟩
      · exact absurd h2 hb
      · rw [pieces_unique h1]; exact h2

/-! ### What the form submits -/

theorem unitsUtf8_cons {u : Nat} {us : List Nat} (h : ∀ lo us', us = lo :: us' → ¬ (IsHigh u ∧ IsLow lo)) :
    unitsUtf8 (u :: us) = encodeRune (if isSurrogate u then runeError else u) ++ unitsUtf8 us := by
  cases us with
  | nil => simp [unitsUtf8]
  | cons v us =>
    rw [unitsUtf8]
    have : utf16Decode u (some v) = none := by
      cases e : utf16Decode u (some v) with
      | none => rfl
      | some r => obtain ⟨h1, h2, -⟩ := utf16Decode_iff.mp e; exact absurd ⟨h1, h2⟩ (h v us rfl)
    rw [this]

theorem unitsUtf8_eq {us : List Nat} {s : Bytes} (h : Utf16 us s) : unitsUtf8 us = s := by
  induction h with
  | nil => rfl
  | char c hc h ih =>
    have hs := not_surrogate c
    rw [unitsUtf8_cons (fun _ _ _ hx => by
      rw [Bool.eq_false_iff] at hs
      exact hs ((surrogate_iff _).mpr (.inl hx.1))), ih, hs]
    simp only [Bool.false_eq_true, if_false, encodeRune_char]
  | pair hi lo c h1 h2 h3 h4 ih =>
    rw [unitsUtf8, utf16Decode_iff.mpr ⟨h1, h2, h3⟩]
    simp only [encodeRune_char, ih]
  | lone u h1 h2 h3 ih =>
    rw [unitsUtf8_cons h2, if_pos ((surrogate_iff u).mpr h1), encode_error, ih]

theorem formLines_spec : ∀ (n : Nat) (s : Bytes), s.length ≤ n → WithCrlf s (formLines s) := by
  intro n
  induction n with
  | zero =>
    intro s hl
    cases s with
    | nil => exact .nil
    | cons b s => simp at hl
  | succ n ih =>
    intro s hl
    match s, hl with
    | [], _ => exact .nil
    | [b], _ =>
      rw [formLines]
      by_cases h1 : b = 0x0D
      · subst h1; exact .cr (by simp) .nil
      by_cases h2 : b = 0x0A
      · subst h2; exact .lf .nil
      · rw [if_neg (by simp [h1, h2])]; exact .char b h1 h2 .nil
    | b :: c :: s, hl =>
      simp only [List.length_cons] at hl
      rw [formLines]
      by_cases h : b = 0x0D ∧ c = 0x0A
      · rw [if_pos h, h.1, h.2]; exact .crlf (ih s (by omega))
      rw [if_neg h]
      have hr := ih (c :: s) (by simp only [List.length_cons]; omega)
      by_cases h1 : b = 0x0D
      · subst h1
        rw [if_pos (.inl rfl)]
        exact .cr (by simp only [List.head?_cons, ne_eq, Option.some.injEq]; exact fun e => h ⟨rfl, e⟩) hr
      by_cases h2 : b = 0x0A
      · subst h2; rw [if_pos (.inr rfl)]; exact .lf hr
      · rw [if_neg (by simp [h1, h2])]; exact .char b h1 h2 hr

theorem withCrlf_unique {s a b : Bytes} (h : WithCrlf s a) (h' : WithCrlf s b) : a = b := by
  induction h generalizing b with
  | nil => cases h'; rfl
  | char c h1 h2 _ ih =>
    cases h' with
    | char _ _ _ h => rw [ih h]
    | crlf => exact absurd rfl h1
    | lf => exact absurd rfl h2
    | cr => exact absurd rfl h1
  | crlf _ ih =>
    cases h' with
    | char _ h1 _ _ => exact absurd rfl h1
    | crlf h => rw [ih h]
    | cr h1 _ => exact absurd rfl h1
  | lf _ ih =>
    cases h' with
    | char _ _ h2 _ => exact absurd rfl h2
    | lf h => rw [ih h]
  | cr h1 _ ih =>
    cases h' with
    | char _ h1 _ _ => exact absurd rfl h1
    | crlf h => exact absurd rfl h1
    | cr _ h => rw [ih h]

theorem formLines_eq {s s' : Bytes} (h : WithCrlf s s') : formLines s = s' := withCrlf_unique (formLines_spec _ s (Nat.le_refl _)) h

theorem formByte_table : ∀ n, n < 256 → (∀ c ∈ formByte (UInt8.ofNat n), c ≠ 0x26 ∧ c ≠ 0x3B ∧ c ≠ 0x3D) ∧
    queryUnescape (formByte (UInt8.ofNat n)) = some [UInt8.ofNat n] ∧
    (formByte (UInt8.ofNat n) = [UInt8.ofNat n] ∧ n ≠ 0x25 ∧ n ≠ 0x2B ∨ formByte (UInt8.ofNat n) = [0x2B] ∧ n = 0x20 ∨
      ∃ x, x < 16 ∧ ∃ y, y < 16 ∧ formByte (UInt8.ofNat n) = [0x25, upperHex x, upperHex y] ∧ hexVal (upperHex x) = some x ∧ hexVal (upperHex y) = some y ∧
        n = 16 * x + y) := by
  decide +kernel

/-- What the serializer writes stands for the text. -/
theorem C68_encoded (s : Bytes) : Unescaped (s.flatMap formByte) s ∧ ∀ c ∈ s.flatMap formByte, c ≠ 0x26 ∧ c ≠ 0x3B ∧ c ≠ 0x3D := by
  induction s with
  | nil => exact ⟨.nil, by simp⟩
  | cons b s ih =>
    obtain ⟨h1, -, h2⟩ := formByte_table b.toNat b.toNat_lt
    rw [UInt8.ofNat_toNat] at h1 h2
    rw [List.flatMap_cons]
    refine ⟨?_, ?_⟩
    · rcases h2 with ⟨e, n1, n2⟩ | ⟨e, n1⟩ | ⟨x, -, y, -, e, e1, e2, e3⟩
      · rw [e]; exact .plain b (fun h => n1 (by rw [h]; rfl)) (fun h => n2 (by rw [h]; rfl)) ih.1
      · rw [e]
        have : b = 0x20 := UInt8.toNat_inj.mp n1
        subst this
        exact .plus ih.1
      · rw [e]
        have := Unescaped.percent _ _ x y e1 e2 ih.1
        rw [← e3, UInt8.ofNat_toNat] at this
        exact this
    · intro c hc
      rw [List.mem_append] at hc
      rcases hc with hc | hc
      · exact h1 c hc
      · exact ih.2 c hc

theorem isPair_field {name : Bytes} (hn : ∀ c ∈ name, c ≠ 0x25 ∧ c ≠ 0x2B ∧ c ≠ 0x3B ∧ c ≠ 0x3D) (s : Bytes) :
    IsPair (name ++ 0x3D :: s.flatMap formByte) name s := by
  obtain ⟨h1, h2⟩ := C68_encoded s
  refine ⟨?_, by simp, name, _, fun h => (hn _ h).2.2.2 rfl, .inl rfl, ?_, h1⟩
  · intro h
    simp only [List.mem_append, List.mem_cons] at h
    rcases h with h | h | h
    · exact (hn _ h).2.2.1 rfl
    · exact absurd h (by decide)
    · exact (h2 _ h).2.1 rfl
  · clear h1 h2
    induction name with
    | nil => exact .nil
    | cons c name ih =>
      have := hn c (by simp)
      exact .plain c this.1 this.2.1 (ih (fun c hc => hn c (by simp [hc])))

/-- The value of the checked button, as it is sent; the empty text stands for none. -/
def ModeText (mode : Option (List Nat)) (m : Bytes) : Prop :=
  mode = none ∧ m = [] ∨ ∃ us m0, mode = some us ∧ Utf16 us m0 ∧ WithCrlf m0 m

theorem notAmp {name s : Bytes} (hn : 0x26 ∉ name) : 0x26 ∉ name ++ 0x3D :: s.flatMap formByte := by
  intro h
  simp only [List.mem_append, List.mem_cons] at h
  rcases h with h | h | h
  · exact hn h
  · exact absurd h (by decide)
  · exact ((C68_encoded s).2 _ h).1 rfl

theorem submit_pairs {text : List Nat} {mode : Option (List Nat)} {s s' m : Bytes} (hs : Utf16 text s) (hc : WithCrlf s s') (hm : ModeText mode m) :
    parseQuery (submitBody text mode) =
      (str "s", s') :: ((if mode = none then [] else [(str "r", m)]) ++ [(str "lattice", str "Lattice")]) := by
  have q1 : queryPair (str "s" ++ 0x3D :: s'.flatMap formByte) = some (str "s", s') := queryPair_iff.mpr (isPair_field (by decide) s')
  have q3 : queryPair (str "lattice=Lattice") = some (str "lattice", str "Lattice") := by decide +kernel
  have e1 : str "s=" = str "s" ++ [0x3D] := by decide
  have e2 : str "&r=" = 0x26 :: (str "r" ++ [0x3D]) := by decide
  have e3 : str "&lattice=Lattice" = 0x26 :: str "lattice=Lattice" := by decide
  have a1 : 0x26 ∉ str "s" ++ 0x3D :: s'.flatMap formByte := notAmp (by decide)
  have a3 : 0x26 ∉ str "lattice=Lattice" := by decide
  have f1 : formText text = s'.flatMap formByte := by unfold formText; rw [unitsUtf8_eq hs, formLines_eq hc]
  unfold parseQuery submitBody
  rcases hm with ⟨rfl, rfl⟩ | ⟨us, m0, rfl, hu, hw⟩
  · have : str "s=" ++ formText text ++ [] ++ str "&lattice=Lattice" = (str "s" ++ 0x3D :: s'.flatMap formByte) ++ 0x26 :: str "lattice=Lattice" := by
      rw [e1, e3, f1]; simp
    simp only [this]
    rw [piecesAt_append a1, piecesAt_plain a3, List.filterMap_cons_some q1, List.filterMap_cons_some q3]
    rfl
  · have q2 : queryPair (str "r" ++ 0x3D :: m.flatMap formByte) = some (str "r", m) := queryPair_iff.mpr (isPair_field (by decide) m)
    have a2 : 0x26 ∉ str "r" ++ 0x3D :: m.flatMap formByte := notAmp (by decide)
    have f2 : formText us = m.flatMap formByte := by unfold formText; rw [unitsUtf8_eq hu, formLines_eq hw]
    have : str "s=" ++ formText text ++ (str "&r=" ++ formText us) ++ str "&lattice=Lattice" =
        (str "s" ++ 0x3D :: s'.flatMap formByte) ++ 0x26 :: ((str "r" ++ 0x3D :: m.flatMap formByte) ++ 0x26 :: str "lattice=Lattice") := by
      rw [e1, e2, e3, f1, f2]; simp
    simp only [this]
    rw [piecesAt_append a1, piecesAt_append a2, piecesAt_plain a3, List.filterMap_cons_some q1, List.filterMap_cons_some q2, List.filterMap_cons_some q3]
    rfl

theorem submit_form {text : List Nat} {mode : Option (List Nat)} (hl : (submitBody text mode).length ≤ 10 * 1024 * 1024) :
    parseForm (submitRequest text mode) = parseQuery (submitBody text mode) := by
  unfold parseForm
  rw [if_pos ⟨.inl rfl, rfl, hl⟩, show (submitRequest text mode).query = [] from rfl, show parseQuery [] = [] by decide, List.append_nil]
  rfl

/-- C68: pressing the button sends what is in the field, with CR LF for its line breaks, and the value of the checked button; the page is that of this sentence
and mode (C49, C64). -/
theorem C68_submit (t : Tokenizer) (ideo : Nat → Bool) (viz : Graphviz) (addr : Ptr → Bytes) {text : List Nat} {mode : Option (List Nat)} {s s' m : Bytes}
    (hs : Utf16 text s) (hc : WithCrlf s s') (hm : ModeText mode m) (hl : (submitBody text mode).length ≤ 10 * 1024 * 1024) :
    serveForm t ideo viz addr (submitRequest text mode) = demoBody t ideo viz addr s' m (str "Lattice") := by
  have n1 : ¬ str "s" = str "r" := by decide
  have n2 : ¬ str "s" = str "lattice" := by decide
  have n3 : ¬ str "r" = str "lattice" := by decide
  have n4 : ¬ str "lattice" = str "r" := by decide
  have v1 : formValue (submitRequest text mode) (str "s") = s' := by
    unfold formValue
    rw [submit_form hl, submit_pairs hs hc hm]
    simp
  have v2 : formValue (submitRequest text mode) (str "r") = m := by
    unfold formValue
    rw [submit_form hl, submit_pairs hs hc hm]
    rcases hm with ⟨rfl, rfl⟩ | ⟨us, m0, rfl, -, -⟩
    · simp [n1, n4]
    · simp [n1]
  have v3 : formValue (submitRequest text mode) (str "lattice") = str "Lattice" := by
    unfold formValue
    rw [submit_form hl, submit_pairs hs hc hm]
    rcases hm with ⟨rfl, rfl⟩ | ⟨us, m0, rfl, -, -⟩
    · simp [n2]
    · simp [n2, n3]
  unfold serveForm
  rw [v1, v2, v3]

/-- C68: a form of more than 10 MB is dropped without a word: the answer is the empty form. -/
theorem C68_large (t : Tokenizer) (ideo : Nat → Bool) (viz : Graphviz) (addr : Ptr → Bytes) (text : List Nat) (mode : Option (List Nat))
    (hl : ¬ (submitBody text mode).length ≤ 10 * 1024 * 1024) :
    serveForm t ideo viz addr (submitRequest text mode) = some (renderForm [] []) := by
  have : ∀ k, formValue (submitRequest text mode) k = [] := by
    intro k
    unfold formValue parseForm
    rw [if_neg (fun h => hl h.2.2), show (submitRequest text mode).query = [] from rfl, show parseQuery [] = [] by decide]
    rfl
  unfold serveForm
  rw [this, this, this]
  rfl

/-- C68: the sentence of the page is the text of the field exactly if that has no line feed. (A field has no carriage returns.) -/
theorem C68_lines {s s' : Bytes} (h : WithCrlf s s') (hr : 0x0D ∉ s) : s' = s ↔ 0x0A ∉ s := by
  constructor
  · have len : s.length ≤ s'.length ∧ (0x0D ∉ s → 0x0A ∈ s → s.length < s'.length) := by
      clear hr
      induction h with
      | nil => exact ⟨Nat.le_refl _, by simp⟩
      | char b h1 h2 _ ih =>
        refine ⟨by simp only [List.length_cons]; omega, fun hd ha => ?_⟩
        rw [List.mem_cons, not_or] at hd
        rw [List.mem_cons] at ha
        have := ih.2 hd.2 (ha.resolve_left (fun e => h2 e.symm))
        simp only [List.length_cons]; omega
      | crlf _ ih => exact ⟨by simp only [List.length_cons]; omega, fun hd => absurd (by simp) hd⟩
      | lf _ ih => exact ⟨by simp only [List.length_cons]; omega, fun _ _ => by simp only [List.length_cons]; omega⟩
      | cr _ _ ih => exact ⟨by simp only [List.length_cons]; omega, fun hd => absurd (by simp) hd⟩
    intro e hn
    have := len.2 hr hn
    rw [e] at this
    omega
  · intro hn
    induction h with
    | nil => rfl
    | char b _ _ _ ih =>
      rw [List.mem_cons, not_or] at hr hn
      rw [ih hr.2 hn.2]
    | crlf => simp at hr
    | lf => simp at hn
    | cr => simp at hr

theorem valid_crlf {s s' : Bytes} (hv : ValidUtf8 s) (h : WithCrlf s s') (hr : 0x0D ∉ s) : ValidUtf8 s' := by
  have e : s' = s.flatMap (fun b => if b = 0x0A then [0x0D, 0x0A] else [b]) := by
    clear hv
    induction h with
    | nil => rfl
    | char b _ h2 _ ih =>
      rw [List.mem_cons, not_or] at hr
      rw [List.flatMap_cons, ← ih hr.2, if_neg h2]; rfl
    | crlf => simp at hr
    | lf _ ih =>
      rw [List.mem_cons, not_or] at hr
      rw [List.flatMap_cons, ← ih hr.2, if_pos rfl]; rfl
    | cr => simp at hr
  obtain ⟨cs, rfl⟩ := hv
  rw [e, List.flatMap_assoc]
  refine valid_flatMap _ _ (fun c _ => ?_)
  by_cases hc : c.val.toNat < 0x80
  · rw [encode_ascii hc, List.flatMap_singleton]
    split
    · exact valid_pair (by decide) (by decide)
    · exact valid_ascii (by rw [ofNat_toNat hc]; exact hc)
  · have key : ∀ l : Bytes, (∀ b ∈ l, 0x80 ≤ b.toNat) → l.flatMap (fun b => if b = 0x0A then [0x0D, 0x0A] else [b]) = l := by
      intro l
      induction l with
      | nil => intro _; rfl
      | cons b l ih =>
        intro hl
        rw [List.flatMap_cons, ih (fun b hb => hl b (by simp [hb])), if_neg (fun e => absurd (hl b (by simp)) (by rw [e]; decide))]
        rfl
    rw [key _ (encode_high hc)]
    exact valid_encode c

/-- C68: hence for a text of several lines the page and the live table (C67) are about different texts: their tokens differ. -/
theorem C68_differs {t : Tokenizer} {ideo : Nat → Bool} {text : List Nat} {s s' : Bytes} (hs : Utf16 text s) (h : WithCrlf s s') (hr : 0x0D ∉ s) (hn : 0x0A ∈ s)
    (ht : Tame t s) (ht' : Tame t s') {m m' : Int} {toks toks' : List Token} (ha : analyze t ideo s m = some toks)
    (ha' : analyze t ideo s' m' = some toks') : (inner toks).map (·.surface) ≠ (inner toks').map (·.surface) := by
  have hv : ValidUtf8 s := utf16_valid hs
  have hv' : ValidUtf8 s' := valid_crlf hv h hr
  intro e
  have e1 := repaired_surfaces ht ha
  have e2 := repaired_surfaces ht' ha'
  rw [repaired_valid hv] at e1
  rw [repaired_valid hv'] at e2
  have : (inner toks).flatMap (fun tok => repaired tok.surface) = (inner toks').flatMap (fun tok => repaired tok.surface) := by
    have f : ∀ l : List Token, l.flatMap (fun tok => repaired tok.surface) = (l.map (·.surface)).flatMap repaired := fun l => by rw [List.flatMap_map]
    rw [f, f, e]
  rw [e1, e2] at this
  exact (C68_lines h hr).mp this.symm hn

/-! ### Cases -/

/-- Two lines with a space, a plus and an ampersand. -/
def typedLines : List Nat := (str "a b\n+&").map UInt8.toNat

theorem typedLines_reads : Utf16 typedLines (str "a b\n+&") ∧ WithCrlf (str "a b\n+&") (str "a b\r\n+&") :=
  ⟨.char 'a' (by decide) (.char ' ' (by decide) (.char 'b' (by decide) (.char '\n' (by decide) (.char '+' (by decide) (.char '&' (by decide) .nil))))),
    .char 0x61 (by decide) (by decide) (.char 0x20 (by decide) (by decide) (.char 0x62 (by decide) (by decide) (.lf
      (.char 0x2B (by decide) (by decide) (.char 0x26 (by decide) (by decide) .nil)))))⟩

/-- The hypotheses of C68_submit and C68_differs, and the body that is sent. -/
example : Utf16 typedLines (str "a b\n+&") ∧ WithCrlf (str "a b\n+&") (str "a b\r\n+&") ∧ ModeText none [] ∧
    submitBody typedLines none = str "s=a+b%0D%0A%2B%26&lattice=Lattice" ∧ 0x0D ∉ str "a b\n+&" ∧ 0x0A ∈ str "a b\n+&" ∧
    Tame Toy.tok (str "a b\n+&") ∧ Tame Toy.tok (str "a b\r\n+&") :=
  ⟨typedLines_reads.1, typedLines_reads.2, .inl ⟨rfl, rfl⟩, by decide +kernel, by decide, by decide, toy_tame_short (by decide +kernel),
    toy_tame_short (by decide +kernel)⟩

/-- The value of the button. -/
example : ModeText (some ((str "Normal").map UInt8.toNat)) (str "Normal") := by
  refine .inr ⟨_, str "Normal", rfl, normal_reads, ?_⟩
  have := formLines_spec _ (str "Normal") (Nat.le_refl _)
  rwa [show formLines (str "Normal") = str "Normal" by decide +kernel] at this

/-- A form that is too large. -/
example : ¬ (submitBody (List.replicate 10485760 0x61) none).length ≤ 10 * 1024 * 1024 := by
  have hu : ∀ n, Utf16 (List.replicate n 0x61) (List.replicate n 0x61) := by
    intro n
    induction n with
    | zero => exact .nil
    | succ n ih => exact .char 'a' (by decide) ih
  have hc : ∀ n, WithCrlf (List.replicate n 0x61) (List.replicate n 0x61) := by
    intro n
    induction n with
    | zero => exact .nil
    | succ n ih => exact .char 0x61 (by decide) (by decide) ih
  have hf : ∀ n, (List.replicate n (0x61 : UInt8)).flatMap formByte = List.replicate n 0x61 := by
    intro n
    induction n with
    | zero => rfl
    | succ n ih => rw [List.replicate_succ, List.flatMap_cons, ih]; rfl
  unfold submitBody formText
  rw [unitsUtf8_eq (hu _), formLines_eq (hc _), hf]
  simp only [List.length_append, List.length_replicate]
  have : (str "s=").length = 2 := by decide
  omega

/-- Pieces that do not count, a name that is escaped, and the query behind the body. -/
example : FieldValue ⟨str "POST", true, str "x=1;s=2&s=%zz&%73=a%2bb+c&s=d", str "s=e"⟩ (str "s") (str "a+b c") ∧
    FieldValue ⟨str "GET", false, [], str "s=%E3%82%82&lattice"⟩ (str "s") (str "も") ∧
    FieldValue ⟨str "POST", false, str "s=1", str "r&r=2"⟩ (str "s") [] := by
  refine ⟨?_, ?_, ?_⟩ <;> rw [← C68_value] <;> decide +kernel

end Kagome
