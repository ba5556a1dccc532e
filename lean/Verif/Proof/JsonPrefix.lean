import Verif.Proof.JsonPlace

/-!
The scanner of encoding/json finds the first wrong byte: what it read before is the beginning of some JSON text, and it does not look at what follows. Where it
finds no wrong byte but the end of the input, the input is the beginning of some JSON text.
-/

namespace Kagome

open Spec (StringText ValueText ItemsText MembersText OpenString OpenNumber OpenValue OpenItems OpenMembers IsDigits IsInteger IsFraction IsExponent IsNumber)

/-- What is known of the scanner of a part of a value: where it stops depends on the next byte only; a wrong byte is the first one with which the input is not
the beginning of such a part. -/
structure Online (F : Bytes → Except JErr Bytes) : Prop where
  ok : ∀ s rest, F s = .ok rest → ∃ p, s = p ++ rest ∧ ∀ rest', (rest' = [] ∨ rest'.head? = rest.head?) → F (p ++ rest') = .ok rest'
  bad : ∀ s c ctx, F s = .error (.bad c ctx) → ∃ good rest, s = good ++ c :: rest ∧ F good = .error .short ∧
    ∀ rest', F (good ++ c :: rest') = .error (.bad c ctx)
  short : ∀ s, F s = .error .short → ∃ more, F (s ++ more) = .ok []
  proper : ∀ s e, F s = .error e → e.Proper

theorem online_nil {F : Bytes → Except JErr Bytes} (h : Online F) : ∃ more, F more = .ok [] := by
  cases hf : F [] with
  | ok rest =>
    obtain ⟨p, e, -⟩ := h.ok _ _ hf
    have : rest = [] := (List.append_eq_nil_iff.mp e.symm).2
    exact ⟨[], by rw [hf, this]⟩
  | error e =>
    rcases h.proper _ _ hf with rfl | ⟨c, ctx, rfl⟩
    · obtain ⟨more, hm⟩ := h.short _ hf
      exact ⟨more, by simpa using hm⟩
    · obtain ⟨good, rest, e, -⟩ := h.bad _ _ _ hf
      simp at e

theorem online_first {F : Bytes → Except JErr Bytes} (h0 : F [] = .error .short)
    (h : ∀ b, Online (fun s => F (b :: s)) ∨ ∃ ctx, ∀ s, F (b :: s) = .error (.bad b ctx)) (hb : ∃ b, Online (fun s => F (b :: s))) : Online F where
  ok := by
    intro s rest hs
    cases s with
    | nil => rw [h0] at hs; cases hs
    | cons b s =>
      rcases h b with h | ⟨ctx, h⟩
      · obtain ⟨p, e, hp⟩ := h.ok _ _ hs
        exact ⟨b :: p, by rw [e]; rfl, fun rest' hr => hp rest' hr⟩
      · rw [h] at hs; cases hs
  bad := by
    intro s c ctx hs
    cases s with
    | nil => rw [h0] at hs; cases hs
    | cons b s =>
      rcases h b with h | ⟨ctx', h⟩
      · obtain ⟨good, rest, e, hg, hr⟩ := h.bad _ _ _ hs
        exact ⟨b :: good, rest, by rw [e]; rfl, hg, fun rest' => hr rest'⟩
      · rw [h] at hs
        cases hs
        exact ⟨[], s, rfl, h0, fun rest' => h rest'⟩
  short := by
    intro s hs
    cases s with
    | nil =>
      obtain ⟨b, hb⟩ := hb
      obtain ⟨more, hm⟩ := online_nil hb
      exact ⟨b :: more, hm⟩
    | cons b s =>
      rcases h b with h | ⟨ctx, h⟩
      · exact h.short _ hs
      · rw [h] at hs; cases hs
  proper := by
    intro s e hs
    cases s with
    | nil => rw [h0] at hs; cases hs; exact .inl rfl
    | cons b s =>
      rcases h b with h | ⟨ctx, h⟩
      · exact h.proper _ _ hs
      · rw [h] at hs; cases hs; exact .inr ⟨_, _, rfl⟩

theorem online_opt {F : Bytes → Except JErr Bytes} (h0 : F [] = .ok []) (h : ∀ b, Online (fun s => F (b :: s)) ∨ ∀ s, F (b :: s) = .ok (b :: s)) :
    Online F where
  ok := by
    intro s rest hs
    cases s with
    | nil =>
      rw [h0] at hs
      cases hs
      refine ⟨[], rfl, ?_⟩
      rintro rest' (rfl | hr)
      · exact h0
      · cases rest' with
        | nil => exact h0
        | cons => cases hr
    | cons b s =>
      rcases h b with h | h
      · obtain ⟨p, e, hp⟩ := h.ok _ _ hs
        exact ⟨b :: p, by rw [e]; rfl, fun rest' hr => hp rest' hr⟩
      · rw [h] at hs
        cases hs
        refine ⟨[], rfl, ?_⟩
        rintro rest' (rfl | hr)
        · exact h0
        · cases rest' with
          | nil => exact h0
          | cons => cases hr; exact h _
  bad := by
    intro s c ctx hs
    cases s with
    | nil => rw [h0] at hs; cases hs
    | cons b s =>
      rcases h b with h | h
      · obtain ⟨good, rest, e, hg, hr⟩ := h.bad _ _ _ hs
        exact ⟨b :: good, rest, by rw [e]; rfl, hg, fun rest' => hr rest'⟩
      · rw [h] at hs; cases hs
  short := by
    intro s hs
    cases s with
    | nil => rw [h0] at hs; cases hs
    | cons b s =>
      rcases h b with h | h
      · exact h.short _ hs
      · rw [h] at hs; cases hs
  proper := by
    intro s e hs
    cases s with
    | nil => rw [h0] at hs; cases hs
    | cons b s =>
      rcases h b with h | h
      · exact h.proper _ _ hs
      · rw [h] at hs; cases hs

theorem dropDigits_nondigit (s : Bytes) : ∀ b, (dropDigits s).head? = some b → jsonDigit b = false := by
  induction s with
  | nil => intro b h; cases h
  | cons x s ih =>
    intro b h
    rw [dropDigits] at h
    split at h
    · exact ih b h
    · rename_i hx; cases h; simpa using hx

theorem head_append {p rest rest' : Bytes} (h : rest' = [] ∨ rest'.head? = rest.head?) {b : UInt8} (hb : (p ++ rest').head? = some b) :
    (p ++ rest).head? = some b := by
  cases p with
  | cons x p => exact hb
  | nil =>
    rcases h with rfl | h
    · cases hb
    · rw [List.nil_append] at hb ⊢; rw [← h, hb]

theorem online_digits {F : Bytes → Except JErr Bytes} (hF : Online F) (h0 : F [] ≠ .error .short) : Online (fun s => F (dropDigits s)) where
  ok := by
    intro s rest hs
    obtain ⟨ds, e, hd⟩ := dropDigits_spec s
    obtain ⟨p, e2, hp⟩ := hF.ok _ _ hs
    refine ⟨ds ++ p, by rw [List.append_assoc, ← e2, ← e], ?_⟩
    intro rest' hr
    rw [List.append_assoc, dropDigits_all hd, dropDigits_stop]
    · exact hp rest' hr
    · intro b hb
      have := head_append hr hb
      rw [← e2] at this
      exact dropDigits_nondigit s b this
  bad := by
    intro s c ctx hs
    obtain ⟨ds, e, hd⟩ := dropDigits_spec s
    obtain ⟨good, rest, e2, hg, hr⟩ := hF.bad _ _ _ hs
    refine ⟨ds ++ good, rest, by rw [List.append_assoc, ← e2, ← e], ?_, ?_⟩
    · rw [dropDigits_all hd, dropDigits_stop]
      · exact hg
      · intro b hb
        refine dropDigits_nondigit s b ?_
        rw [e2]
        exact head_append (rest := c :: rest) (.inl rfl) (by rw [List.append_nil]; exact hb)
    · intro rest'
      rw [List.append_assoc, dropDigits_all hd, dropDigits_stop]
      · exact hr rest'
      · intro b hb
        refine dropDigits_nondigit s b ?_
        rw [e2]
        exact head_append (rest := c :: rest) (rest' := c :: rest') (.inr rfl) hb
  short := by
    intro s hs
    obtain ⟨ds, e, hd⟩ := dropDigits_spec s
    obtain ⟨more, hm⟩ := hF.short _ hs
    refine ⟨more, ?_⟩
    cases hx : dropDigits s with
    | nil => rw [hx] at hs; exact absurd hs h0
    | cons x t =>
      have : dropDigits (s ++ more) = dropDigits s ++ more := by
        conv => lhs; rw [e]
        rw [List.append_assoc, dropDigits_all hd, dropDigits_stop]
        intro b hb
        refine dropDigits_nondigit s b ?_
        rw [hx] at hb ⊢
        exact hb
      rw [this]; exact hm
  proper := fun s e hs => hF.proper _ _ hs

theorem online_pure : Online (fun s => .ok s) :=
  online_opt rfl (fun _ => .inr fun _ => rfl)

theorem digit_zero : jsonDigit 0x30 = true := by decide

theorem online_expDigit {b : UInt8} (h : jsonDigit b = true) : Online (fun s => scanExpDigits (b :: s)) := by
  have : (fun s => scanExpDigits (b :: s)) = fun s => .ok (dropDigits s) := by funext s; rw [scanExpDigits, if_pos h]
  rw [this]
  exact online_digits online_pure (by simp)

theorem online_expDigits : Online scanExpDigits := by
  refine online_first rfl (fun b => ?_) ⟨0x30, online_expDigit digit_zero⟩
  by_cases h : jsonDigit b = true
  · exact .inl (online_expDigit h)
  · exact .inr ⟨_, fun s => by rw [scanExpDigits, if_neg h]⟩

theorem online_expSign {b : UInt8} (h : b = 0x2B ∨ b = 0x2D) : Online (fun s => scanExp (b :: s)) := by
  have : (fun s => scanExp (b :: s)) = scanExpDigits := by funext s; rw [scanExp, if_pos h]
  rw [this]; exact online_expDigits

theorem online_exp : Online scanExp := by
  refine online_first rfl (fun b => ?_) ⟨0x2B, online_expSign (.inl rfl)⟩
  by_cases h : b = 0x2B ∨ b = 0x2D
  · exact .inl (online_expSign h)
  · have : (fun s => scanExp (b :: s)) = fun s => scanExpDigits (b :: s) := by funext s; rw [scanExp, if_neg h]
    by_cases hd : jsonDigit b = true
    · left; rw [this]; exact online_expDigit hd
    · exact .inr ⟨_, fun s => by rw [scanExp, if_neg h, scanExpDigits, if_neg hd]⟩

theorem online_tailE {b : UInt8} (h : b = 0x65 ∨ b = 0x45) : Online (fun s => scanTail (b :: s)) := by
  have : (fun s => scanTail (b :: s)) = scanExp := by funext s; rw [scanTail, if_pos h]
  rw [this]; exact online_exp

theorem online_tail : Online scanTail := by
  refine online_opt rfl (fun b => ?_)
  by_cases h : b = 0x65 ∨ b = 0x45
  · exact .inl (online_tailE h)
  · exact .inr fun s => by rw [scanTail, if_neg h]

theorem online_dotDigit {b : UInt8} (h : jsonDigit b = true) : Online (fun s => scanDot (b :: s)) := by
  have : (fun s => scanDot (b :: s)) = fun s => scanTail (dropDigits s) := by funext s; rw [scanDot, if_pos h]
  rw [this]; exact online_digits online_tail (by intro h; cases h)

theorem online_dot : Online scanDot := by
  refine online_first rfl (fun b => ?_) ⟨0x30, online_dotDigit digit_zero⟩
  by_cases h : jsonDigit b = true
  · exact .inl (online_dotDigit h)
  · exact .inr ⟨_, fun s => by rw [scanDot, if_neg h]⟩

theorem online_frac : Online scanFrac := by
  refine online_opt rfl (fun b => ?_)
  by_cases h : b = 0x2E
  · left
    have : (fun s => scanFrac (b :: s)) = scanDot := by funext s; rw [scanFrac, if_pos h]
    rw [this]; exact online_dot
  · by_cases h2 : b = 0x65 ∨ b = 0x45
    · left
      have : (fun s => scanFrac (b :: s)) = fun s => scanTail (b :: s) := by funext s; rw [scanFrac, if_neg h]
      rw [this]; exact online_tailE h2
    · exact .inr fun s => by rw [scanFrac, if_neg h, scanTail, if_neg h2]

theorem online_int (b : UInt8) : Online (scanDigits b) := by
  by_cases h : b = 0x30
  · have : scanDigits b = scanFrac := by funext s; rw [scanDigits, if_pos h]
    rw [this]; exact online_frac
  · have : scanDigits b = fun s => scanFrac (dropDigits s) := by funext s; rw [scanDigits, if_neg h]
    rw [this]; exact online_digits online_frac (by intro h; cases h)

theorem online_neg : Online scanNeg := by
  have hd : ∀ b, jsonDigit b = true → Online (fun s => scanNeg (b :: s)) := by
    intro b h
    have : (fun s => scanNeg (b :: s)) = scanDigits b := by funext s; rw [scanNeg, if_pos h]
    rw [this]; exact online_int b
  refine online_first rfl (fun b => ?_) ⟨0x30, hd _ digit_zero⟩
  by_cases h : jsonDigit b = true
  · exact .inl (hd b h)
  · exact .inr ⟨_, fun s => by rw [scanNeg, if_neg h]⟩

theorem online_letters (name want : Bytes) : Online (scanLetters name want) := by
  induction want with
  | nil =>
    have : scanLetters name [] = fun s => .ok s := by funext s; rw [scanLetters]
    rw [this]; exact online_pure
  | cons x want ih =>
    have hx : Online (fun s => scanLetters name (x :: want) (x :: s)) := by
      have : (fun s => scanLetters name (x :: want) (x :: s)) = scanLetters name want := by funext s; rw [scanLetters, if_pos rfl]
      rw [this]; exact ih
    refine online_first rfl (fun b => ?_) ⟨x, hx⟩
    by_cases h : b = x
    · subst h; exact .inl hx
    · exact .inr ⟨_, fun s => by rw [scanLetters, if_neg h]⟩

/-! ### Strings -/

theorem map_bad {α β : Type} {f : α → β} {x : Except JErr α} {e : JErr} (h : x = .error e) : x.map f = .error e := by rw [h]; rfl

theorem scanString_bad : ∀ (s : Bytes) (st : StrState) (c : UInt8) (ctx : Bytes), scanString st s = .error (.bad c ctx) →
    ∃ good rest, s = good ++ c :: rest ∧ scanString st good = .error .short ∧ ∀ rest', scanString st (good ++ c :: rest') = .error (.bad c ctx) := by
  intro s
  induction s with
  | nil => intro st c ctx h; cases st <;> · rw [scanString] at h; cases h
  | cons b s ih =>
    intro st c ctx h
    have here : ∀ {st : StrState} {e : Bytes}, (∀ t, scanString st (b :: t) = .error (.bad b e)) → scanString st (b :: s) = .error (.bad c ctx) →
        ∃ good rest, b :: s = good ++ c :: rest ∧ scanString st good = .error .short ∧ ∀ rest', scanString st (good ++ c :: rest') = .error (.bad c ctx) := by
      intro st e h1 h2
      rw [h1] at h2
      cases h2
      exact ⟨[], s, rfl, by cases st <;> rw [scanString], fun rest' => h1 rest'⟩
    have later : ∀ {st st' : StrState}, (∀ t, scanString st (b :: t) = (scanString st' t).map (fun r => (b :: r.1, r.2))) →
        scanString st (b :: s) = .error (.bad c ctx) →
        ∃ good rest, b :: s = good ++ c :: rest ∧ scanString st good = .error .short ∧ ∀ rest', scanString st (good ++ c :: rest') = .error (.bad c ctx) := by
      intro st st' h1 h2
      rw [h1] at h2
      obtain ⟨good, rest, e, hg, hr⟩ := ih st' c ctx (except_map_error h2)
      exact ⟨b :: good, rest, by rw [e]; rfl, by rw [h1]; exact map_bad hg, fun rest' => by rw [List.cons_append, h1]; exact map_bad (hr rest')⟩
    cases st with
    | plain =>
      by_cases h1 : b = 0x22
      · rw [scanString, if_pos h1] at h; cases h
      by_cases h2 : b = 0x5C
      · exact later (st' := .esc) (fun t => by rw [scanString, if_neg h1, if_pos h2]) h
      by_cases h3 : b < 0x20
      · exact here (fun t => by rw [scanString, if_neg h1, if_neg h2, if_pos h3]) h
      · exact later (st' := .plain) (fun t => by rw [scanString, if_neg h1, if_neg h2, if_neg h3]) h
    | esc =>
      by_cases h1 : b = 0x62 ∨ b = 0x66 ∨ b = 0x6E ∨ b = 0x72 ∨ b = 0x74 ∨ b = 0x5C ∨ b = 0x2F ∨ b = 0x22
      · exact later (st' := .plain) (fun t => by rw [scanString, if_pos h1]) h
      by_cases h2 : b = 0x75
      · exact later (st' := .hex 3) (fun t => by rw [scanString, if_neg h1, if_pos h2]) h
      · exact here (fun t => by rw [scanString, if_neg h1, if_neg h2]) h
    | hex n =>
      by_cases h1 : (jsonHex b).isSome = true
      · cases n with
        | zero => exact later (st' := .plain) (fun t => by rw [scanString, if_pos h1]) h
        | succ n => exact later (st' := .hex n) (fun t => by rw [scanString, if_pos h1]) h
      · exact here (fun t => by rw [scanString.eq_def]; exact if_neg h1) h

theorem scanString_close : ∀ st : StrState, ∃ more raw, scanString st more = .ok (raw, []) := by
  have plain : scanString .plain [0x22] = .ok ([], []) := rfl
  have hex : ∀ n, ∃ more raw, scanString (.hex n) more = .ok (raw, []) := by
    intro n
    induction n with
    | zero => exact ⟨[0x30, 0x22], [0x30], rfl⟩
    | succ n ih =>
      obtain ⟨more, raw, h⟩ := ih
      refine ⟨0x30 :: more, 0x30 :: raw, ?_⟩
      rw [scanString, if_pos (by decide)]
      simp only [h]; rfl
  intro st
  cases st with
  | plain => exact ⟨_, _, plain⟩
  | esc => exact ⟨[0x62, 0x22], [0x62], rfl⟩
  | hex n => exact hex n

theorem scanString_short : ∀ (s : Bytes) (st : StrState), scanString st s = .error .short → ∃ more raw, scanString st (s ++ more) = .ok (raw, []) := by
  intro s
  induction s with
  | nil => intro st _; exact scanString_close st
  | cons b s ih =>
    intro st h
    have later : ∀ {st st' : StrState}, (∀ t, scanString st (b :: t) = (scanString st' t).map (fun r => (b :: r.1, r.2))) →
        scanString st (b :: s) = .error .short → ∃ more raw, scanString st (b :: s ++ more) = .ok (raw, []) := by
      intro st st' h1 h2
      rw [h1] at h2
      obtain ⟨more, raw, hm⟩ := ih st' (except_map_error h2)
      exact ⟨more, b :: raw, by rw [List.cons_append, h1, hm]; rfl⟩
    cases st with
    | plain =>
      by_cases h1 : b = 0x22
      · rw [scanString, if_pos h1] at h; cases h
      by_cases h2 : b = 0x5C
      · exact later (st' := .esc) (fun t => by rw [scanString, if_neg h1, if_pos h2]) h
      by_cases h3 : b < 0x20
      · rw [scanString, if_neg h1, if_neg h2, if_pos h3] at h; cases h
      · exact later (st' := .plain) (fun t => by rw [scanString, if_neg h1, if_neg h2, if_neg h3]) h
    | esc =>
      by_cases h1 : b = 0x62 ∨ b = 0x66 ∨ b = 0x6E ∨ b = 0x72 ∨ b = 0x74 ∨ b = 0x5C ∨ b = 0x2F ∨ b = 0x22
      · exact later (st' := .plain) (fun t => by rw [scanString, if_pos h1]) h
      by_cases h2 : b = 0x75
      · exact later (st' := .hex 3) (fun t => by rw [scanString, if_neg h1, if_pos h2]) h
      · rw [scanString, if_neg h1, if_neg h2] at h; cases h
    | hex n =>
      by_cases h1 : (jsonHex b).isSome = true
      · cases n with
        | zero => exact later (st' := .plain) (fun t => by rw [scanString, if_pos h1]) h
        | succ n => exact later (st' := .hex n) (fun t => by rw [scanString, if_pos h1]) h
      · rw [scanString.eq_def] at h; simp only [if_neg h1] at h; cases h

theorem scanText_inner {s : Bytes} {e : JErr} (h : scanString .plain s = .error e) : scanText s = .error e := by rw [scanText, h]

theorem scanText_outer {s : Bytes} {e : JErr} (h : scanText s = .error e) : scanString .plain s = .error e := by
  have hp := scanText_error h
  unfold scanText at h
  split at h
  · rename_i e' he; cases h; exact he
  · split at h
    · cases h
      rcases hp with h | ⟨b, c, h⟩ <;> cases h
    · cases h

theorem scanText_bad {s : Bytes} {c : UInt8} {ctx : Bytes} (h : scanText s = .error (.bad c ctx)) :
    ∃ good rest, s = good ++ c :: rest ∧ scanText good = .error .short ∧ ∀ rest', scanText (good ++ c :: rest') = .error (.bad c ctx) := by
  obtain ⟨good, rest, e, hg, hr⟩ := scanString_bad _ _ _ _ (scanText_outer h)
  exact ⟨good, rest, e, scanText_inner hg, fun rest' => scanText_inner (hr rest')⟩

theorem scanText_short {s : Bytes} (h : scanText s = .error .short) : ∃ more raw v, s ++ more = raw ++ [0x22] ∧ StringText raw v := by
  obtain ⟨more, raw, hm⟩ := scanString_short _ _ (scanText_outer h)
  have : ∃ v, scanText (s ++ more) = .ok (v, []) := by
    cases ht : scanText (s ++ more) with
    | ok r =>
      unfold scanText at ht
      rw [hm] at ht
      simp only at ht
      split at ht
      · cases ht
      · cases ht; exact ⟨_, rfl⟩
    | error e =>
      have := scanText_outer ht
      rw [hm] at this; cases this
  obtain ⟨v, hv⟩ := this
  obtain ⟨raw', e, hs⟩ := scanText_iff.mp hv
  exact ⟨more, raw', v, e, hs⟩

/-! ### The input ends too early -/

theorem isNumber_of {s : Bytes} {b : UInt8} (hb : jsonDigit b = true) (h : scanDigits b s = .ok []) : IsNumber (b :: s) := by
  have := number_plain hb h
  rw [List.append_nil] at this
  rw [this.1]; exact this.2

theorem isNumber_neg {s : Bytes} (h : scanNeg s = .ok []) : IsNumber (0x2D :: s) := by
  have := number_neg h
  rw [List.append_nil] at this
  rw [this.1]; exact this.2

theorem isSpace_nil : Spec.IsSpace [] := by intro b hb; cases hb

theorem null_text (n : Nat) : ValueText n .null (str "null") := .null n

theorem itemsText_ws {ws : Bytes} (hw : Spec.IsSpace ws) {n : Nat} {l : List JTree} {text : Bytes} (h : ItemsText n l text) : ItemsText n l (ws ++ text) := by
  cases h with
  | last _ v ws1 text ws' h1 h2 h3 =>
    have := ItemsText.last n v (ws ++ ws1) text ws' (isSpace_append hw h1) h2 h3
    simpa using this
  | more _ v l ws1 text ws' rest h1 h2 h3 h4 =>
    have := ItemsText.more n v l (ws ++ ws1) text ws' rest (isSpace_append hw h1) h2 h3 h4
    simpa using this

theorem membersText_ws {ws : Bytes} (hw : Spec.IsSpace ws) {n : Nat} {l : List (Bytes × JTree)} {text : Bytes} (h : MembersText n l text) :
    MembersText n l (ws ++ text) := by
  cases h with
  | last _ k v ws1 raw ws2 ws3 text ws' h1 h2 h3 h4 h5 h6 =>
    have := MembersText.last n k v (ws ++ ws1) raw ws2 ws3 text ws' (isSpace_append hw h1) h2 h3 h4 h5 h6
    simpa using this
  | more _ k v l ws1 raw ws2 ws3 text ws' rest h1 h2 h3 h4 h5 h6 h7 =>
    have := MembersText.more n k v l (ws ++ ws1) raw ws2 ws3 text ws' rest (isSpace_append hw h1) h2 h3 h4 h5 h6 h7
    simpa using this

theorem scan_short : ∀ (fuel room : Nat) (s : Bytes),
    (scanValue fuel room s = .error .short → ∃ more ws v text, s ++ more = ws ++ text ∧ Spec.IsSpace ws ∧ ValueText room v text) ∧
    (scanItems fuel room s = .error .short → ∃ more l, ItemsText room l (s ++ more)) ∧
    (scanMembers fuel room s = .error .short → ∃ more l, MembersText room l (s ++ more)) := by
  intro fuel
  induction fuel with
  | zero =>
    intro room s
    refine ⟨fun h => ?_, fun h => ?_, fun h => ?_⟩
    · rw [scanValue] at h; cases h
    · rw [scanItems] at h; cases h
    · rw [scanMembers] at h; cases h
  | succ fuel ih =>
    intro room s
    refine ⟨fun h => ?_, fun h => ?_, fun h => ?_⟩
    · rw [scanValue] at h
      obtain ⟨ws, es, hw⟩ := dropSpace_spec s
      cases hs : dropSpace s with
      | nil =>
        rw [hs, List.append_nil] at es
        exact ⟨str "null", ws, .null, str "null", by rw [es], hw, null_text _⟩
      | cons b t =>
        rw [hs] at h es
        simp only at h
        split at h
        · rename_i hb
          cases room with
          | zero => cases h
          | succ room =>
            simp only at h
            obtain ⟨ws2, et, hw2⟩ := dropSpace_spec t
            cases ht : dropSpace t with
            | nil =>
              rw [ht, List.append_nil] at et
              exact ⟨[0x7D], ws, .obj [], 0x7B :: ws2 ++ [0x7D], by rw [es, et, hb]; simp, hw, .noMembers room ws2 hw2⟩
            | cons c u =>
              rw [ht] at h et
              simp only at h
              split at h
              · cases h
              · obtain ⟨more, l, hm⟩ := (ih room (c :: u)).2.2 (except_map_error h)
                refine ⟨more ++ [0x7D], ws, .obj l, 0x7B :: (ws2 ++ (c :: u ++ more)) ++ [0x7D], ?_, hw, .obj room l _ (membersText_ws hw2 hm)⟩
                rw [es, et, hb]; simp
        · split at h
          · rename_i hb
            cases room with
            | zero => cases h
            | succ room =>
              simp only at h
              obtain ⟨ws2, et, hw2⟩ := dropSpace_spec t
              cases ht : dropSpace t with
              | nil =>
                rw [ht, List.append_nil] at et
                exact ⟨[0x5D], ws, .arr [], 0x5B :: ws2 ++ [0x5D], by rw [es, et, hb]; simp, hw, .noItems room ws2 hw2⟩
              | cons c u =>
                rw [ht] at h et
                simp only at h
                split at h
                · cases h
                · obtain ⟨more, l, hm⟩ := (ih room (c :: u)).2.1 (except_map_error h)
                  refine ⟨more ++ [0x5D], ws, .arr l, 0x5B :: (ws2 ++ (c :: u ++ more)) ++ [0x5D], ?_, hw, .arr room l _ (itemsText_ws hw2 hm)⟩
                  rw [es, et, hb]; simp
          · (repeat' split at h)
            · rename_i hb
              obtain ⟨more, raw, v, e, hv⟩ := scanText_short (except_map_error h)
              refine ⟨more, ws, .str v, 0x22 :: raw ++ [0x22], ?_, hw, .str room raw v hv⟩
              rw [es, hb, List.append_assoc, List.cons_append, e]; rfl
            · rename_i hb
              obtain ⟨more, hm⟩ := online_neg.short _ (except_map_error h)
              refine ⟨more, ws, .num _, 0x2D :: (t ++ more), ?_, hw, .num room _ (isNumber_neg hm)⟩
              rw [es, hb]; simp
            · rename_i hb
              obtain ⟨more, hm⟩ := (online_int b).short _ (except_map_error h)
              refine ⟨more, ws, .num _, b :: (t ++ more), ?_, hw, .num room _ (isNumber_of hb hm)⟩
              rw [es]; simp
            · rename_i hb
              obtain ⟨more, hm⟩ := (online_letters _ _).short _ (except_map_error h)
              refine ⟨more, ws, .bool true, str "true", ?_, hw, .true room⟩
              have := letters_ok hm
              rw [List.append_nil] at this
              rw [es, hb, List.append_assoc, List.cons_append, this, str_true, str_rue]
            · rename_i hb
              obtain ⟨more, hm⟩ := (online_letters _ _).short _ (except_map_error h)
              refine ⟨more, ws, .bool false, str "false", ?_, hw, .false room⟩
              have := letters_ok hm
              rw [List.append_nil] at this
              rw [es, hb, List.append_assoc, List.cons_append, this, str_false, str_alse]
            · rename_i hb
              obtain ⟨more, hm⟩ := (online_letters _ _).short _ (except_map_error h)
              refine ⟨more, ws, .null, str "null", ?_, hw, .null room⟩
              have := letters_ok hm
              rw [List.append_nil] at this
              rw [es, hb, List.append_assoc, List.cons_append, this, str_null, str_ull]
            · cases h
    · rw [scanItems] at h
      split at h
      · rename_i e he
        cases h
        obtain ⟨more, ws, v, text, e, hw, hv⟩ := (ih room s).1 he
        refine ⟨more, [v], ?_⟩
        rw [e]
        have := ItemsText.last room v ws text [] hw hv isSpace_nil
        rwa [List.append_nil] at this
      · rename_i v t hv
        obtain ⟨ws, text, es, hw, hvt⟩ := (scan_sound fuel room s).1 v t hv
        obtain ⟨ws2, et, hw2⟩ := dropSpace_spec t
        cases ht : dropSpace t with
        | nil =>
          rw [ht, List.append_nil] at et
          refine ⟨[], [v], ?_⟩
          rw [List.append_nil, es, et]
          exact .last room v ws text ws2 hw hvt hw2
        | cons c u =>
          rw [ht] at h et
          simp only at h
          split at h
          · rename_i hc
            obtain ⟨more, l, hm⟩ := (ih room u).2.1 (except_map_error h)
            refine ⟨more, v :: l, ?_⟩
            have := ItemsText.more room v l ws text ws2 _ hw hvt hw2 hm
            rw [es, et, hc]
            simpa using this
          · split at h <;> cases h
    · rw [scanMembers] at h
      obtain ⟨ws, es, hw⟩ := dropSpace_spec s
      cases hs : dropSpace s with
      | nil =>
        rw [hs, List.append_nil] at es
        refine ⟨[0x22, 0x22, 0x3A] ++ str "null", [([], .null)], ?_⟩
        have := MembersText.last room [] .null ws [] [] [] (str "null") [] hw .nil isSpace_nil isSpace_nil (.null room) isSpace_nil
        rw [es]
        simpa using this
      | cons q r =>
        rw [hs] at h es
        simp only at h
        split at h
        · rename_i hq
          split at h
          · rename_i e he
            cases h
            obtain ⟨more, raw, k, e, hk⟩ := scanText_short he
            refine ⟨more ++ (0x3A :: str "null"), [(k, .null)], ?_⟩
            have := MembersText.last room k .null ws raw [] [] (str "null") [] hw hk isSpace_nil isSpace_nil (.null room) isSpace_nil
            rw [es, hq, List.append_assoc, List.cons_append, ← List.append_assoc r, e]
            simpa using this
          · rename_i k t hk
            obtain ⟨raw, er, hraw⟩ := scanText_iff.mp hk
            obtain ⟨ws1, et, hw1⟩ := dropSpace_spec t
            cases ht : dropSpace t with
            | nil =>
              rw [ht, List.append_nil] at et
              refine ⟨0x3A :: str "null", [(k, .null)], ?_⟩
              have := MembersText.last room k .null ws raw ws1 [] (str "null") [] hw hraw hw1 isSpace_nil (.null room) isSpace_nil
              rw [es, hq, er, et]
              simpa using this
            | cons colon t2 =>
              rw [ht] at h et
              simp only at h
              split at h
              · rename_i hcol
                split at h
                · rename_i e he
                  cases h
                  obtain ⟨more, ws2, v, text, e, hw2, hv⟩ := (ih room t2).1 he
                  refine ⟨more, [(k, v)], ?_⟩
                  have := MembersText.last room k v ws raw ws1 ws2 text [] hw hraw hw1 hw2 hv isSpace_nil
                  rw [es, hq, er, et, hcol]
                  simp only [List.append_assoc, List.cons_append, List.append_nil] at this ⊢
                  rw [e]; exact this
                · rename_i v t3 hv
                  obtain ⟨ws2, text, e2, hw2, hvt⟩ := (scan_sound fuel room t2).1 v t3 hv
                  obtain ⟨ws3, e3, hw3⟩ := dropSpace_spec t3
                  cases ht3 : dropSpace t3 with
                  | nil =>
                    rw [ht3, List.append_nil] at e3
                    refine ⟨[], [(k, v)], ?_⟩
                    have := MembersText.last room k v ws raw ws1 ws2 text ws3 hw hraw hw1 hw2 hvt hw3
                    rw [es, hq, er, et, hcol, e2, e3]
                    simpa using this
                  | cons c u =>
                    rw [ht3] at h e3
                    simp only at h
                    split at h
                    · rename_i hc
                      obtain ⟨more, l, hm⟩ := (ih room u).2.2 (except_map_error h)
                      refine ⟨more, (k, v) :: l, ?_⟩
                      have := MembersText.more room k v l ws raw ws1 ws2 text ws3 _ hw hraw hw1 hw2 hvt hw3 hm
                      rw [es, hq, er, et, hcol, e2, e3, hc]
                      simpa using this
                    · split at h <;> cases h
              · cases h
        · cases h

/-! ### A wrong byte -/

theorem value_local {fuel room : Nat} {s rest : Bytes} {v : JTree} (h : scanValue fuel room s = .ok (v, rest)) :
    ∃ p, s = p ++ rest ∧ ∀ rest' f', (rest' = [] ∨ rest'.head? = rest.head?) → 2 * p.length + 1 ≤ f' → scanValue f' room (p ++ rest') = .ok (v, rest') := by
  by_cases hn : ∃ t, v = .num t
  · obtain ⟨num, rfl⟩ := hn
    cases fuel with
    | zero => rw [scanValue] at h; cases h
    | succ fuel =>
      rw [scanValue] at h
      obtain ⟨ws, es, hw⟩ := dropSpace_spec s
      cases hs : dropSpace s with
      | nil => rw [hs] at h; cases h
      | cons b t =>
        rw [hs] at h es
        have hb := dropSpace_head hs
        simp only at h
        by_cases h1 : b = 0x7B
        · rw [if_pos h1] at h
          (repeat' split at h) <;> first | (cases h; done) | (obtain ⟨r, -, hr⟩ := except_map_ok h; cases hr)
        rw [if_neg h1] at h
        by_cases h2 : b = 0x5B
        · rw [if_pos h2] at h
          (repeat' split at h) <;> first | (cases h; done) | (obtain ⟨r, -, hr⟩ := except_map_ok h; cases hr)
        rw [if_neg h2] at h
        by_cases h3 : b = 0x22
        · rw [if_pos h3] at h
          obtain ⟨r, -, hr⟩ := except_map_ok h; cases hr
        rw [if_neg h3] at h
        have number : ∀ {F : Bytes → Except JErr Bytes}, Online F → (F t).map (fun rest => ((.num (readOf (b :: t) rest) : JTree), rest)) = .ok (.num num, rest) →
            (∀ f' x, scanValue (f' + 1) room (ws ++ b :: x) = (F x).map (fun rest => ((.num (readOf (b :: x) rest) : JTree), rest))) →
            ∃ p, s = p ++ rest ∧ ∀ rest' f', (rest' = [] ∨ rest'.head? = rest.head?) → 2 * p.length + 1 ≤ f' →
              scanValue f' room (p ++ rest') = .ok (.num num, rest') := by
          intro F hF hm hstep
          obtain ⟨r, hr, e⟩ := except_map_ok hm
          simp only [Prod.mk.injEq, JTree.num.injEq] at e
          obtain ⟨e1, rfl⟩ := e
          obtain ⟨p, ep, hp⟩ := hF.ok _ _ hr
          have hp' : num = b :: p := by rw [← e1]; exact readOf_eq (by rw [ep]; rfl)
          refine ⟨ws ++ b :: p, by rw [es, ep]; simp, ?_⟩
          intro rest' f' hr' hf
          obtain ⟨f', rfl⟩ : ∃ g, f' = g + 1 := ⟨f' - 1, by omega⟩
          rw [List.append_assoc, List.cons_append, hstep, hp rest' hr', hp']
          show Except.ok (JTree.num (readOf (b :: (p ++ rest')) rest'), rest') = _
          rw [readOf_eq (show b :: (p ++ rest') = (b :: p) ++ rest' from rfl)]
        by_cases h4 : b = 0x2D
        · rw [if_pos h4] at h
          refine number online_neg h ?_
          intro f' x
          rw [scanValue, dropSpace_ws hw, dropSpace_cons hb]
          simp only [h1, h2, h3, if_false, if_pos h4]
        rw [if_neg h4] at h
        by_cases h5 : jsonDigit b = true
        · rw [if_pos h5] at h
          refine number (online_int b) h ?_
          intro f' x
          rw [scanValue, dropSpace_ws hw, dropSpace_cons hb]
          simp only [h1, h2, h3, h4, if_false, if_pos h5]
        rw [if_neg h5] at h
        (repeat' split at h) <;> first | (cases h; done) | (obtain ⟨r, -, hr⟩ := except_map_ok h; cases hr)
  · obtain ⟨ws, text, es, hw, hv⟩ := (scan_sound fuel room s).1 v rest h
    refine ⟨ws ++ text, es, ?_⟩
    intro rest' f' _ hf
    exact scan_complete hv rest' f' _ (fun t ht => absurd ⟨t, ht⟩ hn) (by simp at hf; omega) (by rw [List.append_assoc, dropSpace_ws hw])

theorem head_local {ws x u : Bytes} {c : UInt8} (h : x = [] ∨ x.head? = some c) : ws ++ x = [] ∨ (ws ++ x).head? = (ws ++ c :: u).head? := by
  cases ws with
  | cons b ws => exact .inr rfl
  | nil => rcases h with rfl | h
           · exact .inl rfl
           · exact .inr h

theorem openItems_ws {ws : Bytes} (hw : Spec.IsSpace ws) {c : UInt8} {n : Nat} {part why : Bytes} (h : OpenItems c n part why) : OpenItems c n (ws ++ part) why := by
  cases h with
  | value _ _ _ h =>
    refine .value _ _ _ ?_
    cases h with
    | first _ ws' h h1 h2 => exact .first _ _ (isSpace_append hw h) h1 h2
    | deep ws' h h1 => exact .deep _ (isSpace_append hw h) h1
    | word _ ws' name a b e h h1 h2 h3 => rw [← List.append_assoc]; exact .word _ _ name a b e (isSpace_append hw h) h1 h2 h3
    | num _ ws' part _ h h1 => rw [← List.append_assoc]; exact .num _ _ _ _ (isSpace_append hw h) h1
    | str _ ws' part _ h h1 => rw [← List.append_assoc]; exact .str _ _ _ _ (isSpace_append hw h) h1
    | arr _ ws' part _ h h1 => rw [← List.append_assoc]; exact .arr _ _ _ _ (isSpace_append hw h) h1
    | obj _ ws' part _ h h1 => rw [← List.append_assoc]; exact .obj _ _ _ _ (isSpace_append hw h) h1
  | behind _ v ws' text ws'' h h1 h2 =>
    have := OpenItems.behind (c := c) n v (ws ++ ws') text ws'' (isSpace_append hw h) h1 h2
    simpa using this
  | next _ v ws' text ws'' part _ h h1 h2 h3 =>
    have := OpenItems.next (c := c) n v (ws ++ ws') text ws'' part why (isSpace_append hw h) h1 h2 h3
    simpa using this

theorem openMembers_ws {ws : Bytes} (hw : Spec.IsSpace ws) {c : UInt8} {n : Nat} {part why : Bytes} (h : OpenMembers c n part why) :
    OpenMembers c n (ws ++ part) why := by
  cases h with
  | first _ ws' h => exact .first _ _ (isSpace_append hw h)
  | key _ ws' part _ h h1 => rw [← List.append_assoc]; exact .key _ _ _ _ (isSpace_append hw h) h1
  | colon _ k ws' raw ws1 h h1 h2 =>
    have := OpenMembers.colon (c := c) n k (ws ++ ws') raw ws1 (isSpace_append hw h) h1 h2
    simpa using this
  | value _ k ws' raw ws1 part _ h h1 h2 h3 =>
    have := OpenMembers.value (c := c) n k (ws ++ ws') raw ws1 part why (isSpace_append hw h) h1 h2 h3
    simpa using this
  | behind _ v k ws' raw ws1 ws2 text ws'' h h1 h2 h3 h4 h5 =>
    have := OpenMembers.behind (c := c) n v k (ws ++ ws') raw ws1 ws2 text ws'' (isSpace_append hw h) h1 h2 h3 h4 h5
    simpa using this
  | next _ v k ws' raw ws1 ws2 text ws'' part _ h h1 h2 h3 h4 h5 h6 =>
    have := OpenMembers.next (c := c) n v k (ws ++ ws') raw ws1 ws2 text ws'' part why (isSpace_append hw h) h1 h2 h3 h4 h5 h6
    simpa using this

theorem value_front {fuel room : Nat} {s p rest : Bytes} {v : JTree} (h : scanValue fuel room s = .ok (v, rest)) (e : s = p ++ rest) :
    ∃ ws text, p = ws ++ text ∧ Spec.IsSpace ws ∧ ValueText room v text := by
  obtain ⟨ws, text, e', hw, hv⟩ := (scan_sound _ _ _).1 v rest h
  rw [e] at e'
  exact ⟨ws, text, List.append_cancel_right e', hw, hv⟩

/-- The scanner finds the wrong byte `c` in `s`, this is the first, and the place `P` is named. -/
def Found {α : Type} (P : UInt8 → Bytes → Bytes → Prop) (F : Nat → Bytes → Except JErr α) (k : Nat) (s : Bytes) (c : UInt8) (ctx : Bytes) : Prop :=
  ∃ good rest, s = good ++ c :: rest ∧ P c good ctx ∧ (∀ f', 2 * good.length + k ≤ f' → F f' good = .error .short) ∧
    ∀ rest' f', 2 * (good ++ c :: rest').length + k ≤ f' → F f' (good ++ c :: rest') = .error (.bad c ctx)

theorem good_head {good rest u : Bytes} {c c' : UInt8} (e : c' :: u = good ++ c :: rest) :
    (good = [] ∧ c' = c) ∨ ∃ g, good = c' :: g := by
  cases good with
  | nil => cases e; exact .inl ⟨rfl, rfl⟩
  | cons x g => cases e; exact .inr ⟨g, rfl⟩

theorem scan_bad : ∀ (fuel room : Nat) (s : Bytes) (c : UInt8) (ctx : Bytes),
    (scanValue fuel room s = .error (.bad c ctx) → Found (OpenValue · room) (fun f => scanValue f room) 1 s c ctx) ∧
    (scanItems fuel room s = .error (.bad c ctx) → Found (OpenItems · room) (fun f => scanItems f room) 2 s c ctx) ∧
    (scanMembers fuel room s = .error (.bad c ctx) → Found (OpenMembers · room) (fun f => scanMembers f room) 2 s c ctx) := by
  intro fuel
  induction fuel with
  | zero =>
    intro room s c ctx
    refine ⟨fun h => ?_, fun h => ?_, fun h => ?_⟩
    · rw [scanValue] at h; cases h
    · rw [scanItems] at h; cases h
    · rw [scanMembers] at h; cases h
  | succ fuel ih =>
    intro room s c ctx
    refine ⟨fun h => ?_, fun h => ?_, fun h => ?_⟩
    · rw [scanValue] at h
      obtain ⟨ws, es, hw⟩ := dropSpace_spec s
      have hblank : ∀ f' room, 2 * ws.length + 1 ≤ f' → scanValue f' room ws = .error .short := by
        intro f' room hf
        obtain ⟨f', rfl⟩ : ∃ g, f' = g + 1 := ⟨f' - 1, by omega⟩
        rw [scanValue, dropSpace_nil.mpr hw]
      cases hs : dropSpace s with
      | nil => rw [hs] at h; cases h
      | cons b t =>
        rw [hs] at h es
        have hb := dropSpace_head hs
        simp only at h
        -- The first byte is wrong.
        have here : ∀ {e : Bytes}, OpenValue b room ws e → (∀ f' x, scanValue (f' + 1) room (ws ++ b :: x) = .error (.bad b e)) → (Except.error (.bad b e) : Except JErr (JTree × Bytes)) = .error (.bad c ctx) →
            Found (OpenValue · room) (fun f => scanValue f room) 1 s c ctx := by
          intro e h0 h1 h2
          cases h2
          refine ⟨ws, t, es, h0, fun f' hf => hblank f' room hf, ?_⟩
          intro rest' f' hf
          obtain ⟨f', rfl⟩ : ∃ g, f' = g + 1 := ⟨f' - 1, by omega⟩
          exact h1 f' rest'
        -- A wrong byte behind it.
        have later : ∀ {α : Type} {F : Bytes → Except JErr α} {G : Bytes → α → JTree × Bytes}, (∀ f' x, scanValue (f' + 1) room (ws ++ b :: x) = (F x).map (G x)) →
            (∃ good rest, t = good ++ c :: rest ∧ F good = .error .short ∧ ∀ rest', F (good ++ c :: rest') = .error (.bad c ctx)) →
            (∀ good, F good = .error .short → F (good ++ [c]) = .error (.bad c ctx) → OpenValue c room (ws ++ b :: good) ctx) →
            Found (OpenValue · room) (fun f => scanValue f room) 1 s c ctx := by
          intro α F G h1 h2 h3
          obtain ⟨good, rest, e, hg, hr⟩ := h2
          refine ⟨ws ++ b :: good, rest, by rw [es, e]; simp, h3 good hg (hr []), ?_, ?_⟩
          · intro f' hf
            obtain ⟨f', rfl⟩ : ∃ g, f' = g + 1 := ⟨f' - 1, by omega⟩
            simp only
            rw [h1, map_bad hg]
          · intro rest' f' hf
            obtain ⟨f', rfl⟩ : ∃ g, f' = g + 1 := ⟨f' - 1, by omega⟩
            simp only
            rw [List.append_assoc, List.cons_append, h1, map_bad (hr rest')]
        by_cases h1 : b = 0x7B
        · rw [if_pos h1] at h
          cases room with
          | zero =>
            refine here (.deep ws hw (.inr h1)) (fun f' x => ?_) h
            rw [scanValue, dropSpace_ws hw, dropSpace_cons hb]
            simp only [if_pos h1]
          | succ room =>
            simp only at h
            obtain ⟨ws2, et, hw2⟩ := dropSpace_spec t
            have hstep : ∀ f' x, scanValue (f' + 1) (room + 1) (ws ++ b :: (ws2 ++ x)) =
                match dropSpace x with
                | [] => .error .short
                | c :: u => if c = 0x7D then .ok (.obj [], u) else (scanMembers f' room (c :: u)).map (fun r => (.obj r.1, r.2)) := by
              intro f' x
              rw [scanValue, dropSpace_ws hw, dropSpace_cons hb]
              simp only [if_pos h1]
              rw [dropSpace_ws hw2]
              rfl
            cases ht : dropSpace t with
            | nil => rw [ht] at h; cases h
            | cons c' u =>
              rw [ht] at h et
              have hc' := dropSpace_head ht
              simp only at h
              split at h
              · cases h
              · rename_i hne
                obtain ⟨good, rest, e, hP, hg, hr⟩ := (ih room (c' :: u) c ctx).2.2 (except_map_error h)
                refine ⟨ws ++ b :: (ws2 ++ good), rest, by rw [es, et, e]; simp, by rw [h1]; exact .obj _ _ _ _ hw (openMembers_ws hw2 hP), ?_, ?_⟩
                · intro f' hf
                  obtain ⟨f', rfl⟩ : ∃ g, f' = g + 1 := ⟨f' - 1, by omega⟩
                  simp only
                  rw [hstep]
                  rcases good_head e with ⟨rfl, -⟩ | ⟨g, rfl⟩
                  · rfl
                  · rw [dropSpace_cons hc']
                    simp only [if_neg hne]
                    exact map_bad (hg f' (by simp at hf ⊢; omega))
                · intro rest' f' hf
                  obtain ⟨f', rfl⟩ : ∃ g, f' = g + 1 := ⟨f' - 1, by omega⟩
                  have e2 : (ws ++ b :: (ws2 ++ good)) ++ c :: rest' = ws ++ b :: (ws2 ++ (good ++ c :: rest')) := by simp
                  simp only
                  rw [e2] at hf ⊢
                  rw [hstep]
                  have hh : ∃ y, good ++ c :: rest' = c' :: y := by
                    rcases good_head e with ⟨rfl, rfl⟩ | ⟨g, rfl⟩
                    · exact ⟨_, rfl⟩
                    · exact ⟨_, rfl⟩
                  have := hr rest' f' (by simp at hf ⊢; omega)
                  obtain ⟨y, hy⟩ := hh
                  rw [hy] at this ⊢
                  rw [dropSpace_cons hc']
                  simp only [if_neg hne]
                  exact map_bad this
        rw [if_neg h1] at h
        by_cases h2 : b = 0x5B
        · rw [if_pos h2] at h
          cases room with
          | zero =>
            refine here (.deep ws hw (.inl h2)) (fun f' x => ?_) h
            rw [scanValue, dropSpace_ws hw, dropSpace_cons hb]
            simp only [if_neg h1, if_pos h2]
          | succ room =>
            simp only at h
            obtain ⟨ws2, et, hw2⟩ := dropSpace_spec t
            have hstep : ∀ f' x, scanValue (f' + 1) (room + 1) (ws ++ b :: (ws2 ++ x)) =
                match dropSpace x with
                | [] => .error .short
                | c :: u => if c = 0x5D then .ok (.arr [], u) else (scanItems f' room (c :: u)).map (fun r => (.arr r.1, r.2)) := by
              intro f' x
              rw [scanValue, dropSpace_ws hw, dropSpace_cons hb]
              simp only [if_neg h1, if_pos h2]
              rw [dropSpace_ws hw2]
              rfl
            cases ht : dropSpace t with
            | nil => rw [ht] at h; cases h
            | cons c' u =>
              rw [ht] at h et
              have hc' := dropSpace_head ht
              simp only at h
              split at h
              · cases h
              · rename_i hne
                obtain ⟨good, rest, e, hP, hg, hr⟩ := (ih room (c' :: u) c ctx).2.1 (except_map_error h)
                refine ⟨ws ++ b :: (ws2 ++ good), rest, by rw [es, et, e]; simp, by rw [h2]; exact .arr _ _ _ _ hw (openItems_ws hw2 hP), ?_, ?_⟩
                · intro f' hf
                  obtain ⟨f', rfl⟩ : ∃ g, f' = g + 1 := ⟨f' - 1, by omega⟩
                  simp only
                  rw [hstep]
                  rcases good_head e with ⟨rfl, -⟩ | ⟨g, rfl⟩
                  · rfl
                  · rw [dropSpace_cons hc']
                    simp only [if_neg hne]
                    exact map_bad (hg f' (by simp at hf ⊢; omega))
                · intro rest' f' hf
                  obtain ⟨f', rfl⟩ : ∃ g, f' = g + 1 := ⟨f' - 1, by omega⟩
                  have e2 : (ws ++ b :: (ws2 ++ good)) ++ c :: rest' = ws ++ b :: (ws2 ++ (good ++ c :: rest')) := by simp
                  simp only
                  rw [e2] at hf ⊢
                  rw [hstep]
                  have hh : ∃ y, good ++ c :: rest' = c' :: y := by
                    rcases good_head e with ⟨rfl, rfl⟩ | ⟨g, rfl⟩
                    · exact ⟨_, rfl⟩
                    · exact ⟨_, rfl⟩
                  have := hr rest' f' (by simp at hf ⊢; omega)
                  obtain ⟨y, hy⟩ := hh
                  rw [hy] at this ⊢
                  rw [dropSpace_cons hc']
                  simp only [if_neg hne]
                  exact map_bad this
        rw [if_neg h2] at h
        have start : ∀ f' x, scanValue (f' + 1) room (ws ++ b :: x) =
            if b = 0x22 then (scanText x).map (fun r => (.str r.1, r.2))
            else if b = 0x2D then (scanNeg x).map (fun rest => (.num (readOf (b :: x) rest), rest))
            else if jsonDigit b then (scanDigits b x).map (fun rest => (.num (readOf (b :: x) rest), rest))
            else if b = 0x74 then (scanLetters (str "true") (str "rue") x).map (fun rest => (.bool true, rest))
            else if b = 0x66 then (scanLetters (str "false") (str "alse") x).map (fun rest => (.bool false, rest))
            else if b = 0x6E then (scanLetters (str "null") (str "ull") x).map (fun rest => (.null, rest))
            else .error (.bad b (str "looking for beginning of value")) := by
          intro f' x
          rw [scanValue, dropSpace_ws hw, dropSpace_cons hb]
          simp only [if_neg h1, if_neg h2]
        by_cases h3 : b = 0x22
        · rw [if_pos h3] at h
          exact later (G := fun _ r => (.str r.1, r.2)) (fun f' x => by rw [start, if_pos h3]) (scanText_bad (except_map_error h))
            (fun good hg hr => by
              rw [h3]; exact .str _ _ _ _ hw ((string_place good c ctx).1 (scanText_outer hg) (scanText_outer hr)).toString)
        rw [if_neg h3] at h
        by_cases h4 : b = 0x2D
        · rw [if_pos h4] at h
          exact later (G := fun x rest => (.num (readOf (b :: x) rest), rest)) (fun f' x => by rw [start, if_neg h3, if_pos h4])
            (online_neg.bad _ _ _ (except_map_error h)) (fun good hg hr => by rw [h4]; exact .num _ _ _ _ hw (neg_place hg hr))
        rw [if_neg h4] at h
        by_cases h5 : jsonDigit b = true
        · rw [if_pos h5] at h
          exact later (G := fun x rest => (.num (readOf (b :: x) rest), rest)) (fun f' x => by rw [start, if_neg h3, if_neg h4, if_pos h5])
            ((online_int b).bad _ _ _ (except_map_error h)) (fun good hg hr => .num _ _ _ _ hw (int_place h5 hg hr (.inl rfl)))
        rw [if_neg h5] at h
        by_cases h6 : b = 0x74
        · rw [if_pos h6] at h
          exact later (G := fun _ rest => (.bool true, rest)) (fun f' x => by rw [start, if_neg h3, if_neg h4, if_neg h5, if_pos h6])
            ((online_letters _ _).bad _ _ _ (except_map_error h)) (fun good hg hr => by
              obtain ⟨e, b', e1, e2⟩ := letters_place _ _ _ _ _ hg hr
              rw [e2]; exact .word _ _ _ (b :: good) b' e hw (.inr (.inl rfl)) (by rw [List.cons_append, ← e1, h6]; decide) (by simp))
        rw [if_neg h6] at h
        by_cases h7 : b = 0x66
        · rw [if_pos h7] at h
          exact later (G := fun _ rest => (.bool false, rest)) (fun f' x => by rw [start, if_neg h3, if_neg h4, if_neg h5, if_neg h6, if_pos h7])
            ((online_letters _ _).bad _ _ _ (except_map_error h)) (fun good hg hr => by
              obtain ⟨e, b', e1, e2⟩ := letters_place _ _ _ _ _ hg hr
              rw [e2]; exact .word _ _ _ (b :: good) b' e hw (.inr (.inr rfl)) (by rw [List.cons_append, ← e1, h7]; decide) (by simp))
        rw [if_neg h7] at h
        by_cases h8 : b = 0x6E
        · rw [if_pos h8] at h
          exact later (G := fun _ rest => (.null, rest)) (fun f' x => by rw [start, if_neg h3, if_neg h4, if_neg h5, if_neg h6, if_neg h7, if_pos h8])
            ((online_letters _ _).bad _ _ _ (except_map_error h)) (fun good hg hr => by
              obtain ⟨e, b', e1, e2⟩ := letters_place _ _ _ _ _ hg hr
              rw [e2]; exact .word _ _ _ (b :: good) b' e hw (.inl rfl) (by rw [List.cons_append, ← e1, h8]; decide) (by simp))
        rw [if_neg h8] at h
        exact here (.first _ _ hw h2 h1) (fun f' x => by rw [start, if_neg h3, if_neg h4, if_neg h5, if_neg h6, if_neg h7, if_neg h8]) h
    · rw [scanItems] at h
      split at h
      · rename_i e he
        cases h
        obtain ⟨good, rest, e, hP, hg, hr⟩ := (ih room s c ctx).1 he
        refine ⟨good, rest, e, .value _ _ _ hP, ?_, ?_⟩
        · intro f' hf
          obtain ⟨f', rfl⟩ : ∃ g, f' = g + 1 := ⟨f' - 1, by omega⟩
          have := hg f' (by omega)
          simp only at this ⊢
          rw [scanItems, this]
        · intro rest' f' hf
          obtain ⟨f', rfl⟩ : ∃ g, f' = g + 1 := ⟨f' - 1, by omega⟩
          have := hr rest' f' (by omega)
          simp only at this ⊢
          rw [scanItems, this]
      · rename_i v t hv
        obtain ⟨p, es, hp⟩ := value_local hv
        obtain ⟨ws, text, rfl, hw, htext⟩ := value_front hv es
        obtain ⟨ws2, et, hw2⟩ := dropSpace_spec t
        cases ht : dropSpace t with
        | nil => rw [ht] at h; cases h
        | cons c' u =>
          rw [ht] at h et
          have hc' := dropSpace_head ht
          simp only at h
          have hstep : ∀ f' x, (x = [] ∨ x.head? = some c') → 2 * (ws ++ text).length + 1 ≤ f' → scanItems (f' + 1) room (ws ++ text ++ (ws2 ++ x)) =
              match dropSpace x with
              | [] => .error .short
              | c :: u =>
                if c = 0x2C then (scanItems f' room u).map (fun r => (v :: r.1, r.2))
                else if c = 0x5D then .ok ([v], u)
                else .error (.bad c (str "after array element")) := by
            intro f' x hx hf
            rw [scanItems, hp (ws2 ++ x) f' (by rw [et]; exact head_local hx) hf]
            simp only
            rw [dropSpace_ws hw2]
            rfl
          split at h
          · rename_i hc
            obtain ⟨good, rest, e, hP, hg, hr⟩ := (ih room u c ctx).2.1 (except_map_error h)
            refine ⟨ws ++ text ++ (ws2 ++ c' :: good), rest, by rw [es, et, e]; simp, ?_, ?_, ?_⟩
            · have := OpenItems.next _ v ws text ws2 _ _ hw htext hw2 hP
              rw [hc]; simpa using this
            · intro f' hf
              obtain ⟨f', rfl⟩ : ∃ g, f' = g + 1 := ⟨f' - 1, by omega⟩
              have := hg f' (by simp at hf; omega)
              simp only at this ⊢
              rw [hstep f' _ (.inr rfl) (by simp at hf ⊢; omega), dropSpace_cons hc']
              simp only [if_pos hc]
              exact map_bad this
            · intro rest' f' hf
              obtain ⟨f', rfl⟩ : ∃ g, f' = g + 1 := ⟨f' - 1, by omega⟩
              have e2 : (ws ++ text ++ (ws2 ++ c' :: good)) ++ c :: rest' = ws ++ text ++ (ws2 ++ c' :: (good ++ c :: rest')) := by simp
              have := hr rest' f' (by simp at hf ⊢; omega)
              simp only at this ⊢
              rw [e2, hstep f' _ (.inr rfl) (by simp at hf ⊢; omega), dropSpace_cons hc']
              simp only [if_pos hc]
              exact map_bad this
          · rename_i hc
            split at h
            · cases h
            · rename_i hc2
              cases h
              refine ⟨ws ++ text ++ ws2, u, by rw [es, et]; simp, .behind _ v ws text ws2 hw htext hw2, ?_, ?_⟩
              · intro f' hf
                obtain ⟨f', rfl⟩ : ∃ g, f' = g + 1 := ⟨f' - 1, by omega⟩
                have := hstep f' [] (.inl rfl) (by simp at hf ⊢; omega)
                rw [List.append_nil] at this
                exact this
              · intro rest' f' hf
                obtain ⟨f', rfl⟩ : ∃ g, f' = g + 1 := ⟨f' - 1, by omega⟩
                simp only
                rw [List.append_assoc, hstep f' (_ :: rest') (.inr rfl) (by simp at hf ⊢; omega), dropSpace_cons hc']
                simp only [if_neg hc, if_neg hc2]
    · rw [scanMembers] at h
      obtain ⟨ws, es, hw⟩ := dropSpace_spec s
      cases hs : dropSpace s with
      | nil => rw [hs] at h; cases h
      | cons q r =>
        rw [hs] at h es
        have hq' := dropSpace_head hs
        simp only at h
        split at h
        · rename_i hq
          split at h
          · rename_i e he
            cases h
            obtain ⟨good, rest, e, hg, hr⟩ := scanText_bad he
            have hP := ((string_place good c ctx).1 (scanText_outer hg) (scanText_outer (hr []))).toString
            refine ⟨ws ++ q :: good, rest, by rw [es, e]; simp, by rw [hq]; exact .key _ _ _ _ hw hP, ?_, ?_⟩
            · intro f' hf
              obtain ⟨f', rfl⟩ : ∃ g, f' = g + 1 := ⟨f' - 1, by omega⟩
              simp only
              rw [scanMembers, dropSpace_ws hw, dropSpace_cons hq']
              simp only [if_pos hq, hg]
            · intro rest' f' hf
              obtain ⟨f', rfl⟩ : ∃ g, f' = g + 1 := ⟨f' - 1, by omega⟩
              simp only
              rw [List.append_assoc, List.cons_append, scanMembers, dropSpace_ws hw, dropSpace_cons hq']
              simp only [if_pos hq, hr rest']
          · rename_i k t hk
            obtain ⟨raw, er, hraw⟩ := scanText_iff.mp hk
            have key : ∀ x, scanText (raw ++ 0x22 :: x) = .ok (k, x) := fun x => scanText_iff.mpr ⟨raw, rfl, hraw⟩
            obtain ⟨ws1, et, hw1⟩ := dropSpace_spec t
            have hkey : ∀ f' x, scanMembers (f' + 1) room (ws ++ q :: (raw ++ 0x22 :: (ws1 ++ x))) =
                match dropSpace x with
                | [] => .error .short
                | colon :: t =>
                  if colon = 0x3A then
                    match scanValue f' room t with
                    | .error e => .error e
                    | .ok (v, t) =>
                      match dropSpace t with
                      | [] => .error .short
                      | c :: u =>
                        if c = 0x2C then (scanMembers f' room u).map (fun r => ((k, v) :: r.1, r.2))
                        else if c = 0x7D then .ok ([(k, v)], u)
                        else .error (.bad c (str "after object key:value pair"))
                  else .error (.bad colon (str "after object key")) := by
              intro f' x
              rw [scanMembers, dropSpace_ws hw, dropSpace_cons hq']
              simp only [if_pos hq, key]
              rw [dropSpace_ws hw1]
              rfl
            cases ht : dropSpace t with
            | nil => rw [ht] at h; cases h
            | cons colon t2 =>
              rw [ht] at h et
              have hcol' := dropSpace_head ht
              simp only at h
              split at h
              · rename_i hcol
                split at h
                · rename_i e he
                  cases h
                  obtain ⟨good, rest, e, hP, hg, hr⟩ := (ih room t2 c ctx).1 he
                  refine ⟨ws ++ q :: (raw ++ 0x22 :: (ws1 ++ colon :: good)), rest, by rw [es, er, et, e]; simp, ?_, ?_, ?_⟩
                  · have := OpenMembers.value _ k ws raw ws1 _ _ hw hraw hw1 hP
                    rw [hq, hcol]; simpa using this
                  · intro f' hf
                    obtain ⟨f', rfl⟩ : ∃ g, f' = g + 1 := ⟨f' - 1, by omega⟩
                    have := hg f' (by simp at hf; omega)
                    simp only at this ⊢
                    rw [hkey, dropSpace_cons hcol']
                    simp only [if_pos hcol, this]
                  · intro rest' f' hf
                    obtain ⟨f', rfl⟩ : ∃ g, f' = g + 1 := ⟨f' - 1, by omega⟩
                    have := hr rest' f' (by simp at hf ⊢; omega)
                    have e2 : (ws ++ q :: (raw ++ 0x22 :: (ws1 ++ colon :: good))) ++ c :: rest' =
                      ws ++ q :: (raw ++ 0x22 :: (ws1 ++ colon :: (good ++ c :: rest'))) := by simp
                    simp only at this ⊢
                    rw [e2, hkey, dropSpace_cons hcol']
                    simp only [if_pos hcol, this]
                · rename_i v t3 hv
                  obtain ⟨p, e2, hp⟩ := value_local hv
                  obtain ⟨ws2, text, rfl, hw2, htext⟩ := value_front hv e2
                  obtain ⟨ws3, e3, hw3⟩ := dropSpace_spec t3
                  cases ht3 : dropSpace t3 with
                  | nil => rw [ht3] at h; cases h
                  | cons c' u =>
                    rw [ht3] at h e3
                    have hc' := dropSpace_head ht3
                    simp only at h
                    have hstep : ∀ f' x, (x = [] ∨ x.head? = some c') → 2 * (ws2 ++ text).length + 1 ≤ f' →
                        scanMembers (f' + 1) room (ws ++ q :: (raw ++ 0x22 :: (ws1 ++ colon :: (ws2 ++ text ++ (ws3 ++ x))))) =
                        match dropSpace x with
                        | [] => .error .short
                        | c :: u =>
                          if c = 0x2C then (scanMembers f' room u).map (fun r => ((k, v) :: r.1, r.2))
                          else if c = 0x7D then .ok ([(k, v)], u)
                          else .error (.bad c (str "after object key:value pair")) := by
                      intro f' x hx hf
                      rw [hkey, dropSpace_cons hcol']
                      simp only [if_pos hcol]
                      rw [hp (ws3 ++ x) f' (by rw [e3]; exact head_local hx) hf]
                      simp only
                      rw [dropSpace_ws hw3]
                    split at h
                    · rename_i hc
                      obtain ⟨good, rest, e, hP, hg, hr⟩ := (ih room u c ctx).2.2 (except_map_error h)
                      refine ⟨ws ++ q :: (raw ++ 0x22 :: (ws1 ++ colon :: (ws2 ++ text ++ (ws3 ++ c' :: good)))), rest, by rw [es, er, et, e2, e3, e]; simp, ?_, ?_, ?_⟩
                      · have := OpenMembers.next _ v k ws raw ws1 ws2 text ws3 _ _ hw hraw hw1 hw2 htext hw3 hP
                        rw [hq, hcol, hc]; simpa using this
                      · intro f' hf
                        obtain ⟨f', rfl⟩ : ∃ g, f' = g + 1 := ⟨f' - 1, by omega⟩
                        have := hg f' (by simp at hf; omega)
                        simp only at this ⊢
                        rw [hstep f' _ (.inr rfl) (by simp at hf ⊢; omega), dropSpace_cons hc']
                        simp only [if_pos hc]
                        exact map_bad this
                      · intro rest' f' hf
                        obtain ⟨f', rfl⟩ : ∃ g, f' = g + 1 := ⟨f' - 1, by omega⟩
                        have e4 : (ws ++ q :: (raw ++ 0x22 :: (ws1 ++ colon :: (ws2 ++ text ++ (ws3 ++ c' :: good))))) ++ c :: rest' =
                          ws ++ q :: (raw ++ 0x22 :: (ws1 ++ colon :: (ws2 ++ text ++ (ws3 ++ c' :: (good ++ c :: rest'))))) := by simp
                        have := hr rest' f' (by simp at hf ⊢; omega)
                        simp only at this ⊢
                        rw [e4, hstep f' _ (.inr rfl) (by simp at hf ⊢; omega), dropSpace_cons hc']
                        simp only [if_pos hc]
                        exact map_bad this
                    · rename_i hc
                      split at h
                      · cases h
                      · rename_i hc2
                        cases h
                        refine ⟨ws ++ q :: (raw ++ 0x22 :: (ws1 ++ colon :: (ws2 ++ text ++ ws3))), u, by rw [es, er, et, e2, e3]; simp, ?_, ?_, ?_⟩
                        · have := OpenMembers.behind (c := c) _ v k ws raw ws1 ws2 text ws3 hw hraw hw1 hw2 htext hw3
                          rw [hq, hcol]; simpa using this
                        · intro f' hf
                          obtain ⟨f', rfl⟩ : ∃ g, f' = g + 1 := ⟨f' - 1, by omega⟩
                          have := hstep f' [] (.inl rfl) (by simp at hf ⊢; omega)
                          rw [List.append_nil] at this
                          exact this
                        · intro rest' f' hf
                          obtain ⟨f', rfl⟩ : ∃ g, f' = g + 1 := ⟨f' - 1, by omega⟩
                          have e4 : (ws ++ q :: (raw ++ 0x22 :: (ws1 ++ colon :: (ws2 ++ text ++ ws3)))) ++ c :: rest' =
                            ws ++ q :: (raw ++ 0x22 :: (ws1 ++ colon :: (ws2 ++ text ++ (ws3 ++ c :: rest')))) := by simp
                          simp only
                          rw [e4, hstep f' (c :: rest') (.inr rfl) (by simp at hf ⊢; omega), dropSpace_cons hc']
                          simp only [if_neg hc, if_neg hc2]
              · rename_i hcol
                cases h
                refine ⟨ws ++ q :: (raw ++ 0x22 :: ws1), t2, by rw [es, er, et]; simp, ?_, ?_, ?_⟩
                · have := OpenMembers.colon (c := c) room k ws raw ws1 hw hraw hw1
                  rw [hq]; simpa using this
                · intro f' hf
                  obtain ⟨f', rfl⟩ : ∃ g, f' = g + 1 := ⟨f' - 1, by omega⟩
                  have := hkey f' []
                  rw [List.append_nil] at this
                  exact this
                · intro rest' f' hf
                  obtain ⟨f', rfl⟩ : ∃ g, f' = g + 1 := ⟨f' - 1, by omega⟩
                  have e4 : (ws ++ q :: (raw ++ 0x22 :: ws1)) ++ c :: rest' = ws ++ q :: (raw ++ 0x22 :: (ws1 ++ c :: rest')) := by simp
                  simp only
                  rw [e4, hkey, dropSpace_cons hcol']
                  simp only [if_neg hcol]
        · rename_i hq
          cases h
          refine ⟨ws, r, es, .first _ _ hw, ?_, ?_⟩
          · intro f' hf
            obtain ⟨f', rfl⟩ : ∃ g, f' = g + 1 := ⟨f' - 1, by omega⟩
            simp only
            rw [scanMembers, dropSpace_nil.mpr hw]
          · intro rest' f' hf
            obtain ⟨f', rfl⟩ : ∃ g, f' = g + 1 := ⟨f' - 1, by omega⟩
            simp only
            rw [scanMembers, dropSpace_ws hw, dropSpace_cons hq']
            simp only [if_neg hq]

end Kagome
