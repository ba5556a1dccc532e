import Verif.Spec.JsonPlace
import Verif.Proof.JsonScan

/-! Where the scanners of words, numbers and strings stand when they find a wrong byte: their messages name the place. -/

namespace Kagome

open Spec (StringText IsDigits IsInteger IsFraction IsExponent IsNumber OpenString OpenNumber Shown hexVal)

/-! ### Words -/

theorem letters_place (name : Bytes) : ∀ (want good : Bytes) (c : UInt8) (ctx : Bytes), scanLetters name want good = .error .short →
    scanLetters name want (good ++ [c]) = .error (.bad c ctx) →
    ∃ e b, want = good ++ e :: b ∧ ctx = str "in literal " ++ name ++ str " (expecting '" ++ [e] ++ str "')" := by
  intro want
  induction want with
  | nil => intro good c ctx h _; rw [scanLetters] at h; cases h
  | cons e want ih =>
    intro good c ctx h h2
    cases good with
    | nil =>
      rw [List.nil_append, scanLetters] at h2
      split at h2
      · cases want with
        | nil => rw [scanLetters] at h2; cases h2
        | cons x want => rw [scanLetters] at h2; cases h2
      · cases h2; exact ⟨e, want, rfl, rfl⟩
    | cons b good =>
      rw [scanLetters] at h
      rw [List.cons_append, scanLetters] at h2
      split at h
      · rename_i hb
        rw [if_pos hb] at h2
        obtain ⟨e', b', e1, e2⟩ := ih good c ctx h h2
        exact ⟨e', b', by rw [e1, hb]; rfl, e2⟩
      · cases h

/-! ### Numbers -/

theorem expDigits_place {good : Bytes} {c : UInt8} {ctx : Bytes} (h : scanExpDigits good = .error .short)
    (h2 : scanExpDigits (good ++ [c]) = .error (.bad c ctx)) : good = [] ∧ ctx = str "in exponent of numeric literal" := by
  cases good with
  | nil =>
    rw [List.nil_append, scanExpDigits] at h2
    split at h2
    · cases h2
    · cases h2; exact ⟨rfl, rfl⟩
  | cons b good =>
    rw [scanExpDigits] at h
    split at h <;> cases h

theorem exp_place {good : Bytes} {c : UInt8} {ctx : Bytes} (h : scanExp good = .error .short) (h2 : scanExp (good ++ [c]) = .error (.bad c ctx)) :
    (good = [] ∨ good = str "+" ∨ good = str "-") ∧ ctx = str "in exponent of numeric literal" := by
  cases good with
  | nil =>
    rw [List.nil_append, scanExp] at h2
    split at h2
    · rw [scanExpDigits] at h2; cases h2
    · exact ⟨.inl rfl, (expDigits_place (good := []) (by rw [scanExpDigits]) h2).2⟩
  | cons b good =>
    rw [scanExp] at h
    rw [List.cons_append, scanExp] at h2
    split at h
    · rename_i hb
      rw [if_pos hb] at h2
      obtain ⟨rfl, e⟩ := expDigits_place h h2
      refine ⟨.inr ?_, e⟩
      rcases hb with rfl | rfl
      · exact .inl str_plus.symm
      · exact .inr str_minus.symm
    · rename_i hb
      rw [if_neg hb] at h2
      obtain ⟨e, _⟩ := expDigits_place h h2
      cases e

theorem tail_place {good : Bytes} {c : UInt8} {ctx : Bytes} (h : scanTail good = .error .short) (h2 : scanTail (good ++ [c]) = .error (.bad c ctx)) :
    ∃ e s, good = e ++ s ∧ (e = str "e" ∨ e = str "E") ∧ (s = [] ∨ s = str "+" ∨ s = str "-") ∧ ctx = str "in exponent of numeric literal" := by
  cases good with
  | nil => rw [scanTail] at h; cases h
  | cons b good =>
    rw [scanTail] at h
    rw [List.cons_append, scanTail] at h2
    split at h
    · rename_i hb
      rw [if_pos hb] at h2
      obtain ⟨hg, e⟩ := exp_place h h2
      refine ⟨[b], good, rfl, ?_, hg, e⟩
      rcases hb with rfl | rfl
      · exact .inl str_e.symm
      · exact .inr str_E.symm
    · cases h

/-- Behind digits the scanner of the rest stands at its own place. -/
theorem digits_place {F : Bytes → Except JErr Bytes} (hF : ∀ b s, jsonDigit b = true → F (b :: s) = .ok (b :: s)) (h0 : F [] = .ok []) {good : Bytes} {c : UInt8} {ctx : Bytes}
    (h : F (dropDigits good) = .error .short) (h2 : F (dropDigits (good ++ [c])) = .error (.bad c ctx)) :
    ∃ ds good', good = ds ++ good' ∧ IsDigits ds ∧ F good' = .error .short ∧ F (good' ++ [c]) = .error (.bad c ctx) := by
  obtain ⟨ds, e, hd⟩ := dropDigits_spec good
  refine ⟨ds, dropDigits good, e, hd, h, ?_⟩
  rw [e, List.append_assoc, dropDigits_all hd] at h2
  cases hg : dropDigits good with
  | nil => rw [hg, h0] at h; cases h
  | cons b g =>
    rw [hg] at h h2
    cases hb : jsonDigit b with
    | true => rw [hF b g hb] at h; cases h
    | false => rwa [List.cons_append, dropDigits, if_neg (by rw [hb]; simp)] at h2

theorem tail_digit (b : UInt8) (s : Bytes) (h : jsonDigit b = true) : scanTail (b :: s) = .ok (b :: s) := by
  rw [scanTail, if_neg]
  rintro (rfl | rfl) <;> revert h <;> decide

theorem dot_place {good : Bytes} {c : UInt8} {ctx : Bytes} (h : scanDot good = .error .short) (h2 : scanDot (good ++ [c]) = .error (.bad c ctx)) :
    (good = [] ∧ ctx = str "after decimal point in numeric literal") ∨
    ∃ ds e s, good = ds ++ e ++ s ∧ ds ≠ [] ∧ IsDigits ds ∧ (e = str "e" ∨ e = str "E") ∧ (s = [] ∨ s = str "+" ∨ s = str "-") ∧
      ctx = str "in exponent of numeric literal" := by
  cases good with
  | nil =>
    rw [List.nil_append, scanDot] at h2
    split at h2
    · rw [dropDigits, scanTail] at h2; cases h2
    · cases h2; exact .inl ⟨rfl, rfl⟩
  | cons b good =>
    rw [scanDot] at h
    rw [List.cons_append, scanDot] at h2
    split at h
    · rename_i hb
      rw [if_pos hb] at h2
      obtain ⟨ds, good', e1, hd, h3, h4⟩ := digits_place tail_digit (by rw [scanTail]) h h2
      obtain ⟨e, s, e2, he, hs, e3⟩ := tail_place h3 h4
      refine .inr ⟨b :: ds, e, s, by rw [e1, e2]; simp, by simp, ?_, he, hs, e3⟩
      intro x hx
      rcases List.mem_cons.mp hx with rfl | hx
      · exact (jsonDigit_iff _).mp hb
      · exact hd x hx
    · cases h

theorem frac_place {good : Bytes} {c : UInt8} {ctx : Bytes} (h : scanFrac good = .error .short) (h2 : scanFrac (good ++ [c]) = .error (.bad c ctx)) :
    (good = str "." ∧ ctx = str "after decimal point in numeric literal") ∨
    ∃ frac e s, good = frac ++ e ++ s ∧ IsFraction frac ∧ (e = str "e" ∨ e = str "E") ∧ (s = [] ∨ s = str "+" ∨ s = str "-") ∧
      ctx = str "in exponent of numeric literal" := by
  cases good with
  | nil => rw [scanFrac] at h; cases h
  | cons b good =>
    rw [scanFrac] at h
    rw [List.cons_append, scanFrac] at h2
    split at h
    · rename_i hb
      rw [if_pos hb] at h2
      rcases dot_place h h2 with ⟨rfl, e⟩ | ⟨ds, e, s, rfl, hn, hd, he, hs, e3⟩
      · exact .inl ⟨by rw [hb, str_dot], e⟩
      · exact .inr ⟨str "." ++ ds, e, s, by rw [str_dot, hb]; simp, .inr ⟨ds, rfl, hn, hd⟩, he, hs, e3⟩
    · rename_i hb
      rw [if_neg hb] at h2
      obtain ⟨e, s, e2, he, hs, e3⟩ := tail_place h h2
      exact .inr ⟨[], e, s, by rw [e2]; rfl, .inl rfl, he, hs, e3⟩

theorem frac_digit (b : UInt8) (s : Bytes) (h : jsonDigit b = true) : scanFrac (b :: s) = .ok (b :: s) := by
  rw [scanFrac, if_neg, tail_digit b s h]
  rintro rfl; revert h; decide

theorem int_place {b : UInt8} (hb : jsonDigit b = true) {good : Bytes} {c : UInt8} {ctx : Bytes} (h : scanDigits b good = .error .short)
    (h2 : scanDigits b (good ++ [c]) = .error (.bad c ctx)) {sign : Bytes} (hs : sign = [] ∨ sign = str "-") : OpenNumber (sign ++ b :: good) ctx := by
  have key : ∀ {int good' : Bytes}, b :: good = int ++ good' → IsInteger int → scanFrac good' = .error .short →
      scanFrac (good' ++ [c]) = .error (.bad c ctx) → OpenNumber (sign ++ b :: good) ctx := by
    intro int good' e hi h3 h4
    rcases frac_place h3 h4 with ⟨rfl, rfl⟩ | ⟨frac, e', s, rfl, hf, he, hs', rfl⟩
    · rw [e, ← List.append_assoc]; exact .point sign int hs hi
    · rw [e]
      have : sign ++ (int ++ (frac ++ e' ++ s)) = sign ++ int ++ frac ++ e' ++ s := by simp
      rw [this]
      exact .exponent sign int frac e' s hs hi hf he hs'
  unfold scanDigits at h h2
  split at h
  · rename_i h0
    rw [if_pos h0] at h2
    exact key (int := [b]) rfl (.inl (by rw [h0, str_zero])) h h2
  · rename_i h0
    rw [if_neg h0] at h2
    obtain ⟨ds, good', e1, hd, h3, h4⟩ := digits_place frac_digit (by rw [scanFrac]) h h2
    refine key (int := b :: ds) (by rw [e1]; rfl) (.inr ⟨b, ds, rfl, ?_, ((jsonDigit_iff b).mp hb).2, hd⟩) h3 h4
    have := ((jsonDigit_iff b).mp hb).1
    rw [UInt8.le_iff_toNat_le] at this ⊢
    have hne : b.toNat ≠ 0x30 := fun h => h0 (UInt8.toNat_inj.mp h)
    have e1 : (0x30 : UInt8).toNat = 0x30 := rfl
    have e2 : (0x31 : UInt8).toNat = 0x31 := rfl
    omega

theorem neg_place {good : Bytes} {c : UInt8} {ctx : Bytes} (h : scanNeg good = .error .short) (h2 : scanNeg (good ++ [c]) = .error (.bad c ctx)) :
    OpenNumber (0x2D :: good) ctx := by
  cases good with
  | nil =>
    rw [List.nil_append, scanNeg] at h2
    split at h2
    · rename_i hb
      unfold scanDigits at h2
      rw [dropDigits, scanFrac] at h2
      split at h2 <;> cases h2
    · cases h2; rw [← str_minus]; exact .sign
  | cons b good =>
    rw [scanNeg] at h
    rw [List.cons_append, scanNeg] at h2
    split at h
    · rename_i hb
      rw [if_pos hb] at h2
      have := int_place hb h h2 (sign := str "-") (.inr rfl)
      rwa [str_minus] at this
    · cases h

/-! ### Strings -/

/-- A string behind its quotation mark, without a look at its characters. -/
inductive OpenShape : Bytes → Bytes → Prop where
  | text (raw : Bytes) : RawShape raw → OpenShape raw (str "in string literal")
  | escape (raw : Bytes) : RawShape raw → OpenShape (raw ++ [0x5C]) (str "in string escape code")
  | hex (raw digits : Bytes) : RawShape raw → digits.length < 4 → (∀ b ∈ digits, (hexVal b).isSome) →
      OpenShape (raw ++ 0x5C :: 0x75 :: digits) (str "in \\u hexadecimal character escape")

theorem OpenShape.toString {part why : Bytes} (h : OpenShape part why) : OpenString part why := by
  cases h with
  | text _ h => obtain ⟨s, hs⟩ := shape_text _ _ (Nat.le_refl _) h; exact .text _ s hs
  | escape raw h => obtain ⟨s, hs⟩ := shape_text _ raw (Nat.le_refl _) h; exact .escape _ s hs
  | hex raw ds h h1 h2 => obtain ⟨s, hs⟩ := shape_text _ raw (Nat.le_refl _) h; exact .hex _ s ds hs h1 h2

theorem OpenShape.plain {part why : Bytes} (h : OpenShape part why) {b : UInt8} (h1 : b ≠ 0x22) (h2 : b ≠ 0x5C) (h3 : ¬ b < 0x20) : OpenShape (b :: part) why := by
  cases h with
  | text raw h => exact .text _ (.plain b h1 h2 h3 h)
  | escape raw h => exact .escape (b :: raw) (.plain b h1 h2 h3 h)
  | hex raw ds h h4 h5 => exact .hex (b :: raw) ds (.plain b h1 h2 h3 h) h4 h5

theorem OpenShape.short {part why : Bytes} (h : OpenShape part why) {e x : UInt8} (h1 : Spec.escape e = some x) : OpenShape (0x5C :: e :: part) why := by
  cases h with
  | text raw h => exact .text _ (.short e x h1 h)
  | escape raw h => exact .escape (0x5C :: e :: raw) (.short e x h1 h)
  | hex raw ds h h4 h5 => exact .hex (0x5C :: e :: raw) ds (.short e x h1 h) h4 h5

theorem OpenShape.code {part why : Bytes} (h : OpenShape part why) {a b c d : UInt8} (ha : (hexVal a).isSome) (hb : (hexVal b).isSome) (hc : (hexVal c).isSome)
    (hd : (hexVal d).isSome) : OpenShape (0x5C :: 0x75 :: a :: b :: c :: d :: part) why := by
  have hu : ∃ u, Spec.hexUnit a b c d = some u := by
    obtain ⟨a', ha⟩ := Option.isSome_iff_exists.mp ha
    obtain ⟨b', hb⟩ := Option.isSome_iff_exists.mp hb
    obtain ⟨c', hc⟩ := Option.isSome_iff_exists.mp hc
    obtain ⟨d', hd⟩ := Option.isSome_iff_exists.mp hd
    exact ⟨_, by rw [Spec.hexUnit, ha, hb, hc, hd]⟩
  obtain ⟨u, hu⟩ := hu
  cases h with
  | text raw h => exact .text _ (.code a b c d u hu h)
  | escape raw h => exact .escape (0x5C :: 0x75 :: a :: b :: c :: d :: raw) (.code a b c d u hu h)
  | hex raw ds h h4 h5 => exact .hex (0x5C :: 0x75 :: a :: b :: c :: d :: raw) ds (.code a b c d u hu h) h4 h5

theorem string_place : ∀ (good : Bytes) (c : UInt8) (ctx : Bytes),
    (scanString .plain good = .error .short → scanString .plain (good ++ [c]) = .error (.bad c ctx) → OpenShape good ctx) ∧
    (scanString .esc good = .error .short → scanString .esc (good ++ [c]) = .error (.bad c ctx) → OpenShape (0x5C :: good) ctx) ∧
    (∀ n hs, hs.length + n = 3 → (∀ b ∈ hs, (hexVal b).isSome) → scanString (.hex n) good = .error .short →
      scanString (.hex n) (good ++ [c]) = .error (.bad c ctx) → OpenShape (0x5C :: 0x75 :: (hs ++ good)) ctx) := by
  intro good
  induction good with
  | nil =>
    intro c ctx
    refine ⟨fun _ h => ?_, fun _ h => ?_, fun n hs hl hh _ h => ?_⟩
    · rw [List.nil_append, scanString] at h
      split at h
      · cases h
      split at h
      · rw [scanString] at h; cases h
      split at h
      · cases h; exact .text _ .nil
      · rw [scanString] at h; cases h
    · rw [List.nil_append, scanString] at h
      split at h
      · rw [scanString] at h; cases h
      split at h
      · rw [scanString] at h; cases h
      · cases h; exact .escape [] .nil
    · rw [List.nil_append, scanString.eq_def] at h
      simp only at h
      split at h
      · cases n with
        | zero => simp only at h; rw [scanString] at h; cases h
        | succ n => simp only at h; rw [scanString] at h; cases h
      · cases h
        rw [List.append_nil]
        exact .hex [] hs .nil (by omega) hh
  | cons b good ih =>
    intro c ctx
    refine ⟨fun h h2 => ?_, fun h h2 => ?_, fun n hs hl hh h h2 => ?_⟩
    · rw [scanString] at h
      rw [List.cons_append, scanString] at h2
      split at h
      · cases h
      rename_i h1
      rw [if_neg h1] at h2
      split at h
      · rename_i hb
        rw [if_pos hb] at h2
        have := (ih c ctx).2.1 (except_map_error h) (except_map_error h2)
        rwa [hb]
      rename_i hb
      rw [if_neg hb] at h2
      split at h
      · cases h
      rename_i h3
      rw [if_neg h3] at h2
      exact ((ih c ctx).1 (except_map_error h) (except_map_error h2)).plain h1 hb h3
    · rw [scanString] at h
      rw [List.cons_append, scanString] at h2
      split at h
      · rename_i hb
        rw [if_pos hb] at h2
        obtain ⟨x, hx⟩ := short_escape hb
        exact ((ih c ctx).1 (except_map_error h) (except_map_error h2)).short hx
      rename_i h1
      rw [if_neg h1] at h2
      split at h
      · rename_i hb
        rw [if_pos hb] at h2
        have := (ih c ctx).2.2 3 [] rfl (by simp) (except_map_error h) (except_map_error h2)
        rwa [hb]
      · cases h
    · rw [scanString.eq_def] at h
      rw [List.cons_append, scanString.eq_def] at h2
      simp only at h h2
      split at h
      · rename_i hb
        rw [if_pos hb] at h2
        rw [jsonHex_eq] at hb
        have e : hs ++ b :: good = (hs ++ [b]) ++ good := by simp
        cases n with
        | zero =>
          simp only at h h2
          have := (ih c ctx).1 (except_map_error h) (except_map_error h2)
          obtain ⟨x, y, z, rfl⟩ : ∃ x y z, hs = [x, y, z] := by
            match hs, hl with
            | [x, y, z], _ => exact ⟨x, y, z, rfl⟩
          exact this.code (hh x (by simp)) (hh y (by simp)) (hh z (by simp)) hb
        | succ n =>
          simp only at h h2
          rw [e]
          refine (ih c ctx).2.2 n (hs ++ [b]) (by simp; omega) ?_ (except_map_error h) (except_map_error h2)
          intro x hx
          rcases List.mem_append.mp hx with hx | hx
          · exact hh x hx
          · rw [List.mem_singleton.mp hx]; exact hb
      · cases h

/-! ### The character -/

theorem hex_bytes : ∀ n, n < 256 → ∃ x y, hexVal (hexByte (n / 16 % 16)) = some x ∧ hexVal (hexByte (n % 16)) = some y ∧ n = x * 16 + y := by
  intro n hn
  have h : ∀ m, m < 16 → hexVal (hexByte m) = some m := by decide
  exact ⟨n / 16, n % 16, by rw [Nat.mod_eq_of_lt (by omega)]; exact h _ (by omega), h _ (by omega), by omega⟩

theorem shown_quoteChar (c : UInt8) : Shown c (quoteChar c) := by
  have hlt := c.toNat_lt
  have ofn : UInt8.ofNat c.toNat = c := by simp
  obtain ⟨x, y, hx, hy, hxy⟩ := hex_bytes c.toNat hlt
  unfold quoteChar
  by_cases h1 : c = 0x27
  · rw [if_pos h1]; subst h1; exact .escaped (.inl rfl)
  rw [if_neg h1]
  by_cases h2 : c = 0x22
  · rw [if_pos h2]; subst h2; exact .ascii (by decide) (by decide) (by decide) (by decide)
  rw [if_neg h2]
  unfold quoteRune
  by_cases h3 : c.toNat = 0x22 ∨ c.toNat = 0x5C
  · rw [if_pos h3]
    have h := h3
    have hc : c = 0x5C := by
      rcases h with h | h
      · exact absurd (UInt8.toNat_inj.mp h) h2
      · exact UInt8.toNat_inj.mp h
    subst hc
    exact .escaped (.inr rfl)
  rw [if_neg h3]
  by_cases h4 : latinPrint c.toNat = true
  · rw [if_pos h4]
    have h := h4
    by_cases ha : c.toNat < 0x80
    · have e : encodeRune c.toNat = [c] := by
        unfold encodeRune
        rw [if_pos ha, ofn]
      rw [e]
      simp only [latinPrint, Bool.or_eq_true, Bool.and_eq_true, decide_eq_true_eq] at h
      refine .ascii ?_ ?_ h1 ?_
      · rw [UInt8.le_iff_toNat_le]; show 0x20 ≤ _; omega
      · rw [UInt8.le_iff_toNat_le]; show _ ≤ 0x7E; omega
      · rintro rfl; exact h3 (.inr rfl)
    · obtain ⟨ch, hch⟩ := char_of (n := c.toNat) (by omega)
      rw [← hch, encodeRune_char]
      simp only [latinPrint, Bool.or_eq_true, Bool.and_eq_true, decide_eq_true_eq] at h
      refine .latin ch ?_ ?_ hch
      · rw [UInt8.le_iff_toNat_le]; show 0xA1 ≤ _; omega
      · rintro rfl; revert h; decide
  rw [if_neg h4]
  have letter : ∀ (n : Nat) (e : UInt8) (t : Bytes), (UInt8.ofNat n, e) ∈ Spec.letterEscapes → t = [0x5C, e] → c.toNat = n → Shown c (str "'" ++ t ++ str "'") := by
    intro n e t hm ht hn
    subst hn ht
    rw [ofn] at hm
    exact .letter e hm
  by_cases a1 : c.toNat = 0x07
  · rw [if_pos a1]; exact letter _ 0x61 _ (by decide) (by decide) a1
  rw [if_neg a1]
  by_cases a2 : c.toNat = 0x08
  · rw [if_pos a2]; exact letter _ 0x62 _ (by decide) (by decide) a2
  rw [if_neg a2]
  by_cases a3 : c.toNat = 0x0C
  · rw [if_pos a3]; exact letter _ 0x66 _ (by decide) (by decide) a3
  rw [if_neg a3]
  by_cases a4 : c.toNat = 0x0A
  · rw [if_pos a4]; exact letter _ 0x6E _ (by decide) (by decide) a4
  rw [if_neg a4]
  by_cases a5 : c.toNat = 0x0D
  · rw [if_pos a5]; exact letter _ 0x72 _ (by decide) (by decide) a5
  rw [if_neg a5]
  by_cases a6 : c.toNat = 0x09
  · rw [if_pos a6]; exact letter _ 0x74 _ (by decide) (by decide) a6
  rw [if_neg a6]
  by_cases a7 : c.toNat = 0x0B
  · rw [if_pos a7]; exact letter _ 0x76 _ (by decide) (by decide) a7
  rw [if_neg a7]
  by_cases h : c.toNat < 0x20 ∨ c.toNat = 0x7F
  · rw [if_pos h]
    refine .hex _ _ x y ?_ ?_ hx hy hxy
    · rcases h with h | h
      · exact .inl (by rw [UInt8.lt_iff_toNat_lt]; exact h)
      · exact .inr (UInt8.toNat_inj.mp h)
    · intro e he
      simp only [Spec.letterEscapes, List.mem_cons, Prod.mk.injEq, List.not_mem_nil, or_false] at he
      rcases he with ⟨rfl, _⟩ | ⟨rfl, _⟩ | ⟨rfl, _⟩ | ⟨rfl, _⟩ | ⟨rfl, _⟩ | ⟨rfl, _⟩ | ⟨rfl, _⟩ <;> contradiction
  rw [if_neg h, if_pos (by omega)]
  have e0 : hex2 (c.toNat / 256) = str "00" := by rw [Nat.div_eq_of_lt hlt]; decide
  rw [e0]
  refine .code _ _ x y ?_ ?_ hx hy hxy
  · rw [UInt8.le_iff_toNat_le]; show 0x80 ≤ _
    simp only [latinPrint, Bool.or_eq_true, Bool.and_eq_true, decide_eq_true_eq] at h4
    omega
  · simp only [latinPrint, Bool.or_eq_true, Bool.and_eq_true, decide_eq_true_eq] at h4
    by_cases had : c.toNat = 0xAD
    · exact .inr (UInt8.toNat_inj.mp had)
    · refine .inl ?_
      rw [UInt8.le_iff_toNat_le]; show _ ≤ 0xA0
      omega

end Kagome
