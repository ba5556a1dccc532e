import Verif.Go.Quote
import Verif.Spec.Quote
import Verif.Proof.Json

/-! Reading back what `strconv.Quote` writes. -/

namespace Kagome

open Spec

theorem unquoteChar_shorter {s t : Bytes} {c : Option Bytes} (h : unquoteChar s = some (c, t)) : t.length < s.length := by
  unfold unquoteChar at h
  split at h
  · cases h
  · rename_i b s
    split at h
    · cases h; simp
    · split at h
      · cases h
      · split at h
        · split at h
          · cases h
          · rename_i e u
            (repeat' split at h) <;>
              first
              | cases h
              | (simp only [Option.map_eq_some_iff, Prod.mk.injEq] at h
                 obtain ⟨_, _, _, rfl⟩ := h
                 simp only [List.length_cons, List.length_drop]; omega)
        · cases h; simp

theorem unquoteChars_fuel : ∀ (f g : Nat) (s : Bytes), s.length ≤ f → s.length ≤ g → unquoteChars f s = unquoteChars g s := by
  intro f
  induction f with
  | zero =>
    intro g s hf hg
    have : s = [] := List.length_eq_zero_iff.mp (by omega)
    subst this
    cases g <;> rfl
  | succ f ih =>
    intro g s hf hg
    cases g with
    | zero =>
      have : s = [] := List.length_eq_zero_iff.mp (by omega)
      subst this
      rfl
    | succ g =>
      rw [unquoteChars, unquoteChars]
      cases h : unquoteChar s with
      | none => rfl
      | some r =>
        obtain ⟨c, t⟩ := r
        cases c with
        | none => rfl
        | some c =>
          have := unquoteChar_shorter h
          simp only
          rw [ih g t (by omega) (by omega)]

/-- The rest of a quoted string. -/
def unquoteRest (s : Bytes) : Option (Bytes × Bytes) := unquoteChars s.length s

theorem unquoteRest_close (t : Bytes) : unquoteRest (0x22 :: t) = some ([], t) := rfl

theorem unquoteRest_step {s c t : Bytes} (h : unquoteChar s = some (some c, t)) :
    unquoteRest s = (unquoteRest t).map (fun r => (c ++ r.1, r.2)) := by
  have hl := unquoteChar_shorter h
  unfold unquoteRest
  obtain ⟨n, hn⟩ : ∃ n, s.length = n + 1 := ⟨s.length - 1, by omega⟩
  rw [hn, unquoteChars, h]
  dsimp only
  rw [unquoteChars_fuel n t.length t (by omega) (Nat.le_refl _)]

theorem unquoteRest_cons {b : UInt8} (h1 : b ≠ 0x22) (h2 : b ≠ 0x5C) (h3 : b ≠ 0x0A) (t : Bytes) :
    unquoteRest (b :: t) = (unquoteRest t).map (fun r => (b :: r.1, r.2)) := by
  apply unquoteRest_step (c := [b])
  unfold unquoteChar
  dsimp only
  rw [if_neg h1, if_neg h3, if_neg h2]

theorem unquoteRest_high (bs : Bytes) (h : ∀ b ∈ bs, 0x80 ≤ b.toNat) (t : Bytes) :
    unquoteRest (bs ++ t) = (unquoteRest t).map (fun r => (bs ++ r.1, r.2)) := by
  induction bs with
  | nil => simp only [List.nil_append]; cases unquoteRest t <;> rfl
  | cons b bs ih =>
    have hb := h b (by simp)
    rw [List.cons_append, unquoteRest_cons, ih (fun b hb => h b (by simp [hb]))]
    · cases unquoteRest t <;> simp
    · intro e; rw [e] at hb; revert hb; decide
    · intro e; rw [e] at hb; revert hb; decide
    · intro e; rw [e] at hb; revert hb; decide

theorem unquoteRest_escape {e c : UInt8} (h1 : e ≠ 0x78) (h2 : e ≠ 0x75) (h3 : e ≠ 0x55) (hc : goEscape e = some c) (t : Bytes) :
    unquoteRest (0x5C :: e :: t) = (unquoteRest t).map (fun r => (c :: r.1, r.2)) := by
  apply unquoteRest_step (c := [c])
  unfold unquoteChar
  dsimp only
  rw [if_neg (by decide), if_neg (by decide), if_pos rfl, if_neg h1, if_neg h2, if_neg h3, hc]
  rfl

theorem hexNumber_hex2 (n : Nat) : hexNumber (hex2 n) = some (n % 256) := by
  unfold hex2
  simp only [hexNumber, hexVal_hexByte _ (Nat.mod_lt _ (by decide : 0 < 16)), List.length_cons, List.length_nil]
  congr 1
  omega

theorem hexNumber_append : ∀ (a b : Bytes) {x y : Nat}, hexNumber a = some x → hexNumber b = some y →
    hexNumber (a ++ b) = some (x * 16 ^ b.length + y)
  | [], b, x, y, h1, h2 => by
    simp only [hexNumber, Option.some.injEq] at h1
    rw [List.nil_append, h2, ← h1]; simp
  | c :: a, b, x, y, h1, h2 => by
    simp only [hexNumber] at h1
    cases hc : hexVal c with
    | none => rw [hc] at h1; cases h1
    | some d =>
      cases ha : hexNumber a with
      | none => rw [hc, ha] at h1; cases h1
      | some n =>
        rw [hc, ha] at h1
        simp only [Option.some.injEq] at h1
        simp only [List.cons_append, hexNumber, hc, hexNumber_append a b ha h2, List.length_append]
        congr 1
        rw [← h1, Nat.add_mul, Nat.pow_add, Nat.mul_assoc, Nat.add_assoc]

theorem length_hex2 (n : Nat) : (hex2 n).length = 2 := rfl

theorem unquoteRest_x (n : Nat) (t : Bytes) :
    unquoteRest (str "\\x" ++ hex2 n ++ t) = (unquoteRest t).map (fun r => (UInt8.ofNat (n % 256) :: r.1, r.2)) := by
  apply unquoteRest_step (c := [UInt8.ofNat (n % 256)])
  have e : str "\\x" ++ hex2 n ++ t = 0x5C :: 0x78 :: (hex2 n ++ t) := by
    rw [show str "\\x" = [0x5C, 0x78] from by decide]; rfl
  rw [e]
  unfold unquoteChar
  dsimp only
  rw [if_neg (by decide), if_neg (by decide), if_pos rfl, if_pos rfl, if_neg (by simp [length_hex2]),
    List.take_left' (length_hex2 n), List.drop_left' (length_hex2 n), hexNumber_hex2]
  rfl

theorem numberedChar_val (c : Char) : numberedChar c.val.toNat = some c := by
  unfold numberedChar
  have hv : c.val.toNat.isValidChar := c.valid
  rw [if_pos hv]
  congr 1
  exact Char.ofNat_toNat c

theorem unquoteRest_u {c : Char} (h : c.val.toNat < 0x10000) (t : Bytes) :
    unquoteRest (str "\\u" ++ hex2 (c.val.toNat / 256) ++ hex2 c.val.toNat ++ t) =
      (unquoteRest t).map (fun r => (String.utf8EncodeChar c ++ r.1, r.2)) := by
  apply unquoteRest_step (c := String.utf8EncodeChar c)
  have e : str "\\u" ++ hex2 (c.val.toNat / 256) ++ hex2 c.val.toNat ++ t =
      0x5C :: 0x75 :: ((hex2 (c.val.toNat / 256) ++ hex2 c.val.toNat) ++ t) := by
    rw [show str "\\u" = [0x5C, 0x75] from by decide]; simp
  have hl : (hex2 (c.val.toNat / 256) ++ hex2 c.val.toNat).length = 4 := rfl
  rw [e]
  unfold unquoteChar
  dsimp only
  rw [if_neg (by decide), if_neg (by decide), if_pos rfl, if_neg (by decide), if_pos rfl, if_neg (by rw [List.length_append, hl]; omega),
    List.take_left' hl, List.drop_left' hl, hexNumber_append _ _ (hexNumber_hex2 _) (hexNumber_hex2 _)]
  have : c.val.toNat / 256 % 256 * 16 ^ (hex2 c.val.toNat).length + c.val.toNat % 256 = c.val.toNat := by
    rw [length_hex2]; omega
  rw [this, Option.bind_some, numberedChar_val]
  rfl

theorem unquoteRest_U (c : Char) (t : Bytes) :
    unquoteRest (str "\\U" ++ hex2 (c.val.toNat / 16777216) ++ hex2 (c.val.toNat / 65536) ++ hex2 (c.val.toNat / 256) ++ hex2 c.val.toNat ++ t) =
      (unquoteRest t).map (fun r => (String.utf8EncodeChar c ++ r.1, r.2)) := by
  apply unquoteRest_step (c := String.utf8EncodeChar c)
  have hv : c.val.toNat < 0xd800 ∨ (0xdfff < c.val.toNat ∧ c.val.toNat < 0x110000) := c.valid
  generalize hn : c.val.toNat = n at hv
  have e : str "\\U" ++ hex2 (n / 16777216) ++ hex2 (n / 65536) ++ hex2 (n / 256) ++ hex2 n ++ t =
      0x5C :: 0x55 :: ((((hex2 (n / 16777216) ++ hex2 (n / 65536)) ++ hex2 (n / 256)) ++ hex2 n) ++ t) := by
    rw [show str "\\U" = [0x5C, 0x55] from by decide]; simp
  have hl : (((hex2 (n / 16777216) ++ hex2 (n / 65536)) ++ hex2 (n / 256)) ++ hex2 n).length = 8 := rfl
  rw [e]
  unfold unquoteChar
  dsimp only
  rw [if_neg (by decide), if_neg (by decide), if_pos rfl, if_neg (by decide), if_neg (by decide), if_pos rfl, if_neg (by rw [List.length_append, hl]; omega),
    List.take_left' hl, List.drop_left' hl,
    hexNumber_append _ _ (hexNumber_append _ _ (hexNumber_append _ _ (hexNumber_hex2 _) (hexNumber_hex2 _)) (hexNumber_hex2 _)) (hexNumber_hex2 _)]
  have : ((n / 16777216 % 256 * 16 ^ (hex2 (n / 65536)).length + n / 65536 % 256) * 16 ^ (hex2 (n / 256)).length + n / 256 % 256) *
      16 ^ (hex2 n).length + n % 256 = n := by
    simp only [length_hex2]; omega
  rw [this, Option.bind_some, ← hn, numberedChar_val]
  rfl

/-- A character is read back. -/
theorem unquote_rune {isPrint : Nat → Bool} (hp : isPrint 10 = false) (c : Char) (t : Bytes) :
    unquoteRest (quoteRune isPrint c.val.toNat ++ t) = (unquoteRest t).map (fun r => (String.utf8EncodeChar c ++ r.1, r.2)) := by
  have ascii : ∀ n : Nat, c.val.toNat = n → n < 0x80 → String.utf8EncodeChar c = [UInt8.ofNat n] := by
    intro n h1 h2; rw [← h1]; exact encode_ascii (by omega)
  have esc : ∀ (n : Nat) (e : UInt8), c.val.toNat = n → n < 0x80 → e ≠ 0x78 → e ≠ 0x75 → e ≠ 0x55 → goEscape e = some (UInt8.ofNat n) →
      unquoteRest ([0x5C, e] ++ t) = (unquoteRest t).map (fun r => (String.utf8EncodeChar c ++ r.1, r.2)) := by
    intro n e h1 h2 h3 h4 h5 h6
    rw [ascii n h1 h2]
    exact unquoteRest_escape h3 h4 h5 h6 t
  unfold quoteRune
  by_cases h0 : c.val.toNat = 0x22 ∨ c.val.toNat = 0x5C
  · rw [if_pos h0]
    rcases h0 with h | h
    · rw [h]; exact esc 0x22 0x22 h (by decide) (by decide) (by decide) (by decide) (by decide)
    · rw [h]; exact esc 0x5C 0x5C h (by decide) (by decide) (by decide) (by decide) (by decide)
  rw [if_neg h0]
  by_cases hpr : isPrint c.val.toNat = true
  · rw [if_pos hpr, encodeRune_char]
    by_cases ha : c.val.toNat < 0x80
    · rw [encode_ascii ha]
      have hne : ∀ k : Nat, k < 0x80 → c.val.toNat ≠ k → UInt8.ofNat c.val.toNat ≠ UInt8.ofNat k := by
        intro k hk h e
        have := congrArg UInt8.toNat e
        simp only [UInt8.toNat_ofNat'] at this
        omega
      refine unquoteRest_cons (hne 0x22 (by decide) (by omega)) (hne 0x5C (by decide) (by omega)) (hne 0x0A (by decide) ?_) t
      intro e; rw [e, hp] at hpr; cases hpr
    · exact unquoteRest_high _ (encode_high ha) t
  rw [if_neg hpr]
  by_cases h : c.val.toNat = 0x07
  · rw [if_pos h]; exact esc 0x07 0x61 h (by decide) (by decide) (by decide) (by decide) (by decide)
  rw [if_neg h]; clear h
  by_cases h : c.val.toNat = 0x08
  · rw [if_pos h]; exact esc 0x08 0x62 h (by decide) (by decide) (by decide) (by decide) (by decide)
  rw [if_neg h]; clear h
  by_cases h : c.val.toNat = 0x0C
  · rw [if_pos h]; exact esc 0x0C 0x66 h (by decide) (by decide) (by decide) (by decide) (by decide)
  rw [if_neg h]; clear h
  by_cases h : c.val.toNat = 0x0A
  · rw [if_pos h]; exact esc 0x0A 0x6E h (by decide) (by decide) (by decide) (by decide) (by decide)
  rw [if_neg h]; clear h
  by_cases h : c.val.toNat = 0x0D
  · rw [if_pos h]; exact esc 0x0D 0x72 h (by decide) (by decide) (by decide) (by decide) (by decide)
  rw [if_neg h]; clear h
  by_cases h : c.val.toNat = 0x09
  · rw [if_pos h]; exact esc 0x09 0x74 h (by decide) (by decide) (by decide) (by decide) (by decide)
  rw [if_neg h]; clear h
  by_cases h : c.val.toNat = 0x0B
  · rw [if_pos h]; exact esc 0x0B 0x76 h (by decide) (by decide) (by decide) (by decide) (by decide)
  rw [if_neg h]; clear h
  by_cases h : c.val.toNat < 0x20 ∨ c.val.toNat = 0x7F
  · rw [if_pos h, ascii _ rfl (by omega), unquoteRest_x, Nat.mod_eq_of_lt (by omega)]
    rfl
  rw [if_neg h]; clear h
  by_cases h : c.val.toNat < 0x10000
  · rw [if_pos h]; exact unquoteRest_u h t
  · rw [if_neg h]; exact unquoteRest_U c t

theorem unquote_loop {isPrint : Nat → Bool} (hp : isPrint 10 = false) (s t : Bytes) :
    unquoteRest (quoteLoop isPrint (runes s) s ++ 0x22 :: t) = some (s, t) := by
  induction s using runes_induction with
  | nil => exact unquoteRest_close t
  | cons s hs ih =>
    rw [runes_cons hs, quoteLoop]
    cases hv : decodeValid s with
    | none =>
      rw [decodeRune_of_none hs hv] at ih ⊢
      rw [if_pos rfl, List.append_assoc, unquoteRest_x, ih]
      cases s with
      | nil => exact absurd rfl hs
      | cons b s =>
        simp
    | some d =>
      obtain ⟨r, w⟩ := d
      obtain ⟨c, h1, h2, h3⟩ := decodeValid_some hv
      rw [decodeRune_of_valid hv] at ih ⊢
      have hne : (r, w) ≠ (runeError, 1) := by
        intro e
        cases e
        have : ¬ c.val.toNat < 0x80 := by rw [h1]; decide
        have hl : 2 ≤ (String.utf8EncodeChar c).length := by
          rw [← encodeRune_char, h1]; decide
        omega
      rw [if_neg hne, List.append_assoc, ← h1, unquote_rune hp, ih]
      simp only [Option.map_some]
      rw [← h3]

/-- Every string is read back from its quoted form. -/
theorem unquote_quote {isPrint : Nat → Bool} (hp : isPrint 10 = false) (s t : Bytes) : unquote (quote isPrint s ++ t) = some (s, t) := by
  have e : quote isPrint s ++ t = 0x22 :: (quoteLoop isPrint (runes s) s ++ 0x22 :: t) := by
    unfold quote
    rw [show str "\"" = [0x22] from by decide]
    simp
  rw [e]
  exact unquote_loop hp s t

end Kagome
