import Verif.Spec.JsonText
import Verif.Proof.Json

/-! The strings the scanner of encoding/json accepts, and their texts. -/

namespace Kagome

open Spec (StringText hexVal hexUnit IsHigh IsLow replacement escape)

theorem jsonHex_eq (b : UInt8) : jsonHex b = hexVal b := rfl

theorem unquoteFrom_skip (k : Nat) (s : Bytes) : unquoteFrom k s = unquoteFrom 0 (s.drop k) := by
  induction k generalizing s with
  | zero => rfl
  | succ k ih =>
    cases s with
    | nil => simp [unquoteFrom]
    | cons b s =>
      rw [List.drop_succ_cons, ← ih]
      simp [unquoteFrom]

theorem getu4_units (a b c d : UInt8) (t : Bytes) : getu4 (0x5C :: 0x75 :: a :: b :: c :: d :: t) = hexUnit a b c d := by
  unfold getu4 hexUnit
  simp only [jsonHex_eq, and_self, if_true]
  cases hexVal a <;> cases hexVal b <;> cases hexVal c <;> cases hexVal d <;> rfl

theorem unquote_plain {b : UInt8} (h1 : b ≠ 0x5C) (h2 : ¬ (b = 0x22 ∨ b < 0x20)) (s : Bytes) :
    unquoteFrom 0 (b :: s) = if b < 0x80 then (unquoteFrom 0 s).map (b :: ·)
      else (unquoteFrom ((decodeRune (b :: s)).2 - 1) s).map (encodeRune (decodeRune (b :: s)).1 ++ ·) := by
  rw [unquoteFrom.eq_def]
  simp only [h1, h2, if_false]

theorem ofNat_toNat {n : Nat} (h : n < 0x80) : (UInt8.ofNat n).toNat = n := by
  rw [UInt8.toNat_ofNat']; exact Nat.mod_eq_of_lt (by omega)

theorem unquote_unit {a b c d : UInt8} {u : Nat} (h : hexUnit a b c d = some u) (t : Bytes) :
    unquoteFrom 0 (0x5C :: 0x75 :: a :: b :: c :: d :: t) =
      if isSurrogate u then
        match utf16Decode u (getu4 t) with
        | some dec => (unquoteFrom 6 t).map (encodeRune dec ++ ·)
        | none => (unquoteFrom 0 t).map (encodeRune runeError ++ ·)
      else (unquoteFrom 0 t).map (encodeRune u ++ ·) := by
  rw [unquoteFrom]
  simp only [if_true, getu4_units, h]
  simp only [show ¬ ((0x75 : UInt8) = 0x22 ∨ (0x75 : UInt8) = 0x5C ∨ (0x75 : UInt8) = 0x2F ∨ (0x75 : UInt8) = 0x27) by decide,
    show ¬ (0x75 : UInt8) = 0x62 by decide, show ¬ (0x75 : UInt8) = 0x66 by decide, show ¬ (0x75 : UInt8) = 0x6E by decide,
    show ¬ (0x75 : UInt8) = 0x72 by decide, show ¬ (0x75 : UInt8) = 0x74 by decide, if_false]
  rw [unquoteFrom_skip 11, unquoteFrom_skip 5, unquoteFrom_skip 6]
  rfl

theorem surrogate_iff (u : Nat) : isSurrogate u = true ↔ IsHigh u ∨ IsLow u := by
  unfold isSurrogate IsHigh IsLow
  simp only [Bool.and_eq_true, decide_eq_true_eq]
  omega

theorem not_surrogate (c : Char) : isSurrogate c.val.toNat = false := by
  rw [Bool.eq_false_iff]
  intro h
  rw [surrogate_iff] at h
  have := c.valid
  unfold IsHigh IsLow at h
  simp only [UInt32.isValidChar, Nat.isValidChar] at this
  omega

theorem encode_error : encodeRune runeError = replacement := by decide

theorem unquote_short : ∀ e x : UInt8, escape e = some x → ∀ t, unquoteFrom 0 (0x5C :: e :: t) = (unquoteFrom 0 t).map (x :: ·) := by
  intro e x h t
  unfold escape at h
  rw [unquoteFrom]
  simp only [if_true]
  simp only [unquoteFrom_skip 1, List.drop_succ_cons, List.drop_zero]
  split at h
  · rename_i h1
    cases h
    rw [if_pos (by rcases h1 with h1 | h1 | h1 <;> simp [h1])]
  · (repeat' split at h) <;> first | (cases h; done) | (rename_i he; subst he; cases h; simp)

theorem unquote_char {c : Char} (h1 : 0x20 ≤ c.val.toNat) (h2 : c ≠ '"') (h3 : c ≠ '\\') (t : Bytes) :
    unquoteFrom 0 (String.utf8EncodeChar c ++ t) = (unquoteFrom 0 t).map (String.utf8EncodeChar c ++ ·) := by
  have hd := decodeValid_encode c t
  by_cases h : c.val.toNat < 0x80
  · have hb : (UInt8.ofNat c.val.toNat).toNat = c.val.toNat := ofNat_toNat h
    rw [encode_ascii h]
    simp only [List.cons_append, List.nil_append]
    rw [unquote_plain, if_pos]
    · rw [UInt8.lt_iff_toNat_lt, hb]; exact h
    rotate_left
    · rintro (he | he)
      · apply h2
        have := congrArg UInt8.toNat he
        rw [hb] at this
        exact Char.ext (UInt32.toNat_inj.mp this)
      · rw [UInt8.lt_iff_toNat_lt, hb] at he
        have : (0x20 : UInt8).toNat = 32 := rfl
        omega
    · intro he
      apply h3
      have := congrArg UInt8.toNat he
      rw [hb] at this
      exact Char.ext (UInt32.toNat_inj.mp this)
  · have hh := encode_high h
    obtain ⟨b, r, hbr, -, -⟩ := encode_shape c
    rw [hbr] at hd hh ⊢
    have hb := hh b (by simp)
    simp only [List.cons_append] at hd ⊢
    have hr := decodeRune_of_valid hd
    rw [unquote_plain, if_neg, hr, encodeRune_char, hbr, unquoteFrom_skip]
    · simp
    · rw [UInt8.lt_iff_toNat_lt]; have : (0x80 : UInt8).toNat = 128 := rfl; omega
    rotate_left
    · rintro (rfl | he)
      · simp at hb
      · rw [UInt8.lt_iff_toNat_lt] at he; have : (0x20 : UInt8).toNat = 32 := rfl; omega
    · rintro rfl; simp at hb

theorem decodeValid_none {s : Bytes} (h : ∀ c : Char, ¬ String.utf8EncodeChar c <+: s) : decodeValid s = none := by
  cases hd : decodeValid s with
  | none => rfl
  | some d =>
    obtain ⟨r, w⟩ := d
    obtain ⟨c, -, -, h3⟩ := decodeValid_some hd
    exact absurd ⟨_, h3.symm⟩ (h c)

theorem unquote_bad {b : UInt8} {t : Bytes} (hb : 0x80 ≤ b) (h : ∀ c : Char, ¬ String.utf8EncodeChar c <+: b :: t) :
    unquoteFrom 0 (b :: t) = (unquoteFrom 0 t).map (replacement ++ ·) := by
  have hr := decodeRune_of_none (s := b :: t) (by simp) (decodeValid_none h)
  rw [UInt8.le_iff_toNat_le] at hb
  have e : (0x80 : UInt8).toNat = 128 := rfl
  rw [unquote_plain, if_neg, hr, encode_error]
  · rfl
  · rw [UInt8.lt_iff_toNat_lt]; omega
  rotate_left
  · rintro (rfl | he)
    · simp at hb
    · rw [UInt8.lt_iff_toNat_lt] at he; have : (0x20 : UInt8).toNat = 32 := rfl; omega
  · rintro rfl; simp at hb

theorem utf16_none {u : Nat} {o : Option Nat} (h : ∀ lo, o = some lo → ¬ (IsHigh u ∧ IsLow lo)) : utf16Decode u o = none := by
  cases o with
  | none => rfl
  | some lo =>
    have := h lo rfl
    unfold IsHigh IsLow at this
    simp only [utf16Decode]
    rw [if_neg (by omega)]

theorem getu4_some {s : Bytes} {u : Nat} (h : getu4 s = some u) :
    ∃ a b c d t, s = 0x5C :: 0x75 :: a :: b :: c :: d :: t ∧ hexUnit a b c d = some u := by
  unfold getu4 at h
  split at h
  · rename_i x y a b c d t
    split at h
    · rename_i hx
      obtain ⟨rfl, rfl⟩ := hx
      exact ⟨a, b, c, d, t, rfl, by rw [← getu4_units a b c d t]; unfold getu4; simpa using h⟩
    · cases h
  · cases h

/-- The text of a string. -/
theorem unquote_text {raw s : Bytes} (h : StringText raw s) : unquoteFrom 0 raw = some s := by
  induction h with
  | nil => rfl
  | char c h1 h2 h3 _ ih => rw [unquote_char h1 h2 h3, ih]; simp only [Option.map_some]
  | short e x h _ ih => rw [unquote_short e x h, ih]; simp only [Option.map_some]
  | code a b c d ch h _ ih => rw [unquote_unit h, not_surrogate, if_neg (by simp), ih, encodeRune_char]; simp only [Option.map_some]
  | pair a b c d a' b' c' d' hi lo ch h h' h1 h2 h3 _ ih =>
    rw [unquote_unit h, if_pos ((surrogate_iff hi).mpr (.inl h1)), getu4_units, h']
    have e : utf16Decode hi (some lo) = some ch.val.toNat := by
      unfold IsHigh at h1; unfold IsLow at h2
      simp only [utf16Decode]
      rw [if_pos (by omega), h3]
      exact congrArg some (by omega)
    rw [e, unquoteFrom_skip]
    simp only [List.drop_succ_cons, List.drop_zero]
    rw [ih, encodeRune_char]; simp only [Option.map_some]
  | lone a b c d u h hu hn _ ih =>
    rw [unquote_unit h, if_pos ((surrogate_iff u).mpr hu), utf16_none]
    · rw [ih, encode_error]; simp only [Option.map_some]
    · intro lo hlo
      obtain ⟨a', b', c', d', t, e, hx⟩ := getu4_some hlo
      exact hn a' b' c' d' lo t e hx
  | bad b hb hn _ ih => rw [unquote_bad hb hn, ih]; simp only [Option.map_some]

/-! ### What the scanner accepts -/

/-- The shape of the inside of a string. -/
inductive RawShape : Bytes → Prop where
  | nil : RawShape []
  | plain (b : UInt8) {s : Bytes} : b ≠ 0x22 → b ≠ 0x5C → ¬ b < 0x20 → RawShape s → RawShape (b :: s)
  | short (e x : UInt8) {s : Bytes} : escape e = some x → RawShape s → RawShape (0x5C :: e :: s)
  | code (a b c d : UInt8) (u : Nat) {s : Bytes} : hexUnit a b c d = some u → RawShape s → RawShape (0x5C :: 0x75 :: a :: b :: c :: d :: s)

theorem except_map_ok {ε α β : Type} {f : α → β} {x : Except ε α} {y : β} (h : x.map f = .ok y) : ∃ a, x = .ok a ∧ f a = y := by
  cases x with
  | error e => cases h
  | ok a => cases h; exact ⟨a, rfl, rfl⟩

theorem short_escape {b : UInt8} (h : b = 0x62 ∨ b = 0x66 ∨ b = 0x6E ∨ b = 0x72 ∨ b = 0x74 ∨ b = 0x5C ∨ b = 0x2F ∨ b = 0x22) :
    ∃ x, escape b = some x := by
  rcases h with rfl | rfl | rfl | rfl | rfl | rfl | rfl | rfl <;> exact ⟨_, rfl⟩

theorem escape_short {b x : UInt8} (h : escape b = some x) :
    b = 0x62 ∨ b = 0x66 ∨ b = 0x6E ∨ b = 0x72 ∨ b = 0x74 ∨ b = 0x5C ∨ b = 0x2F ∨ b = 0x22 := by
  unfold escape at h
  split at h
  · rename_i h1; rcases h1 with h1 | h1 | h1 <;> simp [h1]
  · (repeat' split at h) <;> first | (cases h; done) | (rename_i he; simp [he])

theorem scanString_shape : ∀ (s raw rest : Bytes),
    (scanString .plain s = .ok (raw, rest) → s = raw ++ 0x22 :: rest ∧ RawShape raw) ∧
    (scanString .esc s = .ok (raw, rest) → s = raw ++ 0x22 :: rest ∧ RawShape (0x5C :: raw)) ∧
    (∀ n, scanString (.hex n) s = .ok (raw, rest) → s = raw ++ 0x22 :: rest ∧
      ∃ hs t, raw = hs ++ t ∧ hs.length = n + 1 ∧ (∀ b ∈ hs, (hexVal b).isSome = true) ∧ RawShape t) := by
  intro s
  induction s with
  | nil => intro raw rest; refine ⟨?_, ?_, fun n => ?_⟩ <;> (intro h; simp [scanString] at h)
  | cons b s ih =>
    intro raw rest
    refine ⟨?_, ?_, fun n => ?_⟩
    · intro h
      rw [scanString] at h
      split at h
      · rename_i hb; cases h; exact ⟨by simp [hb], .nil⟩
      · split at h
        · rename_i hb
          obtain ⟨⟨r, t⟩, h1, h2⟩ := except_map_ok h
          cases h2
          obtain ⟨e, hs⟩ := (ih r t).2.1 h1
          exact ⟨by rw [e]; rfl, by rw [hb]; exact hs⟩
        · split at h
          · cases h
          · obtain ⟨⟨r, t⟩, h1, h2⟩ := except_map_ok h
            cases h2
            obtain ⟨e, hs⟩ := (ih r t).1 h1
            exact ⟨by rw [e]; rfl, .plain b ‹_› ‹_› ‹_› hs⟩
    · intro h
      rw [scanString] at h
      split at h
      · rename_i hb
        obtain ⟨⟨r, t⟩, h1, h2⟩ := except_map_ok h
        cases h2
        obtain ⟨e, hs⟩ := (ih r t).1 h1
        obtain ⟨x, hx⟩ := short_escape hb
        exact ⟨by rw [e]; rfl, .short b x hx hs⟩
      · split at h
        · rename_i hb
          obtain ⟨⟨r, t⟩, h1, h2⟩ := except_map_ok h
          cases h2
          obtain ⟨e, hs, t2, e2, hl, hh, hsh⟩ := (ih r t).2.2 3 h1
          match hs, hl with
          | [a, c, d, f], _ =>
            obtain ⟨xa, ha⟩ := Option.isSome_iff_exists.mp (hh a (by simp))
            obtain ⟨xc, hc⟩ := Option.isSome_iff_exists.mp (hh c (by simp))
            obtain ⟨xd, hd⟩ := Option.isSome_iff_exists.mp (hh d (by simp))
            obtain ⟨xf, hf⟩ := Option.isSome_iff_exists.mp (hh f (by simp))
            refine ⟨by rw [e]; rfl, ?_⟩
            rw [e2, hb]
            exact .code a c d f _ (by unfold hexUnit; rw [ha, hc, hd, hf]) hsh
        · cases h
    · intro h
      rw [scanString.eq_def] at h
      simp only at h
      split at h
      · rename_i hb
        rw [jsonHex_eq] at hb
        cases n with
        | zero =>
          obtain ⟨⟨r, t⟩, h1, h2⟩ := except_map_ok h
          cases h2
          obtain ⟨e, hs⟩ := (ih r t).1 h1
          exact ⟨by rw [e]; rfl, [b], r, rfl, rfl, by simpa using hb, hs⟩
        | succ n =>
          obtain ⟨⟨r, t⟩, h1, h2⟩ := except_map_ok h
          cases h2
          obtain ⟨e, hs, t2, e2, hl, hh, hsh⟩ := (ih r t).2.2 n h1
          refine ⟨by rw [e]; rfl, b :: hs, t2, by rw [e2]; rfl, by simp [hl], ?_, hsh⟩
          intro x hx
          rcases List.mem_cons.mp hx with rfl | hx
          · exact hb
          · exact hh x hx
      · cases h

theorem shape_high {hs t : Bytes} (h : ∀ b ∈ hs, 0x80 ≤ b.toNat) (hsh : RawShape (hs ++ t)) : RawShape t := by
  induction hs with
  | nil => exact hsh
  | cons b hs ih =>
    have hb := h b (by simp)
    refine ih (fun x hx => h x (by simp [hx])) ?_
    rw [List.cons_append] at hsh
    generalize hs ++ t = r at hsh
    cases hsh with
    | plain => assumption
    | short => simp at hb
    | code => simp at hb

theorem hexVal_lt (b : UInt8) (x : Nat) (h : hexVal b = some x) : x < 16 := by
  have key : ∀ n, n < 256 → (hexVal (UInt8.ofNat n)).all (fun x => decide (x < 16)) = true := by decide +kernel
  have := key b.toNat (UInt8.toNat_lt b)
  rw [UInt8.ofNat_toNat, h] at this
  simpa using this

theorem hexUnit_lt {a b c d : UInt8} {u : Nat} (h : hexUnit a b c d = some u) : u < 0x10000 := by
  unfold hexUnit at h
  split at h
  · rename_i xa xb xc xd ha hb hc hd
    have := hexVal_lt _ _ ha
    have := hexVal_lt _ _ hb
    have := hexVal_lt _ _ hc
    have := hexVal_lt _ _ hd
    cases h; omega
  · cases h

theorem char_of {n : Nat} (h : n < 0xD800 ∨ (0xDFFF < n ∧ n < 0x110000)) : ∃ c : Char, c.val.toNat = n := by
  refine ⟨Char.ofNat n, ?_⟩
  have hv : n.isValidChar := by unfold Nat.isValidChar; omega
  unfold Char.ofNat
  rw [dif_pos hv]
  rfl

theorem shape_text : ∀ (n : Nat) (raw : Bytes), raw.length ≤ n → RawShape raw → ∃ s, StringText raw s := by
  intro n
  induction n with
  | zero =>
    intro raw h _
    have : raw = [] := List.length_eq_zero_iff.mp (by omega)
    subst this
    exact ⟨[], .nil⟩
  | succ n ih =>
    intro raw h hsh
    cases hsh with
    | nil => exact ⟨[], .nil⟩
    | plain b h1 h2 h3 hs =>
      rename_i s
      rw [UInt8.lt_iff_toNat_lt, show (0x20 : UInt8).toNat = 32 from rfl] at h3
      by_cases hb : b.toNat < 0x80
      · obtain ⟨c, hc⟩ := char_of (n := b.toNat) (by omega)
        obtain ⟨v, hv⟩ := ih s (by simp at h; omega) hs
        have e : String.utf8EncodeChar c = [b] := by
          rw [encode_ascii (by rw [hc]; exact hb), hc]; simp
        have := StringText.char c (by rw [hc]; omega) (by rintro rfl; apply h1; exact UInt8.toNat_inj.mp hc.symm)
          (by rintro rfl; apply h2; exact UInt8.toNat_inj.mp hc.symm) hv
        rw [e] at this
        exact ⟨_, this⟩
      · by_cases hx : ∃ c : Char, String.utf8EncodeChar c <+: b :: s
        · obtain ⟨c, t, ht⟩ := hx
          have hc : ¬ c.val.toNat < 0x80 := by
            intro hlt
            rw [encode_ascii hlt] at ht
            injection ht with hb' _
            apply hb
            rw [← hb', ofNat_toNat hlt]; exact hlt
          have hlen := (encode_length c).1
          have hl := congrArg List.length ht
          rw [List.length_append] at hl
          have h3' : ¬ b < 0x20 := by rw [UInt8.lt_iff_toNat_lt]; exact h3
          have hsh : RawShape (String.utf8EncodeChar c ++ t) := by rw [ht]; exact .plain b h1 h2 h3' hs
          obtain ⟨v, hv⟩ := ih t (by omega) (shape_high (encode_high hc) hsh)
          have := StringText.char c (by omega) (by rintro rfl; exact hc (by decide)) (by rintro rfl; exact hc (by decide)) hv
          rw [ht] at this
          exact ⟨_, this⟩
        · obtain ⟨v, hv⟩ := ih s (by simp at h; omega) hs
          exact ⟨_, .bad b (by rw [UInt8.le_iff_toNat_le, show (0x80 : UInt8).toNat = 128 from rfl]; omega) (fun c hc => hx ⟨c, hc⟩) hv⟩
    | short e x he hs =>
      obtain ⟨v, hv⟩ := ih _ (by simp at h; omega) hs
      exact ⟨_, .short e x he hv⟩
    | code a b c d u hu hs =>
      rename_i s
      obtain ⟨v, hv⟩ := ih s (by simp at h; omega) hs
      have hlt := hexUnit_lt hu
      by_cases hsur : IsHigh u ∨ IsLow u
      · by_cases hp : ∃ a' b' c' d' lo raw', s = 0x5C :: 0x75 :: a' :: b' :: c' :: d' :: raw' ∧ hexUnit a' b' c' d' = some lo ∧ IsHigh u ∧ IsLow lo
        · obtain ⟨a', b', c', d', lo, raw', rfl, hlo, h1, h2⟩ := hp
          have hs' : RawShape raw' := by
            cases hs with
            | plain _ _ h => exact absurd rfl h
            | short _ _ he _ => cases he
            | code _ _ _ _ _ _ hs => exact hs
          obtain ⟨v', hv'⟩ := ih raw' (by simp at h; omega) hs'
          obtain ⟨ch, hch⟩ := char_of (n := 0x10000 + (u - 0xD800) * 0x400 + (lo - 0xDC00)) (by unfold IsHigh at h1; unfold IsLow at h2; omega)
          exact ⟨_, .pair a b c d a' b' c' d' u lo ch hu hlo h1 h2 hch hv'⟩
        · exact ⟨_, .lone a b c d u hu hsur (fun a' b' c' d' lo raw' e hl hc => hp ⟨a', b', c', d', lo, raw', e, hl, hc⟩) hv⟩
      · obtain ⟨ch, hch⟩ := char_of (n := u) (by unfold IsHigh IsLow at hsur; omega)
        exact ⟨_, .code a b c d ch (by rw [hch]; exact hu) hv⟩

theorem scan_high (hs : Bytes) (h : ∀ b ∈ hs, 0x80 ≤ b.toNat) (t : Bytes) :
    scanString .plain (hs ++ t) = (scanString .plain t).map (fun r => (hs ++ r.1, r.2)) := by
  induction hs with
  | nil => simp only [List.nil_append]; cases scanString .plain t <;> rfl
  | cons b hs ih =>
    have hb := h b (by simp)
    rw [List.cons_append, scanString, if_neg, if_neg, if_neg, ih (fun x hx => h x (by simp [hx]))]
    · cases scanString .plain t <;> rfl
    · rw [UInt8.lt_iff_toNat_lt]; have : (0x20 : UInt8).toNat = 32 := rfl; omega
    · rintro rfl; simp at hb
    · rintro rfl; simp at hb

theorem scan_plain {b : UInt8} (h1 : b ≠ 0x22) (h2 : b ≠ 0x5C) (h3 : ¬ b < 0x20) (t : Bytes) :
    scanString .plain (b :: t) = (scanString .plain t).map (fun r => (b :: r.1, r.2)) := by
  rw [scanString, if_neg h1, if_neg h2, if_neg h3]

theorem scan_hex {b : UInt8} (h : (hexVal b).isSome = true) (n : Nat) (t : Bytes) :
    scanString (.hex (n + 1)) (b :: t) = (scanString (.hex n) t).map (fun r => (b :: r.1, r.2)) := by
  rw [scanString, if_pos (by rw [jsonHex_eq]; exact h)]

theorem scan_hex_last {b : UInt8} (h : (hexVal b).isSome = true) (t : Bytes) :
    scanString (.hex 0) (b :: t) = (scanString .plain t).map (fun r => (b :: r.1, r.2)) := by
  rw [scanString, if_pos (by rw [jsonHex_eq]; exact h)]

theorem scan_escape (b : UInt8) (t : Bytes) : scanString .plain (0x5C :: b :: t) = (scanString .esc (b :: t)).map (fun r => (0x5C :: r.1, r.2)) := by
  rw [scanString, if_neg (by decide), if_pos rfl]

theorem scan_unit {a b c d : UInt8} {u : Nat} (h : hexUnit a b c d = some u) (t : Bytes) :
    scanString .plain (0x5C :: 0x75 :: a :: b :: c :: d :: t) =
      (scanString .plain t).map (fun r => (0x5C :: 0x75 :: a :: b :: c :: d :: r.1, r.2)) := by
  have hh : (hexVal a).isSome = true ∧ (hexVal b).isSome = true ∧ (hexVal c).isSome = true ∧ (hexVal d).isSome = true := by
    unfold hexUnit at h
    split at h
    · rename_i ha hb hc hd; simp [ha, hb, hc, hd]
    · cases h
  rw [scan_escape, scanString, if_neg (by decide), if_pos rfl, scan_hex hh.1, scan_hex hh.2.1, scan_hex hh.2.2.1, scan_hex_last hh.2.2.2]
  cases scanString .plain t <;> rfl

theorem scan_text {raw s : Bytes} (h : StringText raw s) (rest : Bytes) : scanString .plain (raw ++ 0x22 :: rest) = .ok (raw, rest) := by
  induction h with
  | nil => rfl
  | char c h1 h2 h3 _ ih =>
    rw [List.append_assoc]
    by_cases h : c.val.toNat < 0x80
    · have hb : (UInt8.ofNat c.val.toNat).toNat = c.val.toNat := ofNat_toNat h
      rw [encode_ascii h]
      simp only [List.cons_append, List.nil_append]
      rw [scan_plain, ih]; rfl
      · intro he
        apply h2
        have := congrArg UInt8.toNat he
        rw [hb] at this
        exact Char.ext (UInt32.toNat_inj.mp this)
      · intro he
        apply h3
        have := congrArg UInt8.toNat he
        rw [hb] at this
        exact Char.ext (UInt32.toNat_inj.mp this)
      · rw [UInt8.lt_iff_toNat_lt, hb]; have : (0x20 : UInt8).toNat = 32 := rfl; omega
    · rw [scan_high _ (encode_high h), ih]; rfl
  | short e x h _ ih =>
    simp only [List.cons_append]
    rw [scan_escape, scanString, if_pos (escape_short h), ih]; rfl
  | code a b c d ch h _ ih => simp only [List.cons_append]; rw [scan_unit h, ih]; rfl
  | pair a b c d a' b' c' d' hi lo ch h h' _ _ _ _ ih => simp only [List.cons_append]; rw [scan_unit h, scan_unit h', ih]; rfl
  | lone a b c d u h _ _ _ ih => simp only [List.cons_append]; rw [scan_unit h, ih]; rfl
  | bad b hb _ _ ih =>
    rw [UInt8.le_iff_toNat_le, show (0x80 : UInt8).toNat = 128 from rfl] at hb
    have := scan_high [b] (by simpa using hb)
    simp only [List.cons_append, List.nil_append] at this ⊢
    rw [this, ih]; rfl

theorem scanText_iff {s v rest : Bytes} : scanText s = .ok (v, rest) ↔ ∃ raw, s = raw ++ 0x22 :: rest ∧ StringText raw v := by
  constructor
  · intro h
    unfold scanText at h
    split at h
    · cases h
    · rename_i raw r hs
      obtain ⟨e, hsh⟩ := (scanString_shape s raw r).1 hs
      obtain ⟨v', hv⟩ := shape_text _ raw (Nat.le_refl _) hsh
      rw [unquote_text hv] at h
      cases h
      exact ⟨raw, e, hv⟩
  · rintro ⟨raw, rfl, h⟩
    unfold scanText
    rw [scan_text h]
    simp only [unquote_text h]

theorem scanString_error : ∀ (s : Bytes) (st : StrState) (e : JErr), scanString st s = .error e → e = .short ∨ ∃ b c, e = .bad b c := by
  have hmap : ∀ {α β : Type} {f : α → β} {x : Except JErr α} {e : JErr}, x.map f = .error e → x = .error e := by
    intro α β f x e h
    cases x with
    | error e' => cases h; rfl
    | ok a => cases h
  intro s
  induction s with
  | nil => intro st e h; cases st <;> (rw [scanString] at h; cases h; exact .inl rfl)
  | cons b s ih =>
    intro st e h
    cases st with
    | plain =>
      rw [scanString] at h
      (repeat' split at h)
      · cases h
      · exact ih _ _ (hmap h)
      · cases h; exact .inr ⟨_, _, rfl⟩
      · exact ih _ _ (hmap h)
    | esc =>
      rw [scanString] at h
      (repeat' split at h)
      · exact ih _ _ (hmap h)
      · exact ih _ _ (hmap h)
      · cases h; exact .inr ⟨_, _, rfl⟩
    | hex n =>
      rw [scanString.eq_def] at h
      simp only at h
      (repeat' split at h)
      · exact ih _ _ (hmap h)
      · exact ih _ _ (hmap h)
      · cases h; exact .inr ⟨_, _, rfl⟩

/-- `unquoteBytes` never fails behind the scanner. -/
theorem scanText_error {s : Bytes} {e : JErr} (h : scanText s = .error e) : e = .short ∨ ∃ b c, e = .bad b c := by
  unfold scanText at h
  split at h
  · rename_i e' hs; cases h; exact scanString_error _ _ _ hs
  · rename_i raw r hs
    obtain ⟨-, hsh⟩ := (scanString_shape s raw r).1 hs
    obtain ⟨v', hv⟩ := shape_text _ raw (Nat.le_refl _) hsh
    rw [unquote_text hv] at h
    cases h

end Kagome
