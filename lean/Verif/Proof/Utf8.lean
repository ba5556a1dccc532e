import Verif.Go.Utf8
import Verif.Spec.Utf8

/-! Lemmas about decoding: decoding inverts encoding, decoding is stable under cutting at rune boundaries. -/

namespace Kagome

theorem isCont_iff {b : UInt8} : isCont b = true ↔ 0x80 ≤ b.toNat ∧ b.toNat ≤ 0xBF := by
  simp [isCont]

theorem decodeValid_encode (c : Char) (t : Bytes) :
    decodeValid (String.utf8EncodeChar c ++ t) = some (c.val.toNat, (String.utf8EncodeChar c).length) := by
  have hv : c.val.toNat < 0xd800 ∨ (0xdfff < c.val.toNat ∧ c.val.toNat < 0x110000) := c.valid
  unfold String.utf8EncodeChar
  generalize c.val.toNat = v at *
  simp only
  split
  · have h1 : v % 256 = v := by omega
    simp only [List.cons_append, List.nil_append, decodeValid, UInt8.toNat_ofNat', Nat.reducePow, h1]
    rw [if_pos (by omega)]; rfl
  split
  · have h1 : (v / 64 % 32 + 192) % 256 = v / 64 + 192 := by omega
    have h3 : (v % 64 + 128) % 256 = v % 64 + 128 := by omega
    simp only [List.cons_append, List.nil_append, decodeValid, UInt8.toNat_ofNat', isCont_iff,
      Nat.reducePow, h1, h3]
    rw [if_neg (by omega), if_neg (by omega), if_pos (by omega), if_pos (by omega)]
    simp only [List.length_cons, List.length_nil, Option.some.injEq, Prod.mk.injEq]; exact ⟨by omega, trivial⟩
  split
  · have h1 : (v / 4096 % 16 + 224) % 256 = v / 4096 + 224 := by omega
    have h2 : (v / 64 % 64 + 128) % 256 = v / 64 % 64 + 128 := by omega
    have h3 : (v % 64 + 128) % 256 = v % 64 + 128 := by omega
    simp only [List.cons_append, List.nil_append, decodeValid, UInt8.toNat_ofNat', isCont_iff,
      Nat.reducePow, h1, h2, h3, secondLo, secondHi]
    rw [if_neg (by omega), if_neg (by omega), if_neg (by omega), if_pos (by omega), if_pos]
    · simp only [List.length_cons, List.length_nil, Option.some.injEq, Prod.mk.injEq]; exact ⟨by omega, trivial⟩
    · refine ⟨?_, ?_, by omega, by omega⟩ <;> (repeat' split) <;> omega
  · have h1 : (v / 262144 % 8 + 240) % 256 = v / 262144 + 240 := by omega
    have h2 : (v / 4096 % 64 + 128) % 256 = v / 4096 % 64 + 128 := by omega
    have h3 : (v / 64 % 64 + 128) % 256 = v / 64 % 64 + 128 := by omega
    have h4 : (v % 64 + 128) % 256 = v % 64 + 128 := by omega
    simp only [List.cons_append, List.nil_append, decodeValid, UInt8.toNat_ofNat', isCont_iff,
      Nat.reducePow, h1, h2, h3, h4, secondLo, secondHi]
    rw [if_neg (by omega), if_neg (by omega), if_neg (by omega), if_neg (by omega), if_pos (by omega), if_pos]
    · simp only [List.length_cons, List.length_nil, Option.some.injEq, Prod.mk.injEq]; exact ⟨by omega, trivial⟩
    · refine ⟨?_, ?_, by omega, by omega⟩ <;> (repeat' split) <;> omega

/-- What `decodeValid` accepts is the encoding of a scalar value. -/
theorem decodeValid_some {s : Bytes} {r w : Nat} (h : decodeValid s = some (r, w)) :
    ∃ c : Char, c.val.toNat = r ∧ (String.utf8EncodeChar c).length = w ∧ s = String.utf8EncodeChar c ++ s.drop w := by
  have mk : ∀ n : Nat, (n < 0xd800 ∨ (0xdfff < n ∧ n < 0x110000)) →
      ∃ c : Char, c.val.toNat = n := by
    intro n hn
    refine ⟨Char.ofNat n, ?_⟩
    have : n.isValidChar := hn
    simp [Char.ofNat, this, Char.ofNatAux, UInt32.toNat]
  have u8 : ∀ (b : UInt8) (n : Nat), b.toNat = n → UInt8.ofNat n = b := by
    intro b n hb; subst hb; simp
  match s, h with
  | b0 :: rest, h =>
    have hb0 := b0.toNat_lt
    simp only [decodeValid] at h
    split at h
    · simp only [Option.some.injEq, Prod.mk.injEq] at h
      obtain ⟨c, hc⟩ := mk b0.toNat (by omega)
      refine ⟨c, by omega, ?_, ?_⟩
      · unfold String.utf8EncodeChar; simp only [hc]; rw [if_pos (by omega)]; simp; omega
      · unfold String.utf8EncodeChar; simp only [hc]; rw [if_pos (by omega), ← h.2, u8 b0 _ rfl]; simp
    split at h
    · simp at h
    split at h
    · match rest, h with
      | b1 :: t, h =>
        have hb1 := b1.toNat_lt
        simp only [isCont_iff, Option.ite_none_right_eq_some, Option.some.injEq, Prod.mk.injEq] at h
        obtain ⟨c, hc⟩ := mk r (by omega)
        refine ⟨c, hc, ?_, ?_⟩
        · unfold String.utf8EncodeChar; simp only [hc]; rw [if_neg (by omega), if_pos (by omega)]; simp; omega
        · unfold String.utf8EncodeChar; simp only [hc]; rw [if_neg (by omega), if_pos (by omega), ← h.2.2,
            u8 b0 _ (by omega), u8 b1 _ (by omega)]; simp
    split at h
    · match rest, h with
      | b1 :: b2 :: t, h =>
        have hb1 := b1.toNat_lt
        have hb2 := b2.toNat_lt
        simp only [isCont_iff, Option.ite_none_right_eq_some, Option.some.injEq, Prod.mk.injEq, secondLo, secondHi] at h
        obtain ⟨⟨h1, h2, h3⟩, h4, h5⟩ := h
        obtain ⟨c, hc⟩ := mk r (by (repeat' split at h1) <;> (repeat' split at h2) <;> omega)
        have hr : 2048 ≤ r ∧ r ≤ 65535 := by (repeat' split at h1) <;> (repeat' split at h2) <;> omega
        have hb : 0x80 ≤ b1.toNat ∧ b1.toNat ≤ 0xBF := by
          (repeat' split at h1) <;> (repeat' split at h2) <;> omega
        clear h1 h2
        refine ⟨c, hc, ?_, ?_⟩
        · unfold String.utf8EncodeChar; simp only [hc]
          rw [if_neg (by omega), if_neg (by omega), if_pos (by omega)]; simp; omega
        · unfold String.utf8EncodeChar; simp only [hc]
          rw [if_neg (by omega), if_neg (by omega), if_pos (by omega), ← h5,
            u8 b0 _ (by omega), u8 b1 _ (by omega), u8 b2 _ (by omega)]; simp
    split at h
    · match rest, h with
      | b1 :: b2 :: b3 :: t, h =>
        have hb1 := b1.toNat_lt
        have hb2 := b2.toNat_lt
        have hb3 := b3.toNat_lt
        simp only [isCont_iff, Option.ite_none_right_eq_some, Option.some.injEq, Prod.mk.injEq, secondLo, secondHi] at h
        obtain ⟨⟨h1, h2, h3⟩, h4, h5⟩ := h
        have hr : 65536 ≤ r ∧ r < 0x110000 := by (repeat' split at h1) <;> (repeat' split at h2) <;> omega
        obtain ⟨c, hc⟩ := mk r (by omega)
        have hb : 0x80 ≤ b1.toNat ∧ b1.toNat ≤ 0xBF := by
          (repeat' split at h1) <;> (repeat' split at h2) <;> omega
        clear h1 h2
        refine ⟨c, hc, ?_, ?_⟩
        · unfold String.utf8EncodeChar; simp only [hc]
          rw [if_neg (by omega), if_neg (by omega), if_neg (by omega)]; simp; omega
        · unfold String.utf8EncodeChar; simp only [hc]
          rw [if_neg (by omega), if_neg (by omega), if_neg (by omega), ← h5,
            u8 b0 _ (by omega), u8 b1 _ (by omega), u8 b2 _ (by omega), u8 b3 _ (by omega)]; simp
    · simp at h

theorem encode_length (c : Char) : 1 ≤ (String.utf8EncodeChar c).length ∧ (String.utf8EncodeChar c).length ≤ 4 := by
  unfold String.utf8EncodeChar
  simp only
  (repeat' split) <;> simp

/-- The first byte of an encoded character is not a continuation byte, the others are. -/
theorem encode_shape (c : Char) :
    ∃ b t, String.utf8EncodeChar c = b :: t ∧ isCont b = false ∧ ∀ x ∈ t, isCont x = true := by
  have hv : c.val.toNat < 0xd800 ∨ (0xdfff < c.val.toNat ∧ c.val.toNat < 0x110000) := c.valid
  unfold String.utf8EncodeChar
  generalize c.val.toNat = v at *
  simp only
  (repeat' split)
  all_goals
    refine ⟨_, _, rfl, ?_, ?_⟩
    · rw [Bool.eq_false_iff]; simp only [ne_eq, isCont_iff, UInt8.toNat_ofNat']; omega
    · simp [isCont_iff, UInt8.toNat_ofNat'] <;> omega

theorem decodeValid_append {s : Bytes} {d : Nat × Nat} (h : decodeValid s = some d) (t : Bytes) :
    decodeValid (s ++ t) = some d := by
  obtain ⟨r, w⟩ := d
  obtain ⟨c, h1, h2, h3⟩ := decodeValid_some h
  rw [h3, List.append_assoc, decodeValid_encode, h1, h2]

theorem decodeRune_of_valid {s : Bytes} {d : Nat × Nat} (h : decodeValid s = some d) : decodeRune s = d := by
  match s, h with
  | b :: t, h => simp [decodeRune, h]

theorem decodeRune_of_none {s : Bytes} (hs : s ≠ []) (h : decodeValid s = none) : decodeRune s = (runeError, 1) := by
  match s, hs with
  | b :: t, _ => simp [decodeRune, h]

theorem decodeRune_width {s : Bytes} (hs : s ≠ []) :
    1 ≤ (decodeRune s).2 ∧ (decodeRune s).2 ≤ s.length ∧ (decodeRune s).2 ≤ 4 := by
  cases h : decodeValid s with
  | none =>
    rw [decodeRune_of_none hs h]
    have := List.length_pos_iff.mpr hs
    simp; omega
  | some d =>
    obtain ⟨r, w⟩ := d
    rw [decodeRune_of_valid h]
    obtain ⟨c, h1, h2, h3⟩ := decodeValid_some h
    have := encode_length c
    have h4 := congrArg List.length h3
    simp only [List.length_append] at h4
    simp only; omega

/-- Decoding only looks at the bytes it consumes. -/
theorem decodeRune_prefix {t u : Bytes} (ht : t ≠ []) (hw : (decodeRune (t ++ u)).2 ≤ t.length) :
    decodeRune t = decodeRune (t ++ u) := by
  cases h : decodeValid (t ++ u) with
  | none =>
    rw [decodeRune_of_none (by simp [ht]) h]
    cases h' : decodeValid t with
    | none => exact decodeRune_of_none ht h'
    | some d => rw [decodeValid_append h' u] at h; simp at h
  | some d =>
    obtain ⟨r, w⟩ := d
    rw [decodeRune_of_valid h] at hw ⊢
    obtain ⟨c, h1, h2, h3⟩ := decodeValid_some h
    have h4 : String.utf8EncodeChar c <+: t := by
      have h5 : String.utf8EncodeChar c <+: t ++ u := ⟨_, h3.symm⟩
      exact List.prefix_of_prefix_length_le h5 (List.prefix_append t u) (by simp only at hw; omega)
    obtain ⟨x, hx⟩ := h4
    rw [← hx]
    apply decodeRune_of_valid
    rw [decodeValid_encode, h1, h2]

theorem runesAux_drop (k : Nat) (s : Bytes) : runesAux k s = runes (s.drop k) := by
  induction s generalizing k with
  | nil => simp [runesAux, runes]
  | cons b t ih =>
    cases k with
    | zero => simp [runes]
    | succ k => simp [runesAux, ih]

@[simp] theorem runes_nil : runes [] = [] := rfl

theorem runes_cons {s : Bytes} (hs : s ≠ []) :
    runes s = decodeRune s :: runes (s.drop (decodeRune s).2) := by
  match s, hs with
  | b :: t, hs =>
    have h := decodeRune_width hs
    conv => lhs; unfold runes
    rw [runesAux, runesAux_drop]
    obtain ⟨k, hk⟩ : ∃ k, (decodeRune (b :: t)).2 = k + 1 := ⟨_, (Nat.sub_add_cancel h.1).symm⟩
    rw [hk]; simp

theorem runes_eq_nil {s : Bytes} : runes s = [] ↔ s = [] := by
  constructor
  · intro h
    cases s with
    | nil => rfl
    | cons b t => rw [runes_cons (by simp)] at h; simp at h
  · rintro rfl; rfl

/-- Total width of a list of runes. -/
def wsum (rs : List (Nat × Nat)) : Nat := (rs.map Prod.snd).sum

@[simp] theorem wsum_nil : wsum [] = 0 := rfl
@[simp] theorem wsum_cons (d : Nat × Nat) (rs : List (Nat × Nat)) : wsum (d :: rs) = d.2 + wsum rs := by
  simp [wsum]
@[simp] theorem wsum_append (a b : List (Nat × Nat)) : wsum (a ++ b) = wsum a + wsum b := by
  simp [wsum]

/-- Induction over the runes of a string. -/
theorem runes_induction {P : Bytes → Prop} (nil : P [])
    (cons : ∀ s, s ≠ [] → P (s.drop (decodeRune s).2) → P s) (s : Bytes) : P s := by
  induction h : s.length using Nat.strongRecOn generalizing s with
  | _ n ih =>
    by_cases hs : s = []
    · subst hs; exact nil
    · apply cons s hs
      have := decodeRune_width hs
      exact ih (s.drop (decodeRune s).2).length (by simp; omega) _ rfl

theorem wsum_runes (s : Bytes) : wsum (runes s) = s.length := by
  induction s using runes_induction with
  | nil => rfl
  | cons s hs ih =>
    rw [runes_cons hs]
    have := decodeRune_width hs
    simp [ih]; omega

theorem width_pos {s : Bytes} {d : Nat × Nat} (h : d ∈ runes s) : 1 ≤ d.2 ∧ d.2 ≤ 4 := by
  induction s using runes_induction with
  | nil => simp at h
  | cons s hs ih =>
    rw [runes_cons hs] at h
    have := decodeRune_width hs
    simp only [List.mem_cons] at h
    rcases h with h | h
    · subst h; omega
    · exact ih h

theorem runeCount_le_length (s : Bytes) : runeCount s ≤ s.length := by
  unfold runeCount
  induction s using runes_induction with
  | nil => simp
  | cons s hs ih =>
    rw [runes_cons hs]
    have := decodeRune_width hs
    simp at ih ⊢; omega

/-- Cutting a string at a rune boundary cuts its rune list. -/
theorem runes_split {s : Bytes} {a b : List (Nat × Nat)} (h : runes s = a ++ b) :
    runes (s.take (wsum a)) = a ∧ runes (s.drop (wsum a)) = b := by
  induction a generalizing s with
  | nil => simpa using h
  | cons d a ih =>
    have hs : s ≠ [] := by rintro rfl; simp at h
    rw [runes_cons hs] at h
    simp only [List.cons_append, List.cons.injEq] at h
    obtain ⟨h1, h2⟩ := h
    have hw := decodeRune_width hs
    obtain ⟨ih1, ih2⟩ := ih h2
    rw [h1] at hw ih1 ih2 h2
    constructor
    · have hne : s.take (d.2 + wsum a) ≠ [] := by
        simp; exact ⟨by omega, hs⟩
      have hlen : d.2 ≤ (s.take (d.2 + wsum a)).length := by simp; omega
      have hd : decodeRune (s.take (d.2 + wsum a)) = d := by
        rw [← h1]
        conv => rhs; rw [← List.take_append_drop (d.2 + wsum a) s]
        rw [h1]
        apply decodeRune_prefix hne
        rw [List.take_append_drop, h1]; exact hlen
      rw [wsum_cons, runes_cons hne, hd]
      congr 1
      refine Eq.trans ?_ ih1
      rw [List.drop_take, Nat.add_sub_cancel_left]
    · rw [wsum_cons, ← List.drop_drop, ih2]

theorem runes_encode_append (c : Char) (t : Bytes) :
    runes (String.utf8EncodeChar c ++ t) = (c.val.toNat, (String.utf8EncodeChar c).length) :: runes t := by
  have hne : String.utf8EncodeChar c ++ t ≠ [] := by
    have := encode_length c
    intro h; have h' := congrArg List.length h; simp only [List.length_append, List.length_nil] at h'; omega
  rw [runes_cons hne, decodeRune_of_valid (decodeValid_encode c t)]
  simp

/-- Valid UTF-8 decodes on its own, whatever follows. -/
theorem runes_valid_append {v : Bytes} (hv : Spec.ValidUtf8 v) (t : Bytes) :
    runes (v ++ t) = runes v ++ runes t := by
  obtain ⟨cs, rfl⟩ := hv
  induction cs with
  | nil => simp
  | cons c cs ih =>
    simp only [List.flatMap_cons, List.append_assoc]
    rw [runes_encode_append, runes_encode_append, ih]; rfl

/-- A byte that cannot continue a rune starts a new one, whatever stands before. -/
theorem runes_append_start (p : Bytes) {b : UInt8} (hb : isCont b = false) (t : Bytes) :
    runes (p ++ b :: t) = runes p ++ runes (b :: t) := by
  induction p using runes_induction with
  | nil => simp
  | cons p hp ih =>
    have hlen : (decodeRune (p ++ b :: t)).2 ≤ p.length := by
      cases h : decodeValid (p ++ b :: t) with
      | none =>
        rw [decodeRune_of_none (by simp) h]
        exact List.length_pos_iff.mpr hp
      | some d =>
        obtain ⟨r, w⟩ := d
        rw [decodeRune_of_valid h]
        obtain ⟨c, h1, h2, h3⟩ := decodeValid_some h
        simp only
        apply Decidable.byContradiction
        intro hcon
        obtain ⟨x, y, hxy, _, hall⟩ := encode_shape c
        have h5 : (p ++ b :: t)[p.length]? = some b := by simp
        rw [h3, hxy] at h5
        have hpp := List.length_pos_iff.mpr hp
        rw [hxy] at h2
        simp only [List.length_cons] at h2
        rw [List.getElem?_append_left (by simp; omega)] at h5
        obtain ⟨k, hk⟩ : ∃ k, p.length = k + 1 := ⟨_, (Nat.sub_add_cancel hpp).symm⟩
        rw [hk] at h5
        simp only [List.getElem?_cons_succ] at h5
        have := hall b (List.mem_of_getElem? h5)
        simp [hb] at this
    have he := decodeRune_prefix hp hlen
    rw [runes_cons (by simp), runes_cons hp, ← he, List.cons_append, ← ih]
    rw [List.drop_append_of_le_length (by rw [he]; exact hlen)]


theorem lastStart_le (n : Nat) (t : Bytes) : lastStart n t ≤ n + t.length := by
  induction t generalizing n with
  | nil => simp [lastStart]
  | cons b t ih =>
    have := ih (n + 1)
    unfold lastStart
    simp only [List.length_cons]
    (repeat' split) <;> omega

/-- What `DecodeLastRune` returns, when it is not the error rune, is the last rune of the range loop. -/
theorem decodeLastRune_sound {s : Bytes} {c n : Nat} (h : decodeLastRune s = (c, n)) (hc : c ≠ runeError) :
    1 ≤ n ∧ n ≤ s.length ∧ runes s = runes (s.take (s.length - n)) ++ [(c, n)] := by
  unfold decodeLastRune at h
  cases hrev : s.reverse with
  | nil => simp [hrev] at h; exact absurd h.1.symm hc
  | cons b rev =>
    have hs : s = rev.reverse ++ [b] := by
      have := congrArg List.reverse hrev; simpa using this
    have hne : s ≠ [] := by rw [hs]; simp
    rw [hrev] at h
    simp only at h
    have key : ∀ k, k ≤ s.length → k ≠ 0 → decodeRune (s.drop (s.length - k)) = (c, n) → n = k →
        isCont ((s.drop (s.length - k)).headD 0) = false → 
        1 ≤ n ∧ n ≤ s.length ∧ runes s = runes (s.take (s.length - n)) ++ [(c, n)] := by
      intro k hk hk0 hd hn hst
      subst hn
      refine ⟨by omega, hk, ?_⟩
      cases hdr : s.drop (s.length - n) with
      | nil => 
        have := congrArg List.length hdr
        simp at this; omega
      | cons x y =>
        conv => lhs; rw [← List.take_append_drop (s.length - n) s]
        rw [hdr] at hst hd ⊢
        simp only [List.headD_cons] at hst
        rw [runes_append_start _ hst, runes_cons (s := x :: y) (by simp), hd]
        have : (x :: y).drop n = [] := by
          rw [← hdr]; simp; omega
        rw [this]; rfl
    by_cases hb : b.toNat < 0x80
    · simp only [hb, if_true, Prod.mk.injEq] at h
      obtain ⟨h1, h2⟩ := h
      have hd : s.drop (s.length - 1) = [b] := by rw [hs]; simp
      apply key 1 (List.length_pos_iff.mpr hne) (by simp) _ h2.symm
      · rw [hd]
        simp only [List.headD_cons]
        rw [Bool.eq_false_iff]; simp [isCont_iff]; omega
      · rw [hd, ← h1, ← h2]
        simp [decodeRune, decodeValid, hb]
    · simp only [hb, if_false] at h
      split at h
      · rename_i hw
        have hle : lastStart 1 rev ≤ s.length := by
          have := lastStart_le 1 rev
          rw [hs]; simp; omega
        cases hv : decodeValid (s.drop (s.length - lastStart 1 rev)) with
        | none =>
          by_cases hnil : s.drop (s.length - lastStart 1 rev) = []
          · rw [hnil] at h; simp [decodeRune] at h; exact absurd h.1.symm hc
          · rw [decodeRune_of_none hnil hv] at h; simp at h; exact absurd h.1.symm hc
        | some d =>
          obtain ⟨r, w⟩ := d
          obtain ⟨ch, h1, h2, h3⟩ := decodeValid_some hv
          rw [decodeRune_of_valid hv] at h hw
          have := encode_length ch
          simp only [Prod.mk.injEq] at h hw
          apply key (lastStart 1 rev) hle (by omega)
          · rw [decodeRune_of_valid hv, h.1, h.2]
          · omega
          · obtain ⟨x, y, hxy, hx, _⟩ := encode_shape ch
            rw [h3, hxy]; exact hx
      · simp at h; exact absurd h.1.symm hc


theorem lastStart_conts (n : Nat) (ys : Bytes) (b : UInt8) (rest : Bytes) (hys : ∀ x ∈ ys, isCont x = true)
    (hb : isCont b = false) (hn : n + ys.length ≤ 3) : lastStart n (ys ++ b :: rest) = n + ys.length + 1 := by
  induction ys generalizing n with
  | nil => 
    have : ¬ 4 ≤ n := by simp at hn; omega
    simp [lastStart, runeStart, hb, this]
  | cons y ys ih =>
    simp only [List.length_cons] at hn
    have h1 : ¬ 4 ≤ n := by omega
    have h2 : isCont y = true := hys y (by simp)
    simp only [List.cons_append, lastStart, runeStart, h1, h2, if_false, Bool.not_true, Bool.false_eq_true]
    rw [ih (n + 1) (fun x hx => hys x (by simp [hx])) (by omega)]
    simp; omega

/-- The last rune of a string that ends in an encoded character. -/
theorem decodeLastRune_encode (p : Bytes) (c : Char) :
    decodeLastRune (p ++ String.utf8EncodeChar c) = (c.val.toNat, (String.utf8EncodeChar c).length) := by
  have hd := decodeValid_encode c []
  rw [List.append_nil] at hd
  obtain ⟨x, y, hxy, hx, hy⟩ := encode_shape c
  have hlen := encode_length c
  rw [hxy] at hd hlen ⊢
  rcases List.eq_nil_or_concat y with rfl | ⟨z, l, rfl⟩
  · have : x.toNat < 0x80 := by
      simp only [decodeValid] at hd
      split at hd
      · assumption
      · exfalso; revert hd; (repeat' split) <;> simp
    simp only [decodeValid, this, if_true, List.length_cons, List.length_nil] at hd
    simp only [decodeLastRune, List.reverse_append, List.reverse_cons, List.reverse_nil, List.nil_append, List.cons_append,
      this, if_true, List.length_cons, List.length_nil]
    simpa using hd
  · simp only [List.concat_eq_append] at *
    have hl : isCont l = true := hy l (by simp)
    have hl2 : ¬ l.toNat < 0x80 := by rw [isCont_iff] at hl; omega
    simp only [List.length_cons, List.length_append, List.length_nil] at hlen
    have hls : lastStart 1 (z.reverse ++ x :: p.reverse) = 1 + z.length + 1 := by
      rw [lastStart_conts 1 z.reverse x p.reverse (fun w hw => hy w (by simp at hw; simp [hw])) hx (by simp; omega)]
      simp
    have hrev : (p ++ x :: (z ++ [l])).reverse = l :: (z.reverse ++ x :: p.reverse) := by simp
    unfold decodeLastRune
    rw [hrev]
    simp only [hl2, if_false, hls]
    have hdrop : (p ++ x :: (z ++ [l])).drop ((p ++ x :: (z ++ [l])).length - (1 + z.length + 1)) = x :: (z ++ [l]) := by
      have : (p ++ x :: (z ++ [l])).length - (1 + z.length + 1) = p.length := by simp; omega
      rw [this]; simp
    rw [hdrop, decodeRune_of_valid hd]
    simp; omega

theorem decode_not_error {s : Bytes} (hs : s ≠ []) (h : (decodeRune s).1 ≠ runeError) :
    ∃ c : Char, c.val.toNat = (decodeRune s).1 ∧ (String.utf8EncodeChar c).length = (decodeRune s).2 ∧
      s = String.utf8EncodeChar c ++ s.drop (decodeRune s).2 := by
  cases hv : decodeValid s with
  | none => rw [decodeRune_of_none hs hv] at h; simp at h
  | some d => rw [decodeRune_of_valid hv]; exact decodeValid_some hv

/-- `DecodeLastRune` finds the last rune of the range loop, when that is not the error rune. -/
theorem decodeLastRune_complete {s : Bytes} {rs : List (Nat × Nat)} {c n : Nat} (h : runes s = rs ++ [(c, n)])
    (hc : c ≠ runeError) : decodeLastRune s = (c, n) := by
  obtain ⟨h1, h2⟩ := runes_split h
  have hne : s.drop (wsum rs) ≠ [] := by intro h0; rw [h0] at h2; simp at h2
  rw [runes_cons hne] at h2
  simp only [List.cons.injEq, runes_eq_nil] at h2
  obtain ⟨h3, h4⟩ := h2
  obtain ⟨ch, e1, e2, e3⟩ := decode_not_error hne (by rw [h3]; exact hc)
  rw [h4, List.append_nil] at e3
  conv => lhs; rw [← List.take_append_drop (wsum rs) s, e3]
  rw [decodeLastRune_encode, e1, e2, h3]

/-- The last rune is the error rune for `DecodeLastRune` exactly when it is for the range loop. -/
theorem decodeLastRune_error_iff {s : Bytes} {rs : List (Nat × Nat)} {d : Nat × Nat} (h : runes s = rs ++ [d]) :
    (decodeLastRune s).1 = runeError ↔ d.1 = runeError := by
  constructor
  · intro h1
    apply Decidable.byContradiction
    intro h2
    rw [decodeLastRune_complete h h2] at h1
    exact h2 h1
  · intro h1
    apply Decidable.byContradiction
    intro h2
    obtain ⟨_, _, h3⟩ := decodeLastRune_sound (s := s) (c := (decodeLastRune s).1) (n := (decodeLastRune s).2) rfl h2
    rw [h] at h3
    have h4 := congrArg List.getLast? h3
    simp at h4
    rw [h4] at h1
    exact h2 h1

/-- `string(r)` is the standard encoding of the character. -/
theorem encodeRune_char (c : Char) : encodeRune c.val.toNat = String.utf8EncodeChar c := by
  have hv : c.val.toNat < 0xd800 ∨ (0xdfff < c.val.toNat ∧ c.val.toNat < 0x110000) := c.valid
  unfold encodeRune String.utf8EncodeChar
  generalize c.val.toNat = v at *
  simp only
  (repeat' split) <;> first | omega | skip
  all_goals simp only [List.cons.injEq, and_true, ← UInt8.toNat_inj, UInt8.toNat_ofNat']
  all_goals omega

/-- The width of a decoded rune that is not the error rune is `RuneLen`. -/
theorem decodeRune_runeLen {s : Bytes} (hs : s ≠ []) (h : (decodeRune s).1 ≠ runeError) :
    (decodeRune s).2 = runeLen (decodeRune s).1 := by
  obtain ⟨c, h1, h2, _⟩ := decode_not_error hs h
  rw [← h1, ← h2]
  have hv : c.val.toNat < 0xd800 ∨ (0xdfff < c.val.toNat ∧ c.val.toNat < 0x110000) := c.valid
  unfold runeLen String.utf8EncodeChar
  generalize c.val.toNat = v at *
  simp only
  (repeat' split) <;> first | omega | rfl

theorem valid_nil : Spec.ValidUtf8 [] := ⟨[], rfl⟩

theorem valid_append {a b : Bytes} (ha : Spec.ValidUtf8 a) (hb : Spec.ValidUtf8 b) : Spec.ValidUtf8 (a ++ b) := by
  obtain ⟨x, rfl⟩ := ha
  obtain ⟨y, rfl⟩ := hb
  exact ⟨x ++ y, by simp⟩

theorem valid_encode (c : Char) : Spec.ValidUtf8 (String.utf8EncodeChar c) := ⟨[c], by simp⟩

end Kagome
