import Verif.Proof.Sentence
import Verif.Spec.Reader

/-! The splitter on valid UTF-8: from pieces to characters. -/

namespace Kagome

open Spec

/-- The character as a piece. -/
def charPiece (c : Char) : Piece := (c.val.toNat, String.utf8EncodeChar c)

theorem enc_append (a b : List Char) : enc (a ++ b) = enc a ++ enc b := by simp [enc]
theorem enc_cons (c : Char) (b : List Char) : enc (c :: b) = String.utf8EncodeChar c ++ enc b := by simp [enc]
theorem enc_nil : enc [] = [] := rfl

theorem encode_ne_nil (c : Char) : String.utf8EncodeChar c ≠ [] := by
  have := encode_length c
  intro h; rw [h] at this; simp at this

theorem pieces_encode_append (c : Char) (t : Bytes) :
    pieces (String.utf8EncodeChar c ++ t) = charPiece c :: pieces t := by
  have hne : String.utf8EncodeChar c ++ t ≠ [] := by simp [encode_ne_nil]
  rw [pieces_cons hne, decodeRune_of_valid (decodeValid_encode c t), List.take_left, List.drop_left]
  rfl

theorem pieces_enc_append (cs : List Char) (t : Bytes) : pieces (enc cs ++ t) = cs.map charPiece ++ pieces t := by
  induction cs with
  | nil => simp
  | cons c cs ih => rw [enc_cons, List.append_assoc, pieces_encode_append, ih]; simp

theorem pieces_enc (cs : List Char) : pieces (enc cs) = cs.map charPiece := by
  have := pieces_enc_append cs []
  simpa [pieces_nil] using this

theorem text_charPieces (cs : List Char) : text (cs.map charPiece) = enc cs := by
  rw [← pieces_enc, text_pieces]

theorem encode_injective {c d : Char} {x y : Bytes} (h : String.utf8EncodeChar c ++ x = String.utf8EncodeChar d ++ y) :
    c = d ∧ x = y := by
  have hc := decodeValid_encode c x
  rw [h, decodeValid_encode d y] at hc
  have h1 := congrArg Prod.fst (Option.some.inj hc)
  have : c = d := by
    apply Char.ext
    exact UInt32.toNat_inj.mp h1.symm
  subst this
  exact ⟨rfl, List.append_cancel_left h⟩

theorem enc_injective {a b : List Char} (h : enc a = enc b) : a = b := by
  induction a generalizing b with
  | nil =>
    cases b with
    | nil => rfl
    | cons c b =>
      rw [enc_nil, enc_cons] at h
      have := congrArg List.length h
      have := encode_length c
      simp only [List.length_nil, List.length_append] at *; omega
  | cons d a ih =>
    cases b with
    | nil =>
      rw [enc_nil, enc_cons] at h
      have := congrArg List.length h
      have := encode_length d
      simp only [List.length_nil, List.length_append] at *; omega
    | cons c b =>
      rw [enc_cons, enc_cons] at h
      obtain ⟨rfl, h2⟩ := encode_injective h
      rw [ih h2]

/-- UTF-8 is self-synchronising: an encoded character inside an encoded text is a character of the text. -/
theorem enc_sync {x y : Bytes} {c : Char} {cs : List Char} (h : x ++ String.utf8EncodeChar c ++ y = enc cs) :
    ∃ a b, cs = a ++ c :: b ∧ x = enc a ∧ y = enc b := by
  induction cs generalizing x with
  | nil =>
    have := congrArg List.length h
    have := encode_length c
    simp only [List.length_append, enc_nil, List.length_nil] at *; omega
  | cons d cs ih =>
    cases x with
    | nil =>
      rw [List.nil_append, enc_cons] at h
      obtain ⟨rfl, h2⟩ := encode_injective h
      exact ⟨[], cs, rfl, rfl, h2⟩
    | cons b x =>
      rw [enc_cons, List.append_assoc] at h
      rcases List.append_eq_append_iff.mp h with ⟨z, hz1, hz2⟩ | ⟨z, hz1, hz2⟩
      · cases z with
        | nil =>
          obtain ⟨a, bb, e1, e2, e3⟩ := ih (x := []) (by rw [List.nil_append] at hz2 ⊢; exact hz2)
          refine ⟨d :: a, bb, by rw [e1]; rfl, ?_, e3⟩
          rw [enc_cons, hz1, List.append_nil, ← e2, List.append_nil]
        | cons zb z =>
          exfalso
          obtain ⟨b1, t1, hs1, hc1, ht1⟩ := encode_shape d
          obtain ⟨b2, t2, hs2, hc2, ht2⟩ := encode_shape c
          rw [hs1, List.cons_append] at hz1
          have hmem : zb ∈ t1 := by rw [(List.cons.inj hz1).2]; simp
          rw [hs2] at hz2
          simp only [List.cons_append] at hz2
          have := (List.cons.inj hz2).1
          have hx := ht1 zb hmem
          rw [← this, hc2] at hx
          cases hx
      · obtain ⟨a, bb, e1, e2, e3⟩ := ih (x := z) (by rw [List.append_assoc]; exact hz2.symm)
        refine ⟨d :: a, bb, by rw [e1]; rfl, ?_, e3⟩
        rw [hz1, enc_cons, ← e2]

theorem kept_charPiece {s : Splitter} (h : s.skipWhiteSpace = true) (c : Char) : kept s (charPiece c) = nonSpace c := by
  simp [kept, blank, charPiece, h]

theorem kept_charPieces {s : Splitter} (h : s.skipWhiteSpace = true) (cs : List Char) :
    (cs.map charPiece).filter (kept s) = (cs.filter nonSpace).map charPiece := by
  rw [List.filter_map]
  congr 1
  apply List.filter_congr
  intro c _
  exact kept_charPiece h c

theorem enc_spaces (n : Nat) : (List.replicate n 0x20 : Bytes) = enc (List.replicate n ' ') := by
  induction n with
  | zero => rfl
  | succ n ih => rw [List.replicate_succ, List.replicate_succ, enc_cons, ← ih]; rfl

theorem filter_spaces (n : Nat) : (List.replicate n ' ').filter nonSpace = [] := by
  rw [List.filter_eq_nil_iff]
  intro c hc
  rw [List.eq_of_mem_replicate hc]
  decide

theorem leading_chars {s : Splitter} (h : s.skipWhiteSpace = true) {cs l : List Char}
    (he : leading s (cs.map charPiece) = l.map charPiece) : l.filter nonSpace = [] := by
  have := leading_filter s (cs.map charPiece)
  rw [he, kept_charPieces h, List.map_eq_nil_iff] at this
  exact this

/-- Splitting a list of characters by pieces. -/
theorem split_chars {cs : List Char} {a b : List Piece} (h : cs.map charPiece = a ++ b) :
    ∃ ca cb, cs = ca ++ cb ∧ a = ca.map charPiece ∧ b = cb.map charPiece := by
  rw [List.map_eq_append_iff] at h
  obtain ⟨l1, l2, h1, h2, h3⟩ := h
  exact ⟨l1, l2, h1, h2.symm, h3.symm⟩

theorem drain_chars {s : Splitter} (h : s.skipWhiteSpace = true) {atEOF : Bool} {fuel : Nat} {buf : Bytes}
    {r : List Bytes × Bytes} (hr : drain s.scanSentences atEOF fuel buf = some r) :
    ∀ bs, buf = enc bs → ∃ ks ls, r.1.flatten = enc ks ∧ r.2 = enc ls ∧
      ks ++ ls.filter nonSpace = bs.filter nonSpace ∧ (atEOF = true → ls = []) := by
  refine drain_induct s atEOF (fun buf toks left => ∀ bs, buf = enc bs → ∃ ks ls, toks.flatten = enc ks ∧ left = enc ls ∧
      ks ++ ls.filter nonSpace = bs.filter nonSpace ∧ (atEOF = true → ls = [])) ?_ ?_ ?_ ?_ fuel buf r hr
  · intro bs hb
    have : bs = [] := enc_injective (a := bs) (b := []) hb.symm
    subst this
    exact ⟨[], [], rfl, rfl, rfl, fun _ => rfl⟩
  · intro data used rest toks left h1 _ _ _ ih bs hb
    subst hb
    rw [pieces_enc] at h1
    obtain ⟨c1, c3, e1, e2, e3⟩ := split_chars h1
    obtain ⟨c0, c2, e4, e5, e6⟩ := split_chars e2.symm
    subst e1 e4
    obtain ⟨ks, ls, g1, g2, g3, g4⟩ := ih c3 (by rw [e3, text_charPieces])
    have hl := leading_chars h e5
    refine ⟨c2.filter nonSpace ++ ks, ls, ?_, g2, ?_, g4⟩
    · rw [List.flatten_cons, g1, e6, kept_charPieces h, text_charPieces, enc_append]
    · rw [List.append_assoc, g3, List.filter_append, List.filter_append, hl, List.nil_append]
  · intro hE data used _ h1 _ _ _ bs hb
    subst hb
    rw [pieces_enc] at h1
    obtain ⟨c1, c3, e1, e2, e3⟩ := split_chars h1
    subst e1
    have hl := leading_chars h e2
    refine ⟨c3.filter nonSpace, [], ?_, rfl, ?_, fun _ => rfl⟩
    · rw [e3, kept_charPieces h, text_charPieces]; simp
    · rw [List.filter_append, hl]; simp
  · intro hE data used n _ h1 _ _ _ _ bs hb
    subst hb
    rw [pieces_enc] at h1
    obtain ⟨c1, c3, e1, e2, e3⟩ := split_chars h1
    subst e1
    have hl := leading_chars h e2
    refine ⟨[], c3.filter nonSpace ++ List.replicate n ' ', rfl, ?_, ?_, fun hx => (by rw [hE] at hx; cases hx)⟩
    · rw [e3, kept_charPieces h, text_charPieces, enc_append, enc_spaces]
    · rw [List.filter_append, List.filter_append, hl, filter_spaces]; simp

/-- Dropping the byte 0x20. -/
abbrev noBlank (u : Bytes) : Bytes := u.filter (· != 0x20)

theorem space_of_mem {c : Char} (h : (0x20 : UInt8) ∈ String.utf8EncodeChar c) : c = ' ' := by
  obtain ⟨b, t, hs, hc, ht⟩ := encode_shape c
  rw [hs] at h
  rcases List.mem_cons.mp h with h | h
  · have hd := decodeValid_encode c []
    rw [hs, ← h] at hd
    have h1 := congrArg Prod.fst (Option.some.inj hd)
    apply Char.ext
    apply UInt32.toNat_inj.mp
    exact h1.symm
  · have := ht _ h
    simp [isCont] at this

theorem noBlank_encode {c : Char} (h : c ≠ ' ') : noBlank (String.utf8EncodeChar c) = String.utf8EncodeChar c := by
  apply List.filter_eq_self.mpr
  intro b hb
  have : b ≠ 0x20 := by intro e; subst e; exact h (space_of_mem hb)
  simpa using this

theorem noBlank_enc (cs : List Char) : noBlank (enc cs) = enc (cs.filter (· != ' ')) := by
  induction cs with
  | nil => rfl
  | cons c cs ih =>
    rw [enc_cons, noBlank, List.filter_append]
    by_cases hc : c = ' '
    · subst hc
      have : List.filter (fun x => x != 0x20) (String.utf8EncodeChar ' ') = [] := by decide
      rw [this, List.nil_append]
      simpa using ih
    · have := noBlank_encode hc
      rw [noBlank] at this
      rw [this, List.filter_cons, if_pos (by simpa using hc), enc_cons, ← ih]

/-- `v` may stand for `u` inside a text: white-space characters deleted, blanks added. -/
def Thin (u v : Bytes) : Prop :=
  ∀ x y cs, noBlank (x ++ u ++ y) = enc cs →
    ∃ cs', noBlank (x ++ v ++ y) = enc cs' ∧ cs'.Sublist cs ∧ cs'.filter nonSpace = cs.filter nonSpace

theorem Thin.refl (u : Bytes) : Thin u u := fun _ _ cs h => ⟨cs, h, List.Sublist.refl _, rfl⟩

theorem Thin.trans {u v w : Bytes} (h1 : Thin u v) (h2 : Thin v w) : Thin u w := by
  intro x y cs h
  obtain ⟨c1, a1, a2, a3⟩ := h1 x y cs h
  obtain ⟨c2, b1, b2, b3⟩ := h2 x y c1 a1
  exact ⟨c2, b1, b2.trans a2, b3.trans a3⟩

theorem Thin.append_left {u v : Bytes} (h : Thin u v) (a : Bytes) : Thin (a ++ u) (a ++ v) := by
  intro x y cs hx
  have := h (x ++ a) y cs (by simpa using hx)
  simpa using this

theorem Thin.append_right {u v : Bytes} (h : Thin u v) (a : Bytes) : Thin (u ++ a) (v ++ a) := by
  intro x y cs hx
  have := h x (a ++ y) cs (by simpa using hx)
  simpa using this

theorem thin_space {c : Char} (hc : isSpace c.val.toNat = true) : Thin (String.utf8EncodeChar c) [] := by
  intro x y cs h
  by_cases hb : c = ' '
  · subst hb
    refine ⟨cs, ?_, List.Sublist.refl _, rfl⟩
    rw [← h]
    simp only [noBlank, List.filter_append, List.append_nil]
    have : List.filter (fun x => x != 0x20) (String.utf8EncodeChar ' ') = [] := by decide
    rw [this, List.append_nil]
  · simp only [noBlank, List.filter_append] at h
    have hn := noBlank_encode hb
    rw [noBlank] at hn
    rw [hn] at h
    obtain ⟨a, b, e1, e2, e3⟩ := enc_sync h
    subst e1
    refine ⟨a ++ b, ?_, ?_, ?_⟩
    · simp only [noBlank, List.append_nil, List.filter_append]
      rw [e2, e3, enc_append]
    · exact List.Sublist.append (List.Sublist.refl _) (List.sublist_cons_self _ _)
    · have : nonSpace c = false := by rw [nonSpace, hc]; rfl
      rw [List.filter_append, List.filter_append, List.filter_cons, if_neg (by rw [this]; simp)]

theorem thin_pad (u : Bytes) (n : Nat) : Thin u (u ++ List.replicate n 0x20) := by
  intro x y cs h
  refine ⟨cs, ?_, List.Sublist.refl _, rfl⟩
  rw [← h]
  have : (List.replicate n 0x20 : Bytes).filter (· != 0x20) = [] := by
    rw [List.filter_eq_nil_iff]; intro b hb; rw [List.eq_of_mem_replicate hb]; decide
  simp [noBlank, List.filter_append, this]

theorem thin_kept (s : Splitter) {b : Bytes} {cs : List Piece} (h : ∀ c ∈ cs, c ∈ pieces b) :
    Thin (text cs) (text (cs.filter (kept s))) := by
  induction cs with
  | nil => exact Thin.refl _
  | cons c cs ih =>
    have ih := ih fun x hx => h x (by simp [hx])
    by_cases hb : blank s c = true
    · rw [List.filter_cons, if_neg (by simp [hb]), text_cons]
      have hsp : isSpace c.1 = true := by
        rw [blank, Bool.and_eq_true] at hb; exact hb.2
      rcases piece_kind (h c (by simp)) with ⟨ch, rfl⟩ | ⟨b, -, rfl⟩
      · refine Thin.trans ((thin_space hsp).append_right _) ?_
        simpa using ih
      · exact absurd hsp (show ¬ isSpace runeError = true by decide)
    · rw [List.filter_cons, if_pos (by simp [hb]), text_cons, text_cons]
      exact ih.append_left _

/-- A kept character contains no blank byte. -/
theorem kept_no_blank {s : Splitter} (hs : s.skipWhiteSpace = true) {b : Bytes} {cs : List Piece}
    (h : ∀ c ∈ cs, c ∈ pieces b) : ∀ x ∈ text (cs.filter (kept s)), x ≠ 0x20 := by
  intro x hx hx2
  subst hx2
  unfold text at hx
  obtain ⟨c, hc, hxc⟩ := List.mem_flatMap.mp hx
  obtain ⟨hc1, hc2⟩ := List.mem_filter.mp hc
  rcases piece_kind (h c hc1) with ⟨ch, rfl⟩ | ⟨b, hb, rfl⟩
  · have := space_of_mem hxc
    subst this
    simp only [kept, blank, hs] at hc2
    exact absurd hc2 (by decide)
  · simp only [List.mem_singleton] at hxc
    subst hxc
    exact absurd hb (by decide)

theorem drain_thin {s : Splitter} (h : s.skipWhiteSpace = true) {atEOF : Bool} {fuel : Nat} {buf : Bytes}
    {r : List Bytes × Bytes} (hr : drain s.scanSentences atEOF fuel buf = some r) :
    Thin buf (r.1.flatten ++ r.2) ∧ (atEOF = true → r.2 = []) ∧ (∀ x ∈ r.1.flatten, x ≠ 0x20) := by
  refine drain_induct s atEOF (fun buf toks left => Thin buf (toks.flatten ++ left) ∧ (atEOF = true → left = []) ∧
    (∀ x ∈ toks.flatten, x ≠ 0x20)) ?_ ?_ ?_ ?_ fuel buf r hr
  · exact ⟨Thin.refl _, fun _ => rfl, by simp⟩
  · rintro data used rest toks left h1 - - - ⟨i1, i2, i3⟩
    have ht : data = text (leading s (pieces data) ++ used) ++ text rest := by
      rw [← text_append, ← h1, text_pieces]
    have hm : ∀ c ∈ leading s (pieces data) ++ used, c ∈ pieces data := by
      intro c hc; rw [h1]; exact List.mem_append_left _ hc
    have hk := thin_kept s hm
    rw [List.filter_append, leading_filter, List.nil_append] at hk
    refine ⟨?_, i2, ?_⟩
    · rw [List.flatten_cons, List.append_assoc]
      refine Thin.trans ?_ (i1.append_left _)
      have := hk.append_right (text rest)
      rw [← ht] at this
      exact this
    · intro x hx
      rw [List.flatten_cons] at hx
      rcases List.mem_append.mp hx with hx | hx
      · exact kept_no_blank h (b := data) (cs := used) (fun c hc => hm c (by simp [hc])) x hx
      · exact i3 x hx
  · intro hE data used _ h1 _ _ _
    have hm : ∀ c ∈ leading s (pieces data) ++ used, c ∈ pieces data := by
      intro c hc; rw [h1]; exact hc
    have hk := thin_kept s hm
    rw [List.filter_append, leading_filter, List.nil_append] at hk
    refine ⟨?_, fun _ => rfl, ?_⟩
    · rw [← h1, text_pieces] at hk
      simpa using hk
    · intro x hx
      exact kept_no_blank h (b := data) (cs := used) (fun c hc => hm c (by simp [hc])) x (by simpa using hx)
  · intro hE data used n _ h1 _ _ _ _
    have hm : ∀ c ∈ leading s (pieces data) ++ used, c ∈ pieces data := by
      intro c hc; rw [h1]; exact hc
    have hk := thin_kept s hm
    rw [List.filter_append, leading_filter, List.nil_append] at hk
    refine ⟨?_, fun hx => (by rw [hE] at hx; cases hx), by simp⟩
    rw [← h1, text_pieces] at hk
    simpa using hk.trans (thin_pad _ n)

end Kagome
