import Verif.Spec.Sentence
import Verif.Proof.Utf8

/-! The splitter's loops against the direct definition of sentences. -/

namespace Kagome

open Spec

theorem pieces_nil : pieces [] = [] := rfl

theorem pieces_cons {s : Bytes} (hs : s ≠ []) :
    pieces s = ((decodeRune s).1, s.take (decodeRune s).2) :: pieces (s.drop (decodeRune s).2) := by
  unfold pieces
  rw [runes_cons hs]
  rfl

@[simp] theorem text_nil : text [] = [] := rfl
@[simp] theorem text_cons (c : Piece) (cs : List Piece) : text (c :: cs) = c.2 ++ text cs := by simp [text]
@[simp] theorem text_append (a b : List Piece) : text (a ++ b) = text a ++ text b := by simp [text]

@[simp] theorem text_pieces (s : Bytes) : text (pieces s) = s := by
  induction s using runes_induction with
  | nil => rfl
  | cons s hs ih => rw [pieces_cons hs, text_cons, ih]; simp

theorem pieces_eq_nil {s : Bytes} : pieces s = [] ↔ s = [] := by
  constructor
  · intro h; rw [← text_pieces s, h]; rfl
  · rintro rfl; rfl

theorem pieces_length_le (s : Bytes) : (pieces s).length ≤ s.length := by
  induction s using runes_induction with
  | nil => simp [pieces_nil]
  | cons s hs ih =>
    have := decodeRune_width hs
    rw [pieces_cons hs]
    simp only [List.length_cons, List.length_drop] at *
    omega

/-- A suffix of the characters is the characters of a suffix. -/
theorem pieces_text_suffix {s : Bytes} {a b : List Piece} (h : pieces s = a ++ b) : pieces (text b) = b := by
  induction a generalizing s with
  | nil => rw [List.nil_append] at h; rw [← h, text_pieces]
  | cons c a ih =>
    by_cases hs : s = []
    · subst hs; simp [pieces_nil] at h
    · rw [pieces_cons hs, List.cons_append] at h
      exact ih (List.cons.inj h).2

/-- A character is a Unicode character with its encoding, or a single byte that is not ASCII. -/
theorem piece_kind {s : Bytes} {c : Piece} (h : c ∈ pieces s) :
    (∃ ch : Char, c = (ch.val.toNat, String.utf8EncodeChar ch)) ∨ ∃ b : UInt8, 0x80 ≤ b.toNat ∧ c = (runeError, [b]) := by
  induction s using runes_induction with
  | nil => simp [pieces_nil] at h
  | cons s hs ih =>
    rw [pieces_cons hs] at h
    rcases List.mem_cons.mp h with rfl | h
    · cases hv : decodeValid s with
      | none =>
        right
        rw [decodeRune_of_none hs hv]
        match s, hs with
        | b :: t, _ =>
          refine ⟨b, ?_, rfl⟩
          unfold decodeValid at hv
          simp only at hv
          split at hv
          · cases hv
          · omega
      | some d =>
        left
        obtain ⟨r, w⟩ := d
        obtain ⟨ch, h1, h2, h3⟩ := decodeValid_some hv
        rw [decodeRune_of_valid hv]
        refine ⟨ch, ?_⟩
        simp only [h1]
        rw [h3]
        conv => lhs; rw [← h2, List.take_left]
    · exact ih h

theorem piece_length {s : Bytes} {c : Piece} (h : c ∈ pieces s) : 1 ≤ c.2.length ∧ c.2.length ≤ 4 := by
  rcases piece_kind h with ⟨ch, rfl⟩ | ⟨b, -, rfl⟩
  · exact encode_length ch
  · simp

theorem set_mid {α : Type} (A : List α) (g c : α) (R : List α) : (A ++ g :: R).set A.length c = A ++ c :: R := by
  simp [List.set_append]

theorem copyBytes_spec (C : Bytes) : ∀ (A G R : Bytes),
    ∃ G' : Bytes, G'.length = G.length ∧
      copyBytes C.length (A ++ G ++ C ++ R) A.length (A ++ G).length = some (A ++ C ++ G' ++ R) := by
  induction C with
  | nil => intro A G R; exact ⟨G, rfl, by simp [copyBytes]⟩
  | cons c C ih =>
    intro A G R
    have hget : (A ++ G ++ c :: C ++ R)[(A ++ G).length]? = some c := by
      rw [List.append_assoc _ (c :: C), List.getElem?_append_right (by omega)]; simp
    cases G with
    | nil =>
      obtain ⟨G', hl, h⟩ := ih (A ++ [c]) [] R
      refine ⟨G', hl, ?_⟩
      have hs : setByte (A ++ [] ++ c :: C ++ R) A.length c = some ((A ++ [c]) ++ [] ++ C ++ R) := by
        simp [setByte, List.set_append]
      simp only [List.length_cons, copyBytes, hget, Option.bind_eq_bind, Option.bind_some, hs]
      simpa using h
    | cons g G =>
      obtain ⟨G', hl, h⟩ := ih (A ++ [c]) (G ++ [c]) R
      refine ⟨G', by simpa using hl, ?_⟩
      have hs : setByte (A ++ g :: G ++ c :: C ++ R) A.length c = some ((A ++ [c]) ++ (G ++ [c]) ++ C ++ R) := by
        simp [setByte, List.set_append]
      simp only [List.length_cons, copyBytes, hget, Option.bind_eq_bind, Option.bind_some, hs]
      have h2 : (A ++ g :: G).length + 1 = (A ++ [c] ++ (G ++ [c])).length := by simp; omega
      rw [h2]
      simpa using h

theorem fillSpaces_spec (D : Bytes) : ∀ A : Bytes,
    fillSpaces D.length (A ++ D) A.length = some (A ++ List.replicate D.length 0x20) := by
  induction D with
  | nil => intro A; simp [fillSpaces]
  | cons d D ih =>
    intro A
    have hs : setByte (A ++ d :: D) A.length 0x20 = some ((A ++ [0x20]) ++ D) := by
      simp [setByte, List.set_append]
    simp only [List.length_cons, fillSpaces, hs, Option.bind_eq_bind, Option.bind_some]
    have := ih (A ++ [0x20])
    simpa [List.replicate_succ] using this

/-- The conditional copy of the loops. -/
theorem copy_spec (A G C R : Bytes) :
    ∃ G' : Bytes, G'.length = G.length ∧
      moveRune C.length (A ++ G ++ C ++ R) A.length (A ++ G).length = some (A ++ C ++ G' ++ R) := by
  unfold moveRune
  by_cases h : A.length = (A ++ G).length
  · have : G = [] := by
      rw [List.length_append] at h
      exact List.length_eq_zero_iff.mp (by omega)
    subst this
    exact ⟨[], rfl, by simp⟩
  · obtain ⟨G', hl, h2⟩ := copyBytes_spec C A G R
    exact ⟨G', hl, by rw [if_pos h, h2]⟩

/-- A call that returned the token `K`: the buffer is `H`, the token, leftovers `G` and the unread text `R`. -/
def returned (H K G R : Bytes) : SplitResult :=
  ⟨H ++ K ++ G ++ R, (H ++ K ++ G).length, some (H.length, (H ++ K).length)⟩

theorem returnToken_spec (H K G R : Bytes) :
    returnToken (H ++ K ++ G ++ R) (H ++ K ++ G).length H.length (H ++ K).length = some (returned H K G R) := by
  unfold returnToken returned
  rw [if_pos]
  simp

theorem drop_state (H K G R : Bytes) : (H ++ K ++ G ++ R).drop (H ++ K ++ G).length = R := by simp

theorem rest_split {R : Bytes} (hR : R ≠ []) :
    R = R.take (decodeRune R).2 ++ R.drop (decodeRune R).2 ∧ (R.take (decodeRune R).2).length = (decodeRune R).2 := by
  have := decodeRune_width hR
  constructor
  · simp
  · simp; omega

theorem tailLoop_spec (s : Splitter) (H : Bytes) (fuel : Nat) : ∀ (K G R : Bytes) (nn : Bool), R.length < fuel →
    ∃ G' : Bytes, G'.length + (text (closing s nn (pieces R)).1).length + (text (closing s nn (pieces R)).2).length
        = G.length + R.length ∧
      s.tailLoop H.length fuel (H ++ K ++ G ++ R) (H ++ K ++ G).length (H ++ K).length nn =
        some (returned H (K ++ text (closing s nn (pieces R)).1) G' (text (closing s nn (pieces R)).2)) := by
  induction fuel with
  | zero => intro K G R nn h; omega
  | succ fuel ih =>
    intro K G R nn hf
    by_cases hR : R = []
    · subst hR
      refine ⟨G, by simp [pieces_nil, closing], ?_⟩
      unfold Splitter.tailLoop
      rw [if_neg (by simp), returnToken_spec]
      simp [pieces_nil, closing]
    · have hlt : (H ++ K ++ G).length < (H ++ K ++ G ++ R).length := by
        have := List.length_pos_iff.mpr hR
        simp only [List.length_append]; omega
      obtain ⟨hsp, hlen⟩ := rest_split hR
      have hw := decodeRune_width hR
      rw [pieces_cons hR]
      unfold Splitter.tailLoop
      rw [if_pos hlt]
      simp only [drop_state]
      generalize hr : (decodeRune R).1 = r
      generalize hz : (decodeRune R).2 = w at *
      generalize hC : R.take w = C at *
      generalize hD : R.drop w = D at *
      subst hsp
      have hCne : (H ++ K ++ G).length + w = (H ++ K ++ (G ++ C)).length := by simp; omega
      have hdata : H ++ K ++ G ++ (C ++ D) = H ++ K ++ (G ++ C) ++ D := by simp
      have hDf : D.length < fuel := by simp only [List.length_append] at hf; omega
      by_cases hb : (s.skipWhiteSpace && isSpace r) = true
      · rw [if_pos hb]
        have hb' : blank s (r, C) = true := hb
        by_cases hfd : (s.doubleLineFeedSplit && r == lineFeed) = true
        · have hfd' : feed s (r, C) = true := hfd
          rw [if_pos hfd]
          cases nn with
          | true =>
            refine ⟨G ++ C, ?_, ?_⟩
            · simp [closing, hb', hfd']; omega
            · simp only [closing, hb', hfd', if_true, Bool.and_self, text_nil, List.append_nil, text_pieces]
              rw [hCne, hdata, returnToken_spec]
          | false =>
            obtain ⟨G', h1, h2⟩ := ih K (G ++ C) D true hDf
            refine ⟨G', ?_, ?_⟩
            · simp only [closing, hb', hfd', if_true, Bool.and_false, Bool.or_true, Bool.false_eq_true, if_false]
              simp only [List.length_append] at h1 ⊢; omega
            · simp only [closing, hb', hfd', if_true, Bool.and_false, Bool.or_true, Bool.false_eq_true, if_false]
              rw [hCne, hdata, h2]
        · have hfd' : feed s (r, C) = false := by simpa [feed, lineFeed] using hfd
          rw [if_neg hfd]
          obtain ⟨G', h1, h2⟩ := ih K (G ++ C) D nn hDf
          refine ⟨G', ?_, ?_⟩
          · simp only [closing, hb', hfd', if_true, Bool.false_and, Bool.or_false, Bool.false_eq_true, if_false]
            simp only [List.length_append] at h1 ⊢; omega
          · simp only [closing, hb', hfd', if_true, Bool.false_and, Bool.or_false, Bool.false_eq_true, if_false]
            rw [hCne, hdata, h2]
      · rw [if_neg hb]
        have hb' : blank s (r, C) = false := by simpa [blank] using hb
        by_cases hd : (s.isDelim r || s.isFollower r) = true
        · rw [if_pos hd]
          obtain ⟨G1, hg1, hcp⟩ := copy_spec (H ++ K) G C D
          rw [← hlen, ← List.append_assoc (H ++ K ++ G) C D, hcp]
          simp only [Option.bind_eq_bind, Option.bind_some]
          obtain ⟨G', h1, h2⟩ := ih (K ++ C) G1 D nn hDf
          refine ⟨G', ?_, ?_⟩
          · simp only [closing, hb', hd, if_true, Bool.false_eq_true, if_false, text_cons]
            simp only [List.length_append] at h1 ⊢; omega
          · simp only [closing, hb', hd, if_true, Bool.false_eq_true, if_false, text_cons]
            have e1 : (H ++ K ++ G).length + C.length = (H ++ (K ++ C) ++ G1).length := by
              simp only [List.length_append]; omega
            have e2 : (H ++ K).length + C.length = (H ++ (K ++ C)).length := by simp only [List.length_append]; omega
            rw [e1, e2]
            have e3 : H ++ K ++ C ++ G1 ++ D = H ++ (K ++ C) ++ G1 ++ D := by simp
            rw [e3, h2]
            simp
        · rw [if_neg hd]
          refine ⟨G, ?_, ?_⟩
          · simp [closing, hb', hd]
          · simp only [closing, hb', hd, Bool.false_eq_true, if_false, text_nil, List.append_nil, text_cons, text_pieces]
            rw [returnToken_spec]

/-- What a call returns, in terms of the sentence that the direct definition cuts off. `H`: skipped leading text,
`K`: what had been kept before, `k`: the cut, `n`: the number of leftover bytes. -/
def Answer (atEOF : Bool) (total : Nat) (H K : Bytes) (k : Cut) (res : Option SplitResult) : Prop :=
  match k.rest with
  | some rest =>
    ∃ G' : Bytes, H.length + K.length + (text k.body).length + (text k.closing).length + G'.length + (text rest).length = total ∧
      res = some (returned H (K ++ text (k.body ++ k.closing)) G' (text rest))
  | none =>
    if atEOF then ∃ G' : Bytes, H.length + K.length + (text k.body).length + G'.length = total ∧
      res = some (returned H (K ++ text k.body) G' [])
    else ∃ n, H.length + K.length + (text k.body).length + n = total ∧
      res = some ⟨H ++ K ++ text k.body ++ List.replicate n 0x20, H.length, none⟩

theorem answer_cons {atEOF : Bool} {total : Nat} {H K C : Bytes} {r : Nat} {k : Cut} {res : Option SplitResult}
    (h : Answer atEOF total H (K ++ C) k res) : Answer atEOF total H K (k.cons (r, C)) res := by
  obtain ⟨bd, cl, rest⟩ := k
  cases rest with
  | none =>
    cases atEOF with
    | true =>
      obtain ⟨G', h1, h2⟩ := h
      refine ⟨G', ?_, ?_⟩
      · simp only [Cut.cons, text_cons, List.length_append] at h1 ⊢; omega
      · rw [h2]; simp [Cut.cons]
    | false =>
      obtain ⟨n, h1, h2⟩ := h
      refine ⟨n, ?_, ?_⟩
      · simp only [Cut.cons, text_cons, List.length_append] at h1 ⊢; omega
      · rw [h2]; simp [Cut.cons]
  | some rest =>
    obtain ⟨G', h1, h2⟩ := h
    refine ⟨G', ?_, ?_⟩
    · simp only [Cut.cons, text_cons, List.length_append] at h1 ⊢; omega
    · rw [h2]; simp [Cut.cons]

theorem mainLoop_spec (s : Splitter) (atEOF : Bool) (H : Bytes) (fuel : Nat) :
    ∀ (K G R : Bytes) (rc : Int) (nn : Bool), R.length < fuel →
    Answer atEOF (H ++ K ++ G ++ R).length H K (body s rc nn (pieces R))
      (s.mainLoop atEOF fuel (H ++ K ++ G ++ R) (H ++ K ++ G).length H.length (H ++ K).length rc false nn) := by
  induction fuel with
  | zero => intro K G R rc nn h; omega
  | succ fuel ih =>
    intro K G R rc nn hf
    by_cases hR : R = []
    · subst hR
      unfold Splitter.mainLoop
      rw [if_neg (by simp)]
      cases atEOF with
      | true =>
        refine ⟨G, by simp [body, pieces_nil]; omega, ?_⟩
        rw [if_neg (by simp)]
        have := returnToken_spec H K G []
        simp only [List.append_nil] at this ⊢
        rw [this]; simp [body, pieces_nil]
      | false =>
        refine ⟨G.length, by simp [body, pieces_nil]; omega, ?_⟩
        rw [if_pos (by simp)]
        have e : (H ++ K ++ G ++ []).length - (H ++ K).length = G.length := by simp; omega
        rw [e, List.append_nil, fillSpaces_spec]
        simp [body, pieces_nil]
    · have hlt : (H ++ K ++ G).length < (H ++ K ++ G ++ R).length := by
        have := List.length_pos_iff.mpr hR
        simp only [List.length_append]; omega
      obtain ⟨hsp, hlen⟩ := rest_split hR
      have hw := decodeRune_width hR
      rw [pieces_cons hR]
      unfold Splitter.mainLoop
      rw [if_pos hlt]
      simp only [drop_state]
      generalize hr : (decodeRune R).1 = r
      generalize hz : (decodeRune R).2 = w at *
      generalize hC : R.take w = C at *
      generalize hD : R.drop w = D at *
      subst hsp
      have hCne : (H ++ K ++ G).length + w = (H ++ K ++ (G ++ C)).length := by simp; omega
      have hdata : H ++ K ++ G ++ (C ++ D) = H ++ K ++ (G ++ C) ++ D := by simp
      have hDf : D.length < fuel := by simp only [List.length_append] at hf; omega
      by_cases hb : (s.skipWhiteSpace && isSpace r) = true
      · rw [if_pos hb, if_neg (by simp)]
        have hb' : blank s (r, C) = true := hb
        by_cases hd : s.isDelim r = true
        · rw [if_pos hd, hCne, hdata, returnToken_spec]
          have hbd : body s rc nn ((r, C) :: pieces D) = ⟨[], [], some (pieces D)⟩ := by simp [body, hb', hd]
          rw [hbd]
          exact ⟨G ++ C, by simp; omega, by simp⟩
        · rw [if_neg hd]
          by_cases hfd : (s.doubleLineFeedSplit && r == lineFeed) = true
          · have hfd' : feed s (r, C) = true := hfd
            rw [if_pos hfd]
            cases nn with
            | true =>
              rw [if_pos rfl, hCne, hdata, returnToken_spec]
              have hbd : body s rc true ((r, C) :: pieces D) = ⟨[], [], some (pieces D)⟩ := by
                simp [body, hb', hd, hfd']
              rw [hbd]
              exact ⟨G ++ C, by simp; omega, by simp⟩
            | false =>
              rw [if_neg (by simp), hCne, hdata]
              have := ih K (G ++ C) D rc true hDf
              simp only [body, hb', hd, hfd', if_true, Bool.false_eq_true, if_false]
              exact this
          · have hfd' : feed s (r, C) = false := by simpa [feed, lineFeed] using hfd
            rw [if_neg hfd, hCne, hdata]
            have := ih K (G ++ C) D rc false hDf
            simp only [body, hb', hd, hfd', if_true, Bool.false_eq_true, if_false]
            have e : (if nn = true then false else nn) = false := by cases nn <;> rfl
            rw [e]
            exact this
      · rw [if_neg hb]
        have hb' : blank s (r, C) = false := by simpa [blank] using hb
        obtain ⟨G1, hg1, hcp⟩ := copy_spec (H ++ K) G C D
        rw [← hlen, ← List.append_assoc (H ++ K ++ G) C D, hcp]
        simp only [Option.bind_eq_bind, Option.bind_some]
        have e1 : (H ++ K ++ G).length + C.length = (H ++ (K ++ C) ++ G1).length := by
          simp only [List.length_append]; omega
        have e2 : (H ++ K).length + C.length = (H ++ (K ++ C)).length := by simp only [List.length_append]; omega
        have e3 : H ++ K ++ C ++ G1 ++ D = H ++ (K ++ C) ++ G1 ++ D := by simp
        have e4 : (H ++ K ++ G ++ C ++ D).length = (H ++ (K ++ C) ++ G1 ++ D).length := by
          simp only [List.length_append]; omega
        rw [e1, e2, e3, e4]
        by_cases hf2 : (s.doubleLineFeedSplit && r == lineFeed && nn) = true
        · rw [if_pos hf2, returnToken_spec]
          have hf3 : (feed s (r, C) && nn) = true := hf2
          have hbd : body s rc nn ((r, C) :: pieces D) = ⟨[(r, C)], [], some (pieces D)⟩ := by
            simp only [body, hb', hf3, if_true, Bool.false_eq_true, if_false]
          rw [hbd]
          exact ⟨G1, by simp; omega, by simp⟩
        · rw [if_neg hf2]
          have hf3 : (feed s (r, C) && nn) = false := by simpa [feed, lineFeed] using hf2
          have e5 : (if (s.doubleLineFeedSplit && r == lineFeed) = true then true else nn) = (nn || feed s (r, C)) := by
            change (if feed s (r, C) = true then true else nn) = _
            cases nn <;> cases feed s (r, C) <;> rfl
          rw [e5]
          by_cases hm : (s.isDelim r || decide (s.maxRuneLen ≤ rc + 1)) = true
          · have hm' : (!s.isDelim r && decide (rc + 1 < s.maxRuneLen)) = false := by
              rw [Bool.or_eq_true, decide_eq_true_eq] at hm
              rcases hm with hm | hm
              · simp [hm]
              · rw [Bool.and_eq_false_iff]; right; simp; omega
            rw [hm', if_neg (by simp)]
            obtain ⟨G', h1, h2⟩ := tailLoop_spec s H ((H ++ (K ++ C) ++ G1 ++ D).length + 1) (K ++ C) G1 D false
              (by simp only [List.length_append]; omega)
            rw [h2]
            have hbd : body s rc nn ((r, C) :: pieces D) =
                ⟨[(r, C)], (closing s false (pieces D)).1, some (closing s false (pieces D)).2⟩ := by
              simp only [body, hb', hf3, hm, if_true, Bool.false_eq_true, if_false]
            rw [hbd]
            refine ⟨G', ?_, by simp⟩
            simp only [text_cons, text_nil, List.length_append, List.length_nil] at h1 ⊢; omega
          · have hm' : (!s.isDelim r && decide (rc + 1 < s.maxRuneLen)) = true := by
              rw [Bool.or_eq_true, decide_eq_true_eq] at hm
              rw [Bool.and_eq_true]
              constructor
              · cases hx : s.isDelim r with
                | true => exact absurd (Or.inl hx) hm
                | false => rfl
              · simp; omega
            rw [hm', if_pos rfl]
            have := ih (K ++ C) G1 D (rc + 1) (nn || feed s (r, C)) hDf
            have hb3 : body s rc nn ((r, C) :: pieces D) = (body s (rc + 1) (nn || feed s (r, C)) (pieces D)).cons (r, C) := by
              conv => lhs; unfold body
              simp only [hb', hf3, Bool.false_eq_true, if_false]
              rw [if_neg hm]
            rw [hb3]
            exact answer_cons this

theorem mainLoop_head (s : Splitter) (atEOF : Bool) (fuel : Nat) : ∀ (H R : Bytes), R.length < fuel →
    Answer atEOF (H ++ R).length (H ++ text (leading s (pieces R))) [] (sentence s (pieces R))
      (s.mainLoop atEOF fuel (H ++ R) H.length H.length H.length 0 true false) := by
  induction fuel with
  | zero => intro H R h; omega
  | succ fuel ih =>
    intro H R hf
    by_cases hR : R = []
    · subst hR
      have := mainLoop_spec s atEOF H (fuel + 1) [] [] [] 0 false (by simp)
      unfold Splitter.mainLoop at this ⊢
      simp only [List.append_nil, Nat.lt_irrefl, if_false] at this ⊢
      simpa [leading, sentence, pieces_nil] using this
    · have hlt : H.length < (H ++ R).length := by
        have := List.length_pos_iff.mpr hR
        simp only [List.length_append]; omega
      obtain ⟨hsp, hlen⟩ := rest_split hR
      have hw := decodeRune_width hR
      have hdrop : (H ++ R).drop H.length = R := by simp
      by_cases hb : (s.skipWhiteSpace && isSpace (decodeRune R).1) = true
      · unfold Splitter.mainLoop
        rw [if_pos hlt]
        simp only [hdrop]
        rw [if_pos hb, if_pos True.intro]
        rw [pieces_cons hR]
        generalize hr : (decodeRune R).1 = r at *
        generalize hz : (decodeRune R).2 = w at *
        generalize hC : R.take w = C at *
        generalize hD : R.drop w = D at *
        subst hsp
        have hb' : blank s (r, C) = true := hb
        have h := ih (H ++ C) D (by simp only [List.length_append] at hf; omega)
        have e : H.length + w = (H ++ C).length := by simp; omega
        rw [e]
        have e2 : H ++ (C ++ D) = H ++ C ++ D := by simp
        rw [e2]
        simpa [leading, sentence, hb'] using h
      · have h := mainLoop_spec s atEOF H (fuel + 1) [] [] R 0 false hf
        unfold Splitter.mainLoop at h ⊢
        simp only [List.append_nil] at h
        rw [if_pos hlt] at h ⊢
        simp only [hdrop] at h ⊢
        rw [if_neg hb] at h ⊢
        have hb' : blank s ((decodeRune R).1, R.take (decodeRune R).2) = false := by simpa [blank] using hb
        have e : leading s (pieces R) = [] := by rw [leading, pieces_cons hR, List.takeWhile_cons]; simp [hb']
        have e2 : (pieces R).dropWhile (blank s) = pieces R := by
          conv => lhs; rw [pieces_cons hR, List.dropWhile_cons]
          rw [if_neg (by simp [hb']), ← pieces_cons hR]
        rw [e, sentence, e2, text_nil, List.append_nil]
        exact h

/-- One call of `ScanSentences`, in terms of the direct definition. -/
theorem scanSentences_spec (s : Splitter) (data : Bytes) (atEOF : Bool) (h : atEOF = false ∨ data ≠ []) :
    Answer atEOF data.length (text (leading s (pieces data))) [] (sentence s (pieces data)) (s.scanSentences data atEOF) := by
  have := mainLoop_head s atEOF (data.length + 1) [] data (by omega)
  unfold Splitter.scanSentences
  rw [if_neg]
  · simpa using this
  · intro hx
    rw [Bool.and_eq_true, List.isEmpty_iff] at hx
    rcases h with h | h
    · rw [h] at hx; simp at hx
    · exact h hx.2

end Kagome
