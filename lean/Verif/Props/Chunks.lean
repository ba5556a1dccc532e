import Verif.Props.Splitter
import Verif.Spec.Chunks

/-!
# C37, C38: where line feeds do not matter; which readers give the sentences of the text
-/

namespace Kagome

open Spec

/-- Whether a line feed is pending after a text. -/
def pending (s : Splitter) : Bool → List Piece → Bool
  | fed, [] => fed
  | fed, c :: cs => pending s (if blank s c then feed s c else fed || feed s c) cs

/-- A text that does not add to a sentence that has ended before it. -/
def Fresh (s : Splitter) (x : List Piece) : Prop := x = [] ∨ ∃ c cs, x = c :: cs ∧ Ordinary s c

theorem closing_append {s : Splitter} {x : List Piece} (cs : List Piece) : ∀ fed, Fresh s x ∨ (closing s fed cs).2 ≠ [] →
    closing s fed (cs ++ x) = ((closing s fed cs).1, (closing s fed cs).2 ++ x) := by
  induction cs with
  | nil =>
    intro fed hx
    rcases hx with hx | hx
    case inr => exact absurd rfl hx
    rcases hx with rfl | ⟨c, cs, rfl, h1, h2, h3⟩
    · rfl
    · rw [List.nil_append]
      unfold closing
      rw [if_neg (by simp [h1]), if_neg (by simp [h2, h3])]
      rfl
  | cons c cs ih =>
    intro fed
    rw [List.cons_append]
    unfold closing
    split
    · split
      · intro _; rfl
      · exact ih _
    · split
      · intro hx; rw [ih _ hx]
      · intro _; rfl

/-- A finished sentence does not look at the text behind. -/
theorem sentBody_append {s : Splitter} {x : List Piece} (cs : List Piece) : ∀ (n : Int) (fed : Bool) (r : List Piece),
    Fresh s x ∨ r ≠ [] → (body s n fed cs).rest = some r →
    body s n fed (cs ++ x) = ⟨(body s n fed cs).body, (body s n fed cs).closing, some (r ++ x)⟩ := by
  induction cs with
  | nil => intro n fed r _ h; cases h
  | cons c cs ih =>
    intro n fed r hx
    rw [List.cons_append]
    unfold body
    split
    · split
      · intro h; cases h; rfl
      · split
        · split
          · intro h; cases h; rfl
          · exact ih n true r hx
        · exact ih n false r hx
    · split
      · intro h; cases h; rfl
      · split
        · intro h; cases h
          rw [closing_append _ _ hx]
        · intro h
          rw [ih _ _ r hx h]; rfl

def Cut.prepend (l : List Piece) (k : Cut) : Cut := { k with body := l ++ k.body }

/-- An unfinished sentence goes on in the text behind. -/
theorem body_more {s : Splitter} (x : List Piece) (cs : List Piece) : ∀ (n : Int) (fed : Bool),
    (body s n fed cs).rest = none →
    body s n fed (cs ++ x) =
      Cut.prepend (body s n fed cs).body (body s (n + (body s n fed cs).body.length) (pending s fed cs) x) := by
  induction cs with
  | nil => intro n fed _; simp [body, pending, Cut.prepend]
  | cons c cs ih =>
    intro n fed
    rw [List.cons_append, pending]
    rcases body_cases s n fed c cs with ⟨hb, -, e⟩ | ⟨hb, hd, hf, e⟩ | ⟨hb, -, -, e⟩ | ⟨hb, -, -, e⟩ | ⟨hb, hf, hd, hm, e⟩ <;> rw [e]
    · intro h; cases h
    · rw [if_pos hb]
      have e2 : body s n fed (c :: (cs ++ x)) = body s n (feed s c) (cs ++ x) := by
        rcases body_cases s n fed c (cs ++ x) with ⟨-, h2, -⟩ | ⟨-, -, -, e2⟩ | ⟨h2, -⟩ | ⟨h2, -⟩ | ⟨h2, -⟩
        · rcases h2 with h2 | h2
          · exact absurd h2 hd
          · exact absurd h2 hf
        · exact e2
        all_goals rw [hb] at h2; cases h2
      rw [e2]; exact ih n _
    · intro h; cases h
    · intro h; cases h
    · rw [if_neg (by simp [hb])]
      have e2 : body s n fed (c :: (cs ++ x)) = (body s (n + 1) (fed || feed s c) (cs ++ x)).cons c := by
        rcases body_cases s n fed c (cs ++ x) with ⟨h2, -⟩ | ⟨h2, -⟩ | ⟨-, h2, h3, -⟩ | ⟨-, -, h2, -⟩ | ⟨-, -, -, -, e2⟩
        · rw [hb] at h2; cases h2
        · rw [hb] at h2; cases h2
        · exact absurd ⟨h2, h3⟩ hf
        · rcases h2 with h2 | h2
          · exact absurd h2 hd
          · omega
        · exact e2
      intro h
      rw [e2, ih _ _ h]
      have hl : n + ((body s (n + 1) (fed || feed s c) cs).cons c).body.length =
          n + 1 + (body s (n + 1) (fed || feed s c) cs).body.length := by
        simp only [Cut.cons, List.length_cons]; omega
      rw [hl]; rfl

theorem pending_off {s : Splitter} (h : s.doubleLineFeedSplit = false) (cs : List Piece) : pending s false cs = false := by
  have hf : ∀ c, feed s c = false := fun c => by simp [feed, h]
  induction cs with
  | nil => rfl
  | cons c cs ih => rw [pending, hf]; simpa using ih

theorem pending_last {s : Splitter} (hs : s.skipWhiteSpace = true) (cs : List Piece) : ∀ fed,
    pending s fed cs = (((cs.filter (fun c => isSpace c.1)).getLast?.map (feed s)).getD fed) := by
  induction cs with
  | nil => intro fed; rfl
  | cons c cs ih =>
    intro fed
    rw [pending, ih]
    have hb : blank s c = isSpace c.1 := by rw [blank, hs]; rfl
    rw [hb]
    by_cases hc : isSpace c.1 = true
    · rw [if_pos hc, List.filter_cons, if_pos hc, List.getLast?_cons]
      cases (cs.filter (fun c => isSpace c.1)).getLast? <;> rfl
    · rw [if_neg hc, List.filter_cons, if_neg hc]
      have hf : feed s c = false := by
        cases hx : feed s c with
        | false => rfl
        | true =>
          rw [feed, Bool.and_eq_true, beq_iff_eq] at hx
          rw [hx.2] at hc
          exact absurd (by decide) hc
      rw [hf, Bool.or_false]

theorem pending_clear {s : Splitter} (hs : s.skipWhiteSpace = true) {cs : List Piece}
    (h : s.doubleLineFeedSplit = true → NoFeedLast cs) : pending s false cs = false := by
  cases hd : s.doubleLineFeedSplit with
  | false => exact pending_off hd cs
  | true =>
    rw [pending_last hs]
    cases hl : (cs.filter (fun c => isSpace c.1)).getLast? with
    | none => rfl
    | some c =>
      have := h hd c hl
      simp [feed, this]

theorem sentencesOf_congr {s : Splitter} {a b : List Piece} (h : a.dropWhile (blank s) = b.dropWhile (blank s)) :
    sentencesOf s a = sentencesOf s b := by
  have hs : sentence s a = sentence s b := by unfold sentence; rw [h]
  cases hr : (sentence s a).rest with
  | some r => rw [sentencesOf_cons hr, sentencesOf_cons (cs := b) (rest := r) (hs ▸ hr), hs]
  | none => rw [sentencesOf_last hr, sentencesOf_last (hs ▸ hr), hs, h]

theorem dropWhile_blanks {p : Piece → Bool} {a : List Piece} (x : List Piece) (h : a.dropWhile p = []) :
    (a ++ x).dropWhile p = x.dropWhile p := by
  induction a with
  | nil => rfl
  | cons c a ih =>
    rw [List.dropWhile_cons] at h
    split at h
    · rename_i hc
      rw [List.cons_append, List.dropWhile_cons, if_pos hc]; exact ih h
    · cases h

theorem dropWhile_behind {p : Piece → Bool} {a : List Piece} (x : List Piece) (h : a.dropWhile p ≠ []) :
    (a ++ x).dropWhile p = a.dropWhile p ++ x := by
  induction a with
  | nil => exact absurd rfl h
  | cons c a ih =>
    rw [List.dropWhile_cons] at h
    rw [List.cons_append, List.dropWhile_cons, List.dropWhile_cons]
    split at h
    · rename_i hc
      rw [if_pos hc, if_pos hc]; exact ih h
    · rename_i hc
      rw [if_neg hc, if_neg hc]; rfl

theorem sentence_append {s : Splitter} {x cs r : List Piece} (hx : Fresh s x ∨ r ≠ []) (h : (sentence s cs).rest = some r) :
    sentence s (cs ++ x) = ⟨(sentence s cs).body, (sentence s cs).closing, some (r ++ x)⟩ := by
  have hd : cs.dropWhile (blank s) ≠ [] := by
    intro h0; rw [sentence_empty h0] at h; cases h
  unfold sentence
  rw [dropWhile_behind x hd]
  exact sentBody_append _ 0 false r hx h

/-! ### White space between the texts -/

theorem StartsOrdinary.tail {s : Splitter} {c : Piece} {x : List Piece} (h : StartsOrdinary s (c :: x)) (hb : blank s c = true) : StartsOrdinary s x := by
  intro d hd
  refine h d ?_
  rw [List.find?_cons, hb]
  exact hd

theorem closing_starts {s : Splitter} (x : List Piece) : ∀ fed, StartsOrdinary s x →
    (closing s fed x).1 = [] ∧ (closing s fed x).2.dropWhile (blank s) = x.dropWhile (blank s) := by
  induction x with
  | nil => intro fed _; exact ⟨rfl, rfl⟩
  | cons c x ih =>
    intro fed h
    unfold closing
    split
    · rename_i hb
      rw [List.dropWhile_cons, if_pos hb]
      split
      · exact ⟨rfl, rfl⟩
      · exact ih _ (StartsOrdinary.tail h hb)
    · rename_i hb
      have ho := h c (by rw [List.find?_cons]; simp [hb])
      rw [if_neg (by simp [ho.2.1, ho.2.2])]
      exact ⟨rfl, rfl⟩

theorem closing_loose {s : Splitter} {x : List Piece} (hx : StartsOrdinary s x) (cs : List Piece) : ∀ fed,
    (closing s fed (cs ++ x)).1 = (closing s fed cs).1 ∧
      (closing s fed (cs ++ x)).2.dropWhile (blank s) = ((closing s fed cs).2 ++ x).dropWhile (blank s) := by
  induction cs with
  | nil => intro fed; exact closing_starts x fed hx
  | cons c cs ih =>
    intro fed
    rw [List.cons_append]
    unfold closing
    split
    · split
      · exact ⟨rfl, rfl⟩
      · exact ih _
    · split
      · exact ⟨congrArg (c :: ·) (ih _).1, (ih _).2⟩
      · exact ⟨rfl, rfl⟩

theorem sentBody_loose {s : Splitter} {x : List Piece} (hx : StartsOrdinary s x) (cs : List Piece) : ∀ (n : Int) (fed : Bool) (r : List Piece),
    (body s n fed cs).rest = some r → ∃ r', r'.dropWhile (blank s) = (r ++ x).dropWhile (blank s) ∧
      body s n fed (cs ++ x) = ⟨(body s n fed cs).body, (body s n fed cs).closing, some r'⟩ := by
  induction cs with
  | nil => intro n fed r h; cases h
  | cons c cs ih =>
    intro n fed r
    rw [List.cons_append]
    unfold body
    split
    · split
      · intro h; cases h; exact ⟨_, rfl, rfl⟩
      · split
        · split
          · intro h; cases h; exact ⟨_, rfl, rfl⟩
          · exact ih n true r
        · exact ih n false r
    · split
      · intro h; cases h; exact ⟨_, rfl, rfl⟩
      · split
        · intro h; cases h
          obtain ⟨h1, h2⟩ := closing_loose hx cs false
          exact ⟨_, h2, by rw [h1]⟩
        · intro h
          obtain ⟨r', h1, h2⟩ := ih _ _ r h
          exact ⟨r', h1, by rw [h2]; rfl⟩

/-- A finished sentence does not look at the text behind, white space aside. -/
theorem sentence_loose {s : Splitter} {x cs r : List Piece} (hx : StartsOrdinary s x ∨ r ≠ []) (h : (sentence s cs).rest = some r) :
    ∃ r', r'.dropWhile (blank s) = (r ++ x).dropWhile (blank s) ∧
      sentence s (cs ++ x) = ⟨(sentence s cs).body, (sentence s cs).closing, some r'⟩ := by
  rcases hx with hx | hx
  · have hd : cs.dropWhile (blank s) ≠ [] := by
      intro h0; rw [sentence_empty h0] at h; cases h
    unfold sentence
    rw [dropWhile_behind x hd]
    exact sentBody_loose hx _ 0 false r h
  · exact ⟨_, rfl, sentence_append (.inr hx) h⟩

/-! ### A text that ends in the middle of a sentence -/

theorem takeWhile_front {p : Piece → Bool} (a b : List Piece) : (a.takeWhile p).length ≤ ((a ++ b).takeWhile p).length := by
  induction a with
  | nil => simp
  | cons c a ih =>
    rw [List.cons_append, List.takeWhile_cons, List.takeWhile_cons]
    split
    · simpa using ih
    · simp

theorem takeWhile_whole {p : Piece → Bool} {a : List Piece} (h : ∀ x ∈ a, p x = true) : a.takeWhile p = a := by
  induction a with
  | nil => rfl
  | cons c a ih => rw [List.takeWhile_cons, if_pos (h c (by simp)), ih (fun x hx => h x (by simp [hx]))]

/-- Fewer characters, fewer behind the last delimiter. -/
theorem sinceDelim_suffix {s : Splitter} {a b : List Piece} (h : a.filter (kept s) <:+ b.filter (kept s)) : sinceDelim s a ≤ sinceDelim s b := by
  obtain ⟨u, hu⟩ := h
  unfold sinceDelim
  change ((a.filter (kept s)).reverse.takeWhile _).length ≤ ((b.filter (kept s)).reverse.takeWhile _).length
  rw [← hu, List.reverse_append]
  exact takeWhile_front _ _

theorem closing_all {s : Splitter} (cs : List Piece) : ∀ (fed : Bool) (c : Piece), (closing s fed cs).2 = [] → cs.getLast? = some c → ¬ Ordinary s c := by
  induction cs with
  | nil => intro fed c _ h; cases h
  | cons c0 cs ih =>
    intro fed c h hl ho
    unfold closing at h
    have hcs : cs = [] → c = c0 := by
      intro h0
      subst h0
      cases hl
      rfl
    have hlast : cs ≠ [] → cs.getLast? = some c := by
      intro h0
      rw [List.getLast?_cons_of_ne_nil h0] at hl
      exact hl
    split at h
    · rename_i hb
      split at h
      · have := hcs h
        subst this
        rw [ho.1] at hb
        cases hb
      · by_cases h0 : cs = []
        · have := hcs h0
          subst this
          rw [ho.1] at hb
          cases hb
        · exact ih _ c h (hlast h0) ho
    · split at h
      · rename_i hd
        by_cases h0 : cs = []
        · have := hcs h0
          subst this
          rw [ho.2.1, ho.2.2] at hd
          cases hd
        · exact ih _ c h (hlast h0) ho
      · cases h

/-- If a sentence ends with a text whose last character is ordinary, it was ended for its length. -/
theorem body_all {s : Splitter} (cs : List Piece) : ∀ (n : Int) (fed : Bool) (c : Piece), (body s n fed cs).rest = some [] → cs.getLast? = some c → Ordinary s c →
    c.1 ≠ 10 → s.maxRuneLen ≤ n + (cs.filter (kept s)).length ∧ ∀ x ∈ cs.filter (kept s), s.isDelim x.1 = false := by
  induction cs with
  | nil => intro n fed c _ h; cases h
  | cons c0 cs ih =>
    intro n fed c h hl ho hc
    have hcs : cs = [] → c = c0 := by
      intro h0
      subst h0
      cases hl
      rfl
    have hlast : cs ≠ [] → cs.getLast? = some c := by
      intro h0
      rw [List.getLast?_cons_of_ne_nil h0] at hl
      exact hl
    rcases body_cases s n fed c0 cs with ⟨hb, -, e⟩ | ⟨hb, hd, hf, e⟩ | ⟨hb, hf, -, e⟩ | ⟨hb, -, hd, e⟩ | ⟨hb, hf, hd, hm, e⟩ <;> rw [e] at h
    · have := hcs (by simpa using h)
      subst this
      rw [ho.1] at hb
      cases hb
    · by_cases h0 : cs = []
      · subst h0; cases h
      · have := ih n _ c h (hlast h0) ho hc
        rw [List.filter_cons, if_neg (by simp [kept, hb])]
        exact this
    · have := hcs (by simpa using h)
      subst this
      rw [feed, Bool.and_eq_true, beq_iff_eq] at hf
      exact absurd hf.2 hc
    · by_cases h0 : cs = []
      · have := hcs h0
        subst this
        subst h0
        rw [List.filter_cons, if_pos (by simp [kept, hb])]
        refine ⟨?_, ?_⟩
        · rcases hd with hd | hd
          · rw [ho.2.1] at hd; cases hd
          · simpa using hd
        · intro x hx
          simp only [List.filter_nil, List.mem_singleton] at hx
          subst hx
          exact ho.2.1
      · exact absurd ho (closing_all cs false c (by simpa using h) (hlast h0))
    · by_cases h0 : cs = []
      · subst h0; cases h
      · obtain ⟨h1, h2⟩ := ih (n + 1) _ c h (hlast h0) ho hc
        rw [List.filter_cons, if_pos (by simp [kept, hb])]
        refine ⟨?_, ?_⟩
        · rw [List.length_cons]; omega
        · intro x hx
          rcases List.mem_cons.mp hx with rfl | hx
          · simpa using hd
          · exact h2 x hx

/-- Behind a sentence of a text that ends in the middle of another there is something, and that ends there too. -/
theorem Midway.next {s : Splitter} {u r : List Piece} (h : Midway s (u ++ r)) (hr : (sentence s (u ++ r)).rest = some r) : r ≠ [] ∧ Midway s r := by
  obtain ⟨⟨c, hl, ho, hc⟩, hm⟩ := h
  have hne : r ≠ [] := by
    intro h0
    subst h0
    rw [List.append_nil] at hl hm hr
    have hd : u.dropWhile (blank s) ≠ [] := by
      intro h0; rw [sentence_empty h0] at hr; cases hr
    have hl' : (u.dropWhile (blank s)).getLast? = some c := by
      have e := List.takeWhile_append_dropWhile (p := blank s) (l := u)
      rw [← e, List.getLast?_append] at hl
      cases hx : (u.dropWhile (blank s)).getLast? with
      | none => exact absurd (List.getLast?_eq_none_iff.mp hx) hd
      | some y => rw [hx] at hl; exact hl
    obtain ⟨h1, h2⟩ := body_all _ 0 false c hr hl' ho hc
    have h3 : sinceDelim s (u.dropWhile (blank s)) = ((u.dropWhile (blank s)).filter (kept s)).length := by
      unfold sinceDelim
      change (((u.dropWhile (blank s)).filter (kept s)).reverse.takeWhile _).length = _
      rw [takeWhile_whole, List.length_reverse]
      intro x hx
      rw [h2 x (List.mem_reverse.mp hx)]; rfl
    have h4 := sinceDelim_suffix (s := s) ((List.dropWhile_suffix (blank s) (l := u)).filter (kept s))
    omega
  refine ⟨hne, ⟨c, ?_, ho, hc⟩, ?_⟩
  · rw [List.getLast?_append] at hl
    cases hx : r.getLast? with
    | none => exact absurd (List.getLast?_eq_none_iff.mp hx) hne
    | some y => rw [hx] at hl; exact hl
  · have := sinceDelim_suffix (s := s) ((List.suffix_append u r).filter (kept s))
    omega

/-! ### A text that ends with a sentence -/

theorem closing_only_blanks {s : Splitter} (bl : List Piece) (h : ∀ b ∈ bl, blank s b = true) : ∀ fed, ∀ b ∈ (closing s fed bl).2, blank s b = true := by
  induction bl with
  | nil => intro fed b hb; cases hb
  | cons c bl ih =>
    intro fed
    have h' : ∀ b ∈ bl, blank s b = true := fun b hb => h b (by simp [hb])
    unfold closing
    rw [if_pos (h c (by simp))]
    split
    · exact h'
    · exact ih h' _

theorem closing_followers {s : Splitter} {bl : List Piece} (h : ∀ b ∈ bl, blank s b = true) (fs : List Piece)
    (hf : ∀ f ∈ fs, blank s f = false ∧ (s.isDelim f.1 || s.isFollower f.1) = true) : ∀ fed, ∀ b ∈ (closing s fed (fs ++ bl)).2, blank s b = true := by
  induction fs with
  | nil => exact closing_only_blanks bl h
  | cons f fs ih =>
    intro fed
    obtain ⟨h1, h2⟩ := hf f (by simp)
    rw [List.cons_append]
    unfold closing
    rw [if_neg (by simp [h1]), if_pos h2]
    exact ih (fun x hx => hf x (by simp [hx])) fed

theorem closing_ends {s : Splitter} {d : Piece} {fs bl : List Piece} (hd : blank s d = false ∧ s.isDelim d.1 = true)
    (hf : ∀ f ∈ fs, blank s f = false ∧ (s.isDelim f.1 || s.isFollower f.1) = true) (hb : ∀ b ∈ bl, blank s b = true) (u : List Piece) : ∀ fed,
    (∃ v, (closing s fed (u ++ d :: (fs ++ bl))).2 = v ++ d :: (fs ++ bl)) ∨ ∀ b ∈ (closing s fed (u ++ d :: (fs ++ bl))).2, blank s b = true := by
  induction u with
  | nil =>
    intro fed
    right
    rw [List.nil_append]
    unfold closing
    rw [if_neg (by simp [hd.1]), if_pos (by simp [hd.2])]
    exact closing_followers hb fs hf fed
  | cons c u ih =>
    intro fed
    rw [List.cons_append]
    unfold closing
    split
    · split
      · exact .inl ⟨u, rfl⟩
      · exact ih _
    · split
      · exact ih _
      · exact .inl ⟨c :: u, rfl⟩

theorem body_ends {s : Splitter} (hs : s.skipWhiteSpace = true) {d : Piece} {fs bl : List Piece} (hd : blank s d = false ∧ s.isDelim d.1 = true)
    (hf : ∀ f ∈ fs, blank s f = false ∧ (s.isDelim f.1 || s.isFollower f.1) = true) (hb : ∀ b ∈ bl, blank s b = true) (u : List Piece) :
    ∀ (n : Int) (fed : Bool), ∃ r, (body s n fed (u ++ d :: (fs ++ bl))).rest = some r ∧
      ((∃ v, r = v ++ d :: (fs ++ bl)) ∨ ∀ b ∈ r, blank s b = true) := by
  induction u with
  | nil =>
    intro n fed
    rw [List.nil_append]
    have hff : feed s d = false := by
      cases hx : feed s d with
      | false => rfl
      | true =>
        rw [feed, Bool.and_eq_true, beq_iff_eq] at hx
        have := hd.1
        rw [blank, hs, hx.2] at this
        exact absurd this (by decide)
    unfold body
    rw [if_neg (by simp [hd.1]), if_neg (by simp [hff]), if_pos (by simp [hd.2])]
    exact ⟨_, rfl, .inr (closing_followers hb fs hf false)⟩
  | cons c u ih =>
    intro n fed
    rw [List.cons_append]
    unfold body
    split
    · split
      · exact ⟨_, rfl, .inl ⟨u, rfl⟩⟩
      · split
        · split
          · exact ⟨_, rfl, .inl ⟨u, rfl⟩⟩
          · exact ih _ _
        · exact ih _ _
    · split
      · exact ⟨_, rfl, .inl ⟨u, rfl⟩⟩
      · split
        · exact ⟨_, rfl, closing_ends hd hf hb u false⟩
        · exact ih _ _

/-- Nothing but white space, or a text that ends with a sentence. -/
def Quiet (s : Splitter) (cs : List Piece) : Prop := (∀ b ∈ cs, blank s b = true) ∨ EndsClosed s cs

theorem blanks_dropped {s : Splitter} {cs : List Piece} (h : ∀ b ∈ cs, blank s b = true) : cs.dropWhile (blank s) = [] := by
  induction cs with
  | nil => rfl
  | cons c cs ih => rw [List.dropWhile_cons, if_pos (h c (by simp))]; exact ih fun x hx => h x (by simp [hx])

theorem ends_dropped {s : Splitter} {d : Piece} (hd : blank s d = false) (l u : List Piece) :
    ∃ u', (u ++ d :: l).dropWhile (blank s) = u' ++ d :: l := by
  induction u with
  | nil => exact ⟨[], by rw [List.nil_append, List.dropWhile_cons, if_neg (by simp [hd])]⟩
  | cons c u ih =>
    rw [List.cons_append, List.dropWhile_cons]
    split
    · exact ih
    · exact ⟨c :: u, rfl⟩

/-- The first sentence of such a text is finished, and the rest is such a text. -/
theorem Quiet.step {s : Splitter} (hs : s.skipWhiteSpace = true) {cs : List Piece} (h : Quiet s cs) :
    cs.dropWhile (blank s) = [] ∨ ∃ r, (sentence s cs).rest = some r ∧ Quiet s r := by
  rcases h with h | ⟨u, d, fs, bl, rfl, hd, hf, hb⟩
  · exact .inl (blanks_dropped h)
  · right
    obtain ⟨u', hu⟩ := ends_dropped hd.1 (fs ++ bl) u
    obtain ⟨r, h1, h2⟩ := body_ends hs hd hf hb u' 0 false
    refine ⟨r, by unfold sentence; rw [hu]; exact h1, ?_⟩
    rcases h2 with ⟨v, h2⟩ | h2
    · exact .inr ⟨v, d, fs, bl, h2, hd, hf, hb⟩
    · exact .inl h2

theorem Quiet.next {s : Splitter} (hs : s.skipWhiteSpace = true) {cs r : List Piece} (h : Quiet s cs) (hr : (sentence s cs).rest = some r) : Quiet s r := by
  rcases Quiet.step hs h with h | ⟨r', h1, h2⟩
  · rw [sentence_empty h] at hr; cases hr
  · cases h1.symm.trans hr; exact h2

theorem Quiet.unfinished {s : Splitter} (hs : s.skipWhiteSpace = true) {cs : List Piece} (h : Quiet s cs) (hr : (sentence s cs).rest = none) :
    cs.dropWhile (blank s) = [] := by
  rcases Quiet.step hs h with h | ⟨r', h1, h2⟩
  · exact h
  · rw [h1] at hr; cases hr

/-- The end of such a text behind a cut that may be made. -/
theorem Quiet.behind {s : Splitter} {a b c x : List Piece} (h : Quiet s (a ++ b)) (hc : Quiet s a → ∀ y ∈ c, blank s y = true)
    (hcut : a = [] ∨ SafeCut s a (b ++ x)) : Quiet s (c ++ b) := by
  rcases h with h | ⟨u, d, fs, bl, he, hd, hf, hb⟩
  · left
    intro y hy
    rcases List.mem_append.mp hy with hy | hy
    · exact hc (.inl fun z hz => h z (by simp [hz])) y hy
    · exact h y (by simp [hy])
  · rcases List.append_eq_append_iff.mp he with ⟨w, e1, e2⟩ | ⟨w, e1, e2⟩
    · exact .inr ⟨c ++ w, d, fs, bl, by rw [e2, List.append_assoc], hd, hf, hb⟩
    · cases w with
      | nil => exact .inr ⟨c, d, fs, bl, by rw [e2]; rfl, hd, hf, hb⟩
      | cons d' w =>
        rw [List.cons_append, List.cons.injEq] at e2
        obtain ⟨rfl, e2⟩ := e2
        rcases List.append_eq_append_iff.mp e2 with ⟨v, k1, k2⟩ | ⟨v, k1, k2⟩
        · left
          intro y hy
          rcases List.mem_append.mp hy with hy | hy
          · exact hc (.inr ⟨u, d, fs, v, by rw [e1, k1], hd, hf, fun z hz => hb z (by rw [k2]; simp [hz])⟩) y hy
          · exact hb y (by rw [k2]; simp [hy])
        · cases v with
          | nil =>
            left
            intro y hy
            rw [List.append_nil] at k1
            rcases List.mem_append.mp hy with hy | hy
            · exact hc (.inr ⟨u, d, fs, [], by rw [e1, k1, List.append_nil], hd, hf, by simp⟩) y hy
            · rw [List.nil_append] at k2
              exact hb y (k2 ▸ hy)
          | cons f v =>
            exfalso
            have hff := hf f (by rw [k1]; simp)
            rcases hcut with h0 | h0 | ⟨h0 | ⟨⟨z, h1, h2, -⟩, -⟩, -⟩
            · rw [e1] at h0
              simp at h0
            · rw [k2] at h0
              simp at h0
            · have := h0 f (by rw [k2, List.cons_append, List.cons_append, List.find?_cons]; simp [hff.1])
              rw [this.2.1, this.2.2] at hff
              cases hff.2
            · rw [e1, List.getLast?_append] at h1
              have hz : (s.isDelim z.1 || s.isFollower z.1) = true := by
                cases hw : w.getLast? with
                | none =>
                  rw [List.getLast?_eq_none_iff.mp hw] at h1
                  cases h1
                  simp [hd.2]
                | some y =>
                  have hwn : w ≠ [] := by intro h0; rw [h0] at hw; cases hw
                  rw [List.getLast?_cons_of_ne_nil hwn, hw] at h1
                  cases h1
                  exact (hf z (by rw [k1]; simp [List.mem_of_getLast? hw])).2
              rw [h2.2.1, h2.2.2] at hz
              cases hz

/-- What may follow a text whose characters are `cs`. -/
def Follows (s : Splitter) (cs x : List Piece) : Prop :=
  x = [] ∨ (StartsOrdinary s x ∨ Midway s cs) ∧ (s.skipWhiteSpace = true → s.doubleLineFeedSplit = true → NoFeedLast cs ∨ Quiet s cs)

theorem NoFeedLast.suffix {a b : List Piece} (h : NoFeedLast (a ++ b)) : NoFeedLast b := by
  intro c hc
  apply h c
  rw [List.filter_append, List.getLast?_append, hc]; rfl

/-- Behind the first sentence. -/
theorem Follows.next {s : Splitter} {u r x : List Piece} (h : Follows s (u ++ r) x) (hr : (sentence s (u ++ r)).rest = some r) :
    (StartsOrdinary s x ∨ r ≠ []) ∧ Follows s r x := by
  rcases h with h | ⟨h | h, hf⟩
  · exact ⟨.inl (by subst h; intro c hc; cases hc), .inl h⟩
  · exact ⟨.inl h, .inr ⟨.inl h, fun h1 h2 => (hf h1 h2).imp NoFeedLast.suffix fun h => Quiet.next h1 h hr⟩⟩
  · obtain ⟨h1, h2⟩ := Midway.next h hr
    exact ⟨.inr h1, .inr ⟨.inr h2, fun h1 h2 => (hf h1 h2).imp NoFeedLast.suffix fun h => Quiet.next h1 h hr⟩⟩

/-- If white space is left out, the text has no line feed. -/
def NoFeeds (s : Splitter) (cs : List Piece) : Prop := s.skipWhiteSpace = true → ∀ c ∈ cs, c.1 ≠ 10

/-- What the calls on a buffer give before the end of the input, in view of what will follow. -/
theorem drain_more_follow {s : Splitter} (hsp : s.isDelim 0x20 = false) {fuel : Nat} {buf : Bytes}
    {r : List Bytes × Bytes} (hr : drain s.scanSentences false fuel buf = some r) :
    ∀ bs, buf = enc bs → (∃ ls, r.2 = enc ls) ∧ NoFeeds s (pieces r.2) ∧ (s.skipWhiteSpace = true → Quiet s (pieces buf) → ∀ c ∈ pieces r.2, blank s c = true) ∧ (pieces r.2).filter (kept s) <:+ (pieces buf).filter (kept s) ∧
      ∀ x, Follows s (pieces buf) x →
        nonEmpty r.1 ++ sentencesOf s (pieces r.2 ++ x) = sentencesOf s (pieces buf ++ x) := by
  refine drain_induct s false (fun buf toks left => ∀ bs, buf = enc bs → (∃ ls, left = enc ls) ∧ NoFeeds s (pieces left) ∧
      (s.skipWhiteSpace = true → Quiet s (pieces buf) → ∀ c ∈ pieces left, blank s c = true) ∧
      (pieces left).filter (kept s) <:+ (pieces buf).filter (kept s) ∧ ∀ x, Follows s (pieces buf) x →
        nonEmpty toks ++ sentencesOf s (pieces left ++ x) = sentencesOf s (pieces buf ++ x)) ?_ ?_ ?_ ?_ fuel buf r hr
  · intro bs _; exact ⟨⟨[], rfl⟩, fun _ c hc => by simp [pieces_nil] at hc, fun _ _ c hc => by simp [pieces_nil] at hc, List.suffix_refl _, fun x _ => rfl⟩
  · intro data used rest toks left h1 h2 h3 hne ih bs hbs
    rw [pieces_text_suffix h1] at ih
    have hrest : ∃ cs, text rest = enc cs := by
      subst hbs
      rw [pieces_enc] at h1
      obtain ⟨c1, c3, e1, e2, e3⟩ := split_chars h1
      exact ⟨c3, by rw [e3, text_charPieces]⟩
    obtain ⟨cs, hcs⟩ := hrest
    obtain ⟨i1, i2, i5, i4, i3⟩ := ih cs hcs
    have hsuf : rest.filter (kept s) <:+ (pieces data).filter (kept s) := by
      rw [h1]; exact (List.suffix_append _ _).filter (kept s)
    refine ⟨i1, i2, fun k1 k2 => i5 k1 (Quiet.next k1 k2 h2), i4.trans hsuf, fun x hx => ?_⟩
    have hd : (pieces data).dropWhile (blank s) ≠ [] := by
      intro h0; rw [sentence_empty h0] at h2; cases h2
    have hb := sentence_body_ne hd
    have hu : used.filter (kept s) ≠ [] := by rw [← h3]; simp [hb]
    have ht := text_ne_nil (b := data) (cs := used.filter (kept s))
      (fun c hc => by rw [h1]; have := (List.mem_filter.mp hc).1; simp [this]) hu
    rw [h1] at hx
    obtain ⟨hx1, hx2⟩ := hx.next (by rw [← h1]; exact h2)
    obtain ⟨r', hr', hsa⟩ := sentence_loose hx1 h2
    rw [sentencesOf_cons (cs := pieces data ++ x) (rest := r') (by rw [hsa]), hsa, h3, sentencesOf_congr hr', ← i3 x hx2]
    simp [nonEmpty, ht]
  · intro h; cases h
  · intro _ data used n hne h1 h2 h3 h4 hl bs hbs
    by_cases hs : s.skipWhiteSpace = true
    · subst hbs
      have h1' := h1
      rw [pieces_enc] at h1
      obtain ⟨c1, c3, e1, e2, e3⟩ := split_chars h1
      have hleft : pieces (text (used.filter (kept s)) ++ List.replicate n 0x20) =
          used.filter (kept s) ++ (List.replicate n ' ').map charPiece := by
        rw [e3, kept_charPieces hs, text_charPieces, enc_spaces, pieces_enc_append, pieces_enc]
      have hk : ∀ c ∈ used.filter (kept s), blank s c = false := by
        intro c hc
        have := (List.mem_filter.mp hc).2
        simpa using this
      have hsps : ∀ c ∈ (List.replicate n ' ').map charPiece, c.1 = 0x20 := by
        intro c hc
        obtain ⟨x, hx, rfl⟩ := List.mem_map.mp hc
        rw [List.eq_of_mem_replicate hx]; rfl
      have hnf : ∀ c ∈ used.filter (kept s) ++ (List.replicate n ' ').map charPiece, c.1 ≠ 10 := by
        intro c hc h10
        rcases List.mem_append.mp hc with hc | hc
        · have := hk c hc
          rw [blank, hs, h10] at this
          exact absurd this (by decide)
        · rw [hsps c hc] at h10; cases h10
      refine ⟨⟨c3.filter nonSpace ++ List.replicate n ' ', ?_⟩, ?_, ?_, ?_, ?_⟩
      · rw [e3, kept_charPieces hs, text_charPieces, enc_spaces, enc_append]
      · rw [hleft]; exact fun _ => hnf
      · intro _ hq
        rw [sentence_empty (Quiet.unfinished hs hq h2)] at h3
        rw [hleft, ← h3, List.nil_append]
        intro c hc
        rw [blank, hs, hsps c hc]; rfl
      · have hgone : ((List.replicate n ' ').map charPiece).filter (kept s) = [] := by
          rw [List.filter_eq_nil_iff]
          intro c hc
          have : isSpace 0x20 = true := by decide
          simp [blank, hs, hsps c hc, this]
        rw [hleft, List.filter_append, hgone, List.append_nil, List.filter_filter]
        simp only [Bool.and_self]
        conv => rhs; rw [h1']
        exact (List.suffix_append _ _).filter (kept s)
      intro x hx
      rw [hleft]
      change [] ++ _ = _
      rw [List.nil_append]
      by_cases hd : (pieces (enc bs)).dropWhile (blank s) = []
      · rw [sentence_empty hd] at h3
        rw [← h3, List.nil_append]
        apply sentencesOf_congr
        rw [dropWhile_blanks x hd, dropWhile_blanks]
        have hall : ∀ l : List Piece, (∀ c ∈ l, c.1 = 0x20) → l.dropWhile (blank s) = [] := by
          intro l
          induction l with
          | nil => intro _; rfl
          | cons c l ih =>
            intro hl
            rw [List.dropWhile_cons, if_pos (by rw [blank, hs, hl c (by simp)]; rfl)]
            exact ih fun x hx => hl x (by simp [hx])
        exact hall _ hsps
      · have hb := sentence_body_ne hd
        have hunf := body_unfinished s _ 0 false h2
        change (∀ c ∈ (sentence s (pieces (enc bs))).body, _) ∧ ((sentence s (pieces (enc bs))).body = [] ∨
          0 + ((sentence s (pieces (enc bs))).body.length : Int) < _) at hunf
        rw [h3] at hunf hb
        have hre := body_rescan hs hsp _ hsps _ 0 false hk hunf.1 hunf.2
        have hdw : (used.filter (kept s) ++ (List.replicate n ' ').map charPiece).dropWhile (blank s) =
            used.filter (kept s) ++ (List.replicate n ' ').map charPiece := by
          cases hu : used.filter (kept s) with
          | nil => exact absurd hu hb
          | cons c cs =>
            rw [List.cons_append, List.dropWhile_cons, if_neg]
            rw [hk c (by rw [hu]; simp)]; simp
        have hused : (pieces (enc bs)).dropWhile (blank s) = used := by
          have := List.takeWhile_append_dropWhile (p := blank s) (l := pieces (enc bs))
          conv at this => rhs; rw [h1']
          exact List.append_cancel_left this
        rcases hx with rfl | ⟨-, hfl⟩
        · -- nothing follows
          simp only [List.append_nil]
          have hse : sentence s (used.filter (kept s) ++ (List.replicate n ' ').map charPiece) =
              ⟨used.filter (kept s), [], none⟩ := by
            unfold sentence; rw [hdw]; exact hre
          rw [sentencesOf_last h2, h3, if_neg hd, sentencesOf_last (by rw [hse]), hdw, hse, if_neg (by simp [hb])]
        · have hL : sentence s (used.filter (kept s) ++ (List.replicate n ' ').map charPiece ++ x) =
              Cut.prepend (used.filter (kept s)) (body s (0 + (used.filter (kept s)).length) false x) := by
            unfold sentence
            rw [dropWhile_behind x (by rw [hdw]; simp [hb]), hdw, body_more x _ 0 false (by rw [hre]), hre]
            simp only
            rw [pending_clear hs (fun _ c hc => hnf c (List.mem_filter.mp (List.mem_of_getLast? hc)).1)]
          have hR : sentence s (pieces (enc bs) ++ x) =
              Cut.prepend (used.filter (kept s)) (body s (0 + (used.filter (kept s)).length) false x) := by
            unfold sentence
            rw [dropWhile_behind x hd, body_more x _ 0 false h2]
            change Cut.prepend (sentence s (pieces (enc bs))).body
              (body s (0 + (sentence s (pieces (enc bs))).body.length) _ x) = _
            rw [h3, hused, pending_clear hs]
            intro hdb
            rcases hfl hs hdb with this | this
            · rw [h1'] at this
              exact NoFeedLast.suffix this
            · exact absurd (Quiet.unfinished hs this h2) hd
          have hLR := hL.trans hR.symm
          cases hrest : (sentence s (pieces (enc bs) ++ x)).rest with
          | some rest => rw [sentencesOf_cons hrest, sentencesOf_cons (by rw [hLR]; exact hrest), hLR]
          | none =>
            rw [sentencesOf_last hrest, sentencesOf_last (by rw [hLR]; exact hrest), hLR, if_neg, if_neg]
            · rw [dropWhile_behind x hd]; simp [hd]
            · rw [dropWhile_behind x (by rw [hdw]; simp [hb]), hdw]; simp [hb]
    · have hs' : s.skipWhiteSpace = false := by simpa using hs
      rw [leading_off hs', List.nil_append] at h1
      rw [leading_off hs', kept_off hs', ← h1, text_pieces] at hl
      have hn : n = 0 := by simp at hl; omega
      subst hn
      rw [kept_off hs', ← h1, text_pieces]
      simp only [List.replicate_zero, List.append_nil]
      exact ⟨⟨bs, hbs⟩, fun h => absurd h hs, fun h => absurd h hs, List.suffix_refl _, fun x _ => rfl⟩

/-- The cuts of a reader that goes on after `seen`. -/
def CutsOn (s : Splitter) (seen : Bytes) (reader : List ReadResult) : Prop :=
  ∀ before after, reader = before ++ after → (∀ x ∈ before, x.err = false) →
    seen ++ delivered before = [] ∨ SafeCut s (pieces (seen ++ delivered before)) (pieces (delivered after))

theorem CutsOn.tail {s : Splitter} {seen : Bytes} {rd : ReadResult} {rds : List ReadResult} (he : rd.err = false)
    (h : CutsOn s seen (rd :: rds)) : CutsOn s (seen ++ rd.bytes) rds := by
  intro before after hr hb
  have := h (rd :: before) after (by rw [hr]; rfl) (by
    intro y hy
    rcases List.mem_cons.mp hy with rfl | hy
    · exact he
    · exact hb y hy)
  rw [delivered, if_neg (by simp [he]), ← List.append_assoc] at this
  exact this

theorem CutsOn.follows {s : Splitter} {rds : List ReadResult} {seen : Bytes} (hne : seen ≠ []) (h : CutsOn s seen rds) :
    Follows s (pieces seen) (pieces (delivered rds)) := by
  have h0 := h [] rds rfl (by simp)
  simp only [delivered, List.append_nil] at h0
  rcases h0 with h0 | h0
  · exact absurd h0 hne
  · exact h0.imp_right fun ⟨h1, h2⟩ => ⟨h1, fun h3 h4 => (h2 h3 h4).imp_right .inr⟩

theorem NoFeedLast.of_tail {a b c : List Piece} (h : NoFeedLast (a ++ c)) (hb : ∀ x ∈ b, x.1 ≠ 10) : NoFeedLast (b ++ c) := by
  intro x hx
  rw [List.filter_append, List.getLast?_append] at hx
  cases hc : (c.filter (fun c => isSpace c.1)).getLast? with
  | some y =>
    rw [hc] at hx
    apply h x
    rw [List.filter_append, List.getLast?_append, hc]; exact hx
  | none =>
    rw [hc] at hx
    exact hb x (List.mem_filter.mp (List.mem_of_getLast? (by simpa using hx))).1

theorem scanFrom_safe {s : Splitter} (hsp : s.isDelim 0x20 = false) (reader : List ReadResult)
    (hv : ∀ rd ∈ reader, ValidUtf8 rd.bytes) :
    ∀ (empties : Nat) (seen : List Char) (bs : List Char) (toks : List Bytes), NoFeeds s (pieces (enc bs)) →
      (s.skipWhiteSpace = true → Quiet s (pieces (enc seen)) → ∀ c ∈ pieces (enc bs), blank s c = true) →
      (pieces (enc bs)).filter (kept s) <:+ (pieces (enc seen)).filter (kept s) → CutsOn s (enc seen) reader → scanFrom s.scanSentences reader empties (enc bs) = some (toks, .done) →
      nonEmpty toks = sentencesOf s (pieces (enc bs ++ delivered reader)) := by
  induction reader with
  | nil =>
    intro empties seen bs toks _ _ _ _ hs
    unfold scanFrom at hs
    cases hd : drain s.scanSentences true ((enc bs).length + 1) (enc bs) with
    | none => rw [hd] at hs; cases hs
    | some r =>
      rw [hd] at hs; cases hs
      rw [delivered, List.append_nil]
      exact drain_eof_sentences hd
  | cons rd rds ih =>
    intro empties seen bs toks hnf hqs hsuf hcut hs
    have ih := ih fun x hx => hv x (by simp [hx])
    obtain ⟨rs, hrs⟩ := hv rd (by simp)
    change rd.bytes = enc rs at hrs
    unfold scanFrom at hs
    unfold delivered
    by_cases he : rd.err = true
    · rw [if_pos he] at hs ⊢
      cases hd : drain s.scanSentences true ((enc bs ++ rd.bytes).length + 1) (enc bs ++ rd.bytes) with
      | none => rw [hd] at hs; cases hs
      | some r =>
        rw [hd] at hs; cases hs
        exact drain_eof_sentences hd
    · have ht := hcut.tail (by simpa using he)
      rw [if_neg he] at hs ⊢
      rw [hrs, ← enc_append] at ht
      by_cases hb : rd.bytes.isEmpty = true
      · rw [if_pos hb] at hs
        have hb' : rd.bytes = [] := List.isEmpty_iff.mp hb
        by_cases hm : maxEmptyReads ≤ empties
        · rw [if_pos hm] at hs
          cases hd : drain s.scanSentences true ((enc bs).length + 1) (enc bs) with
          | none => rw [hd] at hs; cases hs
          | some r => rw [hd] at hs; cases hs
        · rw [if_neg hm] at hs
          rw [hb', List.nil_append]
          have hrs0 : rs = [] := by
            have h0 := pieces_enc rs
            rw [← hrs, hb', pieces_nil] at h0
            exact List.map_eq_nil_iff.mp h0.symm
          subst hrs0
          rw [List.append_nil] at ht
          exact ih _ _ _ _ hnf hqs hsuf ht hs
      · rw [if_neg hb] at hs
        cases hd : drain s.scanSentences false ((enc bs ++ rd.bytes).length + 1) (enc bs ++ rd.bytes) with
        | none => rw [hd] at hs; cases hs
        | some r =>
          rw [hd] at hs
          simp only [Option.bind_eq_bind, Option.bind_some] at hs
          obtain ⟨⟨ls, hls⟩, g2, g5, g4, g3⟩ := drain_more_follow hsp hd (bs ++ rs) (by rw [hrs, enc_append])
          by_cases hx : maxTokenSize ≤ r.2.length
          · rw [if_pos hx] at hs; cases hs
          · rw [if_neg hx, hls] at hs
            rw [hls] at g2
            cases hc : scanFrom s.scanSentences rds 0 (enc ls) with
            | none => rw [hc] at hs; cases hs
            | some m =>
              rw [hc] at hs
              obtain ⟨m1, m2⟩ := m
              simp only [Option.bind_some, Option.some.injEq, Prod.mk.injEq] at hs
              obtain ⟨rfl, rfl⟩ := hs
              have hsuf2 : (pieces (enc bs ++ rd.bytes)).filter (kept s) <:+ (pieces (enc (seen ++ rs))).filter (kept s) := by
                rw [enc_append, hrs, pieces_enc_append, pieces_enc_append, List.filter_append, List.filter_append]
                rw [pieces_enc, pieces_enc] at hsuf
                obtain ⟨u, hu⟩ := hsuf
                exact ⟨u, by rw [← List.append_assoc, hu]⟩
              have hq2 : s.skipWhiteSpace = true → Quiet s (pieces (enc (seen ++ rs))) → Quiet s (pieces (enc bs ++ rd.bytes)) := by
                intro k1 k2
                rw [enc_append, pieces_enc_append, ← pieces_enc, ← hrs] at k2
                rw [pieces_enc_append, ← pieces_enc]
                refine Quiet.behind (x := pieces (delivered rds)) k2 (hqs k1) ?_
                have h0 := hcut [] (rd :: rds) rfl (by simp)
                simp only [delivered, List.append_nil, if_neg he] at h0
                rw [hrs, pieces_enc_append, ← pieces_enc, ← hrs] at h0
                exact h0.imp_left pieces_eq_nil.mpr
              have hi := ih 0 (seen ++ rs) ls m1 g2 (fun k1 k2 => by rw [← hls]; exact g5 k1 (hq2 k1 k2)) (by rw [← hls]; exact g4.trans hsuf2) ht hc
              have hne : enc (seen ++ rs) ≠ [] := by
                rw [enc_append, ← hrs]
                intro h0
                exact hb (by rw [List.isEmpty_iff]; exact (List.append_eq_nil_iff.mp h0).2)
              have hf := ht.follows hne
              have hf2 : Follows s (pieces (enc bs ++ rd.bytes)) (pieces (delivered rds)) := by
                rcases hf with hf | ⟨hf, hfl⟩
                · exact .inl hf
                · refine .inr ⟨?_, fun h1 h2 => ?_⟩
                  · rcases hf with hf | ⟨⟨c, k1, k2, k3⟩, k4⟩
                    · exact .inl hf
                    · refine .inr ⟨⟨c, ?_, k2, k3⟩, by have := sinceDelim_suffix hsuf2; omega⟩
                      rw [enc_append, ← hrs, pieces_enc_append, List.getLast?_append] at k1
                      rw [pieces_enc_append, List.getLast?_append]
                      cases hg : (pieces rd.bytes).getLast? with
                      | none => exact absurd (pieces_eq_nil.mp (List.getLast?_eq_none_iff.mp hg)) (by simpa [List.isEmpty_iff] using hb)
                      | some y => rw [hg] at k1; exact k1
                  rcases hfl h1 h2 with this | this
                  · left
                    rw [enc_append, pieces_enc_append, ← hrs] at this
                    rw [pieces_enc_append]
                    rw [pieces_enc] at hnf
                    exact NoFeedLast.of_tail this (hnf h1)
                  · exact .inr (hq2 h1 this)
              have := g3 _ hf2
              rw [nonEmpty_append, hi, pieces_enc_append, ← pieces_enc, ← hls, this, ← List.append_assoc, hrs, ← enc_append,
                pieces_enc_append, pieces_enc]

/-- C38, for a reader that delivers whole characters and cuts the text only in front of an ordinary character (one that is no
delimiter, no follower and not left out), possibly with white space before it, or behind one in the middle of a sentence and, if both white-space options are on, not where the last white space is
a line feed, unless it stands behind the end of a sentence: the non-empty sentences are those of the text, however many reads deliver it. Missing from the full claim: other cuts,
where it is false (`C38_violated`, `C38_cut_needed`). -/
theorem C38_safe_cuts_partial (s : Splitter) (hsp : s.isDelim 0x20 = false) (reader : List ReadResult)
    (hv : ∀ rd ∈ reader, ValidUtf8 rd.bytes) (hcut : CutsSafely s reader) {out : List Bytes}
    (h : scanAll s.scanSentences reader = some (out, .done)) : nonEmpty out = sentences s (delivered reader) :=
  scanFrom_safe hsp reader hv 0 [] [] out (fun _ c hc => by simp [pieces_nil] at hc) (fun _ _ c hc => by simp [pieces_nil] at hc) (List.suffix_refl _)
    (fun b a h1 h2 => by simpa using hcut b a h1 h2) h

theorem starts_at {s : Splitter} {x : List Piece} {k : Piece} (h : x.find? (fun c => !blank s c) = some k) (ho : Ordinary s k) : StartsOrdinary s x := by
  intro c hc
  cases h.symm.trans hc
  exact ho

theorem noFeed_at {cs : List Piece} {k : Piece} (h : (cs.filter (fun c => isSpace c.1)).getLast? = some k) (hk : k.1 ≠ 10) : NoFeedLast cs := by
  intro c hc
  cases h.symm.trans hc
  exact hk

/-- The hypotheses hold of a reader with four chunks, one of them empty; white space stands around the first cut. -/
example : let reader : List ReadResult := [⟨str " a b?)\n", false⟩, ⟨str " \n\nc d", false⟩, ⟨str "", false⟩, ⟨str "e\n\nf", false⟩]
    (∀ rd ∈ reader, ValidUtf8 rd.bytes) ∧ CutsSafely defaultSplitter reader ∧
    scanAll defaultSplitter.scanSentences reader = some ([str "ab?)", str "cde", str "f"], .done) := by
  refine ⟨?_, ?_, by decide +kernel⟩
  · intro rd h
    simp only [List.mem_cons, List.not_mem_nil, or_false] at h
    rcases h with rfl | rfl | rfl | rfl
    · exact ⟨[' ', 'a', ' ', 'b', '?', ')', '\n'], by decide +kernel⟩
    · exact ⟨[' ', '\n', '\n', 'c', ' ', 'd'], by decide +kernel⟩
    · exact ⟨[], rfl⟩
    · exact ⟨['e', '\n', '\n', 'f'], by decide +kernel⟩
  · intro before after h _
    rcases before with _ | ⟨a, _ | ⟨b, _ | ⟨c, _ | ⟨d, _ | ⟨e, before⟩⟩⟩⟩⟩
    · exact .inl rfl
    · simp only [List.cons_append, List.nil_append, List.cons.injEq] at h
      obtain ⟨rfl, rfl⟩ := h
      exact .inr (.inr ⟨.inl (starts_at (k := (99, [99])) (by decide +kernel) ⟨by decide +kernel, by decide +kernel, by decide +kernel⟩),
        fun _ _ => .inr ⟨pieces (str " a b"), (63, [63]), pieces (str ")"), pieces (str "\n"), by decide +kernel, by decide +kernel, by decide +kernel,
          by decide +kernel⟩⟩)
    · simp only [List.cons_append, List.nil_append, List.cons.injEq] at h
      obtain ⟨rfl, rfl, rfl⟩ := h
      exact .inr (.inr ⟨.inl (starts_at (k := (101, [101])) (by decide +kernel) ⟨by decide +kernel, by decide +kernel, by decide +kernel⟩),
        fun _ _ => .inl <| noFeed_at (k := (0x20, [0x20])) (by decide +kernel) (by decide)⟩)
    · simp only [List.cons_append, List.nil_append, List.cons.injEq] at h
      obtain ⟨rfl, rfl, rfl, rfl⟩ := h
      exact .inr (.inr ⟨.inl (starts_at (k := (101, [101])) (by decide +kernel) ⟨by decide +kernel, by decide +kernel, by decide +kernel⟩),
        fun _ _ => .inl <| noFeed_at (k := (0x20, [0x20])) (by decide +kernel) (by decide)⟩)
    · simp only [List.cons_append, List.nil_append, List.cons.injEq] at h
      obtain ⟨-, -, -, -, rfl⟩ := h
      exact .inr (.inl rfl)
    · exact absurd (congrArg List.length h) (by simp)

/-- The hypotheses also hold where what follows begins with a delimiter or a line feed, in the middle of a sentence. -/
example : let reader : List ReadResult := [⟨str "a b", false⟩, ⟨str "?) c", false⟩, ⟨str "\n\n?d", true⟩]
    (∀ rd ∈ reader, ValidUtf8 rd.bytes) ∧ CutsSafely defaultSplitter reader ∧
    scanAll defaultSplitter.scanSentences reader = some ([str "ab?)", str "c", str "?", str "d"], .done) := by
  refine ⟨?_, ?_, by decide +kernel⟩
  · intro rd h
    simp only [List.mem_cons, List.not_mem_nil, or_false] at h
    rcases h with rfl | rfl | rfl
    · exact ⟨['a', ' ', 'b'], by decide +kernel⟩
    · exact ⟨['?', ')', ' ', 'c'], by decide +kernel⟩
    · exact ⟨['\n', '\n', '?', 'd'], by decide +kernel⟩
  · intro before after h he
    rcases before with _ | ⟨a, _ | ⟨b, _ | ⟨c, _ | ⟨d, before⟩⟩⟩⟩
    · exact .inl rfl
    · simp only [List.cons_append, List.nil_append, List.cons.injEq] at h
      obtain ⟨rfl, rfl⟩ := h
      exact .inr (.inr ⟨.inr ⟨⟨(98, [98]), by decide +kernel, ⟨by decide +kernel, by decide +kernel, by decide +kernel⟩, by decide⟩, by decide +kernel⟩,
        fun _ _ => .inl <| noFeed_at (k := (0x20, [0x20])) (by decide +kernel) (by decide)⟩)
    · simp only [List.cons_append, List.nil_append, List.cons.injEq] at h
      obtain ⟨rfl, rfl, rfl⟩ := h
      exact .inr (.inr ⟨.inr ⟨⟨(99, [99]), by decide +kernel, ⟨by decide +kernel, by decide +kernel, by decide +kernel⟩, by decide⟩, by decide +kernel⟩,
        fun _ _ => .inl <| noFeed_at (k := (0x20, [0x20])) (by decide +kernel) (by decide)⟩)
    · simp only [List.cons_append, List.nil_append, List.cons.injEq] at h
      obtain ⟨rfl, rfl, rfl, rfl⟩ := h
      have := he _ (List.mem_cons_of_mem _ (List.mem_cons_of_mem _ (List.mem_cons_self ..)))
      cases this
    · exact absurd (congrArg List.length h) (by simp)

/-- C38: in the middle of a sentence its length matters, and the line feed. The texts `ab?c` (sentences of two characters) and `a`, `b`, `c` on three lines are
cut behind an ordinary `b`; delivered at once they are split otherwise. -/
theorem C38_cut_needed :
    (scanAll { defaultSplitter with maxRuneLen := 2 }.scanSentences [⟨str "ab", false⟩, ⟨str "?c", true⟩] = some ([str "ab", str "?", str "c"], .done) ∧
      scanAll { defaultSplitter with maxRuneLen := 2 }.scanSentences [⟨str "ab?c", true⟩] = some ([str "ab?", str "c"], .done)) ∧
    (scanAll defaultSplitter.scanSentences [⟨str "a\nb", false⟩, ⟨str "\nc", true⟩] = some ([str "abc"], .done) ∧
      scanAll defaultSplitter.scanSentences [⟨str "a\nb\nc", true⟩] = some ([str "ab", str "c"], .done)) := by
  refine ⟨⟨?_, ?_⟩, ?_, ?_⟩ <;> decide +kernel

/-- C38, two such readers of the same text. -/
theorem C38_same_text_partial (s : Splitter) (hsp : s.isDelim 0x20 = false) (r1 r2 : List ReadResult)
    (hv1 : ∀ rd ∈ r1, ValidUtf8 rd.bytes) (hv2 : ∀ rd ∈ r2, ValidUtf8 rd.bytes)
    (hc1 : CutsSafely s r1) (hc2 : CutsSafely s r2) (hd : delivered r1 = delivered r2) {o1 o2 : List Bytes}
    (h1 : scanAll s.scanSentences r1 = some (o1, .done)) (h2 : scanAll s.scanSentences r2 = some (o2, .done)) :
    nonEmpty o1 = nonEmpty o2 := by
  rw [C38_safe_cuts_partial s hsp r1 hv1 hc1 h1, C38_safe_cuts_partial s hsp r2 hv2 hc2 h2, hd]

/-! ## C37: line feeds that do not end a sentence -/

theorem feedsApart_tail {s : Splitter} {c : Piece} {u : List Piece} (h : FeedsApart s (c :: u)) : FeedsApart s u :=
  fun before f1 between f2 after e => h (c :: before) f1 between f2 after (by rw [e]; rfl)

/-- The next line feed of a text, if any, comes after a character with `P`. -/
def FeedAfter (P : Piece → Prop) (u : List Piece) : Prop :=
  ∀ v f w, u = v ++ f :: w → f.1 = 10 → (∀ c ∈ v, c.1 ≠ 10) → ∃ c ∈ v, P c

theorem FeedAfter.head {P : Piece → Prop} {c : Piece} {u : List Piece} (h : FeedAfter P (c :: u)) : c.1 ≠ 10 := by
  intro hc
  obtain ⟨x, hx, -⟩ := h [] c u rfl hc (by simp)
  cases hx

theorem FeedAfter.tail {P : Piece → Prop} {c : Piece} {u : List Piece} (h : FeedAfter P (c :: u)) (hp : ¬ P c) : FeedAfter P u := by
  intro v f w e hf hv
  obtain ⟨x, hx, hpx⟩ := h (c :: v) f w (by rw [e]; rfl) hf (by
    intro y hy
    rcases List.mem_cons.mp hy with rfl | hy
    · exact h.head
    · exact hv y hy)
  rcases List.mem_cons.mp hx with rfl | hx
  · exact absurd hpx hp
  · exact ⟨x, hx, hpx⟩

theorem feedsApart_after {s : Splitter} {c : Piece} {u : List Piece} (h : FeedsApart s (c :: u)) (hc : c.1 = 10) :
    FeedAfter (fun x => blank s x = true) u ∧ FeedAfter (Ordinary s) u :=
  ⟨fun v f w e hf hv => (h [] c v f w (by rw [e]; rfl) hc hf hv).1,
   fun v f w e hf hv => (h [] c v f w (by rw [e]; rfl) hc hf hv).2⟩

theorem closing_apart {s : Splitter} (cs : List Piece) : ∀ fed u,
    cs = u ++ (closing { s with doubleLineFeedSplit := false } false cs).2 → FeedsApart s u →
    (fed = true → FeedAfter (Ordinary s) u) →
    closing { s with doubleLineFeedSplit := true } fed cs = closing { s with doubleLineFeedSplit := false } false cs := by
  induction cs with
  | nil => intro fed u _ _ _; rfl
  | cons c cs ih =>
    intro fed u hu ha hfed
    have hb : blank { s with doubleLineFeedSplit := true } c = blank s c := rfl
    have hb2 : blank { s with doubleLineFeedSplit := false } c = blank s c := rfl
    have hf1 : feed { s with doubleLineFeedSplit := true } c = (c.1 == 10) := by simp [feed]
    have hf2 : feed { s with doubleLineFeedSplit := false } c = false := by simp [feed]
    have hdl : ∀ b, Splitter.isDelim { s with doubleLineFeedSplit := b } c.1 = s.isDelim c.1 := fun _ => rfl
    have hfl : ∀ b, Splitter.isFollower { s with doubleLineFeedSplit := b } c.1 = s.isFollower c.1 := fun _ => rfl
    unfold closing at hu ⊢
    rw [hf2, hb2] at hu
    rw [hf1, hf2, hb, hb2]
    simp only [hdl, hfl, Bool.false_and, Bool.or_false, Bool.false_eq_true, if_false] at hu ⊢
    obtain ⟨u0, e0, -⟩ := closing_split { s with doubleLineFeedSplit := false } false cs
    by_cases hc : blank s c = true
    · rw [if_pos hc] at hu
      rw [if_pos hc, if_pos hc]
      have hu' : u = c :: u0 := by
        apply List.append_cancel_right (hu.symm.trans _)
        rw [List.cons_append, ← e0]
      subst hu'
      have hno : ¬ Ordinary s c := fun h => by rw [h.1] at hc; cases hc
      by_cases h10 : c.1 = 10
      · have hff : fed = false := by
          cases fed with
          | false => rfl
          | true => exact absurd h10 (hfed rfl).head
        subst hff
        rw [if_neg (by simp)]
        exact ih _ u0 e0 (feedsApart_tail ha) (fun _ => (feedsApart_after ha h10).2)
      · rw [if_neg (by simp [h10])]
        refine ih _ u0 e0 (feedsApart_tail ha) (fun h => ?_)
        exact (hfed (by simpa [h10] using h)).tail hno
    · rw [if_neg hc] at hu
      rw [if_neg hc, if_neg hc]
      by_cases hd : (s.isDelim c.1 || s.isFollower c.1) = true
      · rw [if_pos hd] at hu
        rw [if_pos hd, if_pos hd]
        have hu' : u = c :: u0 := by
          apply List.append_cancel_right (hu.symm.trans _)
          rw [List.cons_append, ← e0]
        subst hu'
        have hno : ¬ Ordinary s c := fun h => by simp [h.2.1, h.2.2] at hd
        rw [ih fed u0 e0 (feedsApart_tail ha) (fun h => (hfed h).tail hno)]
      · rw [if_neg hd, if_neg hd]

theorem body_apart {s : Splitter} (cs : List Piece) : ∀ (n : Int) fed u,
    cs = u ++ (body { s with doubleLineFeedSplit := false } n false cs).rest.getD [] → FeedsApart s u →
    (fed = true → FeedAfter (fun x => blank s x = true) u) →
    body { s with doubleLineFeedSplit := true } n fed cs = body { s with doubleLineFeedSplit := false } n false cs := by
  induction cs with
  | nil => intro n fed u _ _ _; rfl
  | cons c cs ih =>
    intro n fed u hu ha hfed
    have hb : blank { s with doubleLineFeedSplit := true } c = blank s c := rfl
    have hb2 : blank { s with doubleLineFeedSplit := false } c = blank s c := rfl
    have hf1 : feed { s with doubleLineFeedSplit := true } c = (c.1 == 10) := by simp [feed]
    have hf2 : feed { s with doubleLineFeedSplit := false } c = false := by simp [feed]
    have hdl : ∀ b, Splitter.isDelim { s with doubleLineFeedSplit := b } c.1 = s.isDelim c.1 := fun _ => rfl
    have hul : ∀ u0, cs = u0 ++ (body { s with doubleLineFeedSplit := false } n false (c :: cs)).rest.getD [] → u = c :: u0 := by
      intro u0 e0
      apply List.append_cancel_right (hu.symm.trans _)
      rw [List.cons_append, ← e0]
    unfold body at hul ⊢
    rw [hf2, hb2] at hul
    rw [hf1, hf2, hb, hb2]
    simp only [hdl, Bool.false_and, Bool.or_false, Bool.false_eq_true, if_false] at hul ⊢
    by_cases hc : blank s c = true
    · simp only [if_pos hc] at hul ⊢
      by_cases hd : s.isDelim c.1 = true
      · rw [if_pos hd, if_pos hd]
      · simp only [if_neg hd] at hul ⊢
        obtain ⟨u0, e0, -⟩ := body_split { s with doubleLineFeedSplit := false } cs n false
        have hu' := hul u0 e0
        subst hu'
        by_cases h10 : c.1 = 10
        · have hff : fed = false := by
            cases fed with
            | false => rfl
            | true => exact absurd h10 (hfed rfl).head
          subst hff
          rw [if_pos (by simp [h10]), if_neg (by simp)]
          exact ih n true u0 e0 (feedsApart_tail ha) (fun _ => (feedsApart_after ha h10).1)
        · rw [if_neg (by simp [h10])]
          exact ih n false u0 e0 (feedsApart_tail ha) (by simp)
    · simp only [if_neg hc] at hul ⊢
      by_cases hd : (s.isDelim c.1 || decide (s.maxRuneLen ≤ n + 1)) = true
      · simp only [if_pos hd] at hul ⊢
        obtain ⟨u0, e0, -⟩ := closing_split { s with doubleLineFeedSplit := false } false cs
        have hu' := hul u0 e0
        subst hu'
        rw [if_neg, closing_apart cs false u0 e0 (feedsApart_tail ha) (by simp)]
        cases fed with
        | false => simp
        | true => simp [(hfed rfl).head]
      · simp only [if_neg hd] at hul ⊢
        obtain ⟨u0, e0, -⟩ := body_split { s with doubleLineFeedSplit := false } cs (n + 1) false
        have hu' := hul u0 e0
        subst hu'
        have hff : fed = true → c.1 ≠ 10 := fun h => (hfed h).head
        rw [if_neg]
        · rw [ih (n + 1) _ u0 e0 (feedsApart_tail ha)]
          intro h
          by_cases h10 : c.1 = 10
          · exact (feedsApart_after ha h10).1
          · exact (hfed (by simpa [h10] using h)).tail hc
        · cases fed with
          | false => simp
          | true => simp [hff rfl]

/-- C37, second half, more generally: a call returns the same sentence and advance whether `DoubleLineFeedSplit` is on or off,
if any two line feeds among the characters it consumes with the option off (all that there are, if it finds no sentence) have
between them another white-space character and an ordinary character. Nothing is required of the text behind. Missing from the
full claim: line feeds that are merely not adjacent, for which it is false (`C37_single_violated`). -/
theorem C37_apart_partial (s : Splitter) (data : Bytes) (atEOF : Bool) {off : SplitResult}
    (hoff : { s with doubleLineFeedSplit := false }.scanSentences data atEOF = some off)
    (h : ∀ used rest, (pieces data).dropWhile (blank s) = used ++ rest →
      (if off.token = none then rest = [] else off.advance + (text rest).length = data.length) → FeedsApart s used) :
    ∃ on, { s with doubleLineFeedSplit := true }.scanSentences data atEOF = some on ∧
      on.advance = off.advance ∧ on.token = off.token ∧
      ∀ a b, on.token = some (a, b) → (on.data.take b).drop a = (off.data.take b).drop a := by
  have key : sentence { s with doubleLineFeedSplit := true } (pieces data) =
      sentence { s with doubleLineFeedSplit := false } (pieces data) := by
    obtain ⟨u, h1, -⟩ := body_split { s with doubleLineFeedSplit := false } ((pieces data).dropWhile (blank s)) 0 false
    refine body_apart _ 0 false u h1 (h u _ h1 ?_) (by simp)
    by_cases hc : atEOF = false ∨ data ≠ []
    · have hA := scanSentences_spec { s with doubleLineFeedSplit := false } data atEOF hc
      change Answer _ _ _ _ (body { s with doubleLineFeedSplit := false } 0 false ((pieces data).dropWhile (blank s))) _ at hA
      unfold Answer at hA
      cases hr : (body { s with doubleLineFeedSplit := false } 0 false ((pieces data).dropWhile (blank s))).rest with
      | some rest =>
        rw [hr] at hA
        obtain ⟨G, l, e⟩ := hA
        rw [hoff] at e
        cases e
        rw [returned_token, if_neg (by simp), returned_advance]
        simp only [List.length_append, List.length_nil, Option.getD_some, List.nil_append, text_append] at l ⊢
        omega
      | none =>
        rw [hr] at hA
        cases atEOF with
        | true =>
          obtain ⟨G, l, e⟩ := hA
          rw [hoff] at e
          cases e
          rw [returned_token, if_neg (by simp), returned_advance]
          simp only [List.length_append, List.length_nil, Option.getD_none, List.nil_append, text_nil] at l ⊢
          omega
        | false =>
          obtain ⟨n, l, e⟩ := hA
          rw [hoff] at e
          cases e
          rw [if_pos rfl]; rfl
    · have hE : atEOF = true := by
        cases atEOF with
        | true => rfl
        | false => exact absurd (.inl rfl) hc
      have hd : data = [] := Classical.byContradiction fun hd => hc (.inr hd)
      subst hE hd
      cases hoff
      rw [if_pos rfl]; rfl
  obtain ⟨on, off2, e1, e2, r⟩ := same_call s data atEOF key
  rw [hoff] at e2
  cases e2
  exact ⟨on, e1, r⟩

/-- The condition on line feeds, as a check over positions. -/
theorem feedsApart_check {s : Splitter} {l : List Piece}
    (h : ∀ i < l.length, ∀ j < l.length, ((l.drop i).head?.map (·.1) = some 10) →
      (((l.drop i).drop (1 + j)).head?.map (·.1) = some 10) → (((l.drop i).drop 1).take j).all (·.1 != 10) = true →
      ((((l.drop i).drop 1).take j).any (fun c => blank s c) &&
      (((l.drop i).drop 1).take j).any (fun c => !blank s c && !s.isDelim c.1 && !s.isFollower c.1)) = true) :
    FeedsApart s l := by
  intro before f1 between f2 after e h1 h2 hb
  subst e
  have := h before.length (by simp) between.length (by simp; omega)
  rw [List.drop_left] at this
  simp only [List.head?_cons, Option.map_some, h1, List.drop_succ_cons, List.drop_zero, Nat.add_comm 1, List.drop_left, h2,
    List.take_left, forall_const] at this
  have hr := this (by rw [List.all_eq_true]; intro c hc; simpa using hb c hc)
  rw [Bool.and_eq_true] at hr
  obtain ⟨r1, r2⟩ := hr
  rw [List.any_eq_true] at r1 r2
  refine ⟨r1, ?_⟩
  obtain ⟨c, hc, hx⟩ := r2
  simp only [Bool.and_eq_true, Bool.not_eq_true'] at hx
  exact ⟨c, hc, hx.1.1, hx.1.2, hx.2⟩

/-- The hypotheses of `C37_apart_partial` hold of a text with two line feeds in the sentence and a double one behind it. -/
example : ∃ off, { defaultSplitter with doubleLineFeedSplit := false }.scanSentences (str "a\nb c\nd?e\n\nf") true = some off ∧
    off.advance = 8 ∧ ∀ used rest, (pieces (str "a\nb c\nd?e\n\nf")).dropWhile (blank defaultSplitter) = used ++ rest →
      (if off.token = none then rest = [] else off.advance + (text rest).length = (str "a\nb c\nd?e\n\nf").length) →
      FeedsApart defaultSplitter used := by
  refine ⟨⟨str "abcd?\nd?e\n\nf", 8, some (0, 5)⟩, by decide +kernel, rfl, ?_⟩
  intro used rest e hl
  have hu : used = ((pieces (str "a\nb c\nd?e\n\nf")).dropWhile (blank defaultSplitter)).take used.length := by
    rw [e, List.take_left]
  have hr : rest = ((pieces (str "a\nb c\nd?e\n\nf")).dropWhile (blank defaultSplitter)).drop used.length := by
    rw [e, List.drop_left]
  have hle : used.length ≤ 12 := by
    have := congrArg List.length e
    rw [show ((pieces (str "a\nb c\nd?e\n\nf")).dropWhile (blank defaultSplitter)).length = 12 by decide +kernel] at this
    simp only [List.length_append] at this; omega
  rw [hr] at hl
  have h9 : used.length = 8 := by
    generalize used.length = k at hl hle
    revert hl
    revert k
    decide +kernel
  rw [h9] at hu
  rw [hu]
  exact feedsApart_check (by decide +kernel)

end Kagome
