import Verif.Spec.Search
import Verif.Spec.Usage
import Verif.Props.Output

/-! C62: the full-text search of `_examples/db_search`. C63: the other example programs. -/

namespace Kagome

open Spec

/-! ### C62 -/

theorem separator_iff (b : UInt8) : Separator b ↔ termByte b = false := by
  have h : (b < 0x80) ↔ ¬ (0x80 : UInt8) ≤ b := by simp
  unfold Separator termByte
  simp only [Bool.or_eq_false_iff, Bool.and_eq_false_iff, decide_eq_false_iff_not, h]
  constructor
  · rintro ⟨h1, h2, h3, h4⟩
    refine ⟨⟨⟨h1, ?_⟩, ?_⟩, ?_⟩
    · by_cases e : (0x30 : UInt8) ≤ b
      · exact Or.inr (fun e2 => h2 ⟨e, e2⟩)
      · exact Or.inl e
    · by_cases e : (0x41 : UInt8) ≤ b
      · exact Or.inr (fun e2 => h3 ⟨e, e2⟩)
      · exact Or.inl e
    · by_cases e : (0x61 : UInt8) ≤ b
      · exact Or.inr (fun e2 => h4 ⟨e, e2⟩)
      · exact Or.inl e
  · rintro ⟨⟨⟨h1, h2⟩, h3⟩, h4⟩
    refine ⟨h1, ?_, ?_, ?_⟩
    · rintro ⟨a, b⟩; rcases h2 with h | h <;> contradiction
    · rintro ⟨a, b⟩; rcases h3 with h | h <;> contradiction
    · rintro ⟨a, b⟩; rcases h4 with h | h <;> contradiction

theorem foreign_term {b : UInt8} (h : 0x80 ≤ b) : termByte b = true := by simp [termByte, h]

theorem fold_foreign (b c : UInt8) (h : 0x80 ≤ c) : foldByte b = c ↔ b = c := by
  have key : ∀ b : UInt8, b < 0x80 → foldByte b < 0x80 := by
    intro b hb
    unfold foldByte
    split
    · rename_i h
      simp only [UInt8.lt_iff_toNat_lt, UInt8.le_iff_toNat_le, UInt8.toNat_add] at h ⊢
      have e1 : (0x5A : UInt8).toNat = 0x5A := rfl
      have e2 : (0x20 : UInt8).toNat = 0x20 := rfl
      have e3 : (0x80 : UInt8).toNat = 0x80 := rfl
      omega
    · exact hb
  have key2 : ∀ b : UInt8, 0x80 ≤ b → foldByte b = b := by
    intro b hb
    unfold foldByte
    rw [if_neg]
    intro h
    simp only [UInt8.le_iff_toNat_le] at h hb
    have e1 : (0x5A : UInt8).toNat = 0x5A := rfl
    have e3 : (0x80 : UInt8).toNat = 0x80 := rfl
    omega
  constructor
  · intro e
    by_cases hb : b < 0x80
    · have := key b hb; rw [e] at this
      simp only [UInt8.lt_iff_toNat_lt, UInt8.le_iff_toNat_le] at this h
      omega
    · have hb : 0x80 ≤ b := by simpa using hb
      rw [← e, key2 b hb]
  · rintro rfl; exact key2 b h

theorem map_fold_foreign {w : Bytes} (hw : Foreign w) (p : Bytes) : p.map foldByte = w ↔ p = w := by
  induction w generalizing p with
  | nil => simp
  | cons c w ih =>
    cases p with
    | nil => simp
    | cons b p =>
      rw [List.map_cons, List.cons.injEq, List.cons.injEq, fold_foreign b c (hw c (by simp)), ih (fun x hx => hw x (List.mem_cons_of_mem _ hx))]

theorem mem_terms {w : Bytes} (h0 : w ≠ []) (hw : Foreign w) (s : Bytes) : ∀ cur, w ∈ ftsTerms cur s ↔
    (∃ p q, s = p ++ q ∧ (∀ b ∈ p, termByte b = true) ∧ (∀ b, q.head? = some b → termByte b = false) ∧ cur.reverse ++ p.map foldByte = w) ∨
    (∃ before after, s = before ++ w ++ after ∧ (∃ b, before.getLast? = some b ∧ termByte b = false) ∧
      (∀ b, after.head? = some b → termByte b = false)) := by
  induction s with
  | nil =>
    intro cur
    constructor
    · intro h
      unfold ftsTerms at h
      split at h
      · simp at h
      · left
        refine ⟨[], [], rfl, by simp, by simp, ?_⟩
        simpa using (List.mem_singleton.mp h).symm
    · rintro (⟨p, q, h1, _, _, h4⟩ | ⟨b, a, h1, _⟩)
      · have hp : p = [] := by simp at h1; exact h1.1
        subst hp
        unfold ftsTerms
        split
        · rename_i hc; subst hc; simp at h4; exact absurd h4 h0
        · simp at h4 ⊢; exact h4.symm
      · simp at h1; exact absurd h1.2.1 h0
  | cons c cs ih =>
    intro cur
    by_cases hc : termByte c = true
    · rw [ftsTerms, if_pos hc, ih]
      constructor
      · rintro (⟨p, q, h1, h2, h3, h4⟩ | ⟨b, a, h1, h2, h3⟩)
        · left
          refine ⟨c :: p, q, by rw [h1]; rfl, ?_, h3, ?_⟩
          · intro x hx; rcases List.mem_cons.mp hx with rfl | hx
            · exact hc
            · exact h2 x hx
          · simpa using h4
        · right
          refine ⟨c :: b, a, by rw [h1]; rfl, ?_, h3⟩
          obtain ⟨x, hx, hx'⟩ := h2
          refine ⟨x, ?_, hx'⟩
          cases b with
          | nil => simp at hx
          | cons y ys => rw [List.getLast?_cons_cons]; exact hx
      · rintro (⟨p, q, h1, h2, h3, h4⟩ | ⟨b, a, h1, h2, h3⟩)
        · left
          cases p with
          | nil =>
            rw [List.nil_append] at h1
            subst h1
            have := h3 c rfl
            rw [hc] at this; cases this
          | cons x p =>
            rw [List.cons_append] at h1
            cases h1
            exact ⟨p, q, rfl, fun b hb => h2 b (List.mem_cons_of_mem _ hb), h3, by simpa using h4⟩
        · right
          obtain ⟨x, hx, hx'⟩ := h2
          cases b with
          | nil => simp at hx
          | cons y ys =>
            simp only [List.cons_append] at h1
            cases h1
            refine ⟨ys, a, rfl, ⟨x, ?_, hx'⟩, h3⟩
            cases ys with
            | nil => simp at hx; subst hx; rw [hc] at hx'; cases hx'
            | cons z zs => rw [List.getLast?_cons_cons] at hx; exact hx
    · have hc : termByte c = false := by simpa using hc
      have key : w ∈ ftsTerms cur (c :: cs) ↔ (cur ≠ [] ∧ w = cur.reverse) ∨ w ∈ ftsTerms [] cs := by
        rw [ftsTerms, if_neg (by simp [hc])]
        split
        · rename_i e; simp [e]
        · rename_i e; simp [e]
      rw [key, ih]
      constructor
      · rintro (⟨h1, h2⟩ | ⟨p, q, h1, h2, h3, h4⟩ | ⟨b, a, h1, ⟨x, hx, hx'⟩, h3⟩)
        · left
          exact ⟨[], c :: cs, rfl, by simp, by simp [hc], by simp [h2]⟩
        · right
          have hp : p = w := (map_fold_foreign hw p).mp (by simpa using h4)
          subst hp
          exact ⟨[c], q, by rw [h1]; rfl, ⟨c, rfl, hc⟩, h3⟩
        · right
          refine ⟨c :: b, a, by rw [h1]; rfl, ⟨x, ?_, hx'⟩, h3⟩
          cases b with
          | nil => simp at hx
          | cons y ys => rw [List.getLast?_cons_cons]; exact hx
      · rintro (⟨p, q, h1, h2, h3, h4⟩ | ⟨b, a, h1, ⟨x, hx, hx'⟩, h3⟩)
        · left
          cases p with
          | nil =>
            have h4 : cur.reverse = w := by simpa using h4
            refine ⟨?_, h4.symm⟩
            rintro rfl
            exact h0 h4.symm
          | cons y p =>
            rw [List.cons_append] at h1
            cases h1
            have := h2 c (by simp)
            rw [hc] at this; cases this
        · right
          cases b with
          | nil => simp at hx
          | cons y ys =>
            simp only [List.cons_append] at h1
            cases h1
            cases ys with
            | nil =>
              left
              exact ⟨w, a, rfl, fun b hb => foreign_term (hw b hb), h3, by simpa using (map_fold_foreign hw w).mpr rfl⟩
            | cons z zs =>
              right
              rw [List.getLast?_cons_cons] at hx
              exact ⟨z :: zs, a, rfl, ⟨x, hx, hx'⟩, h3⟩

theorem terms_iff {w : Bytes} (h0 : w ≠ []) (hw : Foreign w) (s : Bytes) : w ∈ ftsTerms [] s ↔ StandsAlone w s := by
  rw [mem_terms h0 hw]
  simp only [StandsAlone, separator_iff]
  constructor
  · rintro (⟨p, q, h1, h2, h3, h4⟩ | ⟨b, a, h1, ⟨x, hx, hx'⟩, h3⟩)
    · have hp : p = w := (map_fold_foreign hw p).mp (by simpa using h4)
      subst hp
      exact ⟨[], q, by simpa using h1, by simp, h3⟩
    · exact ⟨b, a, h1, fun y hy => by rw [hx] at hy; cases hy; exact hx', h3⟩
  · rintro ⟨b, a, h1, h2, h3⟩
    cases hb : b.getLast? with
    | none =>
      left
      have : b = [] := by simpa using hb
      subst this
      exact ⟨w, a, by simpa using h1, fun b hb => foreign_term (hw b hb), h3, by simpa using (map_fold_foreign hw w).mpr rfl⟩
    | some x => right; exact ⟨b, a, h1, ⟨x, hb, h2 x hb⟩, h3⟩

theorem terms_space (x y : Bytes) : ∀ cur, ftsTerms cur (x ++ 0x20 :: y) = ftsTerms cur x ++ ftsTerms [] y := by
  induction x with
  | nil =>
    intro cur
    have h20 : termByte 0x20 = false := by decide +kernel
    by_cases hc : cur = [] <;> simp [ftsTerms, h20, hc]
  | cons c cs ih =>
    intro cur
    rw [List.cons_append, ftsTerms]
    conv => rhs; rw [ftsTerms]
    split
    · exact ih _
    · split
      · exact ih _
      · rw [ih, List.cons_append]

theorem terms_join (w : Bytes) (ws : List Bytes) : w ∈ ftsTerms [] (join (str " ") ws) ↔ ∃ s ∈ ws, w ∈ ftsTerms [] s := by
  have hs : str " " = [0x20] := by decide +kernel
  rw [hs]
  induction ws with
  | nil => simp [join, ftsTerms]
  | cons x ws ih =>
    cases ws with
    | nil => simp [join]
    | cons y ws =>
      rw [join, List.append_assoc]
      show w ∈ ftsTerms [] (x ++ 0x20 :: join [0x20] (y :: ws)) ↔ _
      rw [terms_space, List.mem_append, show (w ∈ ftsTerms [] (join [0x20] (y :: ws)) ↔ _) from ih]
      simp

theorem mem_compactAfter (w : Bytes) (ws : List Bytes) : ∀ x, w ∈ x :: compactAfter x ws ↔ w ∈ x :: ws := by
  induction ws with
  | nil => intro x; rfl
  | cons y ws ih =>
    intro x
    rw [compactAfter]
    split
    · rename_i e
      subst e
      rw [ih]; simp
    · rw [List.mem_cons, ih, List.mem_cons (a := w) (b := x)]

theorem mem_compact (w : Bytes) (ws : List Bytes) : w ∈ compact ws ↔ w ∈ ws := by
  cases ws with
  | nil => rfl
  | cons x ws => exact mem_compactAfter w ws x

theorem terms_word {w : Bytes} (hw : Foreign w) : ∀ cur, (cur ≠ [] ∨ w ≠ []) → ftsTerms cur w = [cur.reverse ++ w] := by
  induction w with
  | nil =>
    intro cur h
    have : cur ≠ [] := by simpa using h
    simp [ftsTerms, this]
  | cons c w ih =>
    intro cur _
    have hc := hw c (by simp)
    rw [ftsTerms, if_pos (foreign_term hc), (fold_foreign c c hc).mpr rfl, ih (fun x hx => hw x (List.mem_cons_of_mem _ hx)) _ (Or.inl (by simp))]
    simp

/-- The rows of the table `fts` for lines behind `n` others. -/
def searchRows (d : Dict) (ideo : Nat → Bool) : Nat → List Bytes → List (Nat × Bytes)
  | _, [] => []
  | n, line :: lines => (n + 1, join (str " ") (compact ((wakati ⟨d, none, true⟩ ideo line).getD []))) :: searchRows d ideo (n + 1) lines

theorem insertLines_spec {d : Dict} (wf : WellFormed d none) (ideo : Nat → Bool) (lines : List Bytes) : ∀ db : SearchDb,
    insertLines (some d) ideo db lines = some (some ⟨db.contents ++ lines, db.fts ++ searchRows d ideo db.contents.length lines⟩) := by
  induction lines with
  | nil => intro db; simp [insertLines, searchRows]
  | cons line lines ih =>
    intro db
    obtain ⟨words, hwords⟩ := Option.isSome_iff_exists.mp ((C01_total (t := ⟨d, none, true⟩) wf ideo line modeNormal).2.2.1)
    simp only [insertLines, insertContent, insertSearchToken, newTokenizer, applyOpts, optOmitBosEos, hwords, Option.map_some]
    rw [ih]
    simp [searchRows, hwords]

theorem mem_searchRows (d : Dict) (ideo : Nat → Bool) (lines : List Bytes) : ∀ n (r : Nat × Bytes), r ∈ searchRows d ideo n lines ↔
    ∃ i line, lines[i]? = some line ∧ r = (n + i + 1, join (str " ") (compact ((wakati ⟨d, none, true⟩ ideo line).getD []))) := by
  induction lines with
  | nil => intro n r; simp [searchRows]
  | cons line lines ih =>
    intro n r
    rw [searchRows, List.mem_cons, ih]
    constructor
    · rintro (rfl | ⟨i, l, h1, h2⟩)
      · exact ⟨0, line, rfl, rfl⟩
      · exact ⟨i + 1, l, by simpa using h1, by rw [h2]; congr 1; omega⟩
    · rintro ⟨i, l, h1, h2⟩
      cases i with
      | zero => left; cases h1; exact h2
      | succ i => right; exact ⟨i, l, by simpa using h1, by rw [h2]; congr 1; omega⟩

theorem searchRows_sorted (d : Dict) (ideo : Nat → Bool) (lines : List Bytes) : ∀ n, ((searchRows d ideo n lines).map Prod.fst).Pairwise (· < ·) := by
  induction lines with
  | nil => intro n; simp [searchRows]
  | cons line lines ih =>
    intro n
    rw [searchRows, List.map_cons, List.pairwise_cons]
    refine ⟨?_, ih _⟩
    intro k hk
    obtain ⟨r, hr, rfl⟩ := List.mem_map.mp hk
    obtain ⟨i, l, _, rfl⟩ := (mem_searchRows d ideo lines _ r).mp hr
    simp only
    omega

/-- C62: whatever lines were put in, a search for a Japanese word lists, in order and each once, exactly the lines of whose words one is the word
(or has it between ASCII punctuation); and the content shown for a line is that line. -/
theorem C62_search {d : Dict} (wf : WellFormed d none) (ideo : Nat → Bool) (lines : List Bytes) :
    ∃ db, insertLines (some d) ideo ⟨[], []⟩ lines = some (some db) ∧
      (∀ id, retrieveContent db (id + 1) = lines[id]?) ∧
      ∀ w, w ≠ [] → Foreign w → (searchFTS4 db w).Pairwise (· < ·) ∧
        ∀ k, k ∈ searchFTS4 db w ↔ ∃ id line words s, k = id + 1 ∧ lines[id]? = some line ∧ wakati ⟨d, none, true⟩ ideo line = some words ∧
          s ∈ words ∧ StandsAlone w s := by
  refine ⟨_, insertLines_spec wf ideo lines ⟨[], []⟩, ?_, ?_⟩
  · intro id; simp [retrieveContent]
  · intro w h0 hw
    unfold searchFTS4
    rw [terms_word hw [] (Or.inr h0)]
    simp only [List.nil_append, List.length_nil, List.reverse_nil, List.all_cons, List.all_nil, Bool.and_true]
    constructor
    · exact (searchRows_sorted d ideo lines 0).sublist (List.filter_sublist.map Prod.fst)
    · intro k
      simp only [List.mem_map, List.mem_filter, decide_eq_true_eq]
      constructor
      · rintro ⟨r, ⟨hr, ht⟩, rfl⟩
        obtain ⟨i, line, h1, rfl⟩ := (mem_searchRows d ideo lines 0 r).mp hr
        obtain ⟨words, hwords⟩ := Option.isSome_iff_exists.mp ((C01_total (t := ⟨d, none, true⟩) wf ideo line modeNormal).2.2.1)
        simp only [hwords, Option.getD_some] at ht
        rw [terms_join] at ht
        obtain ⟨s, hs, ht⟩ := ht
        exact ⟨i, line, words, s, by simp, h1, hwords, (mem_compact _ _).mp hs, (terms_iff h0 hw s).mp ht⟩
      · rintro ⟨i, line, words, s, rfl, h1, hwords, hs, ht⟩
        refine ⟨_, ⟨(mem_searchRows d ideo lines 0 _).mpr ⟨i, line, h1, rfl⟩, ?_⟩, by simp⟩
        simp only [hwords, Option.getD_some]
        rw [terms_join]
        exact ⟨s, (mem_compact _ _).mpr hs, (terms_iff h0 hw s).mpr ht⟩

/-- C62: for lines without ASCII a search finds exactly the lines that have the word as a word. -/
theorem C62_words {d : Dict} (wf : WellFormed d none) (ideo : Nat → Bool) (lines : List Bytes)
    (hl : ∀ line ∈ lines, Foreign line ∧ Tame ⟨d, none, true⟩ line) :
    ∃ db, insertLines (some d) ideo ⟨[], []⟩ lines = some (some db) ∧
      ∀ w, w ≠ [] → Foreign w →
        ∀ k, k ∈ searchFTS4 db w ↔ ∃ id line words, k = id + 1 ∧ lines[id]? = some line ∧ wakati ⟨d, none, true⟩ ideo line = some words ∧ w ∈ words := by
  obtain ⟨db, h1, _, h2⟩ := C62_search wf ideo lines
  refine ⟨db, h1, ?_⟩
  intro w h0 hw k
  rw [(h2 w h0 hw).2 k]
  constructor
  · rintro ⟨id, line, words, s, h3, h4, h5, h6, before, after, h7, h8, h9⟩
    obtain ⟨hf, ht⟩ := hl line (List.mem_of_getElem? h4)
    have hflat := C14_wakati_join ht h5
    have hs : Foreign s := by
      intro b hb
      apply hf
      rw [← hflat]
      exact List.mem_flatten.mpr ⟨s, h6, hb⟩
    have ns : ∀ b ∈ s, ¬ Separator b := by
      intro b hb h
      have := hs b hb
      have h' := h.1
      simp only [UInt8.lt_iff_toNat_lt, UInt8.le_iff_toNat_le] at this h'
      omega
    have hb : before = [] := by
      cases hb : before.getLast? with
      | none => simpa using hb
      | some x =>
        refine absurd (h8 x hb) (ns x ?_)
        rw [h7]
        simp [List.mem_of_getLast? hb]
    have ha : after = [] := by
      cases ha : after.head? with
      | none => simpa using ha
      | some x =>
        refine absurd (h9 x ha) (ns x ?_)
        rw [h7]
        simp [List.mem_of_head? ha]
    subst hb ha
    rw [List.nil_append, List.append_nil] at h7
    subst h7
    exact ⟨id, line, words, h3, h4, h5, h6⟩
  · rintro ⟨id, line, words, h3, h4, h5, h6⟩
    exact ⟨id, line, words, w, h3, h4, h5, h6, [], [], by simp, by simp, by simp⟩

/-- Lines and searches: "もも" is found as a word, not inside "すもも". -/
example : ((insertLines (some Toy.dict) Toy.ideo ⟨[], []⟩ [str "すもも", str "ももの", str "すももももの", str "の・もも"]).map
    (·.map (fun db => [searchFTS4 db (str "もも"), searchFTS4 db (str "の"), searchFTS4 db (str "す")]))) =
    some (some [[2, 3, 4], [2, 3, 4], []]) := by decide +kernel

example : WellFormed Toy.dict none ∧ Foreign (str "もも") ∧ Foreign (str "すもも") ∧ Tame ⟨Toy.dict, none, true⟩ (str "すもも") :=
  ⟨Toy.wellFormed_none, by unfold Foreign; decide +kernel, by unfold Foreign; decide +kernel,
   ⟨Toy.wellFormed_none, Toy.replacementOk _, fits_short _ (by decide +kernel)⟩⟩

theorem foundRows_all {db : SearchDb} {lines : List Bytes} (hc : ∀ id, retrieveContent db (id + 1) = lines[id]?) : ∀ ks : List Nat,
    (∀ k ∈ ks, 1 ≤ k ∧ k ≤ lines.length) →
    foundRows db ks = (ks.flatMap (fun k : Nat => str "  Found content: " ++ (lines[k - 1]?).getD [] ++ str " at line: " ++ itoa k ++ str "\n"), false)
  | [], _ => rfl
  | k :: ks, h => by
    obtain ⟨h1, h2⟩ := h k (by simp)
    have e : retrieveContent db k = some (lines[k - 1]'(by omega)) := by
      have := hc (k - 1)
      rw [show k - 1 + 1 = k by omega] at this
      rw [this, List.getElem?_eq_getElem (by omega)]
    unfold foundRows
    rw [e]
    simp only [foundRows_all hc ks (fun x hx => h x (by simp [hx])), List.flatMap_cons]
    rw [List.getElem?_eq_getElem (show k - 1 < lines.length by omega), Option.getD_some]

theorem searchLoop_all {db : SearchDb} {lines : List Bytes} (hc : ∀ id, retrieveContent db (id + 1) = lines[id]?) : ∀ ws : List Bytes,
    (∀ w ∈ ws, ∀ k ∈ searchFTS4 db w, 1 ≤ k ∧ k ≤ lines.length) →
    searchLoop db ws = (ws.flatMap (fun w => searchReport lines w (searchFTS4 db w)), false)
  | [], _ => rfl
  | w :: ws, h => by
    have ih := searchLoop_all hc ws (fun x hx => h x (by simp [hx]))
    unfold searchLoop
    rw [List.flatMap_cons]
    unfold searchReport at ih ⊢
    by_cases hk : searchFTS4 db w = []
    · simp only [hk, if_true, ih]
    · simp only [hk, if_false, foundRows_all hc _ (h w (by simp)), ih, Bool.false_eq_true, if_false]

/-- C62: what the program prints, for any lines and any words outside ASCII: word by word either that there is no result, or each line that has the word as a
word, in their order, with its number. -/
theorem C62_printed {d : Dict} (wf : WellFormed d none) (ideo : Nat → Bool) (lines ws : List Bytes) (hw : ∀ w ∈ ws, w ≠ [] ∧ Foreign w) :
    ∃ reports : List Bytes, searchProgram (some d) ideo lines ws = some (reports.flatten, false) ∧ reports.length = ws.length ∧
      ∀ (i : Nat) (w report : Bytes), ws[i]? = some w → reports[i]? = some report → ∃ ks, report = searchReport lines w ks ∧ ks.Pairwise (· < ·) ∧
        ∀ k, k ∈ ks ↔ ∃ id line words s, k = id + 1 ∧ lines[id]? = some line ∧ wakati ⟨d, none, true⟩ ideo line = some words ∧
          s ∈ words ∧ StandsAlone w s := by
  obtain ⟨db, h1, h2, h3⟩ := C62_search wf ideo lines
  refine ⟨ws.map (fun w => searchReport lines w (searchFTS4 db w)), ?_, by simp, ?_⟩
  · unfold searchProgram
    rw [h1]
    dsimp only
    rw [searchLoop_all h2, List.flatMap_def]
    intro w hx k hk
    obtain ⟨id, line, words, s, rfl, h4, -⟩ := ((h3 w (hw w hx).1 (hw w hx).2).2 k).mp hk
    obtain ⟨h5, -⟩ := List.getElem?_eq_some_iff.mp h4
    omega
  · intro i w report hi hr
    rw [List.getElem?_map, hi, Option.map_some] at hr
    cases hr
    have hx := hw w (List.mem_of_getElem? hi)
    exact ⟨_, rfl, h3 w hx.1 hx.2⟩

/-- Three lines and three words. -/
example : searchProgram (some Toy.dict) Toy.ideo [str "すもも", str "ももの", str "すももももの"] [str "もも", str "す", str "すもも"] =
    some (str ("Searching for: もも\n  Found content: ももの at line: 2\n  Found content: すももももの at line: 3\n" ++
      "Searching for: す\n  No results found\nSearching for: すもも\n  Found content: すもも at line: 1\n  Found content: すももももの at line: 3\n"), false) := by
  decide +kernel

/-! ### C63 -/

theorem omit_ids {t : Tokenizer} (ho : t.omitBosEos = true) {ideo : Nat → Bool} {inp : Bytes} {mode : Int} {toks : List Token}
    (ha : analyze t ideo inp mode = some toks) : ∀ tok ∈ toks, tok.id ≠ -1 := by
  have key : ∀ (ns : List Node) (i k : Nat), ∀ tok ∈ tokenLoop t i k ns, tok.id ≠ -1 := by
    intro ns
    induction ns with
    | nil => intro i k tok ht; simp [tokenLoop] at ht
    | cons n ns ih =>
      intro i k tok ht
      unfold tokenLoop at ht
      split at ht
      · exact ih _ _ tok ht
      · rename_i hn
        rcases List.mem_cons.mp ht with rfl | ht
        · intro e; exact hn ⟨ho, e⟩
        · exact ih _ _ tok ht
  unfold analyze at ha
  rw [Option.map_eq_some_iff] at ha
  obtain ⟨r, _, rfl⟩ := ha
  exact key _ _ _

theorem inner_omit {toks : List Token} (h : ∀ tok ∈ toks, tok.id ≠ -1) : inner toks = toks := by
  unfold inner
  rw [List.filter_eq_self.mpr]
  intro t ht
  simpa using h t ht

theorem words_classed {t : Tokenizer} (wf : WellFormed t.dict t.userDict) {ideo : Nat → Bool} {inp : Bytes} {mode : Int} (hm : mode ≠ modeExtended)
    {toks : List Token} (ha : analyze t ideo inp mode = some toks) : ∀ tok ∈ toks, tok.id ≠ -1 → tok.cls ≠ .dummy := by
  intro tok ht h1
  obtain ⟨k, pos, rest, w, _, hw, hc⟩ := analyze_weak wf ha ht (Or.inl h1)
  have hok := weak_ok wf hw
  rcases hc with ⟨h2, _⟩ | ⟨h2, _⟩
  · rw [h2]; exact hok.cls
  · exact absurd h2 hm

theorem splitAt_plain {sep : UInt8} {w : Bytes} (h : sep ∉ w) : splitAt sep w = [w] := by
  induction w with
  | nil => rfl
  | cons c w ih =>
    simp only [List.mem_cons, not_or] at h
    rw [splitAt, if_neg (fun e => h.1 e.symm), ih h.2]

theorem splitAt_cons {sep : UInt8} {w : Bytes} (h : sep ∉ w) (rest : Bytes) : splitAt sep (w ++ sep :: rest) = w :: splitAt sep rest := by
  induction w with
  | nil => simp [splitAt]
  | cons c w ih =>
    simp only [List.mem_cons, not_or] at h
    rw [List.cons_append, splitAt, if_neg (fun e => h.1 e.symm), ih h.2]

theorem splitAt_join {sep : UInt8} {ws : List Bytes} (h0 : ws ≠ []) (h : ∀ w ∈ ws, sep ∉ w) : splitAt sep (join [sep] ws) = ws := by
  induction ws with
  | nil => exact absurd rfl h0
  | cons x ws ih =>
    cases ws with
    | nil => rw [join]; exact splitAt_plain (h x (by simp))
    | cons y ws =>
      rw [join, List.append_assoc]
      show splitAt sep (x ++ sep :: join [sep] (y :: ws)) = _
      rw [splitAt_cons (h x (by simp)), ih (by simp) (fun w hw => h w (List.mem_cons_of_mem _ hw))]

/-- C63: the line that `wakati` prints, read at its slashes, is the list of the words; they make up the text. -/
theorem C63_wakati {d : Dict} (ideo : Nat → Bool) {text : Bytes} (h : Tame ⟨d, none, true⟩ text) (h0 : text ≠ []) (hs : (0x2F : UInt8) ∉ text) :
    ∃ line words, wakatiProgram (some d) ideo text = some (str "---wakati---\n" ++ line ++ str "\n") ∧
      wakati ⟨d, none, true⟩ ideo text = some words ∧ splitAt 0x2F line = words ∧ words.flatten = text := by
  obtain ⟨words, hw⟩ := Option.isSome_iff_exists.mp ((C01_total h.wf ideo text modeNormal).2.2.1)
  have hflat := C14_wakati_join h hw
  refine ⟨join (str "/") words, words, ?_, hw, ?_, hflat⟩
  · simp only [wakatiProgram, newTokenizer, applyOpts, optOmitBosEos, hw, Option.map_some, List.append_assoc]
  · rw [show str "/" = [0x2F] by decide +kernel]
    apply splitAt_join
    · rintro rfl; exact h0 (by simpa using hflat.symm)
    · intro w hm hc
      exact hs (by rw [← hflat]; exact List.mem_flatten.mpr ⟨w, hm, hc⟩)

theorem tokenizeRows_print {toks : List Token} (h1 : ∀ tok ∈ toks, tok.id ≠ -1) (h2 : ∀ tok ∈ toks, tok.cls ≠ .dummy) :
    tokenizeRows toks = Tok.printLoop toks := by
  induction toks with
  | nil => rfl
  | cons v toks ih =>
    rw [tokenizeRows, Tok.printLoop, Tok.printToken, if_neg (show ¬ v.id = bosEosID from h1 v (by simp)), if_pos (h2 v (by simp)),
      ih (fun x hx => h1 x (List.mem_cons_of_mem _ hx)) (fun x hx => h2 x (List.mem_cons_of_mem _ hx))]
    cases features v <;> rfl

theorem printLoop_index {toks : List Token} (f : Token → Nat) :
    Tok.printLoop (toks.map (fun tok => { tok with index := f tok })) = Tok.printLoop toks := by
  induction toks with
  | nil => rfl
  | cons v toks ih => rw [List.map_cons, Tok.printLoop, Tok.printLoop, ih]; rfl

theorem printLoop_append (a b : List Token) :
    Tok.printLoop (a ++ b) = (Tok.printLoop a).bind (fun x => (Tok.printLoop b).map (x ++ ·)) := by
  induction a with
  | nil => cases h : Tok.printLoop b <;> simp [Tok.printLoop, h]
  | cons v a ih =>
    rw [List.cons_append, Tok.printLoop, Tok.printLoop, ih]
    cases Tok.printToken v with
    | none => rfl
    | some s =>
      cases Tok.printLoop a with
      | none => rfl
      | some x => cases Tok.printLoop b <;> simp

/-- C63: `tokenize` of the examples prints what the command of that name prints for the text, but for the last line. -/
theorem C63_tokenize {d : Dict} (tab : FeatureTables d) (ideo : Nat → Bool) {text : Bytes} (h : Tame ⟨d, none, false⟩ text) :
    ∃ body toks, tokenizeProgram (some d) ideo text = some (str "---tokenize---\n" ++ body) ∧
      analyze ⟨d, none, false⟩ ideo text modeNormal = some toks ∧ PlainText toks (body ++ str "EOS\n") := by
  obtain ⟨words, hid, h1, h2⟩ := C05_frame h ideo modeNormal
  have h1 : analyze ⟨d, none, false⟩ ideo text modeNormal = _ := h1
  have h2 : analyze ⟨d, none, true⟩ ideo text modeNormal = _ := h2
  obtain ⟨out, k1, k2⟩ := printTokens_spec (fun tok ht => analyze_inRange (t := ⟨d, none, false⟩) h.wf tab h1 ht)
  have hb : ∀ (x : Token) (l : List Token), x.id = -1 → Tok.printLoop (x :: l) = Tok.printLoop l := by
    intro x l hx
    rw [Tok.printLoop, Tok.printToken, if_pos (show x.id = bosEosID from hx)]
    cases Tok.printLoop l <;> simp
  unfold Tok.printTokens at k1
  rw [printLoop_append, hb _ words rfl, hb _ [] rfl] at k1
  have hrows := tokenizeRows_print (omit_ids rfl h2) (fun tok ht => words_classed (t := ⟨d, none, true⟩) h.wf (by decide) h2 tok ht (omit_ids rfl h2 tok ht))
  rw [printLoop_index] at hrows
  cases hp : Tok.printLoop words with
  | none => rw [hp] at k1; cases k1
  | some body =>
    rw [hp] at k1 hrows
    have k1 : out = body ++ str "EOS\n" := by simpa [Tok.printLoop] using k1.symm
    rw [k1] at k2
    refine ⟨body, _, ?_, h1, k2⟩
    simp only [tokenizeProgram, newTokenizer, applyOpts, optOmitBosEos, tokenize, h2, hrows, Option.map_some]

/-- The line of a token in the third example. -/
def BracketLine (t : Token) (row : Bytes) : Prop :=
  ∃ fs, HasFeatures t fs ∧ row = t.surface ++ str "\t[" ++ join (str " ") fs ++ str "]\n"

/-- C63: the third example prints a line for every token of the Search mode, with the features in brackets; its words come from the user dictionary
as `C09_user_first` says. -/
theorem C63_user_dict {d : Dict} {u : UserDict} (tab : FeatureTables d) (ideo : Nat → Bool) {text : Bytes} (h : Tame ⟨d, some u, true⟩ text) :
    ∃ (toks : List Token) (rows : List Bytes), analyze ⟨d, some u, true⟩ ideo text modeSearch = some toks ∧
      userDictProgram (some d) (some u) ideo text = some rows.flatten ∧ rows.length = toks.length ∧
      (∀ (i : Nat) (t : Token) (row : Bytes), toks[i]? = some t → rows[i]? = some row → BracketLine t row) ∧
      toks.flatMap (fun tok => tok.surface) = text := by
  obtain ⟨toks, ha⟩ := Option.isSome_iff_exists.mp ((C01_total h.wf ideo text modeSearch).1)
  have hids := omit_ids rfl ha
  have key : ∀ l : List Token, (∀ tok ∈ l, InRange tok) → ∃ rows : List Bytes, userDictRows l = some rows.flatten ∧ rows.length = l.length ∧
      ∀ (i : Nat) (t : Token) (row : Bytes), l[i]? = some t → rows[i]? = some row → BracketLine t row := by
    intro l
    induction l with
    | nil => intro _; exact ⟨[], rfl, rfl, by simp⟩
    | cons v l ih =>
      intro hr
      obtain ⟨rows, k1, k2, k3⟩ := ih (fun tok ht => hr tok (List.mem_cons_of_mem _ ht))
      obtain ⟨fs, f1, _, f3⟩ := features_spec (hr v (by simp))
      refine ⟨(v.surface ++ str "\t" ++ (str "[" ++ join (str " ") (fs.getD []) ++ str "]") ++ str "\n") :: rows, ?_, by simp [k2], ?_⟩
      · rw [userDictRows, f1, k1]; rfl
      · intro i t row ht hrow
        cases i with
        | zero =>
          cases ht; cases hrow
          refine ⟨_, f3, ?_⟩
          have e1 : str "\t[" = str "\t" ++ str "[" := by decide +kernel
          have e2 : str "]\n" = str "]" ++ str "\n" := by decide +kernel
          rw [e1, e2]
          simp only [List.append_assoc]
        | succ i => exact k3 i t row (by simpa using ht) (by simpa using hrow)
  obtain ⟨rows, k1, k2, k3⟩ := key toks (fun tok ht => analyze_inRange (t := ⟨d, some u, true⟩) h.wf tab ha ht)
  refine ⟨toks, rows, ha, ?_, k2, k3, ?_⟩
  · simp only [userDictProgram, newTokenizer, applyOpts, optUserDict, optOmitBosEos, ha, k1]
  · rw [← C02_lossless h (by decide) ha, inner_omit hids]

/-- The object of the browser example against the data of the API (C24): the same, but for the parts of speech, which are joined, and the missing end and
list of features. -/
structure SameData (r : WasmRecord) (x : TokenData) : Prop where
  id : r.wordId = x.id
  type : r.wordType = x.cls
  position : r.wordPosition = x.start
  surface : r.surfaceForm = x.surface
  pos : r.pos = join (str ",") (x.pos.getD [])
  baseForm : r.baseForm = x.baseForm
  reading : r.reading = x.reading
  pronunciation : r.pronunciation = x.pronunciation

/-- C63: called with a text, the function for the browser answers with an array of one object per word; in each is what the API tells about the word, and the
texts of the words make up the text. -/
theorem C63_wasm {d : Dict} (tab : FeatureTables d) (ideo : Nat → Bool) {text : Bytes} (h : Tame ⟨d, none, true⟩ text) (more : List Bytes) :
    ∃ toks recs, tokenize ⟨d, none, true⟩ ideo text = some toks ∧ wasmTokenize (some d) ideo (text :: more) = some (some recs) ∧
      recs.length = toks.length ∧ (recs.map (·.surfaceForm)).flatten = text ∧
      (∀ (i : Nat) (tok : Token) (r : WasmRecord), toks[i]? = some tok → recs[i]? = some r →
        (∃ x, newTokenData tok = some x ∧ SameData r x) ∧
        r.surfaceForm = (text.drop tok.position).take r.surfaceForm.length ∧ r.wordPosition = runeCount (text.take tok.position)) := by
  obtain ⟨toks, ha⟩ := Option.isSome_iff_exists.mp ((C01_total h.wf ideo text modeNormal).2.1)
  have hids := omit_ids rfl ha
  have key : ∀ l : List Token, (∀ tok ∈ l, InRange tok) → ∃ recs : List WasmRecord, wasmRecords l = some recs ∧ recs.map (·.surfaceForm) = l.map (·.surface) ∧
      recs.map (·.wordPosition) = l.map (·.start) ∧
      ∀ (i : Nat) (t : Token) (r : WasmRecord), l[i]? = some t → recs[i]? = some r → ∃ x, newTokenData t = some x ∧ SameData r x := by
    intro l
    induction l with
    | nil => intro _; exact ⟨[], rfl, rfl, rfl, by simp⟩
    | cons v l ih =>
      intro hr
      obtain ⟨recs, k1, k2, k3, k4⟩ := ih (fun tok ht => hr tok (List.mem_cons_of_mem _ ht))
      have hv := hr v (by simp)
      obtain ⟨data, pos, fs, b, r, p, e1, e2, e3, e4, e5, e6, _⟩ := C24_token_data hv
      refine ⟨⟨v.id, className v.cls, v.start, v.surface, join (str ",") (pos.getD []), b.1, r.1, p.1⟩ :: recs, ?_, ?_, ?_, ?_⟩
      · rw [wasmRecords, e2, e4, e5, e6, k1]; rfl
      · simp [k2]
      · simp [k3]
      · intro i t row ht hrow
        cases i with
        | zero =>
          cases ht; cases hrow
          refine ⟨data, e1, ?_⟩
          unfold newTokenData at e1
          rw [e2, e3, e4, e5, e6] at e1
          cases e1
          refine ⟨rfl, rfl, rfl, rfl, ?_, rfl, rfl, rfl⟩
          cases pos <;> rfl
        | succ i => exact k4 i t row (by simpa using ht) (by simpa using hrow)
  obtain ⟨recs, k1, k2, k3, k4⟩ := key toks (fun tok ht => analyze_inRange (t := ⟨d, none, true⟩) h.wf tab ha ht)
  have hlen : recs.length = toks.length := by simpa using congrArg List.length k2
  have hin := inner_omit hids
  refine ⟨toks, recs, ha, ?_, hlen, ?_, ?_⟩
  · simp only [wasmTokenize, newTokenizer, applyOpts, optOmitBosEos, ha, k1, Option.map_some]
  · rw [k2, ← List.flatMap_def]
    have := C02_lossless h (by decide) ha
    rwa [hin] at this
  · intro i tok r ht hrec
    refine ⟨k4 i tok r ht hrec, ?_⟩
    obtain ⟨x, hx, sd⟩ := k4 i tok r ht hrec
    have hs : r.surfaceForm = tok.surface := by
      have := congrArg (fun l => l[i]?) k2
      simpa [ht, hrec] using this
    have hp : r.wordPosition = tok.start := by
      have := congrArg (fun l => l[i]?) k3
      simpa [ht, hrec] using this
    obtain ⟨a1, a2, _⟩ := (C04_slices h (by decide) ha).1 tok (by rw [hin]; exact List.mem_of_getElem? ht)
    rw [hs, hp]
    exact ⟨a1, a2⟩

/-- Without an argument the answer is `null`. -/
theorem C63_wasm_null (d : Dict) (ideo : Nat → Bool) : wasmTokenize (some d) ideo [] = some none := rfl

example : wakatiProgram (some Toy.dict) Toy.ideo (str "すももの") = some (str "---wakati---\nすもも/の\n") ∧
    tokenizeProgram (some Toy.dict) Toy.ideo (str "の") = some (str "---tokenize---\nの\t助詞,連体化,の\n") ∧
    userDictProgram (some Toy.dict) (some Toy.user) Toy.ideo (str "東京") = some (str "東京\t[カスタム 東京 トウキョウ]\n") ∧
    ((wasmTokenize (some Toy.dict) Toy.ideo [str "ももの"]).bind id).map (·.map (fun r => (r.wordPosition, r.surfaceForm, r.pos, r.baseForm))) =
      some [(0, str "もも", str "名詞", str "もも"), (2, str "の", str "助詞,連体化", str "連体化")] := by decide +kernel

end Kagome
