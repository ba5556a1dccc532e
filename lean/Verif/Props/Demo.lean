import Verif.Props.Commands
import Verif.Spec.Demo

/-! C49: the demo page. -/

namespace Kagome

open Spec

theorem newRecord_row {t : Token} (h : InRange t) : ∃ r, newRecord t = some r ∧ RowOf t r := by
  obtain ⟨pos, hp⟩ := tokenPOS_total h
  obtain ⟨b, hb⟩ : ∃ b, baseForm t = some b := named_total h .baseForm
  obtain ⟨rd, hr⟩ : ∃ b, reading t = some b := named_total h .reading
  obtain ⟨p, hpr⟩ : ∃ b, pronunciation t = some b := named_total h .pronunciation
  refine ⟨_, by simp only [newRecord, hp, hb, hr, hpr]; rfl, pos, b, rd, p, hp, hb, hr, hpr, rfl, rfl, rfl, rfl, ?_⟩
  by_cases he : join (str ",") (pos.getD []) = []
  · exact .inl ⟨he, by simp only [he, ne_eq, not_true_eq_false, if_false]⟩
  · right
    simp only [ne_eq, he, not_false_eq_true, if_true, and_self]

theorem toRecords_rows {toks : List Token} (h : ∀ t ∈ toks, InRange t) : ∃ rs, toRecords toks = some rs ∧ RowsOf (inner toks) rs := by
  induction toks with
  | nil => exact ⟨[], rfl, rfl, by simp [inner]⟩
  | cons t ts ih =>
    obtain ⟨rs, h1, h2, h3⟩ := ih fun x hx => h x (by simp [hx])
    by_cases hid : t.id = -1
    · refine ⟨rs, by simp [toRecords, bosEosID, hid, h1], ?_, ?_⟩
      · simpa [inner, hid] using h2
      · simpa [inner, hid] using h3
    · have hi : inner (t :: ts) = t :: inner ts := by simp [inner, hid]
      obtain ⟨r, k1, k2⟩ := newRecord_row (h t (by simp))
      refine ⟨r :: rs, by simp [toRecords, bosEosID, hid, h1, k1], by simp [hi, h2], ?_⟩
      rw [hi]
      intro i t' r' ht hr
      cases i with
      | zero => simp at ht hr; subst ht; subst hr; exact k2
      | succ i => exact h3 i t' r' (by simpa using ht) (by simpa using hr)

theorem newRecord_reset (t : Token) : newRecord { t with index := 0, position := 0 } = newRecord t := rfl

/-- A panic in a row of the table is a panic of the page, never a table that ends early. -/
theorem toRecords_panic (toks : List Token) : toRecords toks = none ↔ ∃ t ∈ toks, t.id ≠ bosEosID ∧ newRecord t = none := by
  induction toks with
  | nil => simp [toRecords]
  | cons t ts ih =>
    unfold toRecords
    by_cases hid : t.id = bosEosID
    · rw [if_pos hid, ih]; simp [hid]
    · rw [if_neg hid]
      cases hr : newRecord t with
      | none => simp [hid, hr]
      | some r =>
        simp only [Option.map_eq_none_iff, ih]
        simp [hr]

theorem toRecords_reset (toks : List Token) : toRecords (toks.map (fun t => { t with index := 0, position := 0 })) = toRecords toks := by
  induction toks with
  | nil => rfl
  | cons t ts ih => simp only [List.map_cons, toRecords, newRecord_reset, ih]

theorem indexOf_spec {p : Bytes} (hp : p ≠ []) (s : Bytes) :
    (∀ n, indexOf p s = some n → ∃ b, s = s.take n ++ (p ++ b) ∧ n ≤ s.length ∧ ∀ a' b', s = a' ++ (p ++ b') → n ≤ a'.length) ∧
    (indexOf p s = none → ∀ a b, s ≠ a ++ (p ++ b)) := by
  induction s with
  | nil =>
    refine ⟨by simp [indexOf], fun _ a b h => hp ?_⟩
    have := (List.append_eq_nil_iff.mp h.symm).2
    exact (List.append_eq_nil_iff.mp this).1
  | cons c s ih =>
    unfold indexOf
    by_cases h : p.isPrefixOf (c :: s) = true
    · rw [if_pos h]
      constructor
      · rintro n ⟨⟩
        obtain ⟨b, hb⟩ := List.isPrefixOf_iff_prefix.mp h
        exact ⟨b, by simpa using hb.symm, by simp, by simp⟩
      · simp
    · rw [if_neg h]
      have hn : ∀ a b, c :: s = a ++ (p ++ b) → ∃ a', a = c :: a' ∧ s = a' ++ (p ++ b) := by
        intro a b e
        cases a with
        | nil => exact absurd (List.isPrefixOf_iff_prefix.mpr ⟨b, e.symm⟩) h
        | cons x a' => simp only [List.cons_append, List.cons.injEq] at e; exact ⟨a', by rw [e.1], e.2⟩
      constructor
      · intro n hh
        cases hi : indexOf p s with
        | none => rw [hi] at hh; cases hh
        | some m =>
          rw [hi] at hh; cases hh
          obtain ⟨b, h1, h2, h3⟩ := ih.1 m hi
          refine ⟨b, by rw [List.take_succ_cons, List.cons_append, ← h1], by simp; omega, ?_⟩
          intro a' b' e
          obtain ⟨a, rfl, e'⟩ := hn a' b' e
          have := h3 a b' e'
          simp; omega
      · intro hh a b e
        cases hi : indexOf p s with
        | some m => rw [hi] at hh; cases hh
        | none =>
          obtain ⟨a', _, e⟩ := hn a b e
          exact ih.2 hi a' b e

theorem cropSvg_spec (pic : Bytes) : Cropped pic (cropSvg pic) := by
  unfold cropSvg
  have hp : str "<svg" ≠ [] := by decide
  cases hi : indexOf (str "<svg") pic with
  | none => exact .inr ⟨(indexOf_spec hp pic).2 hi, rfl⟩
  | some n =>
    left
    obtain ⟨b, h1, h2, h3⟩ := (indexOf_spec hp pic).1 n hi
    refine ⟨pic.take n, b, h1, ?_, ?_⟩
    · intro a' b' e
      have := h3 a' b' e
      simp; omega
    · have hd : pic.drop n = str "<svg" ++ b := by
        have := h1
        rw [← List.take_append_drop n pic, List.take_append_drop] at this
        have e : pic.take n ++ pic.drop n = pic.take n ++ (str "<svg" ++ b) := by rw [List.take_append_drop]; exact this
        exact List.append_cancel_left e
      simp only
      split
      · exact hd
      · have : n = 0 := by omega
        subst this
        simpa using hd

theorem demoMode_spec {mode : Bytes} {m : Int} (h : DemoMode mode m) : demoMode mode = m := by
  unfold demoMode
  cases h with
  | search => decide
  | extended => decide
  | other h1 h2 => rw [if_neg (by simp [h1, h2])]; rfl

/-- C49: without the parameter `lattice` the page is the form, filled in with the request. -/
theorem C49_form (t : Tokenizer) (ideo : Nat → Bool) (viz : Graphviz) (addr : Ptr → Bytes) (sen mode : Bytes) :
    serveDemo t ideo viz addr sen mode [] = some (.form sen mode) := rfl

/-- C49: otherwise it shows the sentence and the mode, and, if Graphviz works, a row for each token of the analysis (BOS and EOS left out)
and the picture Graphviz makes of the graph of the same analysis. If Graphviz is missing, fails or takes too long, there are no rows
and no picture, and the error is shown. -/
theorem C49_page {t : Tokenizer} (wf : WellFormed t.dict t.userDict) (pt : PosTables t.dict t.userDict) (tab : FeatureTables t.dict)
    (ideo : Nat → Bool) (viz : Graphviz) (addr : Ptr → Bytes) {sen mode lattice : Bytes} {m : Int} (hl : lattice ≠ []) (hm : DemoMode mode m) :
    ∃ rows err svg toks g, serveDemo t ideo viz addr sen mode lattice = some (.graph sen rows err svg mode) ∧
      analyze { t with omitBosEos := false } ideo sen m = some toks ∧ exportGraph t ideo sen m = some g ∧
      (viz.installed = false → rows = [] ∧ svg = [] ∧ err = str "Error: circo/graphviz is not installed in your $PATH") ∧
      (viz.installed = true →
        (∀ e, viz.run (dotText addr g) = .error (e, false) → rows = [] ∧ svg = [] ∧ err = str "Error: process done with error, " ++ e) ∧
        (∀ e, viz.run (dotText addr g) = .error (e, true) → rows = [] ∧ svg = [] ∧ err = str "Error: graphviz time out") ∧
        (∀ pic, viz.run (dotText addr g) = .ok pic → RowsOf (inner toks) rows ∧ Cropped pic svg ∧ err = [])) := by
  obtain ⟨g, hg⟩ := Option.isSome_iff_exists.mp (exportGraph_some wf pt ideo sen m)
  obtain ⟨toks, ha⟩ := Option.isSome_iff_exists.mp (C01_total (t := { t with omitBosEos := false }) wf ideo sen m).1
  have hag : analyzeGraph t ideo sen m = some (toks.map (fun tok => { tok with index := 0, position := 0 })) := by
    rw [C16_graph, ha]; rfl
  obtain ⟨rs, hrs, hrows⟩ := toRecords_rows (fun x hx => analyze_inRange (t := { t with omitBosEos := false }) wf tab ha hx)
  have hsd : serveDemo t ideo viz addr sen mode lattice = (demoGraph t ideo viz addr sen m).map (fun r =>
      match r with
      | .error (e, deadline) => .graph sen [] (if deadline then str "Error: graphviz time out" else str "Error: " ++ e) [] mode
      | .ok (rs, svg) => .graph sen rs [] svg mode) := by
    unfold serveDemo; rw [if_neg hl, demoMode_spec hm]; rfl
  cases hv : viz.installed with
  | false =>
    refine ⟨[], str "Error: circo/graphviz is not installed in your $PATH", [], toks, g, ?_, ha, hg, by simp, by simp⟩
    rw [hsd, demoGraph, if_pos hv]
    rfl
  | true =>
    have hdg : demoGraph t ideo viz addr sen m = match viz.run (dotText addr g) with
      | .error (e, deadline) => some (.error (str "process done with error, " ++ e, deadline))
      | .ok svg => some (.ok (rs, cropSvg svg)) := by
      unfold demoGraph
      rw [if_neg (by simp [hv]), hag, hg]
      simp only [toRecords_reset, hrs]
      rfl
    cases hr : viz.run (dotText addr g) with
    | error ed =>
      obtain ⟨e, dl⟩ := ed
      rw [hr] at hdg
      cases dl with
      | false =>
        refine ⟨[], str "Error: process done with error, " ++ e, [], toks, g, ?_, ha, hg, by simp, ?_⟩
        · rw [hsd, hdg]; rfl
        · intro _
          refine ⟨?_, ?_, ?_⟩ <;> intro x hx <;> rw [hr] at hx <;> cases hx
          exact ⟨rfl, rfl, rfl⟩
      | true =>
        refine ⟨[], str "Error: graphviz time out", [], toks, g, ?_, ha, hg, by simp, ?_⟩
        · rw [hsd, hdg]; rfl
        · intro _
          refine ⟨?_, ?_, ?_⟩ <;> intro x hx <;> rw [hr] at hx <;> cases hx
          exact ⟨rfl, rfl, rfl⟩
    | ok pic =>
      rw [hr] at hdg
      refine ⟨rs, [], cropSvg pic, toks, g, ?_, ha, hg, by simp, ?_⟩
      · rw [hsd, hdg]; rfl
      · intro _
        refine ⟨?_, ?_, ?_⟩ <;> intro x hx <;> rw [hr] at hx <;> cases hx
        exact ⟨hrows, cropSvg_spec _, rfl⟩

/-- What the page shows for a text, with a Graphviz that puts a line in front of its picture. -/
example : (serveDemo Toy.tokUser Toy.ideo ⟨true, fun _ => .ok (str "<?xml?>\n<svg></svg>")⟩ (fun _ => str "p") (str "もも東京") (str "Search") (str "1")) =
    some (.graph (str "もも東京") [⟨str "もも", str "名詞", str "もも", str "*", str "*"⟩, ⟨str "東京", str "カスタム", str "*", str "*", str "*"⟩]
      [] (str "<svg></svg>") (str "Search")) := by decide +kernel

/-- The hypotheses hold. -/
example : WellFormed Toy.tokUser.dict Toy.tokUser.userDict ∧ PosTables Toy.tokUser.dict Toy.tokUser.userDict ∧ FeatureTables Toy.tokUser.dict ∧
    DemoMode (str "Extended") 2 ∧ DemoMode (str "search") 1 :=
  ⟨Toy.wellFormed, toy_posTables, Toy.featureTables, .extended, .other (by decide) (by decide)⟩

end Kagome
