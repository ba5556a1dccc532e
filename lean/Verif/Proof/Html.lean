import Verif.Spec.Html
import Verif.Model.Page

/-! Reading the pages of the demo server piece by piece. -/

namespace Kagome

open Spec

theorem htmlRun_append (st : HtmlState) (a b : Bytes) :
    htmlRun st (a ++ b) = ((htmlRun (htmlRun st a).1 b).1, (htmlRun st a).2 ++ (htmlRun (htmlRun st a).1 b).2) := by
  induction a generalizing st with
  | nil => simp [htmlRun]
  | cons x a ih => simp only [List.cons_append, htmlRun, ih, List.append_assoc]

theorem htmlEscape_clean (s : Bytes) : ∀ b ∈ htmlEscape s, b ≠ 0x3C := by
  intro b hb
  simp only [htmlEscape, List.mem_flatMap] at hb
  obtain ⟨x, _, hx⟩ := hb
  unfold htmlByte at hx
  repeat' split at hx
  all_goals first
    | (intro h; subst h; revert hx; decide)
    | (simp only [List.mem_singleton] at hx; subst hx; assumption)

theorem htmlRun_clean {s : Bytes} (h : ∀ b ∈ s, b ≠ 0x3C) : htmlRun .data s = (.data, s.map .ch) := by
  induction s with
  | nil => rfl
  | cons b s ih =>
    have hb : htmlStep .data b = (.data, [.ch b]) := by simp only [htmlStep, if_neg (h b (by simp))]
    simp only [htmlRun, hb, ih fun x hx => h x (by simp [hx]), List.map_cons, List.singleton_append]

theorem htmlRun_data (s : Bytes) : htmlRun .data (htmlEscape s) = (.data, (htmlEscape s).map .ch) := htmlRun_clean (htmlEscape_clean s)

theorem htmlRun_raw (n : Bytes) {s : Bytes} (h : ∀ b ∈ s, b ≠ 0x3C) : htmlRun (.raw n []) s = (.raw n [], s.map .ch) := by
  induction s with
  | nil => rfl
  | cons b s ih =>
    have h0 := h b (by simp)
    have hl : lowerByte b ≠ 0x3C := by
      unfold lowerByte
      split
      · rename_i hr
        simp only [Bool.and_eq_true, decide_eq_true_eq, UInt8.le_iff_toNat_le] at hr
        intro e
        have := congrArg UInt8.toNat e
        simp at this hr
        omega
      · exact h0
    have hb : htmlStep (.raw n []) b = (.raw n [], [.ch b]) := by
      simp only [htmlStep, List.nil_append, List.nil_eq, reduceCtorEq, false_and, and_false, if_false, List.map_nil, if_neg h0,
        List.cons_prefix_cons, hl]
    simp only [htmlRun, hb, ih fun x hx => h x (by simp [hx]), List.map_cons, List.singleton_append]

theorem unref_byte (b : UInt8) (s : Bytes) :
    unrefFrom none (htmlByte b ++ s) = (if b = 0 then [0xEF, 0xBF, 0xBD] else [b]) ++ unrefFrom none s := by
  unfold htmlByte
  split
  · rename_i h; subst h; rfl
  split
  · rename_i h; subst h; rfl
  split
  · rename_i h; subst h; rfl
  split
  · rename_i h; subst h; rfl
  split
  · rename_i h; subst h; rfl
  split
  · rename_i h; subst h; rfl
  split
  · rename_i h; subst h; rfl
  · rename_i h1 _ _ _ _
    simp only [List.cons_append, List.nil_append, unrefFrom, if_neg h1]

theorem unref_escape (s : Bytes) : unref (htmlEscape s) = onPage s := by
  unfold unref htmlEscape onPage
  induction s with
  | nil => rfl
  | cons b s ih => rw [List.flatMap_cons, unref_byte, ih, List.flatMap_cons]

/-- The texts found up to the end of the events, and whether an element is open. -/
def textsState (name : Bytes) : Option Bytes → List HtmlEvent → Option Bytes × List Bytes
  | st, [] => (st, [])
  | none, e :: es =>
    match e with
    | .tag i => if nameOf i = name then textsState name (some []) es else textsState name none es
    | _ => textsState name none es
  | some t, e :: es =>
    match e with
    | .ch b => textsState name (some (t ++ [b])) es
    | .tag i =>
      if nameOf i = 0x2F :: name then ((textsState name none es).1, unref t :: (textsState name none es).2) else textsState name (some t) es
    | _ => textsState name (some t) es

theorem textsState_append (name : Bytes) (st : Option Bytes) (a b : List HtmlEvent) :
    textsState name st (a ++ b) =
      ((textsState name (textsState name st a).1 b).1, (textsState name st a).2 ++ (textsState name (textsState name st a).1 b).2) := by
  induction a generalizing st with
  | nil => cases st <;> simp [textsState]
  | cons e es ih =>
    cases st with
    | none =>
      cases e with
      | ch c => simp only [List.cons_append, textsState]; exact ih _
      | decl i => simp only [List.cons_append, textsState]; exact ih _
      | tag i =>
        simp only [List.cons_append, textsState]
        split
        · exact ih _
        · exact ih _
    | some t =>
      cases e with
      | ch c => simp only [List.cons_append, textsState]; exact ih _
      | decl i => simp only [List.cons_append, textsState]; exact ih _
      | tag i =>
        simp only [List.cons_append, textsState]
        split
        · rw [ih]; simp only [List.cons_append]
        · exact ih _

theorem textsFrom_state (name : Bytes) (st : Option Bytes) (es : List HtmlEvent) : textsFrom name st es = (textsState name st es).2 := by
  induction es generalizing st with
  | nil => cases st <;> rfl
  | cons e es ih =>
    cases st with
    | none =>
      cases e with
      | ch c => simp only [textsFrom, textsState]; exact ih _
      | decl i => simp only [textsFrom, textsState]; exact ih _
      | tag i =>
        simp only [textsFrom, textsState]
        split
        · exact ih _
        · exact ih _
    | some t =>
      cases e with
      | ch c => simp only [textsFrom, textsState]; exact ih _
      | decl i => simp only [textsFrom, textsState]; exact ih _
      | tag i =>
        simp only [textsFrom, textsState]
        split
        · rw [ih]
        · exact ih _

/-- Reader and text collector together. -/
def pageScan (name : Bytes) (st : HtmlState × Option Bytes) (s : Bytes) : (HtmlState × Option Bytes) × List Bytes :=
  (((htmlRun st.1 s).1, (textsState name st.2 (htmlRun st.1 s).2).1), (textsState name st.2 (htmlRun st.1 s).2).2)

theorem pageScan_append (name : Bytes) (st : HtmlState × Option Bytes) (a b : Bytes) :
    pageScan name st (a ++ b) =
      ((pageScan name (pageScan name st a).1 b).1, (pageScan name st a).2 ++ (pageScan name (pageScan name st a).1 b).2) := by
  simp only [pageScan, htmlRun_append, textsState_append]

theorem textsOf_scan (name page : Bytes) : textsOf name page = (pageScan name (.data, none) page).2 := by
  simp only [textsOf, readHtml, pageScan, textsFrom_state]

theorem textsState_none_chars (name s : Bytes) : textsState name none (s.map .ch) = (none, []) := by
  induction s with
  | nil => rfl
  | cons b s ih => simp only [List.map_cons, textsState]; exact ih

theorem textsState_some_chars (name t s : Bytes) : textsState name (some t) (s.map .ch) = (some (t ++ s), []) := by
  induction s generalizing t with
  | nil => simp [textsState]
  | cons b s ih => simp only [List.map_cons, textsState]; rw [ih]; simp

theorem pageScan_outside (name s : Bytes) : pageScan name (.data, none) (htmlEscape s) = ((.data, none), []) := by
  simp only [pageScan, htmlRun_data, textsState_none_chars]

theorem pageScan_inside (name t s : Bytes) : pageScan name (.data, some t) (htmlEscape s) = ((.data, some (t ++ htmlEscape s)), []) := by
  simp only [pageScan, htmlRun_data, textsState_some_chars]

/-- A step of a scan: the first part of the page, then the rest. -/
theorem htmlScan_step {name : Bytes} {st st' : HtmlState × Option Bytes} {a b : Bytes} {o : List Bytes}
    (h : pageScan name st a = (st', o)) : pageScan name st (a ++ b) = ((pageScan name st' b).1, o ++ (pageScan name st' b).2) := by
  rw [pageScan_append, h]

/-- The end tag of an element. -/
theorem htmlScan_close {name : Bytes} {a b : Bytes} (t : Bytes) (ha : htmlRun .data a = (.data, [.tag (0x2F :: name)]))
    (hn : nameOf (0x2F :: name) = 0x2F :: name) :
    pageScan name (.data, some t) (a ++ b) = ((pageScan name (.data, none) b).1, unref t :: (pageScan name (.data, none) b).2) := by
  have : pageScan name (.data, some t) a = ((.data, none), [unref t]) := by
    simp only [pageScan, ha, textsState, hn, if_true]
  rw [htmlScan_step this]
  rfl

theorem tagsOf_append (a b : List HtmlEvent) : tagsOf (a ++ b) = tagsOf a ++ tagsOf b := List.filter_append ..

theorem tagsOf_chars (s : Bytes) : tagsOf (s.map .ch) = [] := by
  induction s with
  | nil => rfl
  | cons b s ih => simp [tagsOf]

end Kagome
