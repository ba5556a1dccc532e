import Verif.Proof.Html
import Verif.Props.Demo

/-! C64: the pages of the demo server. -/

namespace Kagome

open Spec

/-! ### Texts -/

theorem td_close (b t : Bytes) : pageScan (str "td") (.data, some t) (str "</td>" ++ b) =
    ((pageScan (str "td") (.data, none) b).1, unref t :: (pageScan (str "td") (.data, none) b).2) :=
  htmlScan_close t (by decide +kernel) (by decide +kernel)

/-- The scan of a cell: the text, then its end tag and the rest of the piece. -/
theorem scan_cell {p rest : Bytes} (s : Bytes) {st : HtmlState × Option Bytes}
    (hp : str "</td>" <+: p) (hs : pageScan (str "td") (.data, none) (p.drop 5) = (st, [])) :
    pageScan (str "td") (.data, some []) (htmlEscape s ++ (p ++ rest)) =
      ((pageScan (str "td") st rest).1, onPage s :: (pageScan (str "td") st rest).2) := by
  obtain ⟨q, rfl⟩ := hp
  have hq : (str "</td>" ++ q).drop 5 = q := by
    have : (str "</td>").length = 5 := by decide
    rw [← this, List.drop_left]
  rw [hq] at hs
  rw [htmlScan_step (pageScan_inside _ _ _), List.append_assoc, td_close, htmlScan_step hs]
  simp only [List.nil_append, unref_escape]

theorem scan_record (r : Record) (rest : Bytes) :
    pageScan (str "td") (.data, none) (renderRecord r ++ rest) =
      ((pageScan (str "td") (.data, none) rest).1,
        [onPage r.surface, onPage r.pos, onPage r.baseForm, onPage r.reading, onPage r.pronunciation] ++ (pageScan (str "td") (.data, none) rest).2) := by
  have h0 : pageScan (str "td") (.data, none) rowSurface = ((.data, some []), []) := by decide +kernel
  unfold renderRecord
  simp only [List.append_assoc]
  rw [htmlScan_step h0, scan_cell r.surface (p := rowPos) (st := (.data, some [])) (by decide +kernel) (by decide +kernel),
    scan_cell r.pos (p := rowBase) (st := (.data, some [])) (by decide +kernel) (by decide +kernel),
    scan_cell r.baseForm (p := rowReading) (st := (.data, some [])) (by decide +kernel) (by decide +kernel),
    scan_cell r.reading (p := rowPron) (st := (.data, some [])) (by decide +kernel) (by decide +kernel),
    scan_cell r.pronunciation (p := rowEnd) (st := (.data, none)) (by decide +kernel) (by decide +kernel)]
  simp

theorem scan_records (rs : List Record) (rest : Bytes) :
    pageScan (str "td") (.data, none) (rs.flatMap renderRecord ++ rest) =
      ((pageScan (str "td") (.data, none) rest).1,
        rs.flatMap (fun r => [onPage r.surface, onPage r.pos, onPage r.baseForm, onPage r.reading, onPage r.pronunciation]) ++
          (pageScan (str "td") (.data, none) rest).2) := by
  induction rs with
  | nil => rfl
  | cons r rs ih => rw [List.flatMap_cons, List.append_assoc, scan_record, ih]; simp

/-- A picture that a page can hold: nothing is left open in it, and it has no table cells and no `strong` element. -/
def Picture (svg : Bytes) : Prop :=
  Closed svg ∧ ∀ i, .tag i ∈ readHtml svg → nameOf i ≠ str "td" ∧ nameOf i ≠ str "strong"

theorem scan_picture {name svg : Bytes} (hc : Closed svg) (h : ∀ i, .tag i ∈ readHtml svg → nameOf i ≠ name) :
    pageScan name (.data, none) svg = ((.data, none), []) := by
  have : ∀ es : List HtmlEvent, (∀ i, .tag i ∈ es → nameOf i ≠ name) → textsState name none es = (none, []) := by
    intro es
    induction es with
    | nil => intro _; rfl
    | cons e es ih =>
      intro hh
      have ih := ih fun i hi => hh i (by simp [hi])
      cases e with
      | ch c => simpa only [textsState] using ih
      | decl i => simpa only [textsState] using ih
      | tag i => simp only [textsState, if_neg (hh i (by simp))]; exact ih
  have h2 := this (readHtml svg) h
  unfold Closed at hc
  unfold readHtml at h2
  simp only [pageScan, hc, h2]

theorem scan_svg {name svg : Bytes} (h : svg = [] ∨ Picture svg) (hn : name = str "td" ∨ name = str "strong") :
    pageScan name (.data, none) (renderSvg svg) = ((.data, none), []) := by
  unfold renderSvg
  split
  · rfl
  · rename_i hne
    have hp : Picture svg := h.resolve_left hne
    have ho : pageScan name (.data, none) svgOpen = ((.data, none), []) := by rcases hn with rfl | rfl <;> decide +kernel
    have hc : pageScan name (.data, none) svgClose = ((.data, none), []) := by rcases hn with rfl | rfl <;> decide +kernel
    have hq : ∀ i, .tag i ∈ readHtml svg → nameOf i ≠ name := by
      intro i hi
      rcases hn with rfl | rfl
      · exact (hp.2 i hi).1
      · exact (hp.2 i hi).2
    rw [htmlScan_step ho, htmlScan_step (scan_picture hp.1 hq), hc]
    rfl

theorem scan_err_td (e rest : Bytes) :
    pageScan (str "td") (.data, none) (renderErr e ++ rest) = pageScan (str "td") (.data, none) rest := by
  unfold renderErr
  split
  · rfl
  · have h1 : pageScan (str "td") (.data, none) errOpen = ((.data, none), []) := by decide +kernel
    have h2 : pageScan (str "td") (.data, none) errClose = ((.data, none), []) := by decide +kernel
    simp only [List.append_assoc]
    rw [htmlScan_step h1, htmlScan_step (pageScan_outside _ _), htmlScan_step h2]
    simp

theorem scan_err_strong (e rest : Bytes) :
    pageScan (str "strong") (.data, none) (renderErr e ++ rest) =
      ((pageScan (str "strong") (.data, none) rest).1, (if e = [] then [] else [onPage e]) ++ (pageScan (str "strong") (.data, none) rest).2) := by
  unfold renderErr
  split
  · rfl
  · have h1 : pageScan (str "strong") (.data, none) errOpen = ((.data, some []), []) := by decide +kernel
    have h2 : errClose = str "</strong>" ++ errClose.drop 9 := by decide +kernel
    have h3 : pageScan (str "strong") (.data, none) (errClose.drop 9) = ((.data, none), []) := by decide +kernel
    simp only [List.append_assoc]
    rw [htmlScan_step h1, htmlScan_step (pageScan_inside _ _ _), h2, List.append_assoc,
      htmlScan_close _ (by decide +kernel) (by decide +kernel), htmlScan_step h3]
    simp [unref_escape]

theorem scan_outside (name s rest : Bytes) : pageScan name (.data, none) (htmlEscape s ++ rest) = pageScan name (.data, none) rest := by
  rw [htmlScan_step (pageScan_outside _ _)]; simp

/-- C64: the cells of the lattice page are the sentence, the mode and, row by row, the texts of the records; the error stands in the page
as it is. So it is for every text, with markup in it or not. -/
theorem C64_cells (sentence : Bytes) (rs : List Record) (err mode : Bytes) {svg : Bytes} (h : svg = [] ∨ Picture svg) :
    textsOf (str "td") (renderGraph sentence rs err svg mode) =
      [onPage sentence, onPage mode] ++
        rs.flatMap (fun r => [onPage r.surface, onPage r.pos, onPage r.baseForm, onPage r.reading, onPage r.pronunciation]) ∧
    textsOf (str "strong") (renderGraph sentence rs err svg mode) = (if err = [] then [] else [onPage err]) := by
  constructor
  · have h0 : pageScan (str "td") (.data, none) graphTop = ((.data, some []), []) := by decide +kernel
    have h1 : pageScan (str "td") (.data, none) graphRange = ((.data, none), []) := by decide +kernel
    have h2 : pageScan (str "td") (.data, none) graphIf = ((.data, none), []) := by decide +kernel
    have h3 : pageScan (str "td") (.data, none) graphEnd = ((.data, none), []) := by decide +kernel
    rw [textsOf_scan, renderGraph, htmlScan_step h0,
      scan_cell sentence (p := graphMode) (st := (.data, some [])) (by decide +kernel) (by decide +kernel),
      scan_cell mode (p := graphHead) (st := (.data, none)) (by decide +kernel) (by decide +kernel),
      scan_records, htmlScan_step h1, scan_err_td, htmlScan_step h2, htmlScan_step (scan_svg h (.inl rfl)), h3]
    simp
  · have h0 : pageScan (str "strong") (.data, none) graphTop = ((.data, none), []) := by decide +kernel
    have h4 : pageScan (str "strong") (.data, none) graphMode = ((.data, none), []) := by decide +kernel
    have h5 : pageScan (str "strong") (.data, none) graphHead = ((.data, none), []) := by decide +kernel
    have h1 : pageScan (str "strong") (.data, none) graphRange = ((.data, none), []) := by decide +kernel
    have h2 : pageScan (str "strong") (.data, none) graphIf = ((.data, none), []) := by decide +kernel
    have h3 : pageScan (str "strong") (.data, none) graphEnd = ((.data, none), []) := by decide +kernel
    have hr : ∀ rest, pageScan (str "strong") (.data, none) (rs.flatMap renderRecord ++ rest) = pageScan (str "strong") (.data, none) rest := by
      intro rest
      have k0 : pageScan (str "strong") (.data, none) rowSurface = ((.data, none), []) := by decide +kernel
      have k1 : pageScan (str "strong") (.data, none) rowPos = ((.data, none), []) := by decide +kernel
      have k2 : pageScan (str "strong") (.data, none) rowBase = ((.data, none), []) := by decide +kernel
      have k3 : pageScan (str "strong") (.data, none) rowReading = ((.data, none), []) := by decide +kernel
      have k4 : pageScan (str "strong") (.data, none) rowPron = ((.data, none), []) := by decide +kernel
      have k5 : pageScan (str "strong") (.data, none) rowEnd = ((.data, none), []) := by decide +kernel
      induction rs with
      | nil => rfl
      | cons r rs ih =>
        rw [List.flatMap_cons, renderRecord]
        simp only [List.append_assoc]
        rw [htmlScan_step k0, scan_outside, htmlScan_step k1, scan_outside, htmlScan_step k2, scan_outside, htmlScan_step k3, scan_outside, htmlScan_step k4,
          scan_outside, htmlScan_step k5, ih]
        simp
    rw [textsOf_scan, renderGraph, htmlScan_step h0, scan_outside, htmlScan_step h4, scan_outside, htmlScan_step h5, hr, htmlScan_step h1, scan_err_strong,
      htmlScan_step h2, htmlScan_step (scan_svg h (.inr rfl)), h3]
    simp

/-! ### Tags -/

/-- The tags of a part of a page that starts and ends between tags. -/
theorem tags_step {a b : Bytes} (h : Closed a) : tagsOf (readHtml (a ++ b)) = tagsOf (readHtml a) ++ tagsOf (readHtml b) := by
  unfold Closed at h
  simp only [readHtml, htmlRun_append, tagsOf_append, h]

theorem tags_text (s b : Bytes) : tagsOf (readHtml (htmlEscape s ++ b)) = tagsOf (readHtml b) := by
  rw [tags_step (by simp only [Closed, htmlRun_data])]
  simp only [readHtml, htmlRun_data, tagsOf_chars, List.nil_append]

theorem closed_append {a b : Bytes} (ha : Closed a) (hb : Closed b) : Closed (a ++ b) := by
  unfold Closed at *
  simp only [htmlRun_append, ha, hb]

theorem closed_escape (s : Bytes) : Closed (htmlEscape s) := by simp only [Closed, htmlRun_data]

theorem closed_records (rs : List Record) : Closed (rs.flatMap renderRecord) := by
  have k0 : Closed rowSurface := by unfold Closed; decide +kernel
  have k1 : Closed rowPos := by unfold Closed; decide +kernel
  have k2 : Closed rowBase := by unfold Closed; decide +kernel
  have k3 : Closed rowReading := by unfold Closed; decide +kernel
  have k4 : Closed rowPron := by unfold Closed; decide +kernel
  have k5 : Closed rowEnd := by unfold Closed; decide +kernel
  induction rs with
  | nil => rfl
  | cons r rs ih =>
    rw [List.flatMap_cons]
    refine closed_append ?_ ih
    exact closed_append k0 (closed_append (closed_escape _) (closed_append k1 (closed_append (closed_escape _) (closed_append k2
      (closed_append (closed_escape _) (closed_append k3 (closed_append (closed_escape _) (closed_append k4 (closed_append (closed_escape _) k5)))))))))

theorem tags_records (rs : List Record) (plain : Record) :
    tagsOf (readHtml (rs.flatMap renderRecord)) = tagsOf (readHtml ((rs.map fun _ => plain).flatMap renderRecord)) := by
  have k0 : Closed rowSurface := by unfold Closed; decide +kernel
  have k1 : Closed rowPos := by unfold Closed; decide +kernel
  have k2 : Closed rowBase := by unfold Closed; decide +kernel
  have k3 : Closed rowReading := by unfold Closed; decide +kernel
  have k4 : Closed rowPron := by unfold Closed; decide +kernel
  have k5 : Closed rowEnd := by unfold Closed; decide +kernel
  induction rs with
  | nil => rfl
  | cons r rs ih =>
    rw [List.map_cons, List.flatMap_cons, List.flatMap_cons, renderRecord, renderRecord]
    simp only [List.append_assoc]
    rw [tags_step k0, tags_text, tags_step k1, tags_text, tags_step k2, tags_text, tags_step k3, tags_text, tags_step k4, tags_text,
      tags_step k5, ih, tags_step k0, tags_text, tags_step k1, tags_text, tags_step k2, tags_text, tags_step k3, tags_text, tags_step k4,
      tags_text, tags_step k5]

/-- C64: the texts bring no tags into the lattice page: it has the tags that it has with plain texts in their place, for as many rows. -/
theorem C64_tags (sentence : Bytes) (rs : List Record) (err svg mode plain : Bytes) (hp : plain ≠ []) :
    tagsOf (readHtml (renderGraph sentence rs err svg mode)) =
      tagsOf (readHtml (renderGraph plain (rs.map fun _ => ⟨plain, plain, plain, plain, plain⟩) (if err = [] then [] else plain) svg plain)) := by
  have k0 : Closed graphTop := by unfold Closed; decide +kernel
  have k1 : Closed graphMode := by unfold Closed; decide +kernel
  have k2 : Closed graphHead := by unfold Closed; decide +kernel
  have k3 : Closed graphRange := by unfold Closed; decide +kernel
  have k4 : Closed errOpen := by unfold Closed; decide +kernel
  have k5 : Closed errClose := by unfold Closed; decide +kernel
  have he : ∀ b, tagsOf (readHtml (renderErr err ++ b)) = tagsOf (readHtml (renderErr (if err = [] then [] else plain) ++ b)) := by
    intro b
    by_cases h : err = []
    · rw [if_pos h, h]
    · rw [if_neg h, renderErr, renderErr, if_neg h, if_neg hp]
      simp only [List.append_assoc]
      rw [tags_step k4, tags_text, tags_step k5, tags_step k4, tags_text, tags_step k5]
  rw [renderGraph, renderGraph, tags_step k0, tags_text, tags_step k1, tags_text, tags_step k2, tags_step (closed_records _), tags_step k3, he,
    tags_records rs ⟨plain, plain, plain, plain, plain⟩, tags_step k0, tags_text, tags_step k1, tags_text, tags_step k2,
    tags_step (closed_records _), tags_step k3]

/-- C64: what the server answers to a request for the lattice: the cells are the sentence, the mode and the rows of the tokens (none and an
error in their place if Graphviz does not work), and the tags are those of a page with plain texts. -/
theorem C64_lattice {t : Tokenizer} (wf : WellFormed t.dict t.userDict) (pt : PosTables t.dict t.userDict) (tab : FeatureTables t.dict)
    (ideo : Nat → Bool) (viz : Graphviz) (addr : Ptr → Bytes) {sen mode lattice : Bytes} {m : Int} (hl : lattice ≠ []) (hm : DemoMode mode m)
    (hv : ∀ txt pic svg, viz.run txt = .ok pic → Cropped pic svg → svg = [] ∨ Picture svg) :
    ∃ body toks rows err svg, demoBody t ideo viz addr sen mode lattice = some body ∧
      analyze { t with omitBosEos := false } ideo sen m = some toks ∧
      (RowsOf (inner toks) rows ∧ err = [] ∨ rows = [] ∧ svg = [] ∧ err ≠ []) ∧
      textsOf (str "td") body = [onPage sen, onPage mode] ++
        rows.flatMap (fun r => [onPage r.surface, onPage r.pos, onPage r.baseForm, onPage r.reading, onPage r.pronunciation]) ∧
      textsOf (str "strong") body = (if err = [] then [] else [onPage err]) ∧
      ∀ plain : Bytes, plain ≠ [] → tagsOf (readHtml body) = tagsOf (readHtml
        (renderGraph plain (rows.map fun _ => ⟨plain, plain, plain, plain, plain⟩) (if err = [] then [] else plain) svg plain)) := by
  obtain ⟨rows, err, svg, toks, g, h1, h2, h3, h4, h5⟩ := C49_page wf pt tab ideo viz addr (sen := sen) hl hm
  have key : (RowsOf (inner toks) rows ∧ err = [] ∨ rows = [] ∧ svg = [] ∧ err ≠ []) ∧ (svg = [] ∨ Picture svg) := by
    cases hi : viz.installed with
    | false =>
      obtain ⟨a, b, c⟩ := h4 hi
      exact ⟨.inr ⟨a, b, by rw [c]; decide +kernel⟩, .inl b⟩
    | true =>
      obtain ⟨p, q, r⟩ := h5 hi
      cases hr : viz.run (dotText addr g) with
      | ok pic =>
        obtain ⟨a, b, c⟩ := r pic hr
        exact ⟨.inl ⟨a, c⟩, hv _ _ _ hr b⟩
      | error ed =>
        obtain ⟨e, d⟩ := ed
        cases d with
        | true =>
          obtain ⟨a, b, c⟩ := q e hr
          exact ⟨.inr ⟨a, b, by rw [c]; decide +kernel⟩, .inl b⟩
        | false =>
          obtain ⟨a, b, c⟩ := p e hr
          refine ⟨.inr ⟨a, b, ?_⟩, .inl b⟩
          rw [c]
          intro h
          exact absurd (List.append_eq_nil_iff.mp h).1 (by decide +kernel)
  refine ⟨renderGraph sen rows err svg mode, toks, rows, err, svg, by rw [demoBody, h1]; rfl, h2, key.1, ?_⟩
  obtain ⟨c1, c2⟩ := C64_cells sen rows err mode key.2
  exact ⟨c1, c2, fun plain hp => C64_tags sen rows err svg mode plain hp⟩

/-! ### The form -/

theorem scan_raw (name n t s : Bytes) :
    pageScan name (.raw n [], some t) (htmlEscape s) = ((.raw n [], some (t ++ htmlEscape s)), []) := by
  simp only [pageScan, htmlRun_raw n (htmlEscape_clean s), textsState_some_chars]

theorem formSearch_cut : formSearch = str "</textarea>" ++ formSearch.drop 11 := by decide +kernel

/-- The tag that the first of the two optional marks is in. -/
def searchTag (mark : Bytes) : HtmlState := .tag (str "input type=\"radio\" name=\"r\" value=\"Search\" " ++ mark) none

/-- The tag that the second of the two optional marks is in. -/
def extendedTag (mark : Bytes) : HtmlState := .tag (str "input type=\"radio\" name=\"r\" value=\"Extended\" " ++ mark) none

theorem scan_form_end (m : Bytes) : pageScan (str "textarea") (.data, none) (formSearch.drop 11 ++ ((if m = str "search" then formSearchOn else []) ++
    (formExtended ++ ((if m = str "extended" then formExtendedOn else []) ++ formEnd)))) = ((.data, none), []) := by
  have k0 : pageScan (str "textarea") (.data, none) (formSearch.drop 11) = ((searchTag [], none), []) := by decide +kernel
  have k1 : pageScan (str "textarea") (searchTag [], none) formSearchOn = ((searchTag (str "checked"), none), []) := by decide +kernel
  have k2 : pageScan (str "textarea") (searchTag [], none) formExtended = ((extendedTag [], none), []) := by decide +kernel
  have k3 : pageScan (str "textarea") (searchTag (str "checked"), none) formExtended = ((extendedTag [], none), []) := by decide +kernel
  have k4 : pageScan (str "textarea") (extendedTag [], none) formExtendedOn = ((extendedTag (str "checked"), none), []) := by decide +kernel
  have k5 : pageScan (str "textarea") (extendedTag [], none) formEnd1 = ((.raw (str "script") [], none), []) := by decide +kernel
  have k6 : pageScan (str "textarea") (extendedTag (str "checked"), none) formEnd1 = ((.raw (str "script") [], none), []) := by decide +kernel
  have k7 : pageScan (str "textarea") (.raw (str "script") [], none) formEnd2 = ((.data, none), []) := by decide +kernel
  have he : ∀ mark, mark = [] ∨ mark = str "checked" → pageScan (str "textarea") (extendedTag mark, none) formEnd = ((.data, none), []) := by
    rintro mark (rfl | rfl)
    · rw [formEnd, htmlScan_step k5, k7]; rfl
    · rw [formEnd, htmlScan_step k6, k7]; rfl
  have hx : pageScan (str "textarea") (extendedTag [], none) ((if m = str "extended" then formExtendedOn else []) ++ formEnd) =
      ((.data, none), []) := by
    split
    · rw [htmlScan_step k4, he _ (.inr rfl)]; rfl
    · exact he _ (.inl rfl)
  rw [htmlScan_step k0]
  split
  · rw [htmlScan_step k1, htmlScan_step k3, hx]; rfl
  · rw [List.nil_append, htmlScan_step k2, hx]; rfl

/-- C64: the field of the form has the sentence as its text, and the sentence brings no tags into the page. -/
theorem C64_form (sentence mode plain : Bytes) :
    textsOf (str "textarea") (renderForm sentence mode) = [onPage sentence] ∧
    tagsOf (readHtml (renderForm sentence mode)) = tagsOf (readHtml (renderForm plain mode)) := by
  have hc : htmlRun (.raw (str "textarea") []) (str "</textarea>") = (.data, [.tag (0x2F :: str "textarea")]) := by decide +kernel
  constructor
  · have h0 : pageScan (str "textarea") (.data, none) formTop1 = ((.raw (str "style") [], none), []) := by decide +kernel
    have h1 : pageScan (str "textarea") (.raw (str "style") [], none) formTop2 = ((.raw (str "style") [], none), []) := by decide +kernel
    have h2 : pageScan (str "textarea") (.raw (str "style") [], none) formTop3 = ((.raw (str "textarea") [], some []), []) := by decide +kernel
    have h3 : ∀ t, pageScan (str "textarea") (.raw (str "textarea") [], some t) (str "</textarea>") = ((.data, none), [unref t]) := by
      intro t
      have hn : nameOf (0x2F :: str "textarea") = 0x2F :: str "textarea" := by decide +kernel
      simp only [pageScan, hc, textsState, hn, if_true]
    rw [textsOf_scan, renderForm, formTop]
    simp only [List.append_assoc]
    rw [htmlScan_step h0, htmlScan_step h1, htmlScan_step h2, htmlScan_step (scan_raw _ _ _ _), formSearch_cut, List.append_assoc, htmlScan_step (h3 _),
      scan_form_end]
    simp [unref_escape]
  · have h0 : (htmlRun .data formTop1).1 = .raw (str "style") [] := by decide +kernel
    have h1 : (htmlRun (.raw (str "style") []) formTop2).1 = .raw (str "style") [] := by decide +kernel
    have h2 : (htmlRun (.raw (str "style") []) formTop3).1 = .raw (str "textarea") [] := by decide +kernel
    have h3 : (htmlRun .data formTop).1 = .raw (str "textarea") [] := by
      rw [formTop]
      simp only [htmlRun_append, h0, h1, h2]
    simp only [renderForm, readHtml, htmlRun_append, h3, htmlRun_raw _ (htmlEscape_clean _), tagsOf_append, tagsOf_chars]

/-- C64, in full, would say that the field shows the sentence. A line feed right behind the start tag is not part of the field, so a
sentence that starts with one is shown without it. -/
theorem C64_field_wrong : ∃ sentence, ∀ mode,
    (textsOf (str "textarea") (renderForm sentence mode)).map fieldOf ≠ [onPage sentence] :=
  ⟨str "\nもも", fun mode => by rw [(C64_form _ mode []).1]; decide +kernel⟩

/-- C64: every other sentence is shown as it is. -/
theorem C64_field_partial {sentence : Bytes} (mode : Bytes) (h : sentence.head? ≠ some 0x0A) :
    (textsOf (str "textarea") (renderForm sentence mode)).map fieldOf = [onPage sentence] := by
  rw [(C64_form _ mode []).1]
  cases sentence with
  | nil => rfl
  | cons b s =>
    have hb : b ≠ 0x0A := by simpa using h
    simp only [List.map_cons, List.map_nil, onPage, List.flatMap_cons]
    by_cases h0 : b = 0
    · subst h0; rfl
    · simp only [if_neg h0, List.cons_append, fieldOf, if_neg hb]

/-- C64: a sentence that starts with a line feed is shown without it, and else as it is. So the field shows exactly the sentences
that do not start with one. -/
theorem C64_field_lost (rest mode : Bytes) :
    (textsOf (str "textarea") (renderForm (0x0A :: rest) mode)).map fieldOf = [onPage rest] := by
  rw [(C64_form _ mode []).1]
  rfl

example : (textsOf (str "textarea") (renderForm (str "\n\nもも") [])).map fieldOf = [str "\nもも"] :=
  (C64_field_lost (str "\nもも") []).trans (by decide +kernel)

/-- The mark that an event stands for. -/
def markOf (e : HtmlEvent) : Option Bytes :=
  match e with
  | .tag i => if nameOf i = str "input" ∧ str " checked" <:+ i then some ((behindFirst (str " value=\"") i).takeWhile (· != 0x22)) else none
  | _ => none

theorem checkedOf_marks (page : Bytes) : checkedOf page = (readHtml page).filterMap markOf := rfl

theorem checkedOf_tags (page : Bytes) : checkedOf page = (tagsOf (readHtml page)).filterMap markOf := by
  rw [checkedOf_marks]
  generalize readHtml page = es
  induction es with
  | nil => rfl
  | cons e es ih =>
    cases e with
    | ch c =>
      have h1 : tagsOf (.ch c :: es) = tagsOf es := rfl
      have h2 : markOf (.ch c) = none := rfl
      rw [h1, List.filterMap_cons, h2, ih]
    | decl i =>
      have h1 : tagsOf (.decl i :: es) = .decl i :: tagsOf es := rfl
      rw [h1, List.filterMap_cons, List.filterMap_cons, ih]
    | tag i =>
      have h1 : tagsOf (.tag i :: es) = .tag i :: tagsOf es := rfl
      rw [h1, List.filterMap_cons, List.filterMap_cons, ih]

/-- The reader's state and the marks. -/
def markScan (st : HtmlState) (s : Bytes) : HtmlState × List Bytes := ((htmlRun st s).1, (htmlRun st s).2.filterMap markOf)

theorem mark_step {st st' : HtmlState} {a b : Bytes} {o : List Bytes} (h : markScan st a = (st', o)) :
    markScan st (a ++ b) = ((markScan st' b).1, o ++ (markScan st' b).2) := by
  simp only [markScan, Prod.mk.injEq] at h
  simp only [markScan, htmlRun_append, h.1, List.filterMap_append, h.2]

theorem checkedOf_form (sentence mode : Bytes) : checkedOf (renderForm sentence mode) =
    str "Normal" :: ((if mode = str "search" then [str "Search"] else []) ++ (if mode = str "extended" then [str "Extended"] else [])) := by
  have h0 : markScan .data formTop1 = (.raw (str "style") [], []) := by decide +kernel
  have h1 : markScan (.raw (str "style") []) formTop2 = (.raw (str "style") [], []) := by decide +kernel
  have h2 : markScan (.raw (str "style") []) formTop3 = (.raw (str "textarea") [], []) := by decide +kernel
  have k0 : markScan (.raw (str "textarea") []) formSearch = (searchTag [], [str "Normal"]) := by decide +kernel
  have k1 : markScan (searchTag []) formSearchOn = (searchTag (str "checked"), []) := by decide +kernel
  have k2 : markScan (searchTag []) formExtended = (extendedTag [], []) := by decide +kernel
  have k3 : markScan (searchTag (str "checked")) formExtended = (extendedTag [], [str "Search"]) := by decide +kernel
  have k4 : markScan (extendedTag []) formExtendedOn = (extendedTag (str "checked"), []) := by decide +kernel
  have k5 : markScan (extendedTag []) formEnd1 = (.raw (str "script") [], []) := by decide +kernel
  have k6 : markScan (extendedTag (str "checked")) formEnd1 = (.raw (str "script") [], [str "Extended"]) := by decide +kernel
  have k7 : markScan (.raw (str "script") []) formEnd2 = (.data, []) := by decide +kernel
  have hx : (markScan (extendedTag []) ((if mode = str "extended" then formExtendedOn else []) ++ formEnd)).2 =
      (if mode = str "extended" then [str "Extended"] else []) := by
    split
    · rw [mark_step k4, formEnd, mark_step k6, k7]; rfl
    · rw [List.nil_append, formEnd, mark_step k5, k7]; rfl
  have hm : checkedOf (renderForm sentence mode) = (markScan .data (renderForm [] mode)).2 := by
    rw [checkedOf_tags, (C64_form sentence mode []).2, ← checkedOf_tags, checkedOf_marks, readHtml, markScan]
  rw [hm, renderForm, formTop]
  simp only [List.append_assoc]
  rw [mark_step h0, mark_step h1, mark_step h2]
  simp only [htmlEscape, List.flatMap_nil, List.nil_append]
  rw [mark_step k0]
  by_cases hs : mode = str "search"
  · rw [if_pos hs, if_pos hs, mark_step k1, mark_step k3, hx]; rfl
  · rw [if_neg hs, if_neg hs, List.nil_append, mark_step k2, hx]; rfl

/-- C64: the mode of a request is not kept in the form: of the values that the form itself sends, none marks its own button besides Normal,
which is always marked. -/
theorem C64_radio (sentence : Bytes) {mode : Bytes} (h : mode ∈ [str "Normal", str "Search", str "Extended"]) :
    checkedOf (renderForm sentence mode) = [str "Normal"] := by
  rw [checkedOf_form]
  simp only [List.mem_cons, List.not_mem_nil, or_false] at h
  rcases h with rfl | rfl | rfl <;> decide +kernel

/-- C64: the values that mark a button are those in small letters, which no part of the page sends. -/
theorem C64_radio_small (sentence : Bytes) :
    checkedOf (renderForm sentence (str "search")) = [str "Normal", str "Search"] ∧
    checkedOf (renderForm sentence (str "extended")) = [str "Normal", str "Extended"] := by
  constructor <;> rw [checkedOf_form] <;> decide +kernel

/-! ### Examples -/

/-- A picture; and a page with markup in every text. -/
example : Picture (str "<svg width=\"8pt\"><text x='1'>a>b &amp; c</text></svg>\n") := by
  have h : ∀ e ∈ readHtml (str "<svg width=\"8pt\"><text x='1'>a>b &amp; c</text></svg>\n"),
      (match e with | .tag i => (nameOf i != str "td" && nameOf i != str "strong") | _ => true) = true := by decide +kernel
  refine ⟨by unfold Closed; decide +kernel, fun i hi => ?_⟩
  have := h _ hi
  simpa using this

example : textsOf (str "td") (renderGraph (str "<b>&amp;\"+'") [⟨str "</td>", str "*", str "<!--", str "", str "a"⟩] (str "<x>") [] (str "Normal")) =
    [str "<b>&amp;\"+'", str "Normal", str "</td>", str "*", str "<!--", str "", str "a"] := by decide +kernel

example : (demoBody Toy.tokUser Toy.ideo ⟨true, fun _ => .ok (str "<?xml?>\n<svg></svg>")⟩ (fun _ => str "p") (str "もも<td>") (str "Search") (str "1")).map
    (textsOf (str "td")) = some [str "もも<td>", str "Search", str "もも", str "名詞", str "もも", str "*", str "*",
      str "<", str "記号", str "*", str "*", str "*", str "td", str "名詞", str "*", str "*", str "*", str ">", str "記号", str "*", str "*", str "*"] := by
  decide +kernel

/-- The tags of a page with one row. -/
example : ((tagsOf (readHtml (renderGraph (str "x") [⟨str "x", str "x", str "x", str "x", str "x"⟩] [] [] (str "x")))).dropWhile
    (· != .tag (str "tbody id=\"morphs\""))).take 14 =
    [str "tbody id=\"morphs\"", str "tr", str "td", str "/td", str "td", str "/td", str "td", str "/td", str "td", str "/td", str "td", str "/td",
      str "/tr", str "/tbody"].map .tag := by decide +kernel

end Kagome
