import Verif.Spec.Browser
import Verif.Props.Form
import Verif.Props.Examples

/-! C74: the table of the browser example. -/

namespace Kagome

open Spec

/-- A row of texts without markup has five cells. -/
theorem wasmRow_decoded (toJs : Bytes → Bytes) {r : WasmRecord} {x : TokenData} (h : SameData r x)
    (hm : ∀ c ∈ wordCells x, NoMarkup (toJs c)) : textsOf (str "td") (wasmRow (recordJs toJs r)) = (wordCells x).map toJs := by
  simp only [wordCells, List.forall_mem_cons] at hm
  obtain ⟨m1, m2, m3, m4, m5, -⟩ := hm
  have h0 : pageScan (str "td") (.data, none) (str "<tr><td>") = ((.data, some []), []) := by decide +kernel
  simp only [wasmRow, recordJs, h.surface, h.pos, h.baseForm, h.reading, h.pronunciation]
  rw [textsOf_scan, htmlScan_step h0, live_cell m1, live_cell m2, live_cell m3, live_cell m4]
  simp only [live_last m5, List.nil_append, wordCells, List.map_cons, List.map_nil]

/-- Plain texts are shown as they are. -/
theorem wasmRow_cells {toJs : Bytes → Bytes} (hj : Decodes toJs) {r : WasmRecord} {x : TokenData} (h : SameData r x) (hp : ∀ c ∈ wordCells x, PlainCell c) :
    textsOf (str "td") (wasmRow (recordJs toJs r)) = wordCells x := by
  have e : ∀ c ∈ wordCells x, toJs c = c := fun c hc => hj c (hp c hc).valid (hp c hc).mark
  rw [wasmRow_decoded toJs h (fun c hc => by rw [e c hc]; exact (hp c hc).markup)]
  exact (List.map_congr_left e).trans (List.map_id _)

/-- What happens when something is typed. -/
theorem browser_input {d : Dict} (tab : FeatureTables d) (ideo : Nat → Bool) {toJs : Bytes → Bytes} (hj : Decodes toJs) {us : List Nat} {s : Bytes}
    (hs : Utf16 us s) (h : Tame ⟨d, none, true⟩ s) (old : List Bytes) :
    ∃ rows, browserStep (some d) ideo toJs ⟨true, old⟩ (.input us) = some ⟨true, rows⟩ ∧ TableShows d ideo toJs s rows := by
  obtain ⟨toks, recs, h1, h2, h3, h4, h5⟩ := C63_wasm tab ideo h []
  refine ⟨recs.map (fun r => wasmRow (recordJs toJs r)), ?_, ?_⟩
  · simp only [browserStep, if_true, unitsUtf8_eq hs, h2]
  · have hall : ∀ tok ∈ toks, ∃ x, newTokenData tok = some x := by
      intro tok ht
      obtain ⟨i, hi, rfl⟩ := List.getElem_of_mem ht
      obtain ⟨⟨x, hx, -⟩, -⟩ := h5 i toks[i] (recs[i]'(by omega)) (by simp [hi]) (by simp [h3, hi])
      exact ⟨x, hx⟩
    have hds : ∃ ds : List TokenData, toks.map newTokenData = ds.map some := by
      clear h1 h3 h5
      induction toks with
      | nil => exact ⟨[], rfl⟩
      | cons tok toks ih =>
        obtain ⟨x, hx⟩ := hall tok (by simp)
        obtain ⟨ds, hd⟩ := ih (fun t ht => hall t (by simp [ht]))
        exact ⟨x :: ds, by simp [hx, hd]⟩
    obtain ⟨ds, hds⟩ := hds
    have hlen : toks.length = ds.length := by simpa using congrArg List.length hds
    have hsame : ∀ (i : Nat) (x : TokenData) (r : WasmRecord), ds[i]? = some x → recs[i]? = some r → SameData r x := by
      intro i x r hx hr
      have hi : i < ds.length := (List.getElem?_eq_some_iff.mp hx).1
      have ht : toks[i]? = some (toks[i]'(by omega)) := List.getElem?_eq_getElem (by omega)
      obtain ⟨⟨y, hy, hsd⟩, -⟩ := h5 i _ r ht hr
      have := congrArg (fun l => l[i]?) hds
      simp only [List.getElem?_map, ht, hx, Option.map_some, hy, Option.some.injEq] at this
      rw [← this]
      exact hsd
    refine ⟨toks, ds, h1, hds, by simp [h3, hlen], ?_, ?_⟩
    · rw [← h4, List.flatMap_def]
      congr 1
      apply List.ext_getElem?
      intro i
      simp only [List.getElem?_map]
      by_cases hi : i < ds.length
      · have e1 : ds[i]? = some ds[i] := List.getElem?_eq_getElem hi
        have e2 : recs[i]? = some (recs[i]'(by omega)) := List.getElem?_eq_getElem (by omega)
        rw [e1, e2]
        simp only [Option.map_some, (hsame i _ _ e1 e2).surface]
      · rw [List.getElem?_eq_none (by omega), List.getElem?_eq_none (by omega)]
        rfl
    · intro i x row hx hrow
      rw [List.getElem?_map, Option.map_eq_some_iff] at hrow
      obtain ⟨r, hr, rfl⟩ := hrow
      exact ⟨wasmRow_decoded toJs (hsame i x r hx hr), wasmRow_cells hj (hsame i x r hx hr)⟩

/-- C74: whatever is typed and whenever the program is there, the page goes on, and the table shows the words of the text that was typed last - if the
program was there; before that it stays empty. -/
theorem C74_history_partial {d : Dict} (tab : FeatureTables d) (ideo : Nat → Bool) {toJs : Bytes → Bytes} (hj : Decodes toJs) (es : List BrowserEvent)
    (h : ∀ us, .input us ∈ es → ∃ s, Utf16 us s ∧ Tame ⟨d, none, true⟩ s) :
    ∃ q, browserRun (some d) ideo toJs browserStart es = some q ∧
      ((heard false es).getLast? = none → q.rows = []) ∧
      ∀ us, (heard false es).getLast? = some us → ∃ s, Utf16 us s ∧ TableShows d ideo toJs s q.rows := by
  have key : ∀ (es : List BrowserEvent) (p : BrowserPage), (∀ us, .input us ∈ es → ∃ s, Utf16 us s ∧ Tame ⟨d, none, true⟩ s) →
      ∃ q, browserRun (some d) ideo toJs p es = some q ∧ ((heard p.ready es).getLast? = none → q.rows = p.rows) ∧
        ∀ us, (heard p.ready es).getLast? = some us → ∃ s, Utf16 us s ∧ TableShows d ideo toJs s q.rows := by
    intro es
    induction es with
    | nil => intro p _; exact ⟨p, rfl, fun _ => rfl, fun us hu => by simp [heard] at hu⟩
    | cons e es ih =>
      intro p h
      have ht : ∀ us, .input us ∈ es → ∃ s, Utf16 us s ∧ Tame ⟨d, none, true⟩ s := fun us hu => h us (List.mem_cons_of_mem _ hu)
      cases e with
      | loaded => exact ih { p with ready := true } ht
      | input us =>
        obtain ⟨ready, old⟩ := p
        cases ready with
        | false => exact ih ⟨false, old⟩ ht
        | true =>
          obtain ⟨s, hs, htame⟩ := h us (by simp)
          obtain ⟨rows, h1, h2⟩ := browser_input tab ideo hj hs htame old
          obtain ⟨q, h3, h4, h5⟩ := ih ⟨true, rows⟩ ht
          refine ⟨q, by rw [browserRun, h1]; exact h3, ?_, ?_⟩
          · intro hn
            simp [heard] at hn
          · intro vs hv
            simp only [heard, List.getLast?_cons, Option.some.injEq] at hv
            cases hl : (heard true es).getLast? with
            | none =>
              rw [hl, Option.getD_none] at hv
              subst hv
              exact ⟨s, hs, by rw [h4 hl]; exact h2⟩
            | some ws =>
              rw [hl, Option.getD_some] at hv
              subst hv
              exact h5 ws hl
  exact key es browserStart h

/-- A text of characters of one code unit. -/
theorem utf16_small (cs : List Char) (h : ∀ c ∈ cs, c.val.toNat < 0x10000) :
    Utf16 (cs.map (fun c => c.val.toNat)) (cs.flatMap String.utf8EncodeChar) := by
  induction cs with
  | nil => exact .nil
  | cons c cs ih => exact .char c (h c (by simp)) (ih (fun x hx => h x (by simp [hx])))

/-- C74, in full, would say that of every word. The row of the word `<!--` has no cells, because the script does not escape what it writes. -/
theorem C74_row_wrong : ∃ us q, Utf16 us (str "もも<!--") ∧ browserRun (some Toy.dict) Toy.ideo id browserStart [.loaded, .input us] = some q ∧
    q.rows.map (textsOf (str "td")) = [[str "もも", str "名詞", str "もも", [], []], []] := by
  refine ⟨['も', 'も', '<', '!', '-', '-'].map (fun c => c.val.toNat),
    ⟨true, [str "<tr><td>もも</td><td>名詞</td><td>もも</td><td></td><td></td></tr>", str "<tr><td><!--</td><td>記号</td><td></td><td></td><td></td></tr>"]⟩,
    utf16_small ['も', 'も', '<', '!', '-', '-'] (by decide), ?_, ?_⟩
  · decide +kernel
  · decide +kernel

/-- C74: nor is it true before the program is there: what was typed then is not shown afterwards either, until something else is typed. -/
theorem C74_early_wrong : ∃ us q, Utf16 us (str "もも") ∧ browserRun (some Toy.dict) Toy.ideo id browserStart [.input us, .loaded] = some q ∧
    q.ready = true ∧ q.rows = [] ∧ ¬ TableShows Toy.dict Toy.ideo id (str "もも") q.rows := by
  refine ⟨['も', 'も'].map (fun c => c.val.toNat), ⟨true, []⟩, utf16_small ['も', 'も'] (by decide), rfl, rfl, rfl, ?_⟩
  rintro ⟨toks, ds, -, -, h, hs, -⟩
  have : ds = [] := List.length_eq_zero_iff.mp h.symm
  subst this
  exact absurd hs (by decide)

/-- A history with texts before and after the program is there. -/
example : (∀ us, BrowserEvent.input us ∈ [.input [0x3082], .loaded, .input [0x3082, 0x3082], .input [0x3082]] →
      ∃ s, Utf16 us s ∧ Tame ⟨Toy.dict, none, true⟩ s) ∧
    heard false [.input [0x3082], .loaded, .input [0x3082, 0x3082], .input [0x3082]] = [[0x3082, 0x3082], [0x3082]] ∧ Decodes id ∧
    PlainCell (str "もも") ∧
    browserRun (some Toy.dict) Toy.ideo id browserStart [.input [0x3082], .loaded, .input [0x3082, 0x3082], .input [0x3082]] =
      some ⟨true, [str "<tr><td>も</td><td>助詞,係助詞</td><td>係助詞</td><td></td><td></td></tr>"]⟩ := by
  have tame : ∀ {s : Bytes}, runeCount s ≤ 16000 → Tame ⟨Toy.dict, none, true⟩ s := fun h => ⟨Toy.wellFormed_none, Toy.replacementOk _, fits_short _ h⟩
  refine ⟨?_, rfl, fun s _ _ => rfl, ⟨valid_str _, by decide +kernel, by decide +kernel⟩, by decide +kernel⟩
  intro us hu
  simp only [List.mem_cons, BrowserEvent.input.injEq, reduceCtorEq, List.not_mem_nil, or_false, false_or] at hu
  rcases hu with rfl | rfl | rfl
  · exact ⟨_, utf16_small ['も'] (by decide), tame (by decide +kernel)⟩
  · exact ⟨_, utf16_small ['も', 'も'] (by decide), tame (by decide +kernel)⟩
  · exact ⟨_, utf16_small ['も'] (by decide), tame (by decide +kernel)⟩

end Kagome
