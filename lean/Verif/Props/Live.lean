import Verif.Props.Page
import Verif.Props.Api

/-! C65: the table that the script of the demo page fills while a text is typed. -/

namespace Kagome

open Spec

/-- A text without `<` and `&`. -/
def NoMarkup (s : Bytes) : Prop := ∀ b ∈ s, b ≠ 0x3C ∧ b ≠ 0x26

theorem unref_noMarkup {s : Bytes} (h : NoMarkup s) : unref s = s := by
  unfold unref
  induction s with
  | nil => rfl
  | cons b s ih => simp only [unrefFrom, if_neg (h b (by simp)).2, ih fun x hx => h x (by simp [hx])]

theorem live_cell {s : Bytes} (h : NoMarkup s) (rest : Bytes) :
    pageScan (str "td") (.data, some []) (s ++ (str "</td><td>" ++ rest)) =
      ((pageScan (str "td") (.data, some []) rest).1, s :: (pageScan (str "td") (.data, some []) rest).2) := by
  have h0 : pageScan (str "td") (.data, some []) s = ((.data, some s), []) := by
    simp only [pageScan, htmlRun_clean fun b hb => (h b hb).1, textsState_some_chars, List.nil_append]
  have h1 : str "</td><td>" = str "</td>" ++ str "<td>" := by decide
  have h2 : pageScan (str "td") (.data, none) (str "<td>") = ((.data, some []), []) := by decide +kernel
  rw [htmlScan_step h0, h1, List.append_assoc, td_close, htmlScan_step h2, unref_noMarkup h]
  rfl

theorem live_last {s : Bytes} (h : NoMarkup s) :
    (pageScan (str "td") (.data, some []) (s ++ str "</td></tr>")).2 = [s] := by
  have h0 : pageScan (str "td") (.data, some []) s = ((.data, some s), []) := by
    simp only [pageScan, htmlRun_clean fun b hb => (h b hb).1, textsState_some_chars, List.nil_append]
  have h1 : str "</td></tr>" = str "</td>" ++ str "</tr>" := by decide
  have h2 : pageScan (str "td") (.data, none) (str "</tr>") = ((.data, none), []) := by decide +kernel
  rw [htmlScan_step h0, h1, td_close, h2, unref_noMarkup h]
  rfl

theorem noMarkup_star {s : Bytes} (h : NoMarkup s) : NoMarkup (orStar s) := by
  unfold orStar
  split
  · intro b hb
    have : b = 0x2A := by simpa [str, String.utf8EncodeChar] using hb
    subst this
    decide
  · exact h

/-- The texts of a token that the row shows. -/
def MarkupFree (d : TokenData) : Prop :=
  NoMarkup d.surface ∧ (∀ l, d.pos = some l → NoMarkup (join (str ",") l)) ∧ NoMarkup d.baseForm ∧ NoMarkup d.reading ∧ NoMarkup d.pronunciation

/-- C65: the row of a token whose texts have no `<` and no `&` has five cells: the surface, the parts of speech with commas between, the
base form, the reading and the pronunciation, with a star for each of the last three that is empty. -/
theorem C65_row_partial {d : TokenData} (h : MarkupFree d) {l : List Bytes} (hl : d.pos = some l) :
    textsOf (str "td") (liveRow d) = [d.surface, join (str ",") l, orStar d.baseForm, orStar d.reading, orStar d.pronunciation] := by
  obtain ⟨h1, h2, h3, h4, h5⟩ := h
  have h0 : pageScan (str "td") (.data, none) (str "<tr><td>") = ((.data, some []), []) := by decide +kernel
  rw [textsOf_scan, liveRow, hl, htmlScan_step h0, live_cell h1, live_cell (h2 l hl), live_cell (noMarkup_star h3), live_cell (noMarkup_star h4)]
  simp only [live_last (noMarkup_star h5), List.nil_append]

theorem featureAt_absent {t : Token} {i : Int} {b : Bytes × Bool} (h : featureAt t i = some b) (hb : b.2 = false) : b.1 = [] := by
  have hm : ∀ {o : Option Bytes}, o.map (fun n => (n, true)) = some b → b.1 = [] := by
    intro o ho
    cases o with
    | none => cases ho
    | some x => cases ho; cases hb
  have hu : ∀ {o : Option UserContent} {f : UserContent → Bytes}, o.map (fun c => (f c, true)) = some b → b.1 = [] := by
    intro o f ho
    cases o with
    | none => cases ho
    | some x => cases ho; cases hb
  have hn : some noFeature = some b → b.1 = [] := by
    intro ho; cases ho; rfl
  unfold featureAt at h
  simp only at h
  repeat' split at h
  all_goals first
    | exact hn h
    | exact hm h
    | exact hu h
    | cases h

theorem pickup_absent {t : Token} {k : MetaKey} {b : Bytes × Bool} (h : pickup t k = some b) (hb : b.2 = false) : b.1 = [] := by
  have hn : some noFeature = some b → b.1 = [] := by
    intro ho; cases ho; rfl
  unfold pickup at h
  repeat' split at h
  all_goals first
    | exact hn h
    | exact featureAt_absent h hb
    | cases h

/-- A star if there is nothing: by the flag and by the empty text it is the same unless a feature is there and empty. -/
theorem star_same {b : Bytes × Bool} (h0 : b.2 = false → b.1 = []) (h1 : b.2 = true → b.1 ≠ []) :
    orStar b.1 = if b.2 then b.1 else str "*" := by
  unfold orStar
  cases hb : b.2 with
  | false => simp [h0 hb]
  | true => simp [h1 hb]

/-- C65: such a row shows what the row of the same token on the lattice page shows, if the token has parts of speech and none of the
features it has is the empty text. -/
theorem C65_same_partial {tok : Token} {d : TokenData} {r : Record} (hd : newTokenData tok = some d) (hr : newRecord tok = some r)
    (h : MarkupFree d) (hp : ∀ l, tokenPOS tok = some l → join (str ",") (l.getD []) ≠ [])
    (hb : ∀ v, baseForm tok = some (v, true) → v ≠ []) (hrd : ∀ v, reading tok = some (v, true) → v ≠ [])
    (hpr : ∀ v, pronunciation tok = some (v, true) → v ≠ []) :
    textsOf (str "td") (liveRow d) = [r.surface, r.pos, r.baseForm, r.reading, r.pronunciation] := by
  unfold newTokenData at hd
  unfold newRecord at hr
  split at hd
  · rename_i pos fs b rd p e1 e2 e3 e4 e5
    rw [e1, e3, e4, e5] at hr
    simp only [Option.some.injEq] at hd hr
    subst hd
    subst hr
    have hp := hp pos e1
    rw [C65_row_partial h (l := pos.getD []) (by cases pos <;> rfl)]
    simp only [if_pos hp]
    rw [star_same (fun x => pickup_absent e3 x) fun x => hb b.1 (by rw [e3, ← x]),
      star_same (fun x => pickup_absent e4 x) fun x => hrd rd.1 (by rw [e4, ← x]),
      star_same (fun x => pickup_absent e5 x) fun x => hpr p.1 (by rw [e5, ← x])]
  · cases hd

/-- C65, in full, would say that of every token of the answer. A text with symbols is enough to make it false: the row of the token `<!--`
has no cells, because the script does not escape what it writes. -/
theorem C65_row_wrong : ∃ sen toks d ds, analyze Toy.tok Toy.ideo sen modeNormal = some toks ∧ apiTokens none toks = some (some ds) ∧
    d ∈ ds ∧ d.surface = str "<!--" ∧ textsOf (str "td") (liveRow d) = [] := by
  refine ⟨str "もも<!--", _, ⟨0, 2, 6, str "<!--", str "UNKNOWN", some [str "記号"], [], [], [], some [str "記号"]⟩, _, rfl, rfl, ?_, rfl, ?_⟩
  · decide +kernel
  · decide +kernel

/-- A user dictionary with a word that is a tag, and a word without a part of speech. -/
def markupUser : UserDict where
  prefixSearch := Toy.searchFrom 0 ["<b>", "東京"]
  contents := [⟨[str "<b>"], [str "B"], str "記号"⟩, ⟨[str "東京"], [str "トウキョウ"], []⟩]

/-- C65: a text can bring in tags: here a word of a user dictionary. On the lattice page it cannot (C64_tags). -/
theorem C65_tags_wrong : ∃ toks d ds, analyze ⟨Toy.dict, some markupUser, false⟩ Toy.ideo (str "<b>") modeNormal = some toks ∧
    apiTokens none toks = some (some ds) ∧ d ∈ ds ∧
    tagsOf (readHtml (liveRow d)) ≠ tagsOf (readHtml (liveRow { d with surface := str "x" })) := by
  refine ⟨_, ⟨0, 0, 3, str "<b>", str "USER", some [str "記号"], [], [], [], some [str "記号", str "<b>", str "B"]⟩, _, rfl, rfl, ?_, ?_⟩
  · decide +kernel
  · decide +kernel

/-- C65: a token whose part of speech is empty has a star on the lattice page and nothing in the live table. -/
theorem C65_pos_wrong : ∃ toks ds rs, analyze ⟨Toy.dict, some markupUser, false⟩ Toy.ideo (str "東京") modeNormal = some toks ∧
    apiTokens none toks = some (some ds) ∧ toRecords toks = some rs ∧
    rs.map (·.pos) = [str "*"] ∧ ds.map (fun d => (textsOf (str "td") (liveRow d))[1]?) = [some []] := by
  refine ⟨_, _, _, rfl, rfl, rfl, ?_, ?_⟩
  · decide +kernel
  · decide +kernel

/-- A row without markup. -/
example : ∃ toks ds, analyze Toy.tok Toy.ideo (str "もも!") modeNormal = some toks ∧ apiTokens none toks = some (some ds) ∧
    ds.map (fun d => textsOf (str "td") (liveRow d)) =
      [[str "もも", str "名詞", str "もも", str "*", str "*"], [str "!", str "記号", str "*", str "*", str "*"]] := by
  refine ⟨_, _, rfl, rfl, ?_⟩
  decide +kernel

/-- The hypothesis on the texts. -/
example : MarkupFree ⟨2, 0, 2, str "もも", str "KNOWN", some [str "名詞", str "一般"], str "もも", [], [], some [str "名詞"]⟩ := by
  have h : ∀ s ∈ [str "もも", join (str ",") [str "名詞", str "一般"], []], ∀ b ∈ s, b ≠ 0x3C ∧ b ≠ 0x26 := by decide +kernel
  refine ⟨h _ (by simp), ?_, h _ (by simp), h _ (by simp), h _ (by simp)⟩
  rintro l ⟨⟩
  exact h _ (by simp)

/-! ### Where the page sends the text -/

/-- C65: typing sends the text to the handler that analyses it; choosing another mode sends it to the demo page, whose answer is a page and
not the tokens: the table stays as it was until something is typed. -/
theorem C65_routes : route (str "/tokenize") = .api ∧ route (str "/a") = .demo ∧ ∀ path, route path = .api → path = str "/tokenize" := by
  refine ⟨by decide +kernel, by decide +kernel, fun path h => ?_⟩
  unfold route at h
  split at h
  · assumption
  · cases h

/-- C65: the answer to that request starts with `<`, so it is not JSON, whatever the request. -/
theorem C65_answer (sentence mode : Bytes) : (renderForm sentence mode).head? = some 0x3C := by
  have : formTop = 0x3C :: formTop.drop 1 := by decide +kernel
  rw [renderForm, this]
  rfl

end Kagome
