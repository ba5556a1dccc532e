import Verif.Proof.Graph
import Verif.Example.Toy

/-!
C17: the graph `AnalyzeGraph` writes.

The statements use `analyzeGraph` (the returned tokens), `exportGraph` (the graph), `dotText` (its text) and `Verif/Spec/Graph.lean`.
-/

namespace Kagome

open Spec (WellFormed ReplacementOk PosTables ShowsWords ShowsAnalysis)

/-- C17: for every text and mode the graph is written without a panic and shows the words that may stand in the text; in Normal and
Search mode it marks exactly the words of the analysis that the same call returns. -/
theorem C17_graph {t : Tokenizer} (wf : WellFormed t.dict t.userDict) (pt : PosTables t.dict t.userDict) (ideo : Nat → Bool) {inp : Bytes}
    (hrep : ReplacementOk t.dict inp) (mode : Int) :
    ∃ toks g place, analyzeGraph t ideo inp mode = some toks ∧ exportGraph t ideo inp mode = some g ∧
      ShowsWords t.dict t.userDict inp g place ∧
      (mode = modeNormal ∨ mode = modeSearch → ∃ path, ShowsAnalysis toks g place inp path) := by
  obtain ⟨toks, g, place, h1, h2, h3, h4, _⟩ := graph_main wf pt ideo hrep mode
  refine ⟨toks, g, place, h1, h2, h3, fun hm => h4 ?_⟩
  rcases hm with rfl | rfl <;> decide

theorem toy_posTables : PosTables Toy.dict (some Toy.user) where
  known := by
    intro i hi
    have h : ∀ i, i < Toy.dict.morphs.length → ∃ ids, Toy.dict.poss[i]? = some ids ∧ ∀ id ∈ ids, id < Toy.dict.nameList.length := by
      intro i hi
      have h8 : Toy.dict.morphs.length = 8 := by decide
      have hp : ∀ l ∈ Toy.dict.poss, ∀ id ∈ l, id < Toy.dict.nameList.length := by decide
      have hl : Toy.dict.poss.length = 8 := by decide
      have hi8 : i < Toy.dict.poss.length := by omega
      exact ⟨_, List.getElem?_eq_getElem hi8, hp _ (List.getElem_mem hi8)⟩
    exact h i hi
  unknown := by decide
  start := by
    intro v hv
    have : Toy.dict.unk.contentsMeta (str "_pos_start") = some 0 := by decide +kernel
    rw [this] at hv
    simp only [Option.some.injEq] at hv
    subst hv
    decide

/-- The hypotheses hold for the toy dictionary with a user dictionary. -/
example : ∃ toks g place, analyzeGraph Toy.tokUser Toy.ideo (str "すもももab東京") modeSearch = some toks ∧
    exportGraph Toy.tokUser Toy.ideo (str "すもももab東京") modeSearch = some g ∧
    ShowsWords Toy.dict (some Toy.user) (str "すもももab東京") g place ∧
    ∃ path, ShowsAnalysis toks g place (str "すもももab東京") path := by
  obtain ⟨toks, g, place, h1, h2, h3, h4⟩ :=
    C17_graph (t := Toy.tokUser) Toy.wellFormed toy_posTables Toy.ideo (Toy.replacementOk _) modeSearch
  exact ⟨toks, g, place, h1, h2, h3, h4 (Or.inr rfl)⟩


/-- The graph of ももab: both ways to read もも, the unknown word ab, the cheapest way marked. -/
example : (exportGraph Toy.tokUser Toy.ideo (str "ももab") modeNormal).map (fun g =>
      g.nodes.map (fun n => (n.surface, n.pos, n.weight, n.marked))) =
    some [(str "BOS", str "---", 0, true), (str "も", str "助詞/係助詞", 3000, false), (str "もも", str "名詞", 5000, true),
        (str "も", str "助詞/係助詞", 3000, false), (str "ab", str "名詞", 5000, true), (str "EOS", str "---", 0, true)] ∧
    (exportGraph Toy.tokUser Toy.ideo (str "ももab") modeNormal).map (fun g => g.edges.map (fun e => (e.src, e.dst, e.label, e.bold))) =
      some [((0, 0), (1, 0), 0, false), ((0, 0), (2, 0), 0, true), ((1, 0), (2, 1), 1500, false), ((2, 0), (4, 0), 500, true),
        ((2, 1), (4, 0), 0, false), ((4, 0), (5, 0), 0, true)] := by constructor <;> decide +kernel

/-- What C17 leaves out: in Extended mode the graph shows no unknown word at all, even where the analysis has one. -/
theorem C17_extended {t : Tokenizer} (wf : WellFormed t.dict t.userDict) (pt : PosTables t.dict t.userDict) (ideo : Nat → Bool)
    {inp : Bytes} (hrep : ReplacementOk t.dict inp) :
    ∃ g place, exportGraph t ideo inp modeExtended = some g ∧ ShowsWords t.dict t.userDict inp g place ∧
      ∀ n ∈ g.nodes, (place n.ptr).asWord.cls ≠ .unknown := by
  obtain ⟨_, g, place, _, h2, h3, _, h5⟩ := graph_main wf pt ideo hrep modeExtended
  exact ⟨g, place, h2, h3, h5 rfl⟩

/-- So the end of the text can be out of reach: the returned tokens are BOS も a b EOS, but no edge leads to the node EOS. -/
theorem C17_extended_gap :
    (analyzeGraph Toy.tokUser Toy.ideo (str "もab") modeExtended).map (·.map (fun t => t.surface)) =
      some [str "BOS", str "も", str "a", str "b", str "EOS"] ∧
    (exportGraph Toy.tokUser Toy.ideo (str "もab") modeExtended).map (fun g =>
      g.nodes.map (fun n => (n.ptr, n.surface, n.marked))) =
    some [((0, 0), str "BOS", true), ((1, 0), str "も", true), ((4, 0), str "EOS", true)] ∧
    (exportGraph Toy.tokUser Toy.ideo (str "もab") modeExtended).map (fun g => g.edges.map (fun e => (e.src, e.dst))) =
      some [((0, 0), (1, 0))] := by decide +kernel

/-- Labels are printed as they are: the surface of a quotation mark ends the label early. -/
theorem C17_quote (addr : Ptr → Bytes) : nodeLine addr ⟨(1, 0), str "\"", str "---", 0, true⟩ =
    str "\t\"" ++ addr (1, 0) ++ str "\" [label=\"" ++ str "\"\\n---\\n0\",shape=ellipse, peripheries=2];\n" := by
  unfold nodeLine
  simp only [List.append_assoc, List.append_cancel_left_eq, if_true]
  decide +kernel

end Kagome
