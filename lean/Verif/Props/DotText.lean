import Verif.Proof.DotText
import Verif.Props.Graph

/-!
C53: the text `AnalyzeGraph` writes is a DOT file of its graph.

`Spec.drawn` reads DOT (`Verif/Spec/DotText.lean`); `addr` is what `%p` prints for a pointer.
-/

namespace Kagome

open Spec

/-- C53: a graph can be read back from its text, if the texts on its nodes are harmless. -/
theorem C53_text {π : Type} {addr : π → Bytes} (ha : ∀ p, Harmless (addr p)) {g : GraphOf π}
    (hn : ∀ n ∈ g.nodes, Harmless n.surface ∧ Harmless n.pos) : drawn (dotText addr g) = some (g.map addr) :=
  drawn_text ha hn

theorem candidate_bytes {d : Dict} {u : Option UserDict} {s : Bytes} {w : Word} (h : Candidate d u s w) : ∀ b ∈ w.surface, b ∈ s := by
  cases h with
  | user id l h => exact fun b hb => List.mem_of_mem_take hb
  | known id l _ h => exact fun b hb => List.mem_of_mem_take hb
  | unknown x w _ _ _ _ h =>
    rcases h with h | ⟨_, _, h⟩
    · subst h; exact fun b hb => List.mem_of_mem_take hb
    · subst h; exact fun b hb => List.mem_of_mem_take hb

theorem harmless_append {a b : Bytes} (ha : Harmless a) (hb : Harmless b) : Harmless (a ++ b) := by
  intro x hx
  rcases List.mem_append.1 hx with hx | hx
  · exact ha x hx
  · exact hb x hx

theorem harmless_join {l : List Bytes} (h : ∀ v ∈ l, Harmless v) : Harmless (join (str "/") l) := by
  induction l with
  | nil => simp [join, Harmless]
  | cons v l ih =>
    cases l with
    | nil => exact h v (by simp)
    | cons w l =>
      rw [join]
      exact harmless_append (harmless_append (h v (by simp)) (by decide)) (ih (fun v hv => h v (by simp [hv])))

theorem harmless_posLabel {l : List Bytes} (h : ∀ v ∈ l, Harmless v) : Harmless (posLabel l) := by
  unfold posLabel
  split
  · decide
  · exact harmless_join (fun v hv => h v (List.mem_filter.1 hv).1)

theorem posNames_mem {d : Dict} {ids : List Nat} : ∀ {l : List Bytes}, posNames d ids = some l → ∀ v ∈ l, v ∈ d.nameList := by
  induction ids with
  | nil => intro l h; simp only [posNames, Option.some.injEq] at h; subst h; simp
  | cons id ids ih =>
    intro l h
    rw [posNames] at h
    split at h
    · cases h
    · rename_i n hn
      cases hp : posNames d ids with
      | none => rw [hp] at h; cases h
      | some l' =>
        rw [hp] at h
        simp only [Option.map_some, Option.some.injEq] at h
        subst h
        intro v hv
        rcases List.mem_cons.1 hv with rfl | hv
        · exact List.mem_of_getElem? hn
        · exact ih hp v hv

theorem goGet_mem {α : Type} {l : List α} {i : Int} {x : α} (h : goGet l i = some x) : x ∈ l := by
  cases i with
  | ofNat n => exact List.mem_of_getElem? h
  | negSucc n => cases h

theorem featureRange_mem {feature : List Bytes} (n : Nat) : ∀ (i : Int) {l : List Bytes}, featureRange feature i n = some l → ∀ v ∈ l, v ∈ feature := by
  induction n with
  | zero => intro i l h; simp only [featureRange, Option.some.injEq] at h; subst h; simp
  | succ n ih =>
    intro i l h
    rw [featureRange] at h
    split at h
    · cases h
    · rename_i f hf
      cases hp : featureRange feature (i + 1) n with
      | none => rw [hp] at h; cases h
      | some l' =>
        rw [hp] at h
        simp only [Option.map_some, Option.some.injEq] at h
        subst h
        intro v hv
        rcases List.mem_cons.1 hv with rfl | hv
        · exact goGet_mem hf
        · exact ih (i + 1) hp v hv

theorem tokenPOS_harmless {d : Dict} {u : Option UserDict} (ht : HarmlessTables d u) {t : Token} (hd : t.dict = some d) (hu : t.udict = u)
    {p : Option (List Bytes)} (h : tokenPOS t = some p) : ∀ v ∈ p.getD [], Harmless v := by
  unfold tokenPOS at h
  rw [hd, hu] at h
  split at h
  · simp only at h
    split at h
    · cases h
    · rename_i ids _
      cases hp : posNames d ids with
      | none => rw [hp] at h; cases h
      | some l =>
        rw [hp] at h
        simp only [Option.map_some, Option.some.injEq] at h
        subst h
        exact fun v hv => ht.names v (posNames_mem hp v hv)
  · simp only at h
    split at h
    · cases h
    · rename_i feature hf
      split at h
      · simp only [Option.some.injEq] at h; subst h; simp
      · cases hp : featureRange feature (unkPosRange d).1 ((unkPosRange d).2 - (unkPosRange d).1).toNat with
        | none => rw [hp] at h; cases h
        | some l =>
          rw [hp] at h
          simp only [Option.map_some, Option.some.injEq] at h
          subst h
          exact fun v hv => ht.unknown feature (goGet_mem hf) v (featureRange_mem _ _ hp v hv)
  · split at h
    · cases h
    · rename_i ud
      cases hp : goGet ud.contents t.id with
      | none => rw [hp] at h; cases h
      | some c =>
        rw [hp] at h
        simp only [Option.map_some, Option.some.injEq] at h
        subst h
        intro v hv
        simp only [Option.getD_some, List.mem_singleton] at hv
        subst hv
        exact ht.user ud rfl c (goGet_mem hp)
  · simp only [Option.some.injEq] at h; subst h; simp

/-- The texts on the nodes come from the input and from the tables. -/
theorem showsWords_harmless {d : Dict} {u : Option UserDict} {inp : Bytes} {g : Graph} {place : Ptr → Place} (h : ShowsWords d u inp g place)
    (hi : Harmless inp) (ht : HarmlessTables d u) : ∀ n ∈ g.nodes, Harmless n.surface ∧ Harmless n.pos := by
  intro n hn
  constructor
  · rw [(h.node n hn).1]
    cases hp : place n.ptr with
    | bos => decide
    | eos => decide
    | word k w =>
      have := candidate_bytes (h.real n hn k w hp).2
      intro b hb
      exact hi b (List.mem_of_mem_drop (this b hb))
  · obtain ⟨p, hp1, hp2⟩ := h.pos n hn ⟨0, (place n.ptr).asWord.id, (place n.ptr).asWord.cls, 0, 0, 0, [], some d, u⟩ rfl rfl rfl rfl
    have hv := tokenPOS_harmless ht rfl rfl hp1
    rw [hp2]
    split
    · exact harmless_join hv
    · exact harmless_posLabel hv

/-- C53: for every text without quotation marks, backslashes and line feeds (and tables without them), what `AnalyzeGraph` writes is a DOT file; it
declares exactly the nodes and edges of a graph that shows the words that may stand in the text and marks the analysis returned by the same call. -/
theorem C53_analyze {t : Tokenizer} (wf : WellFormed t.dict t.userDict) (pt : PosTables t.dict t.userDict) (ideo : Nat → Bool) {inp : Bytes}
    (hrep : ReplacementOk t.dict inp) (hi : Harmless inp) (ht : HarmlessTables t.dict t.userDict) {addr : Ptr → Bytes} (ha : ∀ p, Harmless (addr p))
    (mode : Int) :
    ∃ toks g place, analyzeGraph t ideo inp mode = some toks ∧ exportGraph t ideo inp mode = some g ∧ drawn (dotText addr g) = some (g.map addr) ∧
      ShowsWords t.dict t.userDict inp g place ∧ (mode = modeNormal ∨ mode = modeSearch → ∃ path, ShowsAnalysis toks g place inp path) := by
  obtain ⟨toks, g, place, h1, h2, h3, h4⟩ := C17_graph wf pt ideo hrep mode
  exact ⟨toks, g, place, h1, h2, C53_text ha (showsWords_harmless h3 hi ht), h3, h4⟩

/-- Pointers for examples. -/
def Toy.addr (p : Ptr) : Bytes := str "0xc" ++ itoa p.1 ++ str "a" ++ itoa p.2

theorem Toy.addr_harmless (p : Ptr) : Harmless (Toy.addr p) :=
  harmless_append (harmless_append (harmless_append (by decide) (itoa_harmless _)) (by decide)) (itoa_harmless _)

/-- The hypotheses hold for the toy dictionary. -/
example : HarmlessTables Toy.dict (some Toy.user) ∧ Harmless (str "すもももab東京") :=
  ⟨⟨by decide +kernel, by decide +kernel, by intro ud h; cases h; decide +kernel⟩, by decide +kernel⟩

theorem witness {α β : Type} {x : Option α} {f : α → Option β} {P : α → β → Bool} (h : (x.bind fun a => (f a).map fun b => P a b) = some true) :
    ∃ a b, x = some a ∧ f a = some b ∧ P a b = true := by
  cases x with
  | none => cases h
  | some a =>
    rw [Option.bind_some] at h
    cases hf : f a with
    | none => rw [hf] at h; cases h
    | some b => rw [hf] at h; exact ⟨a, b, rfl, hf, by simpa using h⟩

/-- C53: a quotation mark in the text can make the file unreadable. -/
theorem C53_unreadable : ∃ g, exportGraph Toy.tokUser Toy.ideo (str "もも\"b") modeNormal = some g ∧ readDot (dotText Toy.addr g) = none := by
  have h : (exportGraph Toy.tokUser Toy.ideo (str "もも\"b") modeNormal).map (fun g => readDot (dotText Toy.addr g)) = some none := by decide +kernel
  simpa using h

/-- C53: or make it declare a node that is not in the graph. -/
theorem C53_injected : ∃ g f, exportGraph Toy.tokUser Toy.ideo (str "も\"];\"\"[\"\"=\"") modeNormal = some g ∧ readDot (dotText Toy.addr g) = some f ∧
    ∃ n ∈ f.nodes, ∀ m ∈ g.nodes, n.1 ≠ Toy.addr m.ptr := by
  have h : ((exportGraph Toy.tokUser Toy.ideo (str "も\"];\"\"[\"\"=\"") modeNormal).bind fun g => (readDot (dotText Toy.addr g)).map fun f =>
      f.nodes.any fun n => g.nodes.all fun m => n.1 ≠ Toy.addr m.ptr) = some true := by decide +kernel
  obtain ⟨g, f, h1, h2, h3⟩ := witness h
  refine ⟨g, f, h1, h2, ?_⟩
  simpa using h3

/-- C53: a backslash takes the line break behind it away: the label has two lines instead of three. -/
theorem C53_backslash : ∃ g f, exportGraph Toy.tokUser Toy.ideo (str "\\") modeNormal = some g ∧ readDot (dotText Toy.addr g) = some f ∧
    ∃ n ∈ f.nodes, n.1 = Toy.addr (1, 0) ∧ (n.2.lookup (str "label")).bind (labelLines []) = some [str "\\n記号", str "8000"] := by
  have h : ((exportGraph Toy.tokUser Toy.ideo (str "\\") modeNormal).bind fun g => (readDot (dotText Toy.addr g)).map fun f =>
      f.nodes.any fun n => n.1 = Toy.addr (1, 0) ∧ (n.2.lookup (str "label")).bind (labelLines []) = some [str "\\n記号", str "8000"]) = some true := by
    decide +kernel
  obtain ⟨g, f, h1, h2, h3⟩ := witness h
  refine ⟨g, f, h1, h2, ?_⟩
  simpa using h3

end Kagome
