import Verif.Proof.Choice

/-! From the solved lattice to the tokens. -/

namespace Kagome

open Spec (WellFormed ReplacementOk Candidate Word Analysis morphOfWord connect penalty stepCost chainCost boundary Fits cost Chosen)

/-- What one node of the best path contributes to the output, in text order. -/
def emitFwd (m : LMode) (p : Node) : List Node :=
  if m ≠ .extended ∨ p.cls ≠ .unknown then [p] else explode p 0 (rangeString p.surface)

theorem explode_skel (p : Node) (i : Nat) (l : List (Nat × Nat)) :
    (explode p i l).map skel = explode (skel p) i l := by
  induction l generalizing i with
  | nil => rfl
  | cons x l ih => simp [explode, ih, skel]

theorem emit_skel (m : LMode) (p : Node) : (emit m p).reverse.map skel = emitFwd m (skel p) := by
  unfold emit emitFwd
  have hc : (skel p).cls = p.cls := rfl
  rw [hc]
  split
  · rfl
  · rw [List.reverse_reverse, explode_skel]; rfl

theorem emits_skel (m : LMode) (L : List Node) :
    (L.flatMap (emit m)).reverse.map skel = (L.reverse.map skel).flatMap (emitFwd m) := by
  induction L with
  | nil => rfl
  | cons p L ih => simp [List.flatMap_append, ih, ← emit_skel]

theorem tokenLoop_skel (t : Tokenizer) (i k : Nat) (ns : List Node) :
    tokenLoop t i k ns = tokenLoop t i k (ns.map skel) := by
  induction ns generalizing i k with
  | nil => rfl
  | cons n ns ih =>
    simp only [List.map_cons, tokenLoop]
    have h : (skel n).id = n.id := rfl
    rw [h]
    split
    · exact ih _ _
    · rw [ih]; rfl

/-- The tokens of nodes that are not boundaries. -/
def body (t : Tokenizer) : Nat → List Node → List Token
  | _, [] => []
  | k, n :: ns =>
    { index := k, id := n.id, cls := n.cls, position := n.position, start := n.start,
      stop := n.start + runeCount n.surface, surface := n.surface, dict := some t.dict, udict := t.userDict } :: body t (k + 1) ns

theorem body_length (t : Tokenizer) (k : Nat) (ns : List Node) : (body t k ns).length = ns.length := by
  induction ns generalizing k with
  | nil => rfl
  | cons n ns ih => simp [body, ih]

/-- The token of BOS or EOS. -/
def boundaryToken (t : Tokenizer) (k position start : Nat) (s : Bytes) : Token :=
  { index := k, id := -1, cls := .dummy, position := position, start := start, stop := start, surface := s,
    dict := some t.dict, udict := t.userDict }

theorem tokenLoop_body (t : Tokenizer) (i k : Nat) (ns : List Node) (e : Node) (he : e.id = bosEosID)
    (hns : ∀ n ∈ ns, n.id ≠ bosEosID) (hi : 1 ≤ i + ns.length) :
    tokenLoop t i k (ns ++ [e]) = body t k ns ++
      (if t.omitBosEos then [] else [{ mkToken t 1 (k + ns.length) e with surface := str "EOS" }]) := by
  induction ns generalizing i k with
  | nil =>
    simp only [List.nil_append, tokenLoop, body, List.length_nil, Nat.add_zero] at hi ⊢
    have : i ≠ 0 := by omega
    cases t.omitBosEos <;> simp [mkToken, he, this]
  | cons n ns ih =>
    have hn : n.id ≠ bosEosID := hns n (by simp)
    simp only [List.cons_append, tokenLoop, hn, and_false, if_false, body]
    rw [ih _ _ (fun n hn => hns n (by simp [hn])) (by simp at hi; omega)]
    simp only [List.length_cons, mkToken, hn, if_false]
    rw [Nat.add_assoc k 1, Nat.add_comm 1]

/-- Adding a node at the end of the chain. -/
theorem solve_weak {t : Tokenizer} (wf : WellFormed t.dict t.userDict) (ideo : Nat → Bool) (inp : Bytes) (m : LMode) :
    ∃ cols0 cols L, Solved t.dict t.userDict ideo m inp cols0 cols ∧ build t.dict t.userDict inp = some cols0 ∧
      forward t.dict ideo m cols0 = some cols ∧
      PrevChain cols (runeCount inp + 1) 0 L ∧ solve t ideo inp m = some (cols, L.flatMap (emit m)) := by
  obtain ⟨cols0, hb, hs⟩ := build_safe wf inp
  obtain ⟨cols, hf, hsol⟩ := forward_solved wf hs ideo m
  obtain ⟨e, he, _⟩ := hsol.eos
  obtain ⟨L, hL, hw⟩ := prevChain_exists wf hsol _ _ _ he
  refine ⟨cols0, cols, L, hsol, hb, hf, hL, ?_⟩
  unfold solve backward
  rw [hb]
  simp only [hf]
  have hlen := hsol.len
  rw [if_neg (by omega), hlen]
  have : runeCount inp + 2 - 1 = runeCount inp + 1 := by omega
  rw [this, hw _ (by omega)]
  rfl

/-- Every node of a chain in columns up to the last character is BOS or a candidate, and BOS comes only at the end. -/
theorem prevChain_weak {d : Dict} {u : Option UserDict} {ideo : Nat → Bool} {m : LMode} {inp : Bytes} {cols0 cols : Cols}
    (wf : WellFormed d u) (h : Solved d u ideo m inp cols0 cols) {i j : Nat} {L : List Node}
    (hL : PrevChain cols i j L) (hi : i ≤ runeCount inp) :
    ∃ pre mid, L.reverse.map skel = pre ++ mid ∧ (pre = [] ∨ pre = [bosNode]) ∧ pre ++ mid ≠ [] ∧
      ∀ n ∈ mid, ∃ k pos rest w, At inp k pos rest ∧ WeakCandidate d u rest w ∧ n = mkNode d w.cls w.id pos k w.surface := by
  induction hL with
  | @last i j n hn hp =>
    by_cases hi1 : 1 ≤ i
    · obtain ⟨k, pos, rest, w, hat, hw, hik, hsk⟩ := h.weak_mid hi1 hi hn
      refine ⟨[], [skel n], rfl, Or.inl rfl, by simp, ?_⟩
      intro x hx
      simp only [List.mem_singleton] at hx
      exact ⟨k, pos, rest, w, hat, hw, by rw [hx, hsk]⟩
    · have : i = 0 := by omega
      subst this
      obtain ⟨rfl, rfl⟩ := h.bos_node hn
      exact ⟨[bosNode], [], rfl, Or.inr rfl, by simp, by simp⟩
  | @step i j i' j' n L hn hp hL ih =>
    have hi1 : 1 ≤ i := by
      apply Decidable.byContradiction
      intro hcon
      have : i = 0 := by omega
      subst this
      obtain ⟨rfl, rfl⟩ := h.bos_node hn
      simp [bosNode, newNode] at hp
    obtain ⟨k1, pos1, rest1, w, hat1, hw, hik, hsk⟩ := h.weak_mid hi1 hi hn
    obtain ⟨hlt, heq⟩ := h.eqn wf hi1 hn
    have hi' : i' = n.start := by
      rcases heq with ⟨_, hpr, _⟩ | ⟨_, _, _, hprev, _, _⟩
      · rw [hp] at hpr; simp at hpr
      · rw [hp] at hprev; simp at hprev; exact hprev.1
    subst hi'
    obtain ⟨pre, mid, h1, h2, h3, h4⟩ := ih (by omega)
    refine ⟨pre, mid ++ [skel n], by simp [h1], h2, by simp, ?_⟩
    intro x hx
    simp only [List.mem_append, List.mem_singleton] at hx
    rcases hx with hx | rfl
    · exact h4 x hx
    · exact ⟨k1, pos1, rest1, w, hat1, hw, hsk⟩

/-- The chain that ends at EOS, split off its last node. -/
theorem prevChain_eos {d : Dict} {u : Option UserDict} {ideo : Nat → Bool} {m : LMode} {inp : Bytes} {cols0 cols : Cols}
    (wf : WellFormed d u) (h : Solved d u ideo m inp cols0 cols) {L : List Node}
    (hL : PrevChain cols (runeCount inp + 1) 0 L) :
    (∃ e, L = [e] ∧ skel e = eosNode inp ∧ cols[runeCount inp]? = some []) ∨
    ∃ e j' L', L = e :: L' ∧ skel e = eosNode inp ∧ PrevChain cols (runeCount inp) j' L' := by
  obtain ⟨e, he, hske⟩ := h.eos
  have hst : e.start = runeCount inp := by have := congrArg Node.start hske; exact this
  obtain ⟨_, heq⟩ := h.eqn wf (by omega) he
  cases hL with
  | last hn hp =>
    rw [he] at hn
    simp only [Option.some.injEq] at hn
    subst hn
    left
    rcases heq with ⟨he', _, _⟩ | ⟨_, _, _, hprev, _, _⟩
    · exact ⟨e, rfl, hske, by rw [← hst]; exact he'⟩
    · rw [hp] at hprev; simp at hprev
  | step hn hp hL =>
    rw [he] at hn
    simp only [Option.some.injEq] at hn
    subst hn
    right
    rcases heq with ⟨_, hpr, _⟩ | ⟨j', _, _, hprev, _, _⟩
    · rw [hp] at hpr; simp at hpr
    · rw [hp] at hprev
      simp only [Option.some.injEq, Prod.mk.injEq] at hprev
      obtain ⟨rfl, rfl⟩ := hprev
      rw [hst] at hL
      exact ⟨e, _, _, rfl, hske, hL⟩

/-- Some node ends where the text ends, if it is not empty. -/
theorem last_column {d : Dict} {u : Option UserDict} {ideo : Nat → Bool} {m : LMode} {inp : Bytes} {cols0 cols : Cols}
    (wf : WellFormed d u) (h : Solved d u ideo m inp cols0 cols) (hl : Lat d u inp cols0) {rest : Bytes} {ws : List Word}
    (ha : Analysis d u rest ws) : ∀ {k pos : Nat}, At inp k pos rest → ws ≠ [] → cols[runeCount inp]? ≠ some [] := by
  induction ha with
  | nil => intro k pos _ h; exact absurd rfl h
  | cons w rest ws hw hws ih =>
    intro k pos hat _
    have hok := cand_ok wf hw
    have hat' := at_step hat hok
    simp only [List.drop_left] at hat'
    by_cases hws0 : ws = []
    · subst hws0
      cases hws
      obtain ⟨j, n, hn, _⟩ := h.cand wf hl hat hw
      have hc := at_count hat'
      simp only [runes_nil, List.length_nil, Nat.add_zero] at hc
      rw [hc] at hn
      intro he
      unfold getNode at hn
      rw [he] at hn
      simp at hn
    · exact ih hat' hws0

/-- The best path, in text order: words following each other up to the end of the text and EOS; with costs in range it starts
at BOS and is a cheapest analysis of the whole text. -/
theorem solve_main {t : Tokenizer} (wf : WellFormed t.dict t.userDict) (ideo : Nat → Bool) {inp : Bytes}
    (hrep : ReplacementOk t.dict inp) (m : LMode) :
    ∃ (cols : Cols) (out : List Node) (linked : Bool) (k pos : Nat) (rest : Bytes) (ws : List Word),
      solve t ideo inp m = some (cols, out) ∧ At inp k pos rest ∧ Analysis t.dict t.userDict rest ws ∧
      (linked = true → k = 0) ∧ (linked = false → 1 ≤ k ∧ ws ≠ []) ∧
      out.reverse.map skel = ((if linked then [bosNode] else []) ++ nodesFrom t.dict k pos ws ++ [eosNode inp]).flatMap (emitFwd m) ∧
      (Fits t.dict (runeCount inp) → linked = true ∧ Chosen t.dict t.userDict ideo m inp ws) := by
  obtain ⟨cols0, cols, L, hsol, hb, hf, hL, hs⟩ := solve_weak wf ideo inp m
  have hlat : Lat t.dict t.userDict inp cols0 := by
    obtain ⟨c', hb', hl'⟩ := build_lat wf hrep
    rw [hb] at hb'
    simp only [Option.some.injEq] at hb'
    rw [hb']; exact hl'
  have hat0 : At inp 0 0 inp := by
    have := at_of_le (inp := inp) (k := 0) (by omega)
    simpa using this
  obtain ⟨ws0, hws0⟩ := analysis_exists wf inp
  rcases prevChain_eos wf hsol hL with ⟨e, rfl, hske, hemp⟩ | ⟨e, j', L', rfl, hske, hL'⟩
  · exfalso
    by_cases hne : ws0 = []
    · subst hne
      cases hws0
      have : runeCount [] = 0 := rfl
      rw [this, hsol.bos] at hemp
      simp at hemp
    · exact last_column wf hsol hlat hws0 hat0 hne hemp
  · obtain ⟨linked, k, pos, rest, ws, hat, hk, hati, hext, hskel, hlk, hulk⟩ := prevChain_shape wf hsol hrep hL' (Nat.le_refl _)
    have hend : rest.drop (lenSum ws) = [] := by
      have := at_count hati
      have h0 : (runes (rest.drop (lenSum ws))).length = 0 := by omega
      exact runes_eq_nil.mp (List.length_eq_zero_iff.mp h0)
    have hana : Analysis t.dict t.userDict rest ws := by
      have := hext [] (by rw [hend]; exact Analysis.nil)
      simpa using this
    have hfull : (e :: L').reverse.map skel = (if linked then [bosNode] else []) ++ nodesFrom t.dict k pos ws ++ [eosNode inp] := by
      simp [hskel, hske]
    refine ⟨cols, _, linked, k, pos, rest, ws, hs, hat, hana, fun h => (hlk h).1, fun h => ⟨(hulk h).1, (hulk h).2.2⟩, ?_, ?_⟩
    · rw [emits_skel, hfull]
    · intro hfits
      obtain ⟨lo, hi, hlo, hhi, hbd, hfit⟩ := id hfits
      have hbest := best wf hsol hlo hhi hbd (by simpa using hfit)
      have hbest' : ∀ i j n, getNode cols i j = some n → Reach cols i j → Best t.dict ideo m cols lo hi i j n :=
        fun i j n hn hr => (hbest i j n hn).1 hr
      have hr0 : Reach cols 0 0 := Reach.bos
      have hge := fun ws' (ha : Analysis t.dict t.userDict inp ws') => eos_le wf hsol hlat ha hat0 hsol.get_bos hr0
      have hre := (hge ws0 hws0).1
      obtain ⟨hlast, n, L'', hLe, hn, hcost⟩ := prevChain_cost hsol hbest' hL hre
      have hlinked : linked = true := by
        cases linked with
        | true => rfl
        | false =>
          exfalso
          simp only [Bool.false_eq_true, if_false, List.nil_append] at hskel
          obtain ⟨hk1, _, hne⟩ := hulk rfl
          have hL'ne : L' ≠ [] := by rintro rfl; cases hL'
          have hlast' : L'.getLast? = some bosNode := by
            obtain ⟨a, as, rfl⟩ := List.exists_cons_of_ne_nil hL'ne
            rw [List.getLast?_cons_cons] at hlast
            exact hlast
          have hh : (L'.reverse.map skel).head? = some bosNode := by
            rw [List.head?_map, List.head?_reverse, hlast']; rfl
          rw [hskel] at hh
          cases hana with
          | nil => exact hne rfl
          | cons w rest ws hw _ =>
            simp only [nodesFrom, List.head?_cons, Option.some.injEq] at hh
            have h1 := congrArg Node.cls hh
            exact (cand_ok wf hw).cls h1
      subst hlinked
      have hk0 := (hlk rfl).1
      subst hk0
      obtain ⟨rfl, rfl⟩ := at_unique hat hat0
      refine ⟨rfl, hana, ?_⟩
      intro ws' ha hne
      have h1 := (hge ws' ha).2 hbest' n hn
      rw [hcost] at h1
      have h2 : (e :: L').reverse.map wordOf = boundary :: ws ++ [boundary] := by
        rw [← wordOf_map_skel, hfull]
        simp only [if_true, List.map_append, nodesFrom_wordOf]
        rfl
      rw [h2] at h1
      have h3 : wordOf bosNode = boundary := rfl
      have h4 : bosNode.cost = 0 := rfl
      rw [h3, h4] at h1
      have hle : cost t.dict ideo m ws ≤ cost t.dict ideo m ws' := by unfold cost; omega
      by_cases heq : cost t.dict ideo m ws' ≤ cost t.dict ideo m ws
      · exact Or.inr ⟨by omega, choice_chain wf hrep hfits hsol hlat hb hbest' hL hre hfull hana ha heq hne⟩
      · exact Or.inl (by omega)

end Kagome
