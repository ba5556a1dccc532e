import Verif.Proof.Forward

/-! The solved lattice: local equations, termination of the walk, shape of the chosen chain. -/

namespace Kagome

open Spec (WellFormed ReplacementOk Candidate Word Analysis morphOfWord connect penalty stepCost chainCost boundary)

/-- The word of a node. -/
def wordOf (n : Node) : Word := ⟨n.cls, n.id, n.surface⟩

theorem int32_id {x : Int} (h1 : -2147483648 ≤ x) (h2 : x ≤ 2147483647) : int32 x = x := by
  unfold int32; omega

theorem morphOf_getD (d : Dict) (w : Word) : (morphOf d w.cls w.id).getD Morph.zero = morphOfWord d w := by
  obtain ⟨cls, id, s⟩ := w
  cases cls <;> cases id <;> rfl

theorem additionalCost_eq (ideo : Nat → Bool) (n : Node) : additionalCost ideo n = penalty ideo (wordOf n) := by
  have hk : ∀ s : Bytes, 2 < runeCount s → (kanjiOnly ideo s = true ↔ ∀ r ∈ runes s, ideo r.1 = true) := by
    intro s hs
    have : s ≠ [] := by rintro rfl; simp [runeCount] at hs
    simp [kanjiOnly, this]
  unfold additionalCost penalty wordOf
  simp only [searchModeKanjiLength, searchModeKanjiPenalty, searchModeOtherLength, searchModeOtherPenalty, gt_iff_lt]
  have hiff : (2 < runeCount n.surface ∧ kanjiOnly ideo n.surface = true) ↔
      (2 < runeCount n.surface ∧ ∀ r ∈ runes n.surface, ideo r.1 = true) := by
    constructor
    · rintro ⟨h1, h2⟩; exact ⟨h1, (hk _ h1).mp h2⟩
    · rintro ⟨h1, h2⟩; exact ⟨h1, (hk _ h1).mpr h2⟩
  by_cases h1 : 2 < runeCount n.surface ∧ kanjiOnly ideo n.surface = true
  · rw [if_pos h1, if_pos (hiff.mp h1)]; omega
  · rw [if_neg h1, if_neg (fun h => h1 (hiff.mpr h))]
    by_cases h2 : 7 < runeCount n.surface
    · rw [if_pos h2, if_pos h2]; omega
    · rw [if_neg h2, if_neg h2]

theorem penalty_bounds (ideo : Nat → Bool) (w : Word) :
    0 ≤ penalty ideo w ∧ penalty ideo w ≤ 3000 * (runeCount w.surface : Int) := by
  unfold penalty
  split
  · omega
  · split <;> omega

/-- A node whose connection data come from the tables. -/
def TableNode (d : Dict) (n : Node) : Prop :=
  morphOfWord d (wordOf n) ∈ Morph.zero :: d.morphs ++ d.unk.morphs ∧
  n.left = (morphOfWord d (wordOf n)).left.toInt ∧ n.right = (morphOfWord d (wordOf n)).right.toInt ∧
  n.weight = (morphOfWord d (wordOf n)).weight.toInt

theorem morphOfWord_mem (d : Dict) (w : Word) : morphOfWord d w ∈ Morph.zero :: d.morphs ++ d.unk.morphs := by
  unfold morphOfWord
  split
  · rename_i n _ _
    cases h : d.morphs[n]? with
    | none => simp
    | some m => 
      have := List.mem_of_getElem? h
      simp [this]
  · rename_i n _ _
    cases h : d.unk.morphs[n]? with
    | none => simp
    | some m =>
      have := List.mem_of_getElem? h
      simp [this]
  · simp

theorem tableNode_skel {d : Dict} {n n' : Node} (h : skel n = skel n') (hn : TableNode d n) : TableNode d n' := by
  obtain ⟨a, b, c, e, f, g, h1, i, j, k⟩ := n
  obtain ⟨a', b', c', e', f', g', h1', i', j', k'⟩ := n'
  simp only [skel, Node.mk.injEq] at h
  obtain ⟨rfl, rfl, rfl, rfl, _, rfl, rfl, rfl, rfl, _⟩ := h
  exact hn

theorem tableNode_mkNode (d : Dict) (cls : NodeClass) (id : Int) (pos k : Nat) (s : Bytes) :
    TableNode d (mkNode d cls id pos k s) := by
  have h := morphOf_getD d ⟨cls, id, s⟩
  simp only at h
  unfold TableNode mkNode
  rw [h]
  exact ⟨morphOfWord_mem _ _, rfl, rfl, rfl⟩

theorem connCost_eq {d : Dict} {u : Option UserDict} (wf : WellFormed d u) {n t : Node} (hn : TableNode d n)
    (ht : TableNode d t) : connCost d n t = some (connect d (wordOf n) (wordOf t)) := by
  unfold connCost connect
  change _ = some (if n.cls = .user ∨ t.cls = .user then 0 else _)
  by_cases h : n.cls = .user ∨ t.cls = .user
  · rw [if_neg (by rintro ⟨h1, h2⟩; rcases h with h | h <;> contradiction), if_pos h]
  · rw [if_pos ⟨fun e => h (Or.inl e), fun e => h (Or.inr e)⟩, if_neg h]
    obtain ⟨m1, _, r1, _⟩ := hn
    obtain ⟨m2, l2, _, _⟩ := ht
    have := wf.conn _ _ m1 m2
    rw [r1, l2]
    obtain ⟨c, hc⟩ := Option.isSome_iff_exists.mp this
    rw [hc]; rfl

/-- The full cost through `n` before clamping. -/
theorem totalCost_eq {d : Dict} {u : Option UserDict} (wf : WellFormed d u) {ideo : Nat → Bool} {m : LMode} {n t : Node}
    (hn : TableNode d n) (ht : TableNode d t) :
    candCost d ideo m n t = int32 (min maximumCost (n.cost + stepCost d ideo m (wordOf n) (wordOf t))) := by
  unfold candCost totalCost
  rw [connCost_eq wf hn ht]
  simp only [Option.getD_some, additionalCost_eq, ht.2.2.2, stepCost]
  congr 1
  cases m <;> simp <;> split <;> omega

/-- The equations of the solved lattice. -/
structure Solved (d : Dict) (u : Option UserDict) (ideo : Nat → Bool) (m : LMode) (inp : Bytes) (cols0 cols : Cols) : Prop where
  lat : Safe d u inp cols0
  len : cols.length = runeCount inp + 2
  bos : cols[0]? = some [bosNode]
  col : ∀ p, 1 ≤ p → ∀ c, cols0[p]? = some c → cols[p]? = some (c.map (solve1 d ideo m cols))

theorem skel_mkNode (d : Dict) (cls : NodeClass) (id : Int) (pos k : Nat) (s : Bytes) :
    skel (mkNode d cls id pos k s) = mkNode d cls id pos k s := rfl

/-- Nodes of the middle and last columns before `Forward`. -/
theorem lat_node {d : Dict} {u : Option UserDict} (wf : WellFormed d u) {inp : Bytes} {cols0 : Cols} (hl : Safe d u inp cols0)
    {p : Nat} (hp : 1 ≤ p) {c : List Node} (hc : cols0[p]? = some c) {n : Node} (hn : n ∈ c) :
    n.start < p ∧ TableNode d n ∧ skel n = n := by
  by_cases h : p ≤ runeCount inp
  · obtain ⟨c', hc', hmem⟩ := hl.mid p hp h
    rw [hc] at hc'
    simp only [Option.some.injEq] at hc'
    subst hc'
    obtain ⟨k, pos, rest, w, hat, hw, rfl, rfl⟩ := hmem n hn
    have := (weak_ok wf hw).cnt
    refine ⟨?_, tableNode_mkNode .., rfl⟩
    change k < _
    omega
  · have h2 := (List.getElem?_eq_some_iff.mp hc).1
    have h3 := hl.len
    have : p = runeCount inp + 1 := by omega
    subst this
    rw [hl.eos] at hc
    simp only [Option.some.injEq] at hc
    subst hc
    simp only [List.mem_singleton] at hn
    subst hn
    refine ⟨?_, ?_, rfl⟩
    · change runeCount inp < _; omega
    · exact tableNode_mkNode d .dummy bosEosID inp.length (runeCount inp) []

theorem bos_table (d : Dict) : TableNode d bosNode := tableNode_mkNode d .dummy bosEosID 0 0 []

theorem forward_solved {d : Dict} {u : Option UserDict} (wf : WellFormed d u) {inp : Bytes} {cols0 : Cols}
    (hl : Safe d u inp cols0) (ideo : Nat → Bool) (m : LMode) :
    ∃ cols, forward d ideo m cols0 = some cols ∧ Solved d u ideo m inp cols0 cols := by
  have htab : ∀ (p : Nat) c, cols0[p]? = some c → ∀ n ∈ c, TableNode d n := by
    intro p c hc n hn
    by_cases hp : 1 ≤ p
    · exact (lat_node wf hl hp hc hn).2.1
    · have : p = 0 := by omega
      subst this
      rw [hl.bos] at hc
      simp only [Option.some.injEq] at hc
      subst hc
      simp only [List.mem_singleton] at hn
      subst hn
      exact bos_table d
  have hlen := hl.len
  obtain ⟨cols, h1, h2, h3, h4⟩ := forwardLoop_eq (d := d) (ideo := ideo) (m := m) (cols0.length - 1) 1 cols0 (by omega)
    (fun p hp c hc t ht => (lat_node wf hl hp hc ht).1)
    (by
      intro p hp c hc t ht q P hP n hn n' hn'
      rw [connCost_eq wf (tableNode_skel hn'.symm (htab q P hP n hn)) (htab p c hc t ht)]
      rfl)
  refine ⟨cols, h1, hl, by omega, ?_, h4⟩
  rw [h3 0 (by omega)]; exact hl.bos

section
variable {d : Dict} {u : Option UserDict} {ideo : Nat → Bool} {m : LMode} {inp : Bytes} {cols0 cols : Cols}

/-- Every node of the solved lattice is a solved node of the built one. -/
theorem Solved.node (h : Solved d u ideo m inp cols0 cols) {i j : Nat} {n : Node} (hi : 1 ≤ i)
    (hn : getNode cols i j = some n) :
    ∃ c t, cols0[i]? = some c ∧ c[j]? = some t ∧ n = solve1 d ideo m cols t := by
  unfold getNode at hn
  cases hc : cols[i]? with
  | none => simp [hc] at hn
  | some cc =>
    have hlt := (List.getElem?_eq_some_iff.mp hc).1
    have hlt0 : i < cols0.length := by rw [h.lat.len, ← h.len]; exact hlt
    have h0 : cols0[i]? = some cols0[i] := List.getElem?_eq_getElem hlt0
    have h1 := h.col i hi _ h0
    rw [hc] at h1
    simp only [Option.some.injEq] at h1
    subst h1
    rw [hc] at hn
    simp only [Option.bind_some, List.getElem?_map, Option.map_eq_some_iff] at hn
    obtain ⟨t, ht, rfl⟩ := hn
    exact ⟨_, t, h0, ht, rfl⟩

theorem Solved.bos_node (h : Solved d u ideo m inp cols0 cols) {j : Nat} {n : Node} (hn : getNode cols 0 j = some n) :
    j = 0 ∧ n = bosNode := by
  unfold getNode at hn
  rw [h.bos] at hn
  cases j with
  | zero => simpa using hn.symm
  | succ j => simp at hn

theorem Solved.get_bos (h : Solved d u ideo m inp cols0 cols) : getNode cols 0 0 = some bosNode := by
  unfold getNode; rw [h.bos]; rfl

theorem Solved.table (wf : WellFormed d u) (h : Solved d u ideo m inp cols0 cols) {i j : Nat} {n : Node}
    (hn : getNode cols i j = some n) : TableNode d n := by
  by_cases hi : 1 ≤ i
  · obtain ⟨c, t, hc, ht, rfl⟩ := h.node hi hn
    exact tableNode_skel (skel_solve1 ..).symm (lat_node wf h.lat hi hc (List.mem_of_getElem? ht)).2.1
  · have : i = 0 := by omega
    subst this
    rw [(h.bos_node hn).2]; exact bos_table d

/-- The local equation at a node: either its column of predecessors is empty, or it points to a cheapest predecessor. -/
theorem Solved.eqn (wf : WellFormed d u) (h : Solved d u ideo m inp cols0 cols) {i j : Nat} {n : Node} (hi : 1 ≤ i)
    (hn : getNode cols i j = some n) :
    n.start < i ∧
    ((cols[n.start]? = some [] ∧ n.prev = none ∧ n.cost = maximumCost) ∨
     (∃ j' p, getNode cols n.start j' = some p ∧ n.prev = some (n.start, j') ∧ n.cost = candCost d ideo m p n ∧
       ∀ j'' q, getNode cols n.start j'' = some q → n.cost ≤ candCost d ideo m q n)) := by
  obtain ⟨c, t, hc, ht, rfl⟩ := h.node hi hn
  obtain ⟨hst, htab, hsk⟩ := lat_node wf h.lat hi hc (List.mem_of_getElem? ht)
  have hlt := (List.getElem?_eq_some_iff.mp hc).1
  have hlen := h.len
  have hlen0 := h.lat.len
  have hP : cols[t.start]? = some cols[t.start] := List.getElem?_eq_getElem (by omega)
  have hskn := skel_solve1 d ideo m cols t
  have hstn := start_of_skel hskn
  rw [hstn]
  refine ⟨hst, ?_⟩
  simp only [candCost_skel hskn]
  have htp : t.prev = none := by rw [← hsk]; rfl
  unfold solve1
  simp only [hP]
  by_cases hz : cols[t.start].length = 0
  · left
    rw [if_pos hz]
    exact ⟨by rw [List.length_eq_zero_iff.mp hz], htp, rfl⟩
  · right
    rw [if_neg hz]
    obtain ⟨k, hk⟩ : ∃ k, cols[t.start].length = k + 1 := ⟨cols[t.start].length - 1, by omega⟩
    rw [hk]
    obtain ⟨j', p, hj', hp, e1, e2, e3⟩ := relax_best (d := d) (ideo := ideo) (m := m) (P := cols[t.start]) k (by omega) t
    refine ⟨j', p, ?_, e1, e2, ?_⟩
    · unfold getNode; rw [hP]; exact hp
    · intro j'' q hq
      unfold getNode at hq
      rw [hP] at hq
      simp only [Option.bind_some] at hq
      have := (List.getElem?_eq_some_iff.mp hq).1
      exact e3 j'' q (by omega) hq

/-- Following `prev` from a node, last word first. -/
inductive PrevChain (cols : Cols) : Nat → Nat → List Node → Prop
  | last {i j : Nat} {n : Node} : getNode cols i j = some n → n.prev = none → PrevChain cols i j [n]
  | step {i j i' j' : Nat} {n : Node} {L : List Node} : getNode cols i j = some n → n.prev = some (i', j') →
      PrevChain cols i' j' L → PrevChain cols i j (n :: L)

theorem prevChain_exists (wf : WellFormed d u) (h : Solved d u ideo m inp cols0 cols) (i : Nat) :
    ∀ j n, getNode cols i j = some n → ∃ L, PrevChain cols i j L ∧
      ∀ fuel, i + 1 ≤ fuel → walk m cols fuel (some (i, j)) = some (L.flatMap (emit m)) := by
  induction i using Nat.strongRecOn with
  | _ i ih =>
    intro j n hn
    have hlast : n.prev = none → ∃ L, PrevChain cols i j L ∧
        ∀ fuel, i + 1 ≤ fuel → walk m cols fuel (some (i, j)) = some (L.flatMap (emit m)) := by
      intro hp
      refine ⟨[n], PrevChain.last hn hp, ?_⟩
      intro fuel hf
      obtain ⟨f, rfl⟩ : ∃ f, fuel = f + 1 := ⟨fuel - 1, by omega⟩
      simp [walk, hn, hp]
    by_cases hi : 1 ≤ i
    · obtain ⟨hst, heq⟩ := h.eqn wf hi hn
      rcases heq with ⟨_, hp, _⟩ | ⟨j', p, hp, hprev, _, _⟩
      · exact hlast hp
      · obtain ⟨L, hL, hw⟩ := ih n.start hst j' p hp
        refine ⟨n :: L, PrevChain.step hn hprev hL, ?_⟩
        intro fuel hf
        obtain ⟨f, rfl⟩ : ∃ f, fuel = f + 1 := ⟨fuel - 1, by omega⟩
        simp only [walk, hn, hprev, List.flatMap_cons]
        rw [hw f (by omega)]
        rfl
    · have : i = 0 := by omega
      subst this
      obtain ⟨_, rfl⟩ := h.bos_node hn
      exact hlast rfl

/-- Number of characters and bytes of a list of words. -/
def cntSum (ws : List Word) : Nat := (ws.map (fun w => runeCount w.surface)).sum
@[inherit_doc cntSum] def lenSum (ws : List Word) : Nat := (ws.map (fun w => w.surface.length)).sum

@[simp] theorem cntSum_nil : cntSum [] = 0 := rfl
@[simp] theorem lenSum_nil : lenSum [] = 0 := rfl
@[simp] theorem cntSum_cons (w : Word) (ws) : cntSum (w :: ws) = runeCount w.surface + cntSum ws := by simp [cntSum]
@[simp] theorem lenSum_cons (w : Word) (ws) : lenSum (w :: ws) = w.surface.length + lenSum ws := by simp [lenSum]
@[simp] theorem cntSum_append (a b : List Word) : cntSum (a ++ b) = cntSum a + cntSum b := by simp [cntSum]
@[simp] theorem lenSum_append (a b : List Word) : lenSum (a ++ b) = lenSum a + lenSum b := by simp [lenSum]

/-- The lattice nodes of consecutive words. -/
def nodesFrom (d : Dict) : Nat → Nat → List Word → List Node
  | _, _, [] => []
  | k, pos, w :: ws => mkNode d w.cls w.id pos k w.surface :: nodesFrom d (k + runeCount w.surface) (pos + w.surface.length) ws

theorem nodesFrom_append (d : Dict) (k pos : Nat) (a b : List Word) :
    nodesFrom d k pos (a ++ b) = nodesFrom d k pos a ++ nodesFrom d (k + cntSum a) (pos + lenSum a) b := by
  induction a generalizing k pos with
  | nil => simp [nodesFrom]
  | cons w a ih => simp [nodesFrom, ih, Nat.add_assoc]

/-- Advancing over a candidate. -/
theorem at_step {k pos : Nat} {rest : Bytes} (hat : At inp k pos rest) {w : Word} (hw : CandOk d rest w) :
    At inp (k + runeCount w.surface) (pos + w.surface.length) (rest.drop w.surface.length) := by
  have h1 := cand_range hat hw
  have hrns := hat.rns
  rw [hw.rns] at hrns
  have htake : ((runes inp).drop k).take (runeCount w.surface) = runes w.surface := by
    rw [hrns]; unfold runeCount; simp
  have hpre : wsum ((runes inp).take (k + runeCount w.surface)) = pos + w.surface.length := by
    rw [List.take_add, htake, wsum_append, hat.pre, wsum_runes]
  have h2 := at_of_le (inp := inp) (k := k + runeCount w.surface) h1.2
  rw [hpre, ← List.drop_drop, hat.drop] at h2
  exact h2

/-- A node in the middle of the solved lattice. -/
theorem Solved.weak_mid (h : Solved d u ideo m inp cols0 cols) {i j : Nat} {n : Node} (hi : 1 ≤ i)
    (hi2 : i ≤ runeCount inp) (hn : getNode cols i j = some n) :
    ∃ k pos rest w, At inp k pos rest ∧ WeakCandidate d u rest w ∧ i = k + runeCount w.surface ∧
      skel n = mkNode d w.cls w.id pos k w.surface := by
  obtain ⟨c, t, hc, ht, rfl⟩ := h.node hi hn
  obtain ⟨c', hc', hmem⟩ := h.lat.mid i hi hi2
  rw [hc] at hc'
  simp only [Option.some.injEq] at hc'
  subst hc'
  obtain ⟨k, pos, rest, w, hat, hw, hik, rfl⟩ := hmem t (List.mem_of_getElem? ht)
  exact ⟨k, pos, rest, w, hat, hw, hik, by rw [skel_solve1]; rfl⟩

@[inherit_doc Solved.weak_mid]
theorem Solved.mid (h : Solved d u ideo m inp cols0 cols) (hrep : ReplacementOk d inp) {i j : Nat} {n : Node} (hi : 1 ≤ i)
    (hi2 : i ≤ runeCount inp) (hn : getNode cols i j = some n) :
    ∃ k pos rest w, At inp k pos rest ∧ Candidate d u rest w ∧ i = k + runeCount w.surface ∧
      skel n = mkNode d w.cls w.id pos k w.surface := by
  obtain ⟨k, pos, rest, w, hat, hw, h1, h2⟩ := h.weak_mid hi hi2 hn
  rcases hw with hw | hw
  · exact ⟨k, pos, rest, w, hat, hw, h1, h2⟩
  · have hr : rest ≠ [] := by
      obtain ⟨t, rfl⟩ := quirk_bytes hw.1
      simp
    exact absurd hw.1 (not_quirk hrep hat hr)

/-- Shape of the chain that ends at a node in columns `0 .. N`: words following each other, possibly after BOS. -/
theorem prevChain_shape (wf : WellFormed d u) (h : Solved d u ideo m inp cols0 cols) (hrep : ReplacementOk d inp) {i j : Nat} {L : List Node}
    (hL : PrevChain cols i j L) (hi : i ≤ runeCount inp) :
    ∃ (linked : Bool) (k pos : Nat) (rest : Bytes) (ws : List Word), At inp k pos rest ∧
      k + cntSum ws = i ∧ At inp i (pos + lenSum ws) (rest.drop (lenSum ws)) ∧
      (∀ ws', Analysis d u (rest.drop (lenSum ws)) ws' → Analysis d u rest (ws ++ ws')) ∧
      L.reverse.map skel = (if linked then [bosNode] else []) ++ nodesFrom d k pos ws ∧
      (linked = true → k = 0 ∧ L.getLast? = some bosNode) ∧ (linked = false → 1 ≤ k ∧ cols[k]? = some [] ∧ ws ≠ []) := by
  induction hL with
  | @last i j n hn hp =>
    by_cases hi1 : 1 ≤ i
    · obtain ⟨k, pos, rest, w, hat, hw, hik, hsk⟩ := h.mid hrep hi1 hi hn
      have hok := cand_ok wf hw
      have hst : n.start = k := by have := congrArg Node.start hsk; exact this
      obtain ⟨_, heq⟩ := h.eqn wf hi1 hn
      rcases heq with ⟨he, _, _⟩ | ⟨_, _, _, hprev, _, _⟩
      · refine ⟨false, k, pos, rest, [w], hat, by simp [hik], ?_, ?_, ?_, by simp, ?_⟩
        · have := at_step hat hok
          simpa [hik] using this
        · intro ws' hws'
          simp only [lenSum_cons, lenSum_nil, Nat.add_zero] at hws'
          rw [hok.app] at hw ⊢
          exact Analysis.cons w _ ws' (by simpa using hw) hws'
        · simp [nodesFrom, hsk]
        · intro _
          refine ⟨?_, by rw [← hst]; exact he, by simp⟩
          cases k with
          | zero => rw [hst, h.bos] at he; simp at he
          | succ k => omega
      · rw [hp] at hprev; simp at hprev
    · have : i = 0 := by omega
      subst this
      obtain ⟨rfl, rfl⟩ := h.bos_node hn
      have h0 : At inp 0 0 inp := by
        have := at_of_le (inp := inp) (k := 0) (by omega)
        simpa using this
      exact ⟨true, 0, 0, inp, [], h0, rfl, by simpa using h0, fun ws' h => by simpa using h, rfl, fun _ => ⟨rfl, rfl⟩, by simp⟩
  | @step i j i' j' n L hn hp hL ih =>
    have hi1 : 1 ≤ i := by
      apply Decidable.byContradiction
      intro hcon
      have : i = 0 := by omega
      subst this
      obtain ⟨rfl, rfl⟩ := h.bos_node hn
      simp [bosNode, newNode] at hp
    obtain ⟨k1, pos1, rest1, w, hat1, hw, hik, hsk⟩ := h.mid hrep hi1 hi hn
    have hok := cand_ok wf hw
    have hst : n.start = k1 := by have := congrArg Node.start hsk; exact this
    obtain ⟨hlt, heq⟩ := h.eqn wf hi1 hn
    have hi' : i' = n.start := by
      rcases heq with ⟨_, hpr, _⟩ | ⟨_, _, _, hprev, _, _⟩
      · rw [hp] at hpr; simp at hpr
      · rw [hp] at hprev; simp at hprev; exact hprev.1
    subst hi'
    obtain ⟨linked, k, pos, rest, ws, hat, hk, hat', han, hrev, hlk, hnl⟩ := ih (by omega)
    rw [hst] at hat' hk
    obtain ⟨e1, e2⟩ := at_unique hat' hat1
    refine ⟨linked, k, pos, rest, ws ++ [w], hat, by simp; omega, ?_, ?_, ?_, ?_, ?_⟩
    · have := at_step hat1 hok
      rw [hik]
      simpa [← e1, ← e2, Nat.add_assoc] using this
    · intro ws' hws'
      simp only [List.append_assoc, List.singleton_append]
      apply han
      rw [e2]
      have hws2 : Analysis d u (rest1.drop w.surface.length) ws' := by
        rw [← e2]; simpa using hws'
      rw [hok.app] at hw ⊢
      exact Analysis.cons w _ ws' (by simpa using hw) (by simpa using hws2)
    · rw [nodesFrom_append, ← List.append_assoc, ← hrev]
      simp only [List.reverse_cons, List.map_append, List.map_cons, List.map_nil]
      congr 1
      rw [hsk, e1, hk]
      rfl
    · intro hl
      obtain ⟨h1, h2⟩ := hlk hl
      refine ⟨h1, ?_⟩
      cases L with
      | nil => simp at h2
      | cons a L => simpa using h2
    · intro hl
      obtain ⟨h1, h2, _⟩ := hnl hl
      exact ⟨h1, h2, by simp⟩

end

end Kagome
