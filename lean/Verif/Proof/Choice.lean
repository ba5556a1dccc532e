import Verif.Proof.First
import Verif.Spec.Choice

/-! Among the cheapest analyses the lattice takes the one with the longest words from the end. -/

namespace Kagome

open Spec

theorem shortOk_iff (d : Dict) (s : Bytes) : shortOk d s ↔
    2 ≤ unknownLength d s ∧ ((runes s)[unknownLength d s - 1]?).map Prod.fst ≠ some 0xFFFD := by
  unfold shortOk
  cases (runes s)[unknownLength d s - 1]? with
  | none => simp
  | some r => simp

/-- The nodes added at one place are those of the words offered, in the same order. -/
theorem addsAt_offers {d : Dict} {u : Option UserDict} {k pos : Nat} {rest : Bytes} (hq : ¬ Quirk d rest) :
    addsAt d u k pos rest = (offers d u rest).map (wordAdd d k pos) := by
  have hfull : fullText d rest = firstChars rest (unknownLength d rest) := by unfold fullText; rw [if_neg hq]
  unfold addsAt offers
  split
  · rw [List.map_map]; rfl
  · rw [List.map_append, List.map_map]
    congr 1
    split
    · unfold unkAdds unkIds unknownOffers
      rw [hfull, List.flatMap_map, List.map_flatMap]
      congr 1
      funext x
      by_cases hs : shortOk d rest
      · rw [if_pos hs, if_pos ((shortOk_iff d rest).mp hs)]; rfl
      · rw [if_neg hs, if_neg (fun h => hs ((shortOk_iff d rest).mpr h))]; rfl
    · rfl

theorem wordAdd_inj {d : Dict} {k pos : Nat} {w w' : Word} (h : wordAdd d k pos w = wordAdd d k pos w') : w = w' := by
  have h2 := congrArg Prod.snd h
  have a := congrArg Node.cls h2
  have b := congrArg Node.id h2
  have c := congrArg Node.surface h2
  obtain ⟨a1, b1, c1⟩ := w
  obtain ⟨a2, b2, c2⟩ := w'
  change a1 = a2 at a
  change b1 = b2 at b
  change c1 = c2 at c
  rw [a, b, c]

theorem before_append {α : Type} {A B x y : List α} {a : α} (h : A ++ B = x ++ a :: y) (ha : a ∉ A) : ∃ z, x = A ++ z ∧ B = z ++ a :: y := by
  rcases List.append_eq_append_iff.mp h with ⟨z, h1, h2⟩ | ⟨z, h1, h2⟩
  · exact ⟨z, h1, h2⟩
  · cases z with
    | nil => exact ⟨[], by simpa using h1.symm, by simpa using h2.symm⟩
    | cons b z =>
      simp only [List.cons_append, List.cons.injEq] at h2
      exfalso
      apply ha
      rw [h1, h2.1]
      simp

theorem before_prefix {α : Type} {A B x y : List α} {a : α} (h : A ++ B = x ++ a :: y) (ha : a ∉ B) : ∃ z, A = x ++ a :: z := by
  rcases List.append_eq_append_iff.mp h with ⟨z, h1, h2⟩ | ⟨z, h1, h2⟩
  · exfalso
    apply ha
    rw [h2]
    simp
  · cases z with
    | nil =>
      exfalso
      apply ha
      simp only [List.nil_append] at h2
      rw [← h2]
      simp
    | cons b z =>
      simp only [List.cons_append, List.cons.injEq] at h2
      exact ⟨z, by rw [h1, h2.1]⟩

theorem idxOf_ne {a b : Word} (l : List Word) (h : b ≠ a) : (b :: l).idxOf a = l.idxOf a + 1 := by
  rw [List.idxOf_cons]
  have : (b == a) = false := by simpa using h
  rw [this]
  rfl

theorem idxOf_before {x y : List Word} {w w' : Word} (hn : w' ∉ x) (hne : w ≠ w') : (x ++ w :: y).idxOf w < (x ++ w :: y).idxOf w' := by
  induction x with
  | nil =>
    rw [List.nil_append, List.idxOf_cons_self, idxOf_ne _ hne]
    omega
  | cons b x ih =>
    have hb : b ≠ w' := fun h => hn (by simp [h])
    rw [List.cons_append, idxOf_ne _ hb]
    by_cases hbw : b = w
    · subst hbw
      rw [List.idxOf_cons_self]
      omega
    · rw [idxOf_ne _ hbw]
      have := ih (fun h => hn (by simp [h]))
      omega

theorem addsFrom_split (d : Dict) (u : Option UserDict) (inp : Bytes) {k n : Nat} (h : k < n) :
    addsFrom d u inp 0 n = addsFrom d u inp 0 k ++
      (addsAt d u k (wsum ((runes inp).take k)) (inp.drop (wsum ((runes inp).take k))) ++ addsFrom d u inp (k + 1) (n - k - 1)) := by
  unfold addsFrom
  have e : List.range' 0 n = List.range' 0 k ++ k :: List.range' (k + 1) (n - k - 1) := by
    have h1 : List.range' 0 n = List.range' 0 k ++ List.range' (0 + 1 * k) (n - k) := by
      rw [List.range'_append]; congr 1; omega
    rw [h1]
    have h2 : n - k = (n - k - 1) + 1 := by omega
    rw [h2, List.range'_succ]
    simp
  rw [e, List.flatMap_append, List.flatMap_cons]

theorem addsFrom_range {d : Dict} {u : Option UserDict} (wf : WellFormed d u) {inp : Bytes} (hrep : ReplacementOk d inp) {k n : Nat} (hn : k + n ≤ runeCount inp)
    {a : Nat × Node} (ha : a ∈ addsFrom d u inp k n) : k ≤ a.2.start ∧ a.2.start < k + n := by
  unfold addsFrom at ha
  simp only [List.mem_flatMap, List.mem_range'_1] at ha
  obtain ⟨i, hi, ha⟩ := ha
  have hat := at_of_le (inp := inp) (k := i) (by unfold runeCount at hn; omega)
  have hr := at_rest_ne hat (by omega)
  obtain ⟨w, hw, rfl⟩ := (mem_addsAt wf hr (not_quirk hrep hat hr) a).mp ha
  exact hi

/-- In a column of the lattice, nodes that start earlier come first, and nodes that start at the same place are in the order of the dictionaries. -/
theorem column_order {d : Dict} {u : Option UserDict} (wf : WellFormed d u) {inp : Bytes} (hrep : ReplacementOk d inp) {cols0 : Cols}
    (hb : build d u inp = some cols0) {p : Nat} (h1 : 1 ≤ p) (h2 : p ≤ runeCount inp) {c : List Node} (hc : cols0[p]? = some c)
    {j k pos k' pos' : Nat} {rest rest' : Bytes} {w w' : Word} (hat : At inp k pos rest) (hat' : At inp k' pos' rest')
    (hw : Candidate d u rest w) (hw' : Candidate d u rest' w') (hp : p = k + runeCount w.surface) (hp' : p = k' + runeCount w'.surface) (hne : w ≠ w')
    (hj : c[j]? = some (mkNode d w.cls w.id pos k w.surface))
    (hlt : ∀ j', c[j']? = some (mkNode d w'.cls w'.id pos' k' w'.surface) → j < j') :
    k ≤ k' ∧ (k = k' → (offers d u rest).idxOf w < (offers d u rest).idxOf w') := by
  have hcol : c = ((addsFrom d u inp 0 (runeCount inp)).filter (fun a => a.1 = p)).map Prod.snd := by
    rw [build_eq wf] at hb
    simp only [Option.some.injEq] at hb
    rw [← hb, applyAdds_get] at hc
    have e1 : ¬ 0 = p := by omega
    have e2 : ¬ runeCount inp + 1 = p := by omega
    have e3 : p < runeCount inp + 2 := by omega
    simp [e1, e2, e3] at hc
    exact hc.symm
  -- the node of `w'` does not occur before position `j`
  have hsplit : c = c.take j ++ mkNode d w.cls w.id pos k w.surface :: c.drop (j + 1) := by
    obtain ⟨hlt', hget⟩ := List.getElem?_eq_some_iff.mp hj
    rw [← hget, ← List.drop_eq_getElem_cons hlt', List.take_append_drop]
  have hnot : mkNode d w'.cls w'.id pos' k' w'.surface ∉ c.take j := by
    intro hm
    obtain ⟨j', hj'⟩ := List.getElem?_of_mem hm
    have hjj : j' < j := by
      have := (List.getElem?_eq_some_iff.mp hj').1
      rw [List.length_take] at this
      omega
    rw [List.getElem?_take_of_lt hjj] at hj'
    have := hlt j' hj'
    omega
  generalize c.take j = X at hsplit hnot
  generalize c.drop (j + 1) = Y at hsplit
  rw [hcol] at hsplit
  obtain ⟨FX, F2, hF, hFX, hF2⟩ := List.map_eq_append_iff.mp hsplit
  obtain ⟨fa, FY, hF2', hfa, hFY⟩ := List.map_eq_cons_iff.mp hF2
  subst hF2'
  obtain ⟨x, y1, hA, hx, hy1⟩ := List.filter_eq_append_iff.mp hF
  obtain ⟨z, y, hy, hz, hfap, hyy⟩ := List.filter_eq_cons_iff.mp hy1
  subst hy
  -- in the list of all additions
  have hfa' : fa = wordAdd d k pos w := by
    obtain ⟨f1, f2⟩ := fa
    simp only [decide_eq_true_eq] at hfap
    simp only at hfa
    rw [hfap, hfa, hp]; rfl
  subst hfa'
  have hnot' : wordAdd d k' pos' w' ∉ x ++ z := by
    intro hm
    rcases List.mem_append.mp hm with hm | hm
    · apply hnot
      rw [← hFX, ← hx]
      exact List.mem_map.mpr ⟨_, List.mem_filter.mpr ⟨hm, decide_eq_true hp'.symm⟩, rfl⟩
    · exact hz _ hm (decide_eq_true hp'.symm)
  rw [← List.append_assoc] at hA
  generalize x ++ z = x at hA hnot'
  have hkr := cand_range hat (cand_ok wf hw)
  have hkr' := cand_range hat' (cand_ok wf hw')
  have hcnt := (cand_ok wf hw).cnt
  have hcnt' := (cand_ok wf hw').cnt
  have hkN : k < runeCount inp := by omega
  have hkN' : k' < runeCount inp := by omega
  have hmem' : ∀ n, k' < n → n ≤ runeCount inp → wordAdd d k' pos' w' ∈ addsFrom d u inp 0 n := by
    intro n hn hn2
    rw [addsFrom_split d u inp hn]
    refine List.mem_append.mpr (Or.inr (List.mem_append.mpr (Or.inl ?_)))
    rw [hat'.pre, hat'.drop]
    have hr := at_rest_ne hat' hkN'
    exact (mem_addsAt wf hr (not_quirk hrep hat' hr) _).mpr ⟨w', hw', rfl⟩
  have hsp := addsFrom_split d u inp hkN
  rw [hsp] at hA
  have hna : wordAdd d k pos w ∉ addsFrom d u inp 0 k := by
    intro hm
    have := (addsFrom_range wf hrep (by omega) hm).2
    have e : (wordAdd d k pos w).2.start = k := rfl
    omega
  obtain ⟨z', hz1, hz2⟩ := before_append hA hna
  have hle : k ≤ k' := by
    apply Decidable.byContradiction
    intro hcon
    apply hnot'
    rw [hz1]
    exact List.mem_append.mpr (Or.inl (hmem' k (by omega) (by omega)))
  refine ⟨hle, ?_⟩
  intro hkk
  subst hkk
  obtain ⟨rfl, rfl⟩ := at_unique hat hat'
  have hnb : wordAdd d k pos w ∉ addsFrom d u inp (k + 1) (runeCount inp - k - 1) := by
    intro hm
    have := (addsFrom_range wf hrep (by omega) hm).1
    have e : (wordAdd d k pos w).2.start = k := rfl
    omega
  obtain ⟨y', hy'⟩ := before_prefix hz2 hnb
  rw [hat.pre, hat.drop, addsAt_offers (not_quirk hrep hat (at_rest_ne hat hkN))] at hy'
  obtain ⟨o1, o2, ho, ho1, ho2⟩ := List.map_eq_append_iff.mp hy'
  obtain ⟨v, o3, ho2', hv, ho3⟩ := List.map_eq_cons_iff.mp ho2
  subst ho2'
  have := wordAdd_inj hv
  subst this
  rw [ho]
  apply idxOf_before _ hne
  intro hm
  apply hnot'
  rw [hz1, ← ho1]
  exact List.mem_append.mpr (Or.inr (List.mem_map.mpr ⟨w', hm, rfl⟩))

/-! ### The words of an analysis and their places -/

@[simp] theorem textOf_nil : textOf [] = [] := rfl
@[simp] theorem textOf_cons (w : Word) (ws : List Word) : textOf (w :: ws) = w.surface ++ textOf ws := rfl
theorem textOf_append (a b : List Word) : textOf (a ++ b) = textOf a ++ textOf b := by
  unfold textOf; simp

theorem analysis_textOf {d : Dict} {u : Option UserDict} {s : Bytes} {ws : List Word} (h : Analysis d u s ws) : textOf ws = s := by
  induction h with
  | nil => rfl
  | cons w rest ws _ _ ih => rw [textOf_cons, ih]

theorem analysis_nonempty {d : Dict} {u : Option UserDict} (wf : WellFormed d u) {s : Bytes} {ws : List Word} (h : Analysis d u s ws) :
    ∀ w ∈ ws, w.surface ≠ [] := by
  induction h with
  | nil => simp
  | cons w rest ws hw _ ih =>
    intro v hv
    rcases List.mem_cons.mp hv with rfl | hv
    · intro h0
      have := (cand_ok wf hw).cnt
      rw [h0] at this
      simp [runeCount] at this
    · exact ih v hv

/-- Where a word of an analysis stands. -/
theorem analysis_at {d : Dict} {u : Option UserDict} (wf : WellFormed d u) {inp : Bytes} {w : Word} {tail : List Word} :
    ∀ {a : List Word} {k pos : Nat} {rest : Bytes}, At inp k pos rest → Analysis d u rest (a ++ w :: tail) →
      At inp (k + cntSum a) (pos + lenSum a) (w.surface ++ textOf tail) ∧ Candidate d u (w.surface ++ textOf tail) w ∧
      k + cntSum a + runeCount w.surface + (runes (textOf tail)).length = runeCount inp := by
  intro a
  induction a with
  | nil =>
    intro k pos rest hat ha
    rw [List.nil_append] at ha
    generalize hl : w :: tail = l at ha
    cases ha with
    | nil => cases hl
    | cons w' rest ws hw ha =>
      simp only [List.cons.injEq] at hl
      obtain ⟨rfl, rfl⟩ := hl
      rw [← analysis_textOf ha] at hat hw
      have h := at_step hat (cand_ok wf hw)
      rw [List.drop_left] at h
      exact ⟨hat, hw, by simpa using at_count h⟩
  | cons b a ih =>
    intro k pos rest hat ha
    rw [List.cons_append] at ha
    generalize hl : b :: (a ++ w :: tail) = l at ha
    cases ha with
    | nil => cases hl
    | cons w' rest ws hw ha =>
      simp only [List.cons.injEq] at hl
      obtain ⟨rfl, rfl⟩ := hl
      have h := at_step hat (cand_ok wf hw)
      rw [List.drop_left] at h
      have := ih h ha
      simpa [cntSum_cons, lenSum_cons, Nat.add_assoc] using this

theorem chainCost_join (d : Dict) (ideo : Nat → Bool) (m : LMode) (xs : List Word) (a : Word) (ys : List Word) :
    chainCost d ideo m (xs ++ a :: ys) = chainCost d ideo m (xs ++ [a]) + chainCost d ideo m (a :: ys) := by
  induction xs with
  | nil => simp [chainCost]
  | cons x xs ih =>
    cases xs with
    | nil => simp [chainCost]
    | cons y xs =>
      simp only [List.cons_append, chainCost] at ih ⊢
      rw [ih]; omega

theorem common_tail (xs ys : List Word) : ∃ a b tail, xs = a ++ tail ∧ ys = b ++ tail ∧
    (a = [] ∨ b = [] ∨ ∃ a' w b' w', a = a' ++ [w] ∧ b = b' ++ [w'] ∧ w ≠ w') := by
  have key : ∀ n (xs ys : List Word), xs.length = n → ∃ a b tail, xs = a ++ tail ∧ ys = b ++ tail ∧
    (a = [] ∨ b = [] ∨ ∃ a' w b' w', a = a' ++ [w] ∧ b = b' ++ [w'] ∧ w ≠ w') := by
    intro n
    induction n with
    | zero =>
      intro xs ys h
      have := List.length_eq_zero_iff.mp h
      subst this
      exact ⟨[], ys, [], rfl, by simp, Or.inl rfl⟩
    | succ n ih =>
      intro xs ys h
      rcases List.eq_nil_or_concat xs with rfl | ⟨xs', x, rfl⟩
      · simp at h
      · rcases List.eq_nil_or_concat ys with rfl | ⟨ys', y, rfl⟩
        · exact ⟨xs' ++ [x], [], [], by simp, rfl, Or.inr (Or.inl rfl)⟩
        · by_cases hxy : x = y
          · subst hxy
            obtain ⟨a, b, tail, h1, h2, h3⟩ := ih xs' ys' (by simpa using h)
            exact ⟨a, b, tail ++ [x], by rw [h1]; simp, by rw [h2]; simp, h3⟩
          · exact ⟨xs' ++ [x], ys' ++ [y], [], by simp, by simp, Or.inr (Or.inr ⟨xs', x, ys', y, rfl, rfl, hxy⟩)⟩
  exact key _ xs ys rfl

theorem nodesFrom_wordOf (d : Dict) (k pos : Nat) (ws : List Word) : (nodesFrom d k pos ws).map wordOf = ws := by
  induction ws generalizing k pos with
  | nil => rfl
  | cons w ws ih => simp [nodesFrom, ih]; rfl

theorem wordOf_map_skel (L : List Node) : (L.map skel).map wordOf = L.map wordOf := by
  simp only [List.map_map]
  apply List.map_congr_left
  intro n _
  rfl

section
variable {d : Dict} {u : Option UserDict} {ideo : Nat → Bool} {m : LMode} {inp : Bytes} {cols0 cols : Cols}

/-- A node in the middle of a chain. -/
theorem prevChain_mid {lo hi : Int} (h : Solved d u ideo m inp cols0 cols)
    (hbest : ∀ i j n, getNode cols i j = some n → Reach cols i j → Best d ideo m cols lo hi i j n) {n0 p : Node} {Y : List Node} :
    ∀ {X : List Node} {i j : Nat}, PrevChain cols i j (X ++ n0 :: p :: Y) → Reach cols i j →
      ∃ i0 j0 j1, 1 ≤ i0 ∧ getNode cols i0 j0 = some n0 ∧ Reach cols i0 j0 ∧ n0.prev = some (n0.start, j1) ∧ getNode cols n0.start j1 = some p ∧
        Reach cols n0.start j1 ∧ PrevChain cols n0.start j1 (p :: Y) := by
  have hone : ∀ {i j n i' j' L}, getNode cols i j = some n → n.prev = some (i', j') → PrevChain cols i' j' L → Reach cols i j →
      1 ≤ i ∧ i' = n.start ∧ Reach cols i' j' := by
    intro i j n i' j' L hn hp hL hr
    have hi : 1 ≤ i := by
      apply Decidable.byContradiction
      intro hcon
      have : i = 0 := by omega
      subst this
      obtain ⟨rfl, rfl⟩ := h.bos_node hn
      simp [bosNode, newNode] at hp
    obtain ⟨j'', q, hprev, hq, hqr, _⟩ := (hbest i j n hn hr).pred hi
    rw [hp] at hprev
    simp only [Option.some.injEq, Prod.mk.injEq] at hprev
    obtain ⟨rfl, rfl⟩ := hprev
    exact ⟨hi, rfl, hqr⟩
  intro X
  induction X with
  | nil =>
    intro i j hL hr
    rw [List.nil_append] at hL
    cases hL with
    | @step _ _ i' j' _ _ hn hp hL =>
      obtain ⟨hi, rfl, hr'⟩ := hone hn hp hL hr
      refine ⟨i, j, j', hi, hn, hr, hp, ?_, hr', hL⟩
      cases hL with
      | last hn' _ => exact hn'
      | step hn' _ _ => exact hn'
  | cons x X ih =>
    intro i j hL hr
    rw [List.cons_append] at hL
    generalize hl : X ++ n0 :: p :: Y = l at hL
    cases hL with
    | last _ _ => simp at hl
    | step hn hp hL =>
      subst hl
      obtain ⟨_, rfl, hr'⟩ := hone hn hp hL hr
      exact ih hL hr'

/-- Every node of a word of an analysis is connected and costs at most what the words up to it cost. -/
theorem prefix_le (wf : WellFormed d u) (h : Solved d u ideo m inp cols0 cols) (hl : Lat d u inp cols0) {lo hi : Int}
    (hbest : ∀ i j n, getNode cols i j = some n → Reach cols i j → Best d ideo m cols lo hi i j n) {w : Word} {tail : List Word} :
    ∀ {a : List Word} {k pos : Nat} {rest : Bytes} {j : Nat} {n : Node}, At inp k pos rest → Analysis d u rest (a ++ w :: tail) → getNode cols k j = some n →
      Reach cols k j → ∀ jq q, getNode cols (k + cntSum a + runeCount w.surface) jq = some q →
        skel q = mkNode d w.cls w.id (pos + lenSum a) (k + cntSum a) w.surface →
        Reach cols (k + cntSum a + runeCount w.surface) jq ∧ q.cost ≤ n.cost + chainCost d ideo m (wordOf n :: (a ++ [w])) := by
  intro a
  induction a with
  | nil =>
    intro k pos rest j n hat ha hn hr jq q hq hsk
    simp only [cntSum_nil, lenSum_nil, Nat.add_zero, List.nil_append] at *
    generalize hl : w :: tail = l at ha
    cases ha with
    | nil => cases hl
    | cons w' rest ws hw ha =>
      simp only [List.cons.injEq] at hl
      obtain ⟨rfl, rfl⟩ := hl
      have hst : q.start = k := by have := congrArg Node.start hsk; exact this
      have hcnt := (cand_ok wf hw).cnt
      have hr' : Reach cols (k + runeCount w.surface) jq :=
        Reach.step (by omega) hq (by rw [hst]; exact hn) (by rw [hst]; exact hr)
      have h2 := (hbest _ _ _ hq hr').opt (by omega) j n (by rw [hst]; exact hn) (by rw [hst]; exact hr)
      have hwd : wordOf q = w := by
        have : wordOf q = wordOf (mkNode d w.cls w.id pos k w.surface) := wordOf_skel (by rw [hsk]; rfl)
        rw [this]; rfl
      rw [hwd] at h2
      refine ⟨hr', ?_⟩
      simp only [chainCost]
      omega
  | cons b a ih =>
    intro k pos rest j n hat ha hn hr jq q hq hsk
    rw [List.cons_append] at ha
    generalize hll : b :: (a ++ w :: tail) = l at ha
    cases ha with
    | nil => cases hll
    | cons w' rest ws hw ha =>
      simp only [List.cons.injEq] at hll
      obtain ⟨rfl, rfl⟩ := hll
      obtain ⟨j', n', hn', hsk'⟩ := h.cand wf hl hat hw
      have hst : n'.start = k := by have := congrArg Node.start hsk'; exact this
      have hcnt := (cand_ok wf hw).cnt
      have hr' : Reach cols (k + runeCount b.surface) j' :=
        Reach.step (by omega) hn' (by rw [hst]; exact hn) (by rw [hst]; exact hr)
      have hat' := at_step hat (cand_ok wf hw)
      rw [List.drop_left] at hat'
      have h2 := (hbest _ _ _ hn' hr').opt (by omega) j n (by rw [hst]; exact hn) (by rw [hst]; exact hr)
      have hwd : wordOf n' = b := by
        have : wordOf n' = wordOf (mkNode d b.cls b.id pos k b.surface) := wordOf_skel (by rw [hsk']; rfl)
        rw [this]; rfl
      rw [hwd] at h2
      have e1 : k + cntSum (b :: a) = k + runeCount b.surface + cntSum a := by rw [cntSum_cons]; omega
      have e2 : pos + lenSum (b :: a) = pos + b.surface.length + lenSum a := by rw [lenSum_cons]; omega
      rw [e1] at hq hsk ⊢
      rw [e2] at hsk
      obtain ⟨r1, r2⟩ := ih hat' ha hn' hr' jq q hq hsk
      refine ⟨r1, ?_⟩
      rw [hwd] at r2
      simp only [List.cons_append, chainCost] at r2 ⊢
      omega

/-- What the lattice holds is the preferred one of the cheapest analyses. -/
theorem choice_chain (wf : WellFormed d u) (hrep : ReplacementOk d inp) (hfits : Fits d (runeCount inp)) (h : Solved d u ideo m inp cols0 cols) (hl : Lat d u inp cols0)
    (hb : build d u inp = some cols0) {lo hi : Int}
    (hbest : ∀ i j n, getNode cols i j = some n → Reach cols i j → Best d ideo m cols lo hi i j n) {L : List Node} (hL : PrevChain cols (runeCount inp + 1) 0 L)
    (hre : Reach cols (runeCount inp + 1) 0) {ws ws' : List Word} (hLw : L.reverse.map skel = bosNode :: nodesFrom d 0 0 ws ++ [eosNode inp])
    (ha : Analysis d u inp ws) (ha' : Analysis d u inp ws') (hcost : cost d ideo m ws' ≤ cost d ideo m ws) (hne : ws' ≠ ws) : Preferred d u ws ws' := by
  have hat0 : At inp 0 0 inp := by
    have := at_of_le (inp := inp) (k := 0) (by omega)
    simpa using this
  have htxt := analysis_textOf ha
  have htxt' := analysis_textOf ha'
  have hpos := analysis_nonempty wf ha
  have hpos' := analysis_nonempty wf ha'
  have hempty : ∀ (a b tail : List Word), (∀ w ∈ a, w.surface ≠ []) → textOf (a ++ tail) = textOf tail → a = [] := by
    intro a b tail hp ht
    rw [textOf_append] at ht
    have h0 : textOf a = [] := by
      have := congrArg List.length ht
      simp only [List.length_append] at this
      exact List.length_eq_zero_iff.mp (by omega)
    cases a with
    | nil => rfl
    | cons x a =>
      simp only [textOf_cons, List.append_eq_nil_iff] at h0
      exact absurd h0.1 (hp x (by simp))
  obtain ⟨a, b, tail, rfl, rfl, hcase⟩ := common_tail ws ws'
  rcases hcase with rfl | rfl | ⟨a', w, b', w', rfl, rfl, hww⟩
  · exfalso
    apply hne
    have := hempty b [] tail (fun w hw => hpos' w (by simp [hw])) (by rw [htxt', ← htxt]; rfl)
    rw [this]
  · exfalso
    apply hne
    have := hempty a [] tail (fun w hw => hpos w (by simp [hw])) (by rw [htxt, ← htxt']; rfl)
    rw [this]
  · simp only [List.append_assoc, List.cons_append, List.nil_append] at *
    obtain ⟨hat, hcand, hcnt⟩ := analysis_at wf hat0 ha
    obtain ⟨hat', hcand', hcnt'⟩ := analysis_at wf hat0 ha'
    simp only [Nat.zero_add] at hat hat' hcnt hcnt'
    -- the chain around `w`
    obtain ⟨next, more, hnext⟩ : ∃ next more, tail ++ [boundary] = next :: more := by
      cases tail with
      | nil => exact ⟨_, _, rfl⟩
      | cons x t => exact ⟨_, _, rfl⟩
    obtain ⟨X, n0, p, Y, rfl, hn0w, hpsk, hYw⟩ : ∃ X n0 p Y, L = X ++ n0 :: p :: Y ∧ wordOf n0 = next ∧
        skel p = mkNode d w.cls w.id (lenSum a') (cntSum a') w.surface ∧ (p :: Y).reverse.map wordOf = boundary :: (a' ++ [w]) := by
      have hLw2 := hLw
      rw [nodesFrom_append] at hLw2
      simp only [Nat.zero_add, nodesFrom, List.cons_append, List.append_assoc] at hLw2
      rw [← List.cons_append] at hLw2
      obtain ⟨A, B, hAB, hA, hB⟩ := List.map_eq_append_iff.mp hLw2
      obtain ⟨p, B2, rfl, hp, hB2⟩ := List.map_eq_cons_iff.mp hB
      have hBne : B2 ≠ [] := by
        rintro rfl
        simp at hB2
      obtain ⟨n0, B3, rfl⟩ := List.exists_cons_of_ne_nil hBne
      refine ⟨B3.reverse, n0, p, A.reverse, ?_, ?_, hp, ?_⟩
      · have := congrArg List.reverse hAB
        rw [List.reverse_reverse] at this
        rw [this]
        simp
      · have h1 := congrArg (List.map wordOf) hB2
        rw [wordOf_map_skel, List.map_append, nodesFrom_wordOf] at h1
        have h2 : [eosNode inp].map wordOf = [boundary] := rfl
        rw [h2, hnext] at h1
        simp only [List.map_cons, List.cons.injEq] at h1
        exact h1.1
      · have h1 := congrArg (List.map wordOf) hA
        rw [wordOf_map_skel, List.map_cons, nodesFrom_wordOf] at h1
        have h2 : wordOf p = w := by
          have : wordOf p = wordOf (mkNode d w.cls w.id (lenSum a') (cntSum a') w.surface) := wordOf_skel (by rw [hp]; rfl)
          rw [this]; rfl
        simp only [List.reverse_cons, List.reverse_reverse, List.map_append, h1, List.map_cons, List.map_nil, h2]
        rfl
    obtain ⟨i0, j0, j1, hi0, hn0, hr0, hprev, hp, hrp, hchain⟩ := prevChain_mid h hbest hL hre
    obtain ⟨_, p', L', hpe, hp', hpcost⟩ := prevChain_cost h hbest hchain hrp
    simp only [List.cons.injEq] at hpe
    obtain ⟨rfl, rfl⟩ := hpe
    rw [hYw] at hpcost
    have hpw : wordOf p = w := by
      have : wordOf p = wordOf (mkNode d w.cls w.id (lenSum a') (cntSum a') w.surface) := wordOf_skel (by rw [hpsk]; rfl)
      rw [this]; rfl
    obtain ⟨j1', p1, hprev1, hp1, _, hn0cost⟩ := (hbest _ _ _ hn0 hr0).pred hi0
    rw [hprev] at hprev1
    simp only [Option.some.injEq, Prod.mk.injEq, true_and] at hprev1
    subst hprev1
    rw [hp] at hp1
    simp only [Option.some.injEq] at hp1
    subst hp1
    rw [hpw, hn0w, hpcost] at hn0cost
    -- the column
    have hcolp : n0.start = cntSum a' + runeCount w.surface := by
      have hle : n0.start ≤ runeCount inp := by
        have h1 := (h.eqn wf hi0 hn0).1
        have h2 : i0 < cols.length := by
          unfold getNode at hn0
          cases hc : cols[i0]? with
          | none => simp [hc] at hn0
          | some c => exact (List.getElem?_eq_some_iff.mp hc).1
        have h3 := h.len
        omega
      have h1 := h.column hle hp
      have e1 : p.start = cntSum a' := by have := congrArg Node.start hpsk; exact this
      have e2 : p.surface = w.surface := by have := congrArg Node.surface hpsk; exact this
      rw [e1, e2] at h1
      exact h1
    have hcolq : cntSum b' + runeCount w'.surface = n0.start := by omega
    have hrange := cand_range hat (cand_ok wf hcand)
    obtain ⟨c, hc, hmem⟩ := hl.mid n0.start (by omega) (by omega)
    have hcs := h.col n0.start (by omega) c hc
    -- nodes before `Forward`
    have hraw : ∀ {t : Node}, t ∈ c → skel t = t := fun ht => (lat_node wf h.lat (by omega) hc ht).2.2
    have hjp : c[j1]? = some (mkNode d w.cls w.id (lenSum a') (cntSum a') w.surface) := by
      unfold getNode at hp
      rw [hcs] at hp
      simp only [Option.bind_some, List.getElem?_map, Option.map_eq_some_iff] at hp
      obtain ⟨t, ht, rfl⟩ := hp
      rw [ht, ← hpsk, skel_solve1, hraw (List.mem_of_getElem? ht)]
    have hcostsplit : ∀ (x : List Word) (v : Word), cost d ideo m (x ++ v :: tail) =
        chainCost d ideo m (boundary :: (x ++ [v])) + (stepCost d ideo m v next + chainCost d ideo m (next :: more)) := by
      intro x v
      unfold cost
      have e : boundary :: (x ++ v :: tail) ++ [boundary] = (boundary :: x) ++ v :: (next :: more) := by
        rw [← hnext]; simp
      rw [e, chainCost_join]
      simp only [List.cons_append, chainCost]
    rw [hcostsplit, hcostsplit] at hcost
    have hbos : getNode cols 0 0 = some bosNode := h.get_bos
    have hlt : ∀ j', c[j']? = some (mkNode d w'.cls w'.id (lenSum b') (cntSum b') w'.surface) → j1 < j' := by
      intro j2 hj2
      have hq : getNode cols n0.start j2 = some (solve1 d ideo m cols (mkNode d w'.cls w'.id (lenSum b') (cntSum b') w'.surface)) := by
        unfold getNode
        rw [hcs]
        simp [hj2]
      have hqsk : skel (solve1 d ideo m cols (mkNode d w'.cls w'.id (lenSum b') (cntSum b') w'.surface)) =
          mkNode d w'.cls w'.id (lenSum b') (cntSum b') w'.surface := by rw [skel_solve1]; rfl
      generalize solve1 d ideo m cols (mkNode d w'.cls w'.id (lenSum b') (cntSum b') w'.surface) = q at hq hqsk
      have hqw : wordOf q = w' := by
        have : wordOf q = wordOf (mkNode d w'.cls w'.id (lenSum b') (cntSum b') w'.surface) := wordOf_skel (by rw [hqsk]; rfl)
        rw [this]; rfl
      have hpre := (prefix_le wf h hl hbest hat0 ha' hbos Reach.bos j2 q (by rw [Nat.zero_add, hcolq]; exact hq) (by simpa using hqsk)).2
      have hb0 : wordOf bosNode = boundary := rfl
      have hc0 : bosNode.cost = 0 := rfl
      rw [hb0, hc0] at hpre
      have hcand2 := cand_exact wf hfits h hi0 hn0 hq
      rw [hqw, hn0w] at hcand2
      obtain ⟨_, hfirst⟩ := h.first wf hi0 hn0
      rcases hfirst with ⟨_, hpn, _⟩ | ⟨jf, pf, hpf, hprevf, _, _, hstrict⟩
      · rw [hprev] at hpn; cases hpn
      · rw [hprev] at hprevf
        simp only [Option.some.injEq, Prod.mk.injEq, true_and] at hprevf
        subst hprevf
        rcases Nat.lt_trichotomy j1 j2 with h1 | h1 | h1
        · exact h1
        · exfalso
          subst h1
          rw [hp] at hq
          simp only [Option.some.injEq] at hq
          subst hq
          exact hww (hpw.symm.trans hqw)
        · exfalso
          have := hstrict j2 q h1 hq
          rw [hcand2] at this
          have := Int.min_le_right maximumCost (q.cost + stepCost d ideo m w' next)
          omega
    obtain ⟨hle, hord⟩ := column_order wf hrep hb (by omega) (by omega) hc hat hat' hcand hcand' hcolp hcolq.symm hww hjp hlt
    refine ⟨a', w, b', w', tail, rfl, rfl, ?_⟩
    rcases Nat.lt_or_ge (cntSum a') (cntSum b') with hlt' | hge
    · left; omega
    · right
      have hk : cntSum a' = cntSum b' := by omega
      rw [← hk] at hat'
      have hsame := (at_unique hat hat').2
      exact ⟨(List.append_cancel_right hsame).symm, hord hk⟩

end

theorem Spec.Chosen.cheapest {d : Dict} {u : Option UserDict} {ideo : Nat → Bool} {m : LMode} {inp : Bytes} {ws : List Word} (h : Chosen d u ideo m inp ws) :
    ∀ ws', Analysis d u inp ws' → cost d ideo m ws ≤ cost d ideo m ws' := by
  intro ws' ha
  by_cases hne : ws' = ws
  · rw [hne]; exact Int.le_refl _
  · rcases h.2 ws' ha hne with h1 | h1
    · omega
    · omega

end Kagome
