import Verif.Proof.Tokens

/-! The result of `Analyze`, put together. -/

namespace Kagome

open Spec

theorem body_omit (t : Tokenizer) (o : Bool) (k : Nat) (ns : List Node) : body { t with omitBosEos := o } k ns = body t k ns := by
  induction ns generalizing k with
  | nil => rfl
  | cons n ns ih => simp [body, ih]

theorem solve_omit (t : Tokenizer) (o : Bool) (ideo : Nat → Bool) (inp : Bytes) (m : LMode) :
    solve { t with omitBosEos := o } ideo inp m = solve t ideo inp m := rfl

theorem emitFwd_bos (m : LMode) : emitFwd m bosNode = [bosNode] := by
  unfold emitFwd
  rw [if_pos (Or.inr (by decide))]

theorem emitFwd_eos (m : LMode) (inp : Bytes) : emitFwd m (eosNode inp) = [eosNode inp] := by
  unfold emitFwd
  rw [if_pos (Or.inr (by simp [eosNode, newNode]))]

theorem body_id (t : Tokenizer) (k : Nat) (ns : List Node) : ∀ tok ∈ body t k ns, ∃ n ∈ ns, tok.id = n.id := by
  induction ns generalizing k with
  | nil => simp [body]
  | cons n ns ih =>
    intro tok h
    simp only [body, List.mem_cons] at h
    rcases h with rfl | h
    · exact ⟨n, by simp, rfl⟩
    · obtain ⟨n', h1, h2⟩ := ih _ tok h
      exact ⟨n', by simp [h1], h2⟩

theorem node_body_id (t : Tokenizer) (k : Nat) (ns : List Node) : ∀ n ∈ ns, ∃ tok ∈ body t k ns, tok.id = n.id := by
  induction ns generalizing k with
  | nil => simp
  | cons n ns ih =>
    intro n' h
    simp only [body, List.mem_cons] at h ⊢
    rcases h with rfl | h
    · exact ⟨_, Or.inl rfl, rfl⟩
    · obtain ⟨tok, h1, h2⟩ := ih (k + 1) n' h
      exact ⟨tok, Or.inr h1, h2⟩

/-- The result for any text: the words of an analysis of a suffix of the text, which with costs in range is the whole text. -/
theorem analyze_main {t : Tokenizer} (wf : WellFormed t.dict t.userDict) (ideo : Nat → Bool) {inp : Bytes}
    (hrep : ReplacementOk t.dict inp) (mode : Int) :
    ∃ (linked : Bool) (k pos : Nat) (rest : Bytes) (ws : List Word) (ns : List Node),
      At inp k pos rest ∧ Analysis t.dict t.userDict rest ws ∧
      (linked = true → k = 0 ∧ pos = 0 ∧ rest = inp) ∧ (linked = false → 1 ≤ k ∧ ws ≠ []) ∧
      ns = (nodesFrom t.dict k pos ws).flatMap (emitFwd (latticeMode mode)) ∧
      analyze { t with omitBosEos := true } ideo inp mode = some (body t 0 ns) ∧
      analyze { t with omitBosEos := false } ideo inp mode = some (
        (if linked then [boundaryToken t 0 0 0 (str "BOS")] else []) ++
        body t (if linked then 1 else 0) ns ++
        [boundaryToken t ((if linked then 1 else 0) + ns.length) inp.length (runeCount inp) (str "EOS")]) ∧
      (Fits t.dict (runeCount inp) → linked = true ∧ Chosen t.dict t.userDict ideo (latticeMode mode) inp ws) := by
  obtain ⟨cols, out, linked, k, pos, rest, ws, hs, hat, hana, hl, hul, hout, hopt⟩ := solve_main wf ideo hrep (latticeMode mode)
  have hids : ∀ n ∈ (nodesFrom t.dict k pos ws).flatMap (emitFwd (latticeMode mode)), n.id ≠ bosEosID := by
    intro n hn
    obtain ⟨tok, h1, h2⟩ := node_body_id t 0 _ n hn
    obtain ⟨p, hp⟩ := located_rel (words_located t t.dict wf (latticeMode mode) hana pos k 0).1 tok h1
    rw [← h2]; exact hp.2.1
  have hlen : ws ≠ [] → 1 ≤ ((nodesFrom t.dict k pos ws).flatMap (emitFwd (latticeMode mode))).length := by
    intro hne
    have h1 := words_located t t.dict wf (latticeMode mode) hana pos k 0
    have h2 := (located_get h1.1).1
    rw [body_length] at h2
    rw [h2]
    have h3 := (pieces_runes wf (isExt (latticeMode mode)) hana).2
    apply Nat.one_le_iff_ne_zero.mpr
    intro h0
    rw [List.length_eq_zero_iff] at h0
    rw [h0] at h3
    have h4 := runes_eq_nil.mp h3
    cases hana with
    | nil => exact hne rfl
    | cons w rest ws hw _ =>
      simp only [List.append_eq_nil_iff] at h4
      have := (cand_ok wf hw).cnt
      rw [h4.1] at this
      simp [runeCount] at this
  refine ⟨linked, k, pos, rest, ws, _, hat, hana, ?_, hul, rfl, ?_, ?_, hopt⟩
  · intro h
    have hk := hl h
    subst hk
    have hat0 : At inp 0 0 inp := by
      have := at_of_le (inp := inp) (k := 0) (by omega)
      simpa using this
    have := at_unique hat hat0
    exact ⟨rfl, this⟩
  all_goals
    unfold analyze
    rw [solve_omit, hs]
    simp only [Option.map_some]
    rw [tokenLoop_skel, hout]
    simp only [List.flatMap_append, List.flatMap_cons, List.flatMap_nil, List.append_nil, emitFwd_eos]
    generalize (nodesFrom t.dict k pos ws).flatMap (emitFwd (latticeMode mode)) = ns at *
    have he : (eosNode inp).id = bosEosID := rfl
    cases linked with
    | true =>
      simp only [if_true, List.flatMap_cons, List.flatMap_nil, List.append_nil, emitFwd_bos]
      have hb : bosNode.id = bosEosID := rfl
      simp only [List.cons_append, List.nil_append, tokenLoop, hb, Bool.false_eq_true, false_and, if_false, and_self, if_true]
      rw [tokenLoop_body _ _ _ _ _ he hids (by omega), body_omit]
      simp [mkToken, boundaryToken, bosNode, eosNode, newNode, bosEosID, runeCount]
    | false =>
      have := hlen (hul rfl).2
      simp only [Bool.false_eq_true, if_false, List.flatMap_nil, List.nil_append]
      rw [tokenLoop_body _ _ _ _ _ he hids (by omega), body_omit]
      simp [mkToken, boundaryToken, eosNode, newNode, bosEosID, runeCount]

/-- The result for a tame text. -/
theorem analyze_tame {t : Tokenizer} {inp : Bytes} (h : Tame t inp) (ideo : Nat → Bool) (mode : Int) :
    ∃ (ws : List Word) (ns : List Node),
      Analysis t.dict t.userDict inp ws ∧
      Chosen t.dict t.userDict ideo (latticeMode mode) inp ws ∧
      ns = (nodesFrom t.dict 0 0 ws).flatMap (emitFwd (latticeMode mode)) ∧
      analyze { t with omitBosEos := true } ideo inp mode = some (body t 0 ns) ∧
      analyze { t with omitBosEos := false } ideo inp mode = some (
        boundaryToken t 0 0 0 (str "BOS") :: body t 1 ns ++
        [boundaryToken t (1 + ns.length) inp.length (runeCount inp) (str "EOS")]) := by
  obtain ⟨linked, k, pos, rest, ws, ns, hat, hana, hl, hul, hns, h1, h2, hopt⟩ := analyze_main h.wf ideo h.rep mode
  obtain ⟨hlk, hopt'⟩ := hopt h.fits
  clear hopt
  subst hlk
  obtain ⟨rfl, rfl, rfl⟩ := hl rfl
  exact ⟨ws, ns, hana, hopt', hns, h1, by simpa using h2⟩

theorem inner_body (t : Tokenizer) {k : Nat} {ns : List Node} (h : ∀ tok ∈ body t k ns, tok.id ≠ -1) : inner (body t k ns) = body t k ns := by
  unfold inner
  rw [List.filter_eq_self]
  intro a ha
  simpa using h a ha

/-- The inner tokens of a tame text, with and without `OmitBosEos`. -/
theorem analyze_inner {t : Tokenizer} {inp : Bytes} (h : Tame t inp) (ideo : Nat → Bool) {mode : Int} {toks : List Token}
    (ha : analyze t ideo inp mode = some toks) :
    ∃ (ws : List Word) (ps : List Bytes),
      Analysis t.dict t.userDict inp ws ∧
      Chosen t.dict t.userDict ideo (latticeMode mode) inp ws ∧
      Located (Stands (isExt (latticeMode mode))) 0 0 (inner toks) ps ∧
      (inner toks).map wordOfToken = ws.flatMap (shown (isExt (latticeMode mode))) ∧
      ps = ws.flatMap (wordPieces (isExt (latticeMode mode))) ∧
      ps.flatten = inp ∧ runes inp = (ps.map runes).flatten := by
  obtain ⟨ws, ns, hana, hopt, hns, h1, h2⟩ := analyze_tame h ideo mode
  have hids : ∀ k, ∀ tok ∈ body t k ns, tok.id ≠ -1 := by
    intro k tok ht
    rw [hns] at ht
    obtain ⟨p, hp⟩ := located_rel (words_located t t.dict h.wf (latticeMode mode) hana 0 0 k).1 tok ht
    exact hp.2.1
  have key : ∃ k, inner toks = body t k ns := by
    obtain ⟨d, u, o⟩ := t
    cases o with
    | true => 
      rw [h1] at ha
      simp only [Option.some.injEq] at ha
      rw [← ha]
      exact ⟨0, inner_body _ (hids 0)⟩
    | false =>
      rw [h2] at ha
      simp only [Option.some.injEq] at ha
      rw [← ha]
      refine ⟨1, ?_⟩
      have := inner_body _ (hids 1)
      unfold inner at this ⊢
      simp only [List.cons_append, List.filter_cons, List.filter_append, this, List.filter_nil]
      simp [boundaryToken]
  obtain ⟨k, hk⟩ := key
  obtain ⟨g1, g2⟩ := words_located t t.dict h.wf (latticeMode mode) hana 0 0 k
  rw [← hns, ← hk] at g1 g2
  obtain ⟨e1, e2⟩ := pieces_runes h.wf (isExt (latticeMode mode)) hana
  exact ⟨ws, _, hana, hopt, g1, g2, rfl, e1, e2⟩

theorem tokenLoop_mem {t : Tokenizer} {i k : Nat} {ns : List Node} {tok : Token} (h : tok ∈ tokenLoop t i k ns) :
    ∃ n ∈ ns, tok.id = n.id ∧ tok.cls = n.cls ∧ tok.position = n.position ∧ tok.start = n.start ∧
      tok.stop = n.start + runeCount n.surface ∧ (tok.id ≠ -1 → tok.surface = n.surface) ∧
      tok.dict = some t.dict ∧ tok.udict = t.userDict := by
  induction ns generalizing i k with
  | nil => simp [tokenLoop] at h
  | cons n ns ih =>
    simp only [tokenLoop] at h
    split at h
    · obtain ⟨n', h1, h2⟩ := ih h
      exact ⟨n', by simp [h1], h2⟩
    · simp only [List.mem_cons] at h
      rcases h with rfl | h
      · refine ⟨n, by simp, rfl, rfl, rfl, rfl, rfl, ?_, rfl, rfl⟩
        intro hid
        change n.id ≠ bosEosID at hid
        simp [mkToken, hid]
      · obtain ⟨n', h1, h2⟩ := ih h
        exact ⟨n', by simp [h1], h2⟩

theorem tokenLoop_index {t : Tokenizer} {ns : List Node} : ∀ {i k j : Nat} {tok : Token},
    (tokenLoop t i k ns)[j]? = some tok → tok.index = k + j := by
  induction ns with
  | nil => intro i k j tok h; simp [tokenLoop] at h
  | cons n ns ih =>
    intro i k j tok h
    simp only [tokenLoop] at h
    split at h
    · exact ih h
    · cases j with
      | zero =>
        simp only [List.getElem?_cons_zero, Option.some.injEq] at h
        subst h; rfl
      | succ j =>
        simp only [List.getElem?_cons_succ] at h
        rw [ih h]; omega

/-- Nodes an unknown word is cut into. -/
theorem explode_mem {p n : Node} {l : List (Nat × Nat)} : ∀ {i : Nat}, n ∈ explode p i l →
    n.cls = .dummy ∧ n.id = p.id ∧ p.position ≤ n.position ∧ p.start ≤ n.start := by
  induction l with
  | nil => intro i h; simp [explode] at h
  | cons x l ih =>
    intro i h
    simp only [explode, List.mem_cons] at h
    rcases h with rfl | h
    · exact ⟨rfl, rfl, by simp, by simp⟩
    · exact ih h

/-- Where every inner token comes from; no condition on the text. -/
theorem analyze_weak {t : Tokenizer} (wf : WellFormed t.dict t.userDict) {ideo : Nat → Bool} {inp : Bytes} {mode : Int}
    {toks : List Token} (ha : analyze t ideo inp mode = some toks) {tok : Token} (ht : tok ∈ toks)
    (hid : tok.id ≠ -1 ∨ tok.cls ≠ .dummy) :
    ∃ k pos rest w, At inp k pos rest ∧ WeakCandidate t.dict t.userDict rest w ∧
      ((tok.cls = w.cls ∧ tok.id = w.id ∧ tok.surface = w.surface ∧ tok.position = pos ∧ tok.start = k ∧
        tok.stop = k + runeCount w.surface ∧ (mode = modeExtended → w.cls ≠ .unknown)) ∨
       (mode = modeExtended ∧ w.cls = .unknown ∧ tok.cls = .dummy ∧ tok.id = w.id ∧ pos ≤ tok.position ∧ k ≤ tok.start)) := by
  obtain ⟨cols0, cols, L, hsol, hb, hf, hL, hs⟩ := solve_weak wf ideo inp (latticeMode mode)
  unfold analyze at ha
  rw [hs] at ha
  simp only [Option.map_some, Option.some.injEq] at ha
  rw [← ha, tokenLoop_skel, emits_skel] at ht
  obtain ⟨n, hn, h1, h2, h3, h4, h5, h6, _, _⟩ := tokenLoop_mem ht
  simp only [List.mem_flatMap] at hn
  obtain ⟨p, hp, hn⟩ := hn
  have hp' : p = eosNode inp ∨ p = bosNode ∨ ∃ k pos rest w, At inp k pos rest ∧ WeakCandidate t.dict t.userDict rest w ∧
      p = mkNode t.dict w.cls w.id pos k w.surface := by
    rcases prevChain_eos wf hsol hL with ⟨e, rfl, hske, hemp⟩ | ⟨e, j', L', rfl, hske, hL'⟩
    · left; simpa [hske] using hp
    · obtain ⟨pre, mid, g1, g2, _, g4⟩ := prevChain_weak wf hsol hL' (Nat.le_refl _)
      simp only [List.reverse_cons, List.map_append, List.map_cons, List.map_nil, g1, hske, List.mem_append, List.mem_singleton] at hp
      rcases hp with (hp | hp) | hp
      · right; left
        rcases g2 with rfl | rfl
        · simp at hp
        · simpa using hp
      · right; right; exact g4 p hp
      · left; exact hp
  rcases hp' with rfl | rfl | ⟨k, pos, rest, w, hat, hw, rfl⟩
  · rw [emitFwd_eos] at hn
    simp only [List.mem_singleton] at hn
    subst hn
    rcases hid with hid | hid
    · exact absurd h1 hid
    · exact absurd h2 hid
  · rw [emitFwd_bos] at hn
    simp only [List.mem_singleton] at hn
    subst hn
    rcases hid with hid | hid
    · exact absurd h1 hid
    · exact absurd h2 hid
  · refine ⟨k, pos, rest, w, hat, hw, ?_⟩
    unfold emitFwd at hn
    split at hn
    · rename_i hc
      left
      simp only [List.mem_singleton] at hn
      subst hn
      have hge := (weak_ok wf hw).id
      have hid' : tok.id ≠ -1 := by rw [h1]; change w.id ≠ -1; omega
      refine ⟨h2, h1, h6 hid', h3, h4, h5, ?_⟩
      intro hm hcl
      rcases hc with hc | hc
      · apply hc; rw [hm]; rfl
      · exact hc hcl
    · rename_i hc
      right
      rw [not_or, Decidable.not_not, Decidable.not_not] at hc
      obtain ⟨hc1, hc2⟩ := hc
      obtain ⟨e1, e2, e3, e4⟩ := explode_mem hn
      refine ⟨?_, hc2, by rw [h2, e1], by rw [h1, e2]; rfl, by rw [h3]; exact e3, by rw [h4]; exact e4⟩
      unfold latticeMode at hc1
      split at hc1
      · cases hc1
      · split at hc1
        · cases hc1
        · split at hc1
          · assumption
          · cases hc1

end Kagome
