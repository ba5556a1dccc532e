import Verif.Spec.Fewer
import Verif.Props.Choice
import Verif.Props.Renumber

/-! C71: words that are not in the result do not matter. -/

namespace Kagome

open Spec

variable {t t' : Tokenizer} {ideo : Nat → Bool} {inp : Bytes} {mode : Int} {toks toks' : List Token} {keep keepUser : Nat → Bool}

/-- Whether the entry of a word is left. -/
def wordKept (keep keepUser : Nat → Bool) (w : Word) : Bool :=
  match w.cls, w.id with
  | .known, .ofNat n => keep n
  | .user, .ofNat n => keepUser n
  | _, _ => true

theorem idxOf_filter {α : Type} [DecidableEq α] {p : α → Bool} {a b : α} (ha : p a = true) (hb : p b = true) :
    ∀ l : List α, (l.filter p).idxOf a < (l.filter p).idxOf b ↔ l.idxOf a < l.idxOf b := by
  intro l
  induction l with
  | nil => simp
  | cons x l ih =>
    by_cases hx : p x = true
    · rw [List.filter_cons_of_pos hx, List.idxOf_cons, List.idxOf_cons, List.idxOf_cons, List.idxOf_cons]
      by_cases h1 : x = a
      · subst h1
        by_cases h2 : x = b
        · subst h2; simp
        · have : (x == b) = false := by simpa using h2
          simp [this]
      · have h1 : (x == a) = false := by simpa using h1
        by_cases h2 : x = b
        · subst h2; simp
        · have h2 : (x == b) = false := by simpa using h2
          simp [h1, h2, ih]
    · rw [List.filter_cons_of_neg hx, List.idxOf_cons, List.idxOf_cons, ih]
      have h1 : (x == a) = false := by
        simp only [beq_eq_false_iff_ne]; rintro rfl; exact hx ha
      have h2 : (x == b) = false := by
        simp only [beq_eq_false_iff_ne]; rintro rfl; exact hx hb
      simp [h1, h2]

theorem firstChars_same (h : Fewer t t' inp keep keepUser) (s : Bytes) : unknownLength t'.dict s = unknownLength t.dict s := by
  unfold unknownLength
  rw [h.group, h.category]

theorem unknownOffers_same (h : Fewer t t' inp keep keepUser) (s : Bytes) (id : Int) : unknownOffers t'.dict s id = unknownOffers t.dict s id := by
  unfold unknownOffers
  rw [firstChars_same h]

theorem unknownOffers_cls {d : Dict} {s : Bytes} {id : Int} {w : Word} (h : w ∈ unknownOffers d s id) : w.cls = .unknown := by
  unfold unknownOffers at h
  rcases List.mem_append.mp h with h | h
  · split at h
    · simp only [List.mem_singleton] at h; rw [h]
    · simp at h
  · simp only [List.mem_singleton] at h; rw [h]

/-- What is offered in `t'` is what is left of the offers of `t`, in the same order. -/
theorem offers_filter (h : Fewer t t' inp keep keepUser) {s : Bytes} (hs : s ∈ tails inp) :
    offers t'.dict t'.userDict s = (offers t.dict t.userDict s).filter (wordKept keep keepUser) := by
  unfold offers
  by_cases hu : userEntries t.userDict s = []
  · have hu' : userEntries t'.userDict s = [] := by rw [h.user s hs, hu]; rfl
    rw [if_neg (fun k : userEntries t'.userDict s ≠ [] => k hu'), if_neg (fun k : userEntries t.userDict s ≠ [] => k hu), List.filter_append]
    have hcond : (t'.dict.prefixSearch s = [] ∨ t'.dict.invokeList[t'.dict.category (firstChar s)]? = some true) ↔
        (t.dict.prefixSearch s = [] ∨ t.dict.invokeList[t.dict.category (firstChar s)]? = some true) := by
      rw [h.invoke, h.category]
      constructor
      · rintro (k | k)
        · by_cases hk : t.dict.prefixSearch s = []
          · exact .inl hk
          · exact .inr ((h.known_left s hs hu hk).resolve_left (fun x => x k))
        · exact .inr k
      · rintro (k | k)
        · left; rw [h.known s hs, k]; rfl
        · exact .inr k
    congr 1
    · rw [h.known s hs, List.filter_map]
      rfl
    · simp only [hcond]
      split
      · rw [List.filter_eq_self.mpr]
        · rw [h.unk, h.category]
          simp only [unknownOffers_same h]
        · intro w hw
          obtain ⟨x, _, hx⟩ := List.mem_flatMap.mp hw
          have := unknownOffers_cls hx
          unfold wordKept
          rw [this]
      · rfl
  · have hu' := h.user_left s hs hu
    rw [if_pos hu, if_pos hu', h.user s hs, List.filter_map]
    rfl

theorem text_of_analysis {d : Dict} {u : Option UserDict} {r : Bytes} {l : List Word} (hl : Analysis d u r l) : textOf l = r := by
  induction hl with
  | nil => rfl
  | cons w r l _ _ ih => simp only [textOf, List.map_cons, List.flatten_cons] at ih ⊢; rw [ih]

/-- The place where a word of an analysis stands is a place of the text. -/
theorem analysis_place {d : Dict} {u : Option UserDict} (wf : WellFormed d u) {k pos : Nat} {rest : Bytes} (hat : At inp k pos rest) {ws : List Word}
    (ha : Analysis d u rest ws) : ∀ a w tail, ws = a ++ w :: tail →
      (w.surface ++ textOf tail) ∈ tails inp ∧ Candidate d u (w.surface ++ textOf tail) w := by
  induction ha generalizing k pos with
  | nil => intro a w tail e; simp at e
  | cons w0 rest ws hc ha ih =>
    intro a w tail e
    have hok := cand_ok wf hc
    cases a with
    | nil =>
      simp only [List.nil_append, List.cons.injEq] at e
      obtain ⟨rfl, rfl⟩ := e
      rw [text_of_analysis ha]
      refine ⟨at_tails hat ?_, hc⟩
      intro e
      have h1 := hok.cnt
      have : w0.surface = [] := (List.append_eq_nil_iff.mp e).1
      rw [this] at h1
      exact absurd h1 (by decide)
    | cons x a =>
      simp only [List.cons_append, List.cons.injEq] at e
      have hat' := at_step hat hok
      rw [List.drop_left] at hat'
      exact ih hat' a w tail e.2

theorem at_start (inp : Bytes) : At inp 0 0 inp := ⟨rfl, by simp, rfl, rfl, Nat.zero_le _⟩

theorem cand_ne {d : Dict} {u : Option UserDict} (wf : WellFormed d u) {s : Bytes} {w : Word} (h : Candidate d u s w) : s ≠ [] := by
  rintro rfl
  have h1 := (cand_ok wf h).cnt
  have h2 := (cand_ok wf h).app
  have : w.surface = [] := (List.append_eq_nil_iff.mp h2.symm).1
  rw [this] at h1
  exact absurd h1 (by decide)

/-- A word of `t'` is a word of `t` that is left. -/
theorem candidate_iff (h : Fewer t t' inp keep keepUser) {s : Bytes} (hs : s ∈ tails inp) (hne : s ≠ []) (w : Word) :
    Candidate t'.dict t'.userDict s w ↔ Candidate t.dict t.userDict s w ∧ wordKept keep keepUser w = true := by
  rw [← C58_offers hne, ← C58_offers hne, offers_filter h hs, List.mem_filter]

theorem analysis_down (h : Fewer t t' inp keep keepUser) (wf : WellFormed t.dict t.userDict) {k pos : Nat} {rest : Bytes} (hat : At inp k pos rest)
    {ws : List Word} (ha : Analysis t.dict t.userDict rest ws) (hk : ∀ w ∈ ws, wordKept keep keepUser w = true) :
    Analysis t'.dict t'.userDict rest ws := by
  induction ha generalizing k pos with
  | nil => exact .nil
  | cons w rest ws hc ha ih =>
    have hne := cand_ne wf hc
    refine .cons w rest ws ((candidate_iff h (at_tails hat hne) hne w).mpr ⟨hc, hk w (by simp)⟩) ?_
    have hat' := at_step hat (cand_ok wf hc)
    rw [List.drop_left] at hat'
    exact ih hat' (fun w hw => hk w (by simp [hw]))

theorem analysis_up (h : Fewer t t' inp keep keepUser) (wf' : WellFormed t'.dict t'.userDict) {k pos : Nat} {rest : Bytes} (hat : At inp k pos rest)
    {ws : List Word} (ha : Analysis t'.dict t'.userDict rest ws) :
    Analysis t.dict t.userDict rest ws ∧ ∀ w ∈ ws, wordKept keep keepUser w = true := by
  induction ha generalizing k pos with
  | nil => exact ⟨.nil, by simp⟩
  | cons w rest ws hc ha ih =>
    have hne := cand_ne wf' hc
    obtain ⟨h1, h2⟩ := (candidate_iff h (at_tails hat hne) hne w).mp hc
    have hat' := at_step hat (cand_ok wf' hc)
    rw [List.drop_left] at hat'
    obtain ⟨h3, h4⟩ := ih hat'
    refine ⟨.cons w rest ws h1 h3, ?_⟩
    intro w' hw'
    rcases List.mem_cons.mp hw' with rfl | hw'
    · exact h2
    · exact h4 w' hw'

theorem unknown_morph {d d' : Dict} (h : d'.unk = d.unk) {w : Word} (hw : w.cls = .unknown) : morphOfWord d' w = morphOfWord d w := by
  obtain ⟨c, i, s⟩ := w
  subst hw
  cases i with
  | ofNat n =>
    show (d'.unk.morphs[n]?).getD Morph.zero = (d.unk.morphs[n]?).getD Morph.zero
    rw [h]
  | negSucc n => rfl

/-- A word in `t'` connects as in `t` and does not cost less. -/
structure Dearer (d d' : Dict) (w : Word) : Prop where
  left : (morphOfWord d' w).left = (morphOfWord d w).left
  right : (morphOfWord d' w).right = (morphOfWord d w).right
  weight : (morphOfWord d w).weight.toInt ≤ (morphOfWord d' w).weight.toInt

theorem candidate_dearer (h : Fewer t t' inp keep keepUser) (wf : WellFormed t.dict t.userDict) {s : Bytes} (hs : s ∈ tails inp) {w : Word}
    (hc : Candidate t'.dict t'.userDict s w) : Dearer t.dict t'.dict w := by
  cases hc with
  | user id l hh => exact ⟨rfl, rfl, Int.le_refl _⟩
  | unknown x w _ _ _ _ _ =>
    have := unknown_morph h.unk (w := ⟨.unknown, t'.dict.unk.index (t'.dict.category (firstChar s)) + x, w⟩) rfl
    exact ⟨by rw [this], by rw [this], by rw [this]; exact Int.le_refl _⟩
  | known id l hu hh =>
    have hh0 : (id, l) ∈ t.dict.prefixSearch s := by
      rw [h.known s hs] at hh
      exact (List.mem_filter.mp hh).1
    have hlt := (wf.known_hit s id l hh0).2.2.2
    obtain ⟨m', e, h1, h2, h3⟩ := h.morph s hs (id, l) hh _ (List.getElem?_eq_getElem hlt)
    have e1 : morphOfWord t.dict ⟨.known, id, s.take l⟩ = t.dict.morphs[id] := by
      show (t.dict.morphs[id]?).getD Morph.zero = _
      rw [List.getElem?_eq_getElem hlt]; rfl
    have e2 : morphOfWord t'.dict ⟨.known, id, s.take l⟩ = m' := by
      show (t'.dict.morphs[id]?).getD Morph.zero = _
      rw [e]; rfl
    exact ⟨by rw [e1, e2, h1], by rw [e1, e2, h2], by rw [e1, e2]; exact h3⟩

theorem chain_dearer {d d' : Dict} (hc : d'.connection = d.connection) (m : LMode) : ∀ l : List Word, (∀ w ∈ l, Dearer d d' w) →
    chainCost d ideo m l ≤ chainCost d' ideo m l := by
  intro l
  induction l with
  | nil => intro _; exact Int.le_refl _
  | cons a l ih =>
    intro h
    cases l with
    | nil => exact Int.le_refl _
    | cons b l =>
      have h1 := ih (fun w hw => h w (by simp [hw]))
      have ha := h a (by simp)
      have hb := h b (by simp)
      have h2 : connect d' a b = connect d a b := by
        unfold connect
        rw [hc, ha.right, hb.left]
      have h3 := hb.weight
      simp only [chainCost, stepCost, h2]
      omega

theorem chain_same {d d' : Dict} (hc : d'.connection = d.connection) (m : LMode) : ∀ l : List Word, (∀ w ∈ l, morphOfWord d' w = morphOfWord d w) →
    chainCost d' ideo m l = chainCost d ideo m l := by
  intro l
  induction l with
  | nil => intro _; rfl
  | cons a l ih =>
    intro h
    cases l with
    | nil => rfl
    | cons b l =>
      have h1 := ih (fun w hw => h w (by simp [hw]))
      simp only [chainCost, stepCost, connect, h1, hc, h a (by simp), h b (by simp)]

/-- What is chosen in `t` is chosen in `t'` if it is still there at the old cost. -/
theorem chosen_down (h : Fewer t t' inp keep keepUser) (wf : WellFormed t.dict t.userDict) (wf' : WellFormed t'.dict t'.userDict) {m : LMode} {ws : List Word}
    (hc : Chosen t.dict t.userDict ideo m inp ws) (hk : ∀ w ∈ ws, wordKept keep keepUser w = true)
    (hm : ∀ w ∈ ws, morphOfWord t'.dict w = morphOfWord t.dict w) : Chosen t'.dict t'.userDict ideo m inp ws := by
  obtain ⟨ha, hbest⟩ := hc
  refine ⟨analysis_down h wf (at_start inp) ha hk, ?_⟩
  intro ws' ha' hne
  obtain ⟨hup, hk'⟩ := analysis_up h wf' (at_start inp) ha'
  have hb : morphOfWord t'.dict boundary = morphOfWord t.dict boundary := rfl
  have e1 : cost t'.dict ideo m ws = cost t.dict ideo m ws := by
    unfold cost
    apply chain_same h.connection
    intro w hw
    simp only [List.cons_append, List.mem_cons, List.mem_append, List.not_mem_nil, or_false] at hw
    rcases hw with rfl | hw | rfl
    · exact hb
    · exact hm w hw
    · exact hb
  have e2 : cost t.dict ideo m ws' ≤ cost t'.dict ideo m ws' := by
    unfold cost
    apply chain_dearer h.connection
    intro w hw
    simp only [List.cons_append, List.mem_cons, List.mem_append, List.not_mem_nil, or_false] at hw
    rcases hw with rfl | hw | rfl
    · exact ⟨rfl, rfl, Int.le_refl _⟩
    · obtain ⟨a, tail, e⟩ := List.append_of_mem hw
      obtain ⟨h1, h2⟩ := analysis_place wf' (at_start inp) ha' a w tail e
      exact candidate_dearer h wf h1 h2
    · exact ⟨rfl, rfl, Int.le_refl _⟩
  rcases hbest ws' hup hne with h1 | ⟨h1, a, w, a', w', tail, p1, p2, p3⟩
  · left; omega
  · by_cases he : cost t'.dict ideo m ws = cost t'.dict ideo m ws'
    · right
      refine ⟨he, a, w, a', w', tail, p1, p2, ?_⟩
      rcases p3 with p3 | ⟨p3, p4⟩
      · exact .inl p3
      · right
        refine ⟨p3, ?_⟩
        have hplace := (analysis_place wf (at_start inp) ha a w tail p1).1
        rw [offers_filter h hplace, idxOf_filter (hk w (by rw [p1]; simp)) (hk' w' (by rw [p2]; simp))]
        exact p4
    · left; omega

theorem known_id {d : Dict} {u : Option UserDict} {s : Bytes} {w : Word} (h : Candidate d u s w) (hc : w.cls = .known ∨ w.cls = .user) :
    ∃ i : Nat, w.id = i := by
  cases h with
  | user id l => exact ⟨id, rfl⟩
  | known id l => exact ⟨id, rfl⟩
  | unknown => rcases hc with hc | hc <;> cases hc

theorem nodesFrom_same {d d' : Dict} : ∀ (ws : List Word) (k pos : Nat), (∀ w ∈ ws, morphOf d' w.cls w.id = morphOf d w.cls w.id) →
    nodesFrom d' k pos ws = nodesFrom d k pos ws := by
  intro ws
  induction ws with
  | nil => intros; rfl
  | cons w ws ih =>
    intro k pos h
    simp only [nodesFrom, mkNode, h w (by simp)]
    rw [ih _ _ (fun w hw => h w (by simp [hw]))]

theorem body_bare (t t' : Tokenizer) : ∀ (ns : List Node) (k : Nat), (body t' k ns).map bare = (body t k ns).map bare := by
  intro ns
  induction ns with
  | nil => intros; rfl
  | cons n ns ih =>
    intro k
    simp only [body, List.map_cons, ih]
    rfl

/-- If the same words are chosen the tokens are the same. -/
theorem tokens_of_chosen (ht : Tame t inp) (ht' : Tame t' inp) (ho : t'.omitBosEos = t.omitBosEos) {ws : List Word}
    (hc : Chosen t.dict t.userDict ideo (latticeMode mode) inp ws) (hc' : Chosen t'.dict t'.userDict ideo (latticeMode mode) inp ws)
    (hm : ∀ w ∈ ws, morphOf t'.dict w.cls w.id = morphOf t.dict w.cls w.id) :
    (analyze t' ideo inp mode).map (List.map bare) = (analyze t ideo inp mode).map (List.map bare) := by
  obtain ⟨w1, n1, _, c1, e1, a1, b1⟩ := analyze_tame ht ideo mode
  obtain ⟨w2, n2, _, c2, e2, a2, b2⟩ := analyze_tame ht' ideo mode
  have u1 := C58_unique c1 hc
  have u2 := C58_unique c2 hc'
  subst u1
  subst u2
  rw [nodesFrom_same _ 0 0 hm, ← e1] at e2
  subst e2
  obtain ⟨d, u, o⟩ := t
  obtain ⟨d', u', o'⟩ := t'
  simp only at ho
  subst ho
  cases o' with
  | true =>
    rw [a1, a2, Option.map_some, Option.map_some, body_bare]
  | false =>
    rw [b1, b2, Option.map_some, Option.map_some]
    simp only [List.cons_append, List.map_cons, List.map_append, body_bare ⟨d, u, false⟩ ⟨d', u', false⟩, List.map_nil]
    rfl

/-- C71: take words away from the dictionaries, or make some dearer: as long as those of the result of `Analyze` are still there at the old cost, and no
place is left without a word of its kind, the result is the same. -/
theorem C71_unused (ht : Tame t inp) (ht' : Tame t' inp) (h : Fewer t t' inp keep keepUser) (ha : analyze t ideo inp mode = some toks)
    (hs : StillThere t t' keep keepUser toks) :
    (analyze t' ideo inp mode).map (List.map bare) = some (toks.map bare) := by
  obtain ⟨ws, hc, hw⟩ := C58_chosen ht ha
  have hin : ∀ w ∈ ws, w.cls = .known ∨ w.cls = .user → ∃ tok ∈ toks, wordOfToken tok = w := by
    intro w hww hcls
    have hmem : w ∈ (inner toks).map wordOfToken := by
      rw [hw]
      split
      · refine List.mem_flatMap.mpr ⟨w, hww, ?_⟩
        unfold splitUnknown
        rw [if_neg (by rcases hcls with e | e <;> rw [e] <;> decide)]
        simp
      · exact hww
    obtain ⟨tok, h1, h2⟩ := List.mem_map.mp hmem
    exact ⟨tok, (List.mem_filter.mp h1).1, h2⟩
  have key : ∀ w ∈ ws, wordKept keep keepUser w = true ∧ morphOfWord t'.dict w = morphOfWord t.dict w ∧
      morphOf t'.dict w.cls w.id = morphOf t.dict w.cls w.id := by
    intro w hww
    obtain ⟨a, tail, e⟩ := List.append_of_mem hww
    have hcand := (analysis_place ht.wf (at_start inp) hc.1 a w tail e).2
    have hok := cand_ok ht.wf hcand
    cases hcls : w.cls with
    | dummy => exact absurd hcls hok.cls
    | unknown =>
      refine ⟨by unfold wordKept; rw [hcls], unknown_morph h.unk hcls, ?_⟩
      show goGet t'.dict.unk.morphs w.id = goGet t.dict.unk.morphs w.id
      rw [h.unk]
    | known =>
      obtain ⟨i, hi⟩ := known_id hcand (.inl hcls)
      obtain ⟨tok, m1, m2⟩ := hin w hww (.inl hcls)
      have c1 : tok.cls = .known := by rw [← hcls, ← m2]; rfl
      have c2 : tok.id = i := by rw [← hi, ← m2]; rfl
      obtain ⟨q1, q2⟩ := (hs tok m1 i c2).1 c1
      refine ⟨by unfold wordKept; rw [hcls, hi]; exact q1, ?_, ?_⟩
      · unfold morphOfWord; rw [hcls, hi]
        show (t'.dict.morphs[i]?).getD Morph.zero = (t.dict.morphs[i]?).getD Morph.zero
        rw [q2]
      · rw [hi]
        exact q2
    | user =>
      obtain ⟨i, hi⟩ := known_id hcand (.inr hcls)
      obtain ⟨tok, m1, m2⟩ := hin w hww (.inr hcls)
      have c1 : tok.cls = .user := by rw [← hcls, ← m2]; rfl
      have c2 : tok.id = i := by rw [← hi, ← m2]; rfl
      have q1 := (hs tok m1 i c2).2 c1
      refine ⟨by unfold wordKept; rw [hcls, hi]; exact q1, ?_, ?_⟩
      · unfold morphOfWord; rw [hcls, hi]
      · rfl
  have hc' := chosen_down h ht.wf ht'.wf hc (fun w hww => (key w hww).1) (fun w hww => (key w hww).2.1)
  rw [tokens_of_chosen ht ht' h.omitted hc hc' (fun w hww => (key w hww).2.2), ha]
  rfl

/-- C71: so after words have been added, the result contains one of them, or it is the old result (`t'` is the old tokenizer). -/
theorem C71_added (ht : Tame t inp) (ht' : Tame t' inp) (h : Fewer t t' inp keep keepUser) (hm : t'.dict.morphs <+: t.dict.morphs)
    (hk : ∀ i, i < t'.dict.morphs.length → keep i = true)
    (ha : analyze t ideo inp mode = some toks) (ha' : analyze t' ideo inp mode = some toks') :
    (∃ tok ∈ toks, ∃ i : Nat, tok.id = i ∧ ((tok.cls = .known ∧ t'.dict.morphs.length ≤ i) ∨ (tok.cls = .user ∧ keepUser i = false))) ∨
      toks.map bare = toks'.map bare := by
  by_cases hex : ∃ tok ∈ toks, ∃ i : Nat, tok.id = i ∧ ((tok.cls = .known ∧ t'.dict.morphs.length ≤ i) ∨ (tok.cls = .user ∧ keepUser i = false))
  · exact .inl hex
  · right
    have hs : StillThere t t' keep keepUser toks := by
      intro tok hin i hi
      constructor
      · intro hc
        have hlt : i < t'.dict.morphs.length := Nat.lt_of_not_le (fun hle => hex ⟨tok, hin, i, hi, .inl ⟨hc, hle⟩⟩)
        refine ⟨hk i hlt, ?_⟩
        obtain ⟨more, e⟩ := hm
        rw [← e, List.getElem?_append_left hlt]
      · intro hc
        cases hku : keepUser i with
        | true => rfl
        | false => exact absurd ⟨tok, hin, i, hi, .inr ⟨hc, hku⟩⟩ hex
    have := C71_unused ht ht' h ha hs
    rw [ha'] at this
    simp only [Option.map_some, Option.some.injEq] at this
    exact this.symm

namespace Toy

/-- The small dictionary without the word す. -/
def fewerDict : Dict := { dict with prefixSearch := fun s => (searchFrom 0 keys s).filter (fun h => decide (h.1 ≠ 0)) }
def tokFewer : Tokenizer := ⟨fewerDict, none, false⟩

theorem wellFormed_fewer : WellFormed fewerDict none where
  known_hit := fun s id l h => wellFormed.known_hit s id l (List.mem_filter.mp h).1
  user_hit := by intro ud h; cases h
  group_flag := wellFormed.group_flag
  invoke_flag := wellFormed.invoke_flag
  unk_entry := wellFormed.unk_entry
  conn := wellFormed.conn

def plums : Bytes := str "すもものうち"

/-- す can go: すもも begins at the same place. -/
theorem fewer_plums : Fewer tok tokFewer plums (fun i => decide (i ≠ 0)) (fun _ => true) where
  known := fun _ _ => rfl
  user := fun _ _ => rfl
  morph := fun _ _ _ _ m hm => ⟨m, hm, rfl, rfl, Int.le_refl _⟩
  connection := rfl
  category := rfl
  invoke := rfl
  group := rfl
  unk := rfl
  omitted := rfl
  user_left := fun _ _ h => h
  known_left := by
    have h : ∀ s ∈ tails plums, dict.prefixSearch s ≠ [] → fewerDict.prefixSearch s ≠ [] := by decide +kernel
    exact fun s hs _ hk => .inl (h s hs hk)

/-- A dictionary over the letters a and b: a costs 100, ab costs 5000, and with `extra` b costs 10000; an unknown character costs 100. -/
def letters (extra : Bool) : Dict where
  morphs := [⟨0, 0, 100⟩, ⟨0, 0, 5000⟩] ++ (if extra then [⟨0, 0, 10000⟩] else [])
  poss := [[0], [0]] ++ (if extra then [[0]] else [])
  nameList := [str "x"]
  contentsMeta := fun _ => none
  contents := none
  connection := fun x y => if 0 ≤ x ∧ x ≤ 0 ∧ 0 ≤ y ∧ y ≤ 0 then some 0 else none
  prefixSearch := searchFrom 0 (["a", "ab"] ++ (if extra then ["b"] else []))
  category := fun _ => 0
  invokeList := [false]
  groupList := [false]
  unk := { morphs := [⟨0, 0, 100⟩], index := fun _ => 0, indexDup := fun _ => 0, contentsMeta := fun _ => none, contents := [[str "y"]] }

theorem wellFormed_letters (extra : Bool) : WellFormed (letters extra) none where
  known_hit := by
    intro s id l h
    obtain ⟨a, b, c, _, e⟩ := searchFrom_hit (by cases extra <;> decide) h
    refine ⟨a, b, c, ?_⟩
    cases extra <;> simpa [letters] using e
  user_hit := by intro ud h; cases h
  group_flag := fun _ => Nat.zero_lt_one
  invoke_flag := fun _ => Nat.zero_lt_one
  unk_entry := fun _ => ⟨Int.le_refl _, Int.le_refl _, (by decide : (0 : Int) + 0 < 1)⟩
  conn := by
    have h : ∀ e : Bool, ∀ a ∈ Morph.zero :: (letters e).morphs ++ (letters e).unk.morphs, ∀ b ∈ Morph.zero :: (letters e).morphs ++ (letters e).unk.morphs,
        ((letters e).connection a.right.toInt b.left.toInt).isSome = true := by decide
    exact fun a b ha hb => h extra a ha b hb

end Toy

example : Tame Toy.tok Toy.plums ∧ Tame Toy.tokFewer Toy.plums ∧
    ((analyze Toy.tok Toy.ideo Toy.plums modeNormal).map (List.map (·.surface)) =
      some [str "BOS", str "すもも", str "の", str "うち", str "EOS"]) ∧
    ((analyze Toy.tok Toy.ideo Toy.plums modeNormal).map (fun l => l.all (fun tok => tok.cls != .known || tok.id != 0)) = some true) :=
  ⟨⟨Toy.wellFormed_none, Toy.replacementOk _, fits_short _ (by decide +kernel)⟩,
   ⟨Toy.wellFormed_fewer, Toy.replacementOk _, fits_short _ (by decide +kernel)⟩, by decide +kernel, by decide +kernel⟩

/-- C71: the condition on the kinds of words is needed. The new word b is in no result, and still it changes the result: where a word of the dictionary
begins, unknown words are not looked at any more, so the cheap analysis a, b is lost and ab wins. -/
theorem C71_suppresses :
    ∃ (t t' : Tokenizer) (inp : Bytes), Tame t inp ∧ Tame t' inp ∧ t'.dict.morphs <+: t.dict.morphs ∧
      (∀ s ∈ tails inp, t'.dict.prefixSearch s = (t.dict.prefixSearch s).filter (fun h => decide (h.1 < t'.dict.morphs.length))) ∧
      t'.userDict = none ∧ t.userDict = none ∧ t'.dict.connection = t.dict.connection ∧ t'.dict.category = t.dict.category ∧
      t'.dict.invokeList = t.dict.invokeList ∧ t'.dict.groupList = t.dict.groupList ∧ t'.dict.unk = t.dict.unk ∧
      (analyze t' Toy.ideo inp modeNormal).map (List.map (fun tok => (tok.cls, tok.id, tok.surface))) =
        some [(.dummy, -1, str "BOS"), (.known, 0, str "a"), (.unknown, 0, str "b"), (.dummy, -1, str "EOS")] ∧
      (analyze t Toy.ideo inp modeNormal).map (List.map (fun tok => (tok.cls, tok.id, tok.surface))) =
        some [(.dummy, -1, str "BOS"), (.known, 1, str "ab"), (.dummy, -1, str "EOS")] :=
  ⟨⟨Toy.letters true, none, false⟩, ⟨Toy.letters false, none, false⟩, str "ab",
    ⟨Toy.wellFormed_letters true, .inr (by decide +kernel), fits_short _ (by decide +kernel)⟩,
    ⟨Toy.wellFormed_letters false, .inr (by decide +kernel), fits_short _ (by decide +kernel)⟩,
    ⟨[⟨0, 0, 10000⟩], rfl⟩, by decide +kernel, rfl, rfl, rfl, rfl, rfl, rfl, rfl, by decide +kernel, by decide +kernel⟩

end Kagome
