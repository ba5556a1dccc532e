import Verif.Spec.Renumber
import Verif.Proof.Renumber
import Verif.Props.Modes

/-! C56: entries of the dictionaries that do not occur in the text do not matter, nor do the numbers of the entries. -/

namespace Kagome

open Spec

variable {t t' : Tokenizer} {ideo : Nat → Bool} {inp : Bytes} {mode : Int} {toks : List Token} {f g : Nat → Nat}

/-- C56: with dictionaries that answer alike about the text the tokens are the same but for the numbers of the entries. -/
theorem C56_renumber (h : SameAnswers t t' inp f g) (ideo : Nat → Bool) (mode : Int) :
    analyze t' ideo inp mode = (analyze t ideo inp mode).map (List.map (renumberToken f g t')) := by
  unfold analyze
  rw [solve_re h]
  cases solve t ideo inp (latticeMode mode) with
  | none => rfl
  | some r =>
    simp only [Option.map_some]
    rw [← List.map_reverse, tokenLoop_re h]

/-- C56: and the result of `Wakati` is the same. -/
theorem C56_wakati (h : SameAnswers t t' inp f g) (ideo : Nat → Bool) : wakati t' ideo inp = wakati t ideo inp := by
  unfold wakati
  rw [C56_renumber h]
  cases analyze t ideo inp modeNormal with
  | none => rfl
  | some toks =>
    simp only [Option.map_some, Option.some.injEq]
    induction toks with
    | nil => rfl
    | cons x toks ih =>
      simp only [List.map_cons, wakatiLoop, ih]
      rfl

theorem withPos_drop (rs : List (Nat × Nat)) (i k : Nat) (r : Nat × Nat) (h : rs[k]? = some r) :
    (i + wsum (rs.take k), r.1) ∈ withPos i rs := by
  induction rs generalizing i k with
  | nil => cases h
  | cons x rs ih =>
    obtain ⟨c, w⟩ := x
    cases k with
    | zero =>
      simp only [List.getElem?_cons_zero, Option.some.injEq] at h
      subst h
      simp [withPos, wsum]
    | succ k =>
      have := ih (i + w) k (by simpa using h)
      simp only [withPos, List.mem_cons]
      right
      have e : i + wsum (((c, w) :: rs).take (k + 1)) = i + w + wsum (rs.take k) := by
        simp only [List.take_succ_cons, wsum, List.map_cons, List.sum_cons]
        omega
      rw [e]
      exact this

theorem at_tails {k pos : Nat} {rest : Bytes} (h : At inp k pos rest) (hr : rest ≠ []) : rest ∈ tails inp := by
  have h1 := h.rns
  rw [runes_cons hr] at h1
  have h2 : (runes inp)[k]? = some (decodeRune rest) := by
    have := congrArg (·[0]?) h1
    simpa using this
  have h3 := withPos_drop (runes inp) 0 k _ h2
  rw [h.pre] at h3
  unfold tails rangeString
  rw [List.mem_map]
  refine ⟨_, h3, ?_⟩
  rw [Nat.zero_add]
  exact h.drop

/-- Where the entry of a token comes from. -/
theorem token_entry (wf : WellFormed t.dict t.userDict) (ha : analyze t ideo inp mode = some toks) {tok : Token} (ht : tok ∈ toks) :
    tok.dict = some t.dict ∧ tok.udict = t.userDict ∧
    (tok.cls = .known → ∃ s ∈ tails inp, ∃ h ∈ t.dict.prefixSearch s, tok.id = h.1) ∧
    (tok.cls = .user → ∃ s ∈ tails inp, ∃ h ∈ userEntries t.userDict s, tok.id = h.1) := by
  have hd : tok.dict = some t.dict ∧ tok.udict = t.userDict := by
    unfold analyze at ha
    simp only [Option.map_eq_some_iff] at ha
    obtain ⟨r, _, rfl⟩ := ha
    obtain ⟨n, _, h⟩ := tokenLoop_mem ht
    exact ⟨h.2.2.2.2.2.2.1, h.2.2.2.2.2.2.2⟩
  refine ⟨hd.1, hd.2, ?_, ?_⟩
  · intro hk
    obtain ⟨k, pos, rest, w, hat, hw, hc⟩ := analyze_weak wf ha ht (Or.inr (by rw [hk]; decide))
    have hok := weak_ok wf hw
    have hne : rest ≠ [] := by
      rintro rfl
      have h1 := hok.cnt
      have h2 := hok.le
      have h3 : (runes ([] : Bytes)).length = 0 := rfl
      omega
    rcases hc with ⟨h1, h2, _⟩ | ⟨_, _, h1, _⟩
    · rcases hw with hw | ⟨_, _, _, x, _, rfl⟩
      · cases hw with
        | user id l hh => rw [hk] at h1; cases h1
        | known id l hu hh => exact ⟨rest, at_tails hat hne, (id, l), hh, h2⟩
        | unknown x w => rw [hk] at h1; cases h1
      · rw [hk] at h1; cases h1
    · rw [hk] at h1; cases h1
  · intro hk
    obtain ⟨k, pos, rest, w, hat, hw, hc⟩ := analyze_weak wf ha ht (Or.inr (by rw [hk]; decide))
    have hok := weak_ok wf hw
    have hne : rest ≠ [] := by
      rintro rfl
      have h1 := hok.cnt
      have h2 := hok.le
      have h3 : (runes ([] : Bytes)).length = 0 := rfl
      omega
    rcases hc with ⟨h1, h2, _⟩ | ⟨_, _, h1, _⟩
    · rcases hw with hw | ⟨_, _, _, x, _, rfl⟩
      · cases hw with
        | user id l hh => exact ⟨rest, at_tails hat hne, (id, l), hh, h2⟩
        | known id l hu hh => rw [hk] at h1; cases h1
        | unknown x w => rw [hk] at h1; cases h1
      · rw [hk] at h1; cases h1
    · rw [hk] at h1; cases h1

/-- C56: if the entries found have the same features, everything a token tells is the same but for its number. -/
theorem C56_data (wf : WellFormed t.dict t.userDict) (h : SameAnswers t t' inp f g) (he : SameEntries t t' inp f g)
    (ha : analyze t ideo inp mode = some toks) {tok : Token} (ht : tok ∈ toks) :
    features (renumberToken f g t' tok) = features tok ∧ tokenPOS (renumberToken f g t' tok) = tokenPOS tok ∧
    (∀ i, featureAt (renumberToken f g t' tok) i = featureAt tok i) ∧ (∀ key, pickup (renumberToken f g t' tok) key = pickup tok key) ∧
    newTokenData (renumberToken f g t' tok) = (newTokenData tok).map (fun x => { x with id := newId f g tok.cls tok.id }) := by
  obtain ⟨hd, hu, hk, hus⟩ := token_entry wf ha ht
  have key : features (renumberToken f g t' tok) = features tok ∧ tokenPOS (renumberToken f g t' tok) = tokenPOS tok ∧
      (∀ i, featureAt (renumberToken f g t' tok) i = featureAt tok i) ∧ (∀ key, pickup (renumberToken f g t' tok) key = pickup tok key) := by
    have hpn : ∀ ids, posNames t'.dict ids = posNames t.dict ids := by
      intro ids
      induction ids with
      | nil => rfl
      | cons i ids ih => simp only [posNames, he.names, ih]
    obtain ⟨ix, id, cls, po, st, sp, su, dd, uu⟩ := tok
    simp only at hd hu hk hus
    subst hd
    subst hu
    cases cls with
    | dummy => exact ⟨rfl, rfl, fun _ => rfl, fun _ => rfl⟩
    | unknown =>
      have n1 : newId f g .unknown id = id := by cases id <;> rfl
      have e1 : features (renumberToken f g t' ⟨ix, id, .unknown, po, st, sp, su, some t.dict, t.userDict⟩) =
          features ⟨ix, id, .unknown, po, st, sp, su, some t.dict, t.userDict⟩ := by
        simp only [features, renumberToken, n1, h.unk]
      have e2 : tokenPOS (renumberToken f g t' ⟨ix, id, .unknown, po, st, sp, su, some t.dict, t.userDict⟩) =
          tokenPOS ⟨ix, id, .unknown, po, st, sp, su, some t.dict, t.userDict⟩ := by
        have hr : unkPosRange t'.dict = unkPosRange t.dict := by unfold unkPosRange; rw [h.unk]
        simp only [tokenPOS, renumberToken, n1, hr, h.unk]
      have e3 : ∀ i, featureAt (renumberToken f g t' ⟨ix, id, .unknown, po, st, sp, su, some t.dict, t.userDict⟩) i =
          featureAt ⟨ix, id, .unknown, po, st, sp, su, some t.dict, t.userDict⟩ i := by
        intro i
        simp only [featureAt, renumberToken, n1, h.unk]
      refine ⟨e1, e2, e3, ?_⟩
      intro key
      have e4 := e3
      simp only [pickup, renumberToken, n1, h.unk] at e4 ⊢
      cases t.dict.unk.contentsMeta key.name with
      | none => rfl
      | some i => exact e4 _
    | known =>
      obtain ⟨s, hs, x, hx, rfl⟩ := hk rfl
      have p1 := he.poss s hs x hx
      have p2 := he.contents s hs x hx
      have p3 := he.hasContents
      have n1 : newId f g .known (x.1 : Int) = (f x.1 : Int) := rfl
      have e1 : features (renumberToken f g t' ⟨ix, x.1, .known, po, st, sp, su, some t.dict, t.userDict⟩) =
          features ⟨ix, x.1, .known, po, st, sp, su, some t.dict, t.userDict⟩ := by
        simp only [features, renumberToken, n1, goGet_nat, p1, hpn]
        cases hc : t.dict.contents with
        | none =>
          cases hc' : t'.dict.contents with
          | none => rfl
          | some c' => rw [hc, hc'] at p3; cases p3
        | some c =>
          cases hc' : t'.dict.contents with
          | none => rw [hc, hc'] at p3; cases p3
          | some c' =>
            rw [hc, hc'] at p2
            simp only [Option.getD_some] at p2
            simp only [p2]
      have e2 : tokenPOS (renumberToken f g t' ⟨ix, x.1, .known, po, st, sp, su, some t.dict, t.userDict⟩) =
          tokenPOS ⟨ix, x.1, .known, po, st, sp, su, some t.dict, t.userDict⟩ := by
        simp only [tokenPOS, renumberToken, n1, goGet_nat, p1, hpn]
      have hlen : ((t'.dict.contents.getD []).length : Int) ≤ (f x.1 : Int) ↔ ((t.dict.contents.getD []).length : Int) ≤ (x.1 : Int) := by
        have q := p2
        rcases Nat.lt_or_ge x.1 (t.dict.contents.getD []).length with hl | hl
        · rw [List.getElem?_eq_getElem hl] at q
          have := (List.getElem?_eq_some_iff.mp q).1
          omega
        · rw [List.getElem?_eq_none hl] at q
          have := List.getElem?_eq_none_iff.mp q
          omega
      have e3 : ∀ i, featureAt (renumberToken f g t' ⟨ix, x.1, .known, po, st, sp, su, some t.dict, t.userDict⟩) i =
          featureAt ⟨ix, x.1, .known, po, st, sp, su, some t.dict, t.userDict⟩ i := by
        intro i
        simp only [featureAt, renumberToken, n1, goGet_nat, p1, p2, he.names, hlen]
      refine ⟨e1, e2, e3, ?_⟩
      intro key
      have e4 := e3
      simp only [pickup, renumberToken, n1, he.keys] at e4 ⊢
      cases t.dict.contentsMeta key.name with
      | none => rfl
      | some i => exact e4 _
    | user =>
      obtain ⟨s, hs, x, hx, rfl⟩ := hus rfl
      have n1 : newId f g .user (x.1 : Int) = (g x.1 : Int) := rfl
      cases hu : t.userDict with
      | none => rw [hu] at hx; cases hx
      | some u =>
        cases hu' : t'.userDict with
        | none =>
          have := h.user s hs
          rw [hu', hu] at this
          rw [hu] at hx
          simp only [userEntries] at this hx
          have := List.map_eq_nil_iff.mp this.symm
          rw [this] at hx
          cases hx
        | some u' =>
          have p1 := he.user s hs x hx u u' hu hu'
          have hlen : (u'.contents.length : Int) ≤ (g x.1 : Int) ↔ (u.contents.length : Int) ≤ (x.1 : Int) := by
            have q := p1
            rcases Nat.lt_or_ge x.1 u.contents.length with hl | hl
            · rw [List.getElem?_eq_getElem hl] at q
              have := (List.getElem?_eq_some_iff.mp q).1
              omega
            · rw [List.getElem?_eq_none hl] at q
              have := List.getElem?_eq_none_iff.mp q
              omega
          refine ⟨?_, ?_, ?_, fun _ => rfl⟩
          · simp only [features, renumberToken, n1, hu', goGet_nat, p1]
          · simp only [tokenPOS, renumberToken, n1, hu', goGet_nat, p1]
          · intro i
            simp only [featureAt, renumberToken, n1, hu', goGet_nat, p1, hlen]
  obtain ⟨k1, k2, k3, k4⟩ := key
  refine ⟨k1, k2, k3, k4, ?_⟩
  unfold newTokenData baseForm reading pronunciation
  rw [k1, k2, k4, k4, k4]
  cases tokenPOS tok <;> cases features tok <;> cases pickup tok .base <;> cases pickup tok .reading <;> cases pickup tok .pronunciation <;> rfl

/-- C56: a user dictionary none of whose entries occurs in the text (at a character) changes nothing. -/
theorem C56_no_user {d : Dict} {ud : UserDict} (o : Bool) (hno : ∀ s ∈ tails inp, ud.prefixSearch s = []) (ideo : Nat → Bool) (mode : Int) :
    analyze ⟨d, some ud, o⟩ ideo inp mode = (analyze ⟨d, none, o⟩ ideo inp mode).map (List.map (fun tok => { tok with udict := some ud })) := by
  have hid : ∀ c i, newId id id c i = i := by
    intro c i
    cases c <;> cases i <;> rfl
  have h : SameAnswers ⟨d, none, o⟩ ⟨d, some ud, o⟩ inp id id := by
    refine ⟨?_, ?_, fun _ _ _ _ => rfl, rfl, rfl, rfl, rfl, rfl, rfl⟩
    · intro s _
      simp
    · intro s hs
      simp [userEntries, hno s hs]
  rw [C56_renumber h]
  cases ha : analyze ⟨d, none, o⟩ ideo inp mode with
  | none => rfl
  | some toks =>
    simp only [Option.map_some, Option.some.injEq]
    apply List.map_congr_left
    intro tok ht
    unfold analyze at ha
    simp only [Option.map_eq_some_iff] at ha
    obtain ⟨r, _, rfl⟩ := ha
    obtain ⟨n, _, hh⟩ := tokenLoop_mem ht
    have hd := hh.2.2.2.2.2.2.1
    simp only at hd
    simp only [renumberToken, hid]
    rw [← hd]

/-- C56: and the data of the tokens is the same. -/
theorem C56_no_user_data {d : Dict} {ud : UserDict} (wf : WellFormed d none) (o : Bool) (hno : ∀ s ∈ tails inp, ud.prefixSearch s = [])
    (ha : analyze ⟨d, none, o⟩ ideo inp mode = some toks) :
    ∃ toks', analyze ⟨d, some ud, o⟩ ideo inp mode = some toks' ∧ toks'.map newTokenData = toks.map newTokenData := by
  refine ⟨_, by rw [C56_no_user o hno, ha]; rfl, ?_⟩
  rw [List.map_map]
  apply List.map_congr_left
  intro tok ht
  obtain ⟨hd, hu, _, hus⟩ := token_entry (t := ⟨d, none, o⟩) wf ha ht
  have hcls : tok.cls ≠ .user := by
    intro hc
    obtain ⟨s, _, x, hx, _⟩ := hus hc
    cases hx
  obtain ⟨ix, id, cls, po, st, sp, su, dd, uu⟩ := tok
  cases cls with
  | user => exact absurd rfl hcls
  | dummy => rfl
  | known => rfl
  | unknown => rfl

/-! ### Examples -/

/-- A dictionary with two more words in front, so that every entry has another number, and a user dictionary with another word in front. -/
def moreWords : Tokenizer :=
  ⟨{ Toy.dict with
      morphs := ⟨2, 2, 100⟩ :: ⟨2, 1, 200⟩ :: Toy.dict.morphs
      poss := [0] :: [1] :: Toy.dict.poss
      contents := some ([str "いぬ"] :: [str "ねこ"] :: (Toy.dict.contents.getD []))
      prefixSearch := Toy.searchFrom 0 ("いぬ" :: "ねこ" :: Toy.keys) },
   some { prefixSearch := Toy.searchFrom 0 ["大阪", "東京"]
          contents := ⟨[str "大阪"], [str "オオサカ"], str "地名"⟩ :: Toy.user.contents }, false⟩

/-- The hypotheses are met. -/
theorem C56_example : SameAnswers Toy.tokUser moreWords (str "もものうち東京") (· + 2) (· + 1) ∧
    SameEntries Toy.tokUser moreWords (str "もものうち東京") (· + 2) (· + 1) ∧
    (analyze Toy.tokUser Toy.ideo (str "もものうち東京") modeNormal).map (List.map (fun tok => (tok.surface, tok.cls, tok.id))) =
      some [(str "BOS", .dummy, -1), (str "もも", .known, 2), (str "の", .known, 4), (str "うち", .known, 5), (str "東京", .user, 0), (str "EOS", .dummy, -1)] ∧
    (analyze moreWords Toy.ideo (str "もものうち東京") modeNormal).map (List.map (fun tok => (tok.surface, tok.cls, tok.id))) =
      some [(str "BOS", .dummy, -1), (str "もも", .known, 4), (str "の", .known, 6), (str "うち", .known, 7), (str "東京", .user, 1), (str "EOS", .dummy, -1)] := by
  refine ⟨⟨by decide +kernel, by decide +kernel, by decide +kernel, rfl, rfl, rfl, rfl, rfl, rfl⟩,
    ⟨rfl, rfl, rfl, by decide +kernel, by decide +kernel, ?_⟩, by decide +kernel, by decide +kernel⟩
  intro s hs h hh u u' hu hu'
  simp only [Toy.tokUser, Option.some.injEq] at hu
  simp only [moreWords, Option.some.injEq] at hu'
  subst hu
  subst hu'
  revert h
  revert s
  decide +kernel

/-- A user dictionary that does not occur in the text. -/
example : ∀ s ∈ tails (str "もものうち"), Toy.user.prefixSearch s = [] := by decide +kernel

/-- An entry that occurs changes the result. -/
example : (analyze Toy.tok Toy.ideo (str "東京") modeNormal).map (List.map (·.surface)) = some [str "BOS", str "東", str "京", str "EOS"] ∧
    (analyze Toy.tokUser Toy.ideo (str "東京") modeNormal).map (List.map (·.surface)) = some [str "BOS", str "東京", str "EOS"] := by decide +kernel

end Kagome
