import Verif.Proof.Result
import Verif.Example.Toy

/-!
Properties C01 to C11: what the tokens returned by `Analyze` say about the text.

The statements use `analyze`, `tokenize`, `wakati`, `analyzeGraph` (the API), `Spec.WellFormed`, `Spec.Tame` (the hypotheses) and
the vocabulary of `Verif/Spec`. An `Option` result is `none` when the Go code would panic or not return.
-/

namespace Kagome

open Spec

variable {t : Tokenizer} {ideo : Nat → Bool} {inp : Bytes} {mode : Int} {toks : List Token}

theorem latticeMode_ext (mode : Int) : isExt (latticeMode mode) = decide (mode = modeExtended) := by
  unfold latticeMode
  by_cases h1 : mode = modeNormal
  · subst h1; rfl
  · by_cases h2 : mode = modeSearch
    · subst h2; rfl
    · by_cases h3 : mode = modeExtended
      · subst h3; rfl
      · simp [h1, h2, h3, isExt]

/-- The conversion is the one of the Go specification: the number of 32 bits that differs from the given one by a multiple of 2^32. -/
theorem int32_spec (x : Int) : -2 ^ 31 ≤ int32 x ∧ int32 x < 2 ^ 31 ∧ ∃ k : Int, int32 x = x + k * 2 ^ 32 := by
  unfold int32
  refine ⟨by omega, by omega, -((x + 2147483648) / 4294967296), ?_⟩
  omega

/-- Every dictionary, whatever its (16-bit) costs, is within the range for texts of up to 16000 characters. -/
theorem fits_short (d : Dict) {n : Nat} (hn : n ≤ 16000) : Fits d n := by
  refine ⟨65536, 65534, by omega, by omega, ?_, by omega⟩
  intro c _ m _
  have h1 := Int16.toInt_lt c
  have h2 := Int16.le_toInt c
  have h3 := Int16.toInt_lt m.weight
  have h4 := Int16.le_toInt m.weight
  omega

/-- The hypotheses of C02-C05, C07 and C11 are met by every text of the toy dictionary up to 16000 characters. -/
theorem toy_tame {inp : Bytes} (h : runeCount inp ≤ 16000) : Tame Toy.tokUser inp :=
  ⟨Toy.wellFormed, Toy.replacementOk inp, fits_short _ h⟩

/-! ### C01 -/

/-- C01: with well-formed dictionaries nothing panics and everything returns, for every byte string and mode. -/
theorem C01_total (wf : WellFormed t.dict t.userDict) (ideo : Nat → Bool) (inp : Bytes) (mode : Int) :
    (analyze t ideo inp mode).isSome ∧ (tokenize t ideo inp).isSome ∧ (wakati t ideo inp).isSome ∧
      (analyzeGraph t ideo inp mode).isSome := by
  have h : ∀ m, (solve t ideo inp m).isSome := by
    intro m
    obtain ⟨_, _, _, _, _, _, _, hs⟩ := solve_weak wf ideo inp m
    rw [hs]; rfl
  simp [analyze, tokenize, wakati, analyzeGraph, h]

example : WellFormed Toy.tokUser.dict Toy.tokUser.userDict := Toy.wellFormed

/-- A text of broken bytes, an encoded U+FFFD and truncated characters. -/
example : (analyze Toy.tok Toy.ideo [0xFF, 0xEF, 0xBF, 0xBD, 0xE3, 0x81] 3).map (·.map (·.surface)) =
    some [str "BOS", [0xEF, 0xBF, 0xBD], [0xEF, 0xBF, 0xBD], [0xEF, 0xBF, 0xBD], [0xEF, 0xBF, 0xBD], str "EOS"] := by decide +kernel

/-! ### C02, C03 -/

/-- C02: outside Extended mode the surfaces joined are the text. -/
theorem C02_lossless (h : Tame t inp) (hm : mode ≠ modeExtended) (ha : analyze t ideo inp mode = some toks) :
    (inner toks).flatMap (fun tok => tok.surface) = inp := by
  obtain ⟨ws, ps, _, _, hloc, _, _, hflat, _⟩ := analyze_inner h ideo ha
  rw [latticeMode_ext, decide_eq_false hm] at hloc
  rw [← hflat]
  generalize 0 = pos at hloc
  have key : ∀ (toks : List Token) (ps : List Bytes) (a b : Nat), Located (Stands false) a b toks ps →
      toks.flatMap (fun tok => tok.surface) = ps.flatten := by
    intro toks
    induction toks with
    | nil =>
      intro ps a b h
      cases ps with
      | nil => rfl
      | cons p ps => exact absurd h (by simp [Located])
    | cons x toks ih =>
      intro ps a b h
      cases ps with
      | nil => exact absurd h (by simp [Located])
      | cons p ps =>
        obtain ⟨_, _, _, ⟨_, _, _, hs, _⟩, h5⟩ := h
        simp only [Bool.false_eq_true, false_and, if_false] at hs
        simp only [List.flatMap_cons, List.flatten_cons, ih _ _ _ h5, hs]
  exact key _ _ _ _ hloc

/-- C02 for short texts and any 16-bit costs. -/
theorem C02_lossless_short (wf : WellFormed t.dict t.userDict) (hr : ReplacementOk t.dict inp) (hn : runeCount inp ≤ 16000)
    (hm : mode ≠ modeExtended) (ha : analyze t ideo inp mode = some toks) :
    (inner toks).flatMap (fun tok => tok.surface) = inp :=
  C02_lossless ⟨wf, hr, fits_short _ hn⟩ hm ha

/-- The toy dictionary with no grouping category. -/
def ungrouped : Tokenizer := ⟨{ Toy.dict with groupList := [false, false, false, false] }, none, false⟩

/-- C02 needs its hypothesis on U+FFFD: if its category does not group, two of its three bytes are lost. -/
theorem C02_replacement_counterexample :
    WellFormed ungrouped.dict ungrouped.userDict ∧ Fits ungrouped.dict 1 ∧
    ∃ toks, analyze ungrouped Toy.ideo [0xEF, 0xBF, 0xBD] modeNormal = some toks ∧
      (inner toks).flatMap (fun tok => tok.surface) = [0xEF] := by
  refine ⟨⟨Toy.wellFormed.known_hit, (by intro ud h; cases h), Toy.category_lt, Toy.category_lt, Toy.wellFormed.unk_entry,
    Toy.wellFormed.conn⟩, fits_short _ (by omega), ?_⟩
  have h : ((analyze ungrouped Toy.ideo [0xEF, 0xBF, 0xBD] modeNormal).map (fun toks => (inner toks).flatMap (fun tok => tok.surface))) =
      some [0xEF] := by decide +kernel
  cases ha : analyze ungrouped Toy.ideo [0xEF, 0xBF, 0xBD] modeNormal with
  | none => rw [ha] at h; cases h
  | some toks => rw [ha] at h; exact ⟨toks, rfl, by simpa using h⟩

/-- C03: in Extended mode they are the text with broken bytes replaced. -/
theorem C03_lossless_repaired (h : Tame t inp) (ha : analyze t ideo inp modeExtended = some toks) :
    (inner toks).flatMap (fun tok => tok.surface) = repaired inp := by
  obtain ⟨ws, ps, hana, -, -, hwords, -, -, -⟩ := analyze_inner h ideo ha
  have hmap : (inner toks).flatMap (fun tok => tok.surface) = ((inner toks).map wordOfToken).flatMap (fun w => w.surface) := by
    rw [List.flatMap_map]; rfl
  rw [hmap, hwords]
  have hx : isExt (latticeMode modeExtended) = true := rfl
  rw [hx]
  clear hmap hwords ha
  obtain ⟨wf, -, -⟩ := h
  induction hana with
  | nil => rfl
  | cons w rest ws hw hws ih =>
    have hok := cand_ok wf hw
    have hr := hok.rns
    simp only [List.drop_left] at hr
    rw [repaired_append hr, List.flatMap_cons, List.flatMap_append, ih]
    congr 1
    unfold shown splitUnknown
    rw [if_pos rfl]
    split
    · rw [List.flatMap_map]; rfl
    · rename_i hc
      simp only [List.flatMap_cons, List.flatMap_nil, List.append_nil]
      symm
      apply repaired_valid
      generalize hs : w.surface ++ rest = s at hw
      cases hw with
      | user id l hh =>
        cases hu : t.userDict with
        | none => simp [userEntries, hu] at hh
        | some ud =>
          rw [hu] at hh
          exact (wf.user_hit ud hu s id l hh).2.2.1
      | known id l hu hh => exact (wf.known_hit s id l hh).2.2.1
      | unknown x w hu hr hk hx ht => exact absurd rfl hc

/-- Valid UTF-8 needs no repair. -/
theorem C03_lossless_valid (h : Tame t inp) (hv : ValidUtf8 inp) (ha : analyze t ideo inp modeExtended = some toks) :
    (inner toks).flatMap (fun tok => tok.surface) = inp := by
  rw [C03_lossless_repaired h ha, repaired_valid hv]

theorem runes_valid (cs : List Char) :
    runes (cs.flatMap String.utf8EncodeChar) = cs.map (fun c => (c.val.toNat, (String.utf8EncodeChar c).length)) := by
  induction cs with
  | nil => rfl
  | cons c cs ih => rw [List.flatMap_cons, runes_encode_append, ih]; rfl

theorem valid_split {a b : Bytes} (hv : ValidUtf8 (a ++ b)) (hr : runes (a ++ b) = runes a ++ runes b) : ValidUtf8 a ∧ ValidUtf8 b := by
  obtain ⟨cs, hcs⟩ := hv
  rw [hcs, runes_valid] at hr
  obtain ⟨xs, ys, rfl, hx, -⟩ := List.map_eq_append_iff.mp hr
  have hl : a.length = (xs.flatMap String.utf8EncodeChar).length := by
    rw [← wsum_runes a, ← hx, ← runes_valid, wsum_runes]
  rw [List.flatMap_append] at hcs
  obtain ⟨h1, h2⟩ := List.append_inj hcs hl
  exact ⟨⟨xs, h1⟩, ⟨ys, h2⟩⟩

/-- No token of a text in UTF-8 has a part of a character: every surface is UTF-8 itself, in every mode. -/
theorem C02_valid (h : Tame t inp) (hv : ValidUtf8 inp) (ha : analyze t ideo inp mode = some toks) : ∀ tok ∈ inner toks, ValidUtf8 tok.surface := by
  obtain ⟨ws, ps, hana, -, -, hwords, -, -, -⟩ := analyze_inner h ideo ha
  have hws : ∀ w ∈ ws, ValidUtf8 w.surface := by
    clear hwords ha
    obtain ⟨wf, -, -⟩ := h
    induction hana with
    | nil => intro w hw; cases hw
    | cons w rest ws hw hws ih =>
      have hr := (cand_ok wf hw).rns
      simp only [List.drop_left] at hr
      obtain ⟨h1, h2⟩ := valid_split hv hr
      intro x hx
      rcases List.mem_cons.mp hx with rfl | hx
      · exact h1
      · exact ih h2 x hx
  intro tok ht
  have hm : wordOfToken tok ∈ ws.flatMap (shown (isExt (latticeMode mode))) := hwords ▸ List.mem_map_of_mem ht
  obtain ⟨w, hw, hs⟩ := List.mem_flatMap.mp hm
  have hsurf : (wordOfToken tok).surface = tok.surface := rfl
  rw [← hsurf]
  unfold shown splitUnknown at hs
  split at hs
  · split at hs
    · obtain ⟨r, hr, he⟩ := List.mem_map.mp hs
      rw [← he]
      obtain ⟨cs, hcs⟩ := hws w hw
      rw [hcs, runes_valid] at hr
      obtain ⟨c, -, rfl⟩ := List.mem_map.mp hr
      simp only [encodeRune_char]
      exact valid_encode c
    · rw [List.mem_singleton] at hs; rw [hs]; exact hws w hw
  · rw [List.mem_singleton] at hs; rw [hs]; exact hws w hw

/-- The text is UTF-8 and has unknown words. -/
example : ValidUtf8 (str "もも東!") ∧ ∀ mode ∈ [modeNormal, modeSearch, modeExtended],
    (analyze Toy.tok Toy.ideo (str "もも東!") mode).map (fun toks => (inner toks).map (·.surface)) = some [str "もも", str "東", str "!"] :=
  ⟨⟨"もも東!".toList, rfl⟩, by decide +kernel⟩

/-- What `repaired` does: valid characters stay, a byte that does not begin one becomes U+FFFD. -/
theorem C03_repaired_spec (s : Bytes) :
    (∀ v, ValidUtf8 v → repaired (v ++ s) = v ++ repaired s) ∧
    (∀ b, (∀ (c : Char) rest, b :: s ≠ String.utf8EncodeChar c ++ rest) → repaired (b :: s) = [0xEF, 0xBF, 0xBD] ++ repaired s) := by
  constructor
  · intro v hv
    rw [repaired_append (runes_valid_append hv s), repaired_valid hv]
  · intro b hb
    have hn : decodeValid (b :: s) = none := by
      cases h : decodeValid (b :: s) with
      | none => rfl
      | some d =>
        obtain ⟨r, w⟩ := d
        obtain ⟨c, _, _, h3⟩ := decodeValid_some h
        exact absurd h3 (hb c _)
    have hd := decodeRune_of_none (s := b :: s) (by simp) hn
    unfold repaired
    rw [runes_cons (by simp), hd]
    simp only [List.flatMap_cons, List.drop_succ_cons, List.drop_zero]
    congr 1

example : (analyze Toy.tokUser Toy.ideo (str "すもももabもも東京🍑") modeNormal).map (fun ts => (inner ts).map (·.surface)) =
    some [str "すもも", str "も", str "ab", str "もも", str "東京", str "🍑"] := by decide +kernel

example : (analyze Toy.tokUser Toy.ideo (str "すもももabもも東京" ++ [0xFF]) modeExtended).map (fun ts => (inner ts).map (·.surface)) =
    some [str "すもも", str "も", str "a", str "b", str "もも", str "東京", [0xEF, 0xBF, 0xBD]] := by decide +kernel

/-! ### C04 -/

/-- C04: the text can be cut into pieces, one per token, so that each token's `Position` is the byte offset of its piece, `Start`
and `End` are the numbers of characters before and up to the end of the piece, and the surface is the piece itself (for the
unigrams of Extended mode: the piece, a single character, with broken bytes replaced). -/
theorem C04_offsets (h : Tame t inp) (ha : analyze t ideo inp mode = some toks) :
    ∃ pieces : List Bytes, pieces.flatten = inp ∧ pieces.length = (inner toks).length ∧
      ∀ (i : Nat) (tok : Token) (piece : Bytes), (inner toks)[i]? = some tok → pieces[i]? = some piece →
        piece ≠ [] ∧
        tok.position = (pieces.take i).flatten.length ∧
        tok.start = runeCount (pieces.take i).flatten ∧
        tok.stop = runeCount (pieces.take (i + 1)).flatten ∧
        tok.stop = tok.start + runeCount tok.surface ∧
        tok.surface = (if mode = modeExtended ∧ tok.cls = .dummy then repaired piece else piece) ∧
        (tok.cls = .dummy → runeCount piece = 1) := by
  obtain ⟨ws, ps, _, _, hloc, _, _, hflat, hrunes⟩ := analyze_inner h ideo ha
  obtain ⟨hlen, hget⟩ := located_get hloc
  refine ⟨ps, hflat, hlen.symm, ?_⟩
  intro i tok piece htok hpiece
  obtain ⟨h1, h2, h3, h4⟩ := hget i tok piece htok hpiece
  obtain ⟨g1, g2, g3, g4, g5⟩ := h4
  rw [latticeMode_ext] at g4 g5
  have hps : ps.take (i + 1) = ps.take i ++ [piece] := by
    rw [List.take_add_one, hpiece]; rfl
  have hst : tok.start = runeCount (ps.take i).flatten := by
    rw [pieces_take hflat hrunes, h2]; simp
  have hstop : tok.stop = runeCount (ps.take (i + 1)).flatten := by
    rw [pieces_take hflat hrunes, h3, hst, pieces_take hflat hrunes, hps]
    simp
  have hsurf : tok.surface = (if mode = modeExtended ∧ tok.cls = .dummy then repaired piece else piece) := by
    rw [g4]
    by_cases hm : mode = modeExtended <;> simp [hm]
  refine ⟨g1, by rw [h1]; simp, hst, hstop, ?_, hsurf, fun hc => (g5 hc).2⟩
  rw [h3, hsurf]
  split
  · rename_i hc
    have hone := (g5 hc.2).2
    rw [hone]
    congr 1
    have hpne := g1
    unfold runeCount at hone
    rw [runes_cons hpne] at hone
    simp only [List.length_cons, Nat.add_eq_right, List.length_eq_zero_iff] at hone
    unfold repaired
    rw [runes_cons hpne, hone]
    simp only [List.flatMap_cons, List.flatMap_nil, List.append_nil]
    rw [runeCount_encodeRune hpne]
  · rfl

/-- C04 in terms of slices of the text, outside Extended mode: `Surface` is the slice at `Position`, `Start` and `End` count the
characters before its begin and end, the first token begins at 0, the next one where the one before ends, the last one ends at the
end of the text. -/
theorem C04_slices (h : Tame t inp) (hm : mode ≠ modeExtended) (ha : analyze t ideo inp mode = some toks) :
    (∀ tok ∈ inner toks, tok.surface = (inp.drop tok.position).take tok.surface.length ∧
      tok.start = runeCount (inp.take tok.position) ∧
      tok.stop = runeCount (inp.take (tok.position + tok.surface.length)) ∧
      tok.stop = tok.start + runeCount tok.surface ∧ tok.position + tok.surface.length ≤ inp.length) ∧
    (∀ tok, (inner toks).head? = some tok → tok.position = 0 ∧ tok.start = 0) ∧
    (∀ (i : Nat) a b, (inner toks)[i]? = some a → (inner toks)[i + 1]? = some b →
      b.position = a.position + a.surface.length ∧ b.start = a.stop) ∧
    (∀ tok, (inner toks).getLast? = some tok → tok.position + tok.surface.length = inp.length ∧ tok.stop = runeCount inp) := by
  obtain ⟨ps, hflat, hlen, hall⟩ := C04_offsets h ha
  have hpiece : ∀ (i : Nat) tok, (inner toks)[i]? = some tok → ps[i]? = some tok.surface := by
    intro i tok ht
    have hlt := (List.getElem?_eq_some_iff.mp ht).1
    have hp : ps[i]? = some ps[i] := List.getElem?_eq_getElem (by omega)
    obtain ⟨_, _, _, _, _, hs, _⟩ := hall i tok _ ht hp
    rw [if_neg (fun hh => hm hh.1)] at hs
    rw [hs]; exact hp
  have hdec : ∀ (i : Nat) tok, (inner toks)[i]? = some tok →
      inp = (ps.take i).flatten ++ tok.surface ++ (ps.drop (i + 1)).flatten ∧
      (ps.take (i + 1)).flatten = (ps.take i).flatten ++ tok.surface := by
    intro i tok ht
    have h1 : ps.take (i + 1) = ps.take i ++ [tok.surface] := by
      rw [List.take_add_one, hpiece i tok ht]; rfl
    have h2 : (ps.take (i + 1)).flatten = (ps.take i).flatten ++ tok.surface := by rw [h1]; simp
    refine ⟨?_, h2⟩
    rw [← h2, ← List.flatten_append, List.take_append_drop]
    exact hflat.symm
  refine ⟨?_, ?_, ?_, ?_⟩
  · intro tok ht
    obtain ⟨i, hi⟩ := List.getElem?_of_mem ht
    obtain ⟨_, h1, h2, h3, h4, _, _⟩ := hall i tok _ hi (hpiece i tok hi)
    obtain ⟨e1, e2⟩ := hdec i tok hi
    have t1 : inp.take tok.position = (ps.take i).flatten := by
      rw [h1, e1, List.append_assoc, List.take_left]
    have t2 : inp.take (tok.position + tok.surface.length) = (ps.take (i + 1)).flatten := by
      rw [h1, ← List.length_append, e2, e1, List.take_left]
    refine ⟨?_, by rw [t1]; exact h2, by rw [t2]; exact h3, h4, ?_⟩
    · conv => rhs; rw [h1, e1, List.append_assoc, List.drop_left, List.take_left]
    · have := congrArg List.length e1
      simp only [List.length_append] at this
      omega
  · intro tok ht
    rw [List.head?_eq_getElem?] at ht
    obtain ⟨_, h1, h2, _⟩ := hall 0 tok _ ht (hpiece 0 tok ht)
    exact ⟨by simpa using h1, by simpa [runeCount] using h2⟩
  · intro i a b hai hbi
    obtain ⟨_, h1, h2, h3, _⟩ := hall i a _ hai (hpiece i a hai)
    obtain ⟨_, g1, g2, _⟩ := hall (i + 1) b _ hbi (hpiece (i + 1) b hbi)
    refine ⟨?_, by rw [g2, h3]⟩
    rw [g1, h1, (hdec i a hai).2, List.length_append]
  · intro tok ht
    rw [List.getLast?_eq_getElem?] at ht
    have hlt := (List.getElem?_eq_some_iff.mp ht).1
    obtain ⟨_, h1, _, h3, _⟩ := hall _ tok _ ht (hpiece _ tok ht)
    have hend : ps.take ((inner toks).length - 1 + 1) = ps := by
      rw [List.take_of_length_le]; omega
    obtain ⟨_, e2⟩ := hdec _ tok ht
    rw [hend, hflat] at e2 h3
    refine ⟨?_, h3⟩
    rw [h1, ← List.length_append, ← e2]

example : (analyze Toy.tokUser Toy.ideo (str "もも🍑の") modeNormal).map (·.map (fun t => (t.position, t.start, t.stop))) =
    some [(0, 0, 0), (0, 0, 2), (6, 2, 3), (10, 3, 4), (13, 4, 4)] := by decide +kernel

/-! ### C05, C06 -/

/-- C05: BOS, the inner tokens, EOS; with `OmitBosEos` just the inner tokens, renumbered. -/
theorem C05_frame (h : Tame t inp) (ideo : Nat → Bool) (mode : Int) :
    ∃ words : List Token, (∀ tok ∈ words, tok.id ≠ -1) ∧
      analyze { t with omitBosEos := false } ideo inp mode = some (
        { index := 0, id := -1, cls := .dummy, position := 0, start := 0, stop := 0, surface := str "BOS",
          dict := some t.dict, udict := t.userDict } :: words ++
        [{ index := words.length + 1, id := -1, cls := .dummy, position := inp.length, start := runeCount inp,
           stop := runeCount inp, surface := str "EOS", dict := some t.dict, udict := t.userDict }]) ∧
      analyze { t with omitBosEos := true } ideo inp mode = some (words.map (fun tok => { tok with index := tok.index - 1 })) := by
  obtain ⟨ws, ns, hana, hopt, hns, h1, h2⟩ := analyze_tame h ideo mode
  refine ⟨body t 1 ns, ?_, ?_, ?_⟩
  · intro tok ht
    rw [hns] at ht
    obtain ⟨p, hp⟩ := located_rel (words_located t t.dict h.wf (latticeMode mode) hana 0 0 1).1 tok ht
    exact hp.2.1
  · rw [h2, body_length, Nat.add_comm]; rfl
  · rw [h1]
    congr 1
    have : ∀ k, body t k ns = (body t (k + 1) ns).map (fun tok => { tok with index := tok.index - 1 }) := by
      generalize ns = ns
      clear h1 h2 hns
      intro k
      induction ns generalizing k with
      | nil => rfl
      | cons n ns ih => simp [body, ← ih]
    exact this 0

/-- C06: the `i`-th token has `Index` `i`; no hypothesis on the dictionary, the text or its length. -/
theorem C06_index (ha : analyze t ideo inp mode = some toks) (i : Nat) (tok : Token) (hi : toks[i]? = some tok) : tok.index = i := by
  unfold analyze at ha
  rw [Option.map_eq_some_iff] at ha
  obtain ⟨r, _, rfl⟩ := ha
  rw [tokenLoop_index hi, Nat.zero_add]

example : (analyze { Toy.tokUser with omitBosEos := true } Toy.ideo (str "ももの") modeNormal).map (·.map (fun t => (t.index, t.surface))) =
    some [(0, str "もも"), (1, str "の")] := by decide +kernel

example : (analyze Toy.tokUser Toy.ideo (str "ももの") modeNormal).map (·.map (fun t => (t.index, t.surface))) =
    some [(0, str "BOS"), (1, str "もも"), (2, str "の"), (3, str "EOS")] := by decide +kernel

/-! ### C07 -/

/-- C07: the inner tokens are an analysis of the text (in Extended mode with the unknown words cut into characters) and no analysis
costs less. -/
theorem C07_minimal_cost (h : Tame t inp) (ha : analyze t ideo inp mode = some toks) :
    ∃ ws, Analysis t.dict t.userDict inp ws ∧
      (inner toks).map wordOfToken = (if mode = modeExtended then ws.flatMap splitUnknown else ws) ∧
      ∀ ws', Analysis t.dict t.userDict inp ws' →
        cost t.dict ideo (latticeMode mode) ws ≤ cost t.dict ideo (latticeMode mode) ws' := by
  obtain ⟨ws, ps, hana, hopt, _, hw, _, _, _⟩ := analyze_inner h ideo ha
  refine ⟨ws, hana, ?_, hopt.cheapest⟩
  rw [hw, latticeMode_ext]
  by_cases hm : mode = modeExtended
  · simp only [hm, decide_true, if_true]; rfl
  · simp only [hm, decide_false, if_false]
    exact List.flatMap_singleton' ws

/-- Which penalty a mode uses. -/
theorem C07_mode (mode : Int) :
    (latticeMode mode = .normal ↔ mode ≠ modeSearch ∧ mode ≠ modeExtended) := by
  unfold latticeMode modeNormal modeSearch modeExtended
  constructor
  · intro h
    split at h
    · omega
    · split at h
      · cases h
      · split at h
        · cases h
        · omega
  · rintro ⟨h1, h2⟩
    simp [h1, h2]

/-- Two analyses of the same text, the first one cheaper. -/
example : Analysis Toy.dict none (str "すもも") [⟨.known, 1, str "すもも"⟩] ∧
    Analysis Toy.dict none (str "すもも") [⟨.known, 0, str "す"⟩, ⟨.known, 2, str "もも"⟩] ∧
    cost Toy.dict Toy.ideo .normal [⟨.known, 1, str "すもも"⟩] = 6000 ∧
    cost Toy.dict Toy.ideo .normal [⟨.known, 0, str "す"⟩, ⟨.known, 2, str "もも"⟩] = 14500 := by
  refine ⟨?_, ?_, by decide +kernel, by decide +kernel⟩
  · exact Analysis.cons ⟨.known, 1, str "すもも"⟩ [] [] (Candidate.known 1 9 rfl (by decide +kernel)) Analysis.nil
  · exact Analysis.cons ⟨.known, 0, str "す"⟩ (str "もも") _ (Candidate.known 0 3 rfl (by decide +kernel))
      (Analysis.cons ⟨.known, 2, str "もも"⟩ [] [] (Candidate.known 2 6 rfl (by decide +kernel)) Analysis.nil)

/-! ### C08, C09, C10: no condition on the length of the text or on U+FFFD -/

/-- C08: every inner token comes from the source its class names. `DUMMY` inner tokens occur in Extended mode only and carry the id of
an unknown-word entry for the class of a character at or before them. -/
theorem C08_source (wf : WellFormed t.dict t.userDict) (ha : analyze t ideo inp mode = some toks) {tok : Token} (ht : tok ∈ toks)
    (hid : tok.id ≠ -1) :
    tok.dict = some t.dict ∧ tok.udict = t.userDict ∧
    (tok.cls ≠ .dummy → tok.surface <+: inp.drop tok.position) ∧
    match tok.cls with
    | .known => ∃ id l, (id, l) ∈ t.dict.prefixSearch (inp.drop tok.position) ∧ tok.id = id ∧
        tok.surface = (inp.drop tok.position).take l
    | .user => ∃ ud id l, t.userDict = some ud ∧ (id, l) ∈ ud.prefixSearch (inp.drop tok.position) ∧ tok.id = id ∧
        tok.surface = (inp.drop tok.position).take l
    | .unknown => mode ≠ modeExtended ∧ ∃ x : Nat, x ≤ t.dict.unk.indexDup (t.dict.category (firstChar (inp.drop tok.position))) ∧
        tok.id = t.dict.unk.index (t.dict.category (firstChar (inp.drop tok.position))) + x
    | .dummy => mode = modeExtended ∧ ∃ pos x : Nat, pos ≤ tok.position ∧
        x ≤ t.dict.unk.indexDup (t.dict.category (firstChar (inp.drop pos))) ∧
        tok.id = t.dict.unk.index (t.dict.category (firstChar (inp.drop pos))) + x := by
  obtain ⟨k, pos, rest, w, hat, hw, hcase⟩ := analyze_weak wf ha ht (Or.inl hid)
  have hd : tok.dict = some t.dict ∧ tok.udict = t.userDict := by
    unfold analyze at ha
    rw [Option.map_eq_some_iff] at ha
    obtain ⟨r, _, rfl⟩ := ha
    obtain ⟨_, _, _, _, _, _, _, _, h1, h2⟩ := tokenLoop_mem ht
    exact ⟨h1, h2⟩
  refine ⟨hd.1, hd.2, ?_⟩
  have hunk : w.cls = .unknown → ∃ x : Nat, x ≤ t.dict.unk.indexDup (t.dict.category (firstChar rest)) ∧
      w.id = t.dict.unk.index (t.dict.category (firstChar rest)) + x := by
    intro hc
    rcases hw with hw | ⟨_, _, _, x, hx, rfl⟩
    · cases hw with
      | user id l hh => cases hc
      | known id l hu hh => cases hc
      | unknown x w hu hr hk hx ht => exact ⟨x, hx, rfl⟩
    · exact ⟨x, hx, rfl⟩
  rcases hcase with ⟨h1, h2, h3, h4, h5, h6, h7⟩ | ⟨h1, h2, h3, h4, h5, h6⟩
  · rw [h1, h2, h3, h4, hat.drop]
    constructor
    · intro _
      rcases hw with hw | ⟨hq, _, _, x, hx, rfl⟩
      · exact ⟨_, (cand_ok wf hw).app.symm⟩
      · obtain ⟨tl, rfl⟩ := quirk_bytes hq
        exact ⟨_, rfl⟩
    · have hw' := hw
      rcases hw with hw | ⟨hq, _, _, x, hx, rfl⟩
      · cases hw with
        | user id l hh =>
          cases hu : t.userDict with
          | none => simp [userEntries, hu] at hh
          | some ud => 
            rw [hu] at hh
            exact ⟨ud, id, l, rfl, hh, rfl, rfl⟩
        | known id l hu hh => exact ⟨id, l, hh, rfl, rfl⟩
        | unknown x w hu hr hk hx ht => exact ⟨fun hm => h7 hm rfl, x, hx, rfl⟩
      · exact ⟨fun hm => h7 hm rfl, x, hx, rfl⟩
  · rw [h3, h4]
    refine ⟨fun h => absurd rfl h, ?_⟩
    obtain ⟨x, hx1, hx2⟩ := hunk h2
    refine ⟨h1, pos, x, h5, ?_, ?_⟩
    · rw [hat.drop]; exact hx1
    · rw [hat.drop]; exact hx2

/-- C09: where a user entry matches, only `USER` tokens start (the characters of a cut unknown word aside, which are `DUMMY`). -/
theorem C09_user_first (wf : WellFormed t.dict t.userDict) (ha : analyze t ideo inp mode = some toks) {tok : Token} (ht : tok ∈ toks)
    (hid : tok.id ≠ -1) (hc : tok.cls ≠ .dummy) {ud : UserDict} (hu : t.userDict = some ud)
    (hit : ud.prefixSearch (inp.drop tok.position) ≠ []) : tok.cls = .user := by
  obtain ⟨k, pos, rest, w, hat, hw, hcase⟩ := analyze_weak wf ha ht (Or.inl hid)
  rcases hcase with ⟨h1, h2, h3, h4, h5, h6, h7⟩ | ⟨h1, h2, h3, h4, h5⟩
  · rw [h4, hat.drop] at hit
    rw [h1]
    have hne : userEntries t.userDict rest ≠ [] := by rw [hu]; exact hit
    rcases hw with hw | ⟨_, hq, _⟩
    · cases hw with
      | user id l hh => rfl
      | known id l hu hh => exact absurd hu hne
      | unknown x w hu hr hk hx ht => exact absurd hu hne
    · exact absurd hq hne
  · exact absurd h3 hc

/-- C10: unknown words. -/
theorem C10_unknown (wf : WellFormed t.dict t.userDict) (ha : analyze t ideo inp mode = some toks) {tok : Token} (ht : tok ∈ toks)
    (hc : tok.cls = .unknown) :
    1 ≤ runeCount tok.surface ∧ runeCount tok.surface ≤ 1024 ∧
    (∀ r ∈ runes tok.surface, t.dict.category r.1 = t.dict.category (firstChar (inp.drop tok.position))) ∧
    (t.dict.prefixSearch (inp.drop tok.position) = [] ∨
      t.dict.invokeList[t.dict.category (firstChar (inp.drop tok.position))]? = some true) ∧
    (t.dict.groupList[t.dict.category (firstChar (inp.drop tok.position))]? ≠ some true → runeCount tok.surface = 1) := by
  obtain ⟨k, pos, rest, w, hat, hw, hcase⟩ := analyze_weak wf ha ht (Or.inr (by rw [hc]; simp))
  rcases hcase with ⟨h1, h2, h3, h4, h5, h6, h7⟩ | ⟨_, _, h3, _⟩
  · rw [h3, h4, hat.drop]
    rw [hc] at h1
    have hcnt := (weak_ok wf hw).cnt
    rcases hw with hw | ⟨hq, _, hk, x, hx, rfl⟩
    · cases hw with
      | user id l hh => cases h1
      | known id l hu hh => cases h1
      | unknown x w hu hr hk hx ht =>
        simp only at hcnt ⊢
        have hL := unknownLength_pos (d := t.dict) hr
        have hcat : ∀ j, j ≤ unknownLength t.dict rest → ∀ r ∈ (runes rest).take j, t.dict.category r.1 = t.dict.category (firstChar rest) := by
          intro j hj r hrm
          have hrm' : r ∈ (runes rest).take (unknownLength t.dict rest) := by
            have hpre : (runes rest).take j <+: (runes rest).take (unknownLength t.dict rest) := List.take_prefix_take_left hj
            exact hpre.subset hrm
          unfold unknownLength at hrm'
          split at hrm'
          · have hpre : (runes rest).take (min (unknownLimit rest) ((runes rest).takeWhile
                (fun r => t.dict.category r.1 = t.dict.category (firstChar rest))).length) <+:
                (runes rest).takeWhile (fun r => t.dict.category r.1 = t.dict.category (firstChar rest)) := by
              have h0 := List.takeWhile_prefix (l := runes rest) (fun r => decide (t.dict.category r.1 = t.dict.category (firstChar rest)))
              rw [List.prefix_iff_eq_take.mp h0]
              apply List.take_prefix_take_left
              simp only [List.length_take]
              omega
            have hall := List.all_takeWhile (l := runes rest) (p := fun r => decide (t.dict.category r.1 = t.dict.category (firstChar rest)))
            rw [List.all_eq_true] at hall
            simpa using hall r (hpre.subset hrm')
          · rw [runes_cons hr] at hrm'
            simp only [List.take_succ_cons, List.take_zero, List.mem_singleton] at hrm'
            rw [hrm']; rfl
        have hgrp : t.dict.groupList[t.dict.category (firstChar rest)]? ≠ some true → unknownLength t.dict rest = 1 := by
          intro hg; unfold unknownLength; rw [if_neg hg]
        rcases ht with rfl | ⟨h2', _, rfl⟩
        · rw [runes_firstChars, runeCount_firstChars hL.2.1]
          exact ⟨hL.1, hL.2.2, hcat _ (Nat.le_refl _), hk, hgrp⟩
        · rw [runes_firstChars, runeCount_firstChars (by omega)]
          exact ⟨by omega, by omega, hcat _ (by omega), hk, fun hg => by have := hgrp hg; omega⟩
    · obtain ⟨tl, htl⟩ := quirk_bytes hq
      have h1 : runes [0xEF] = [(0xFFFD, 1)] := by decide
      have hfc : firstChar rest = 0xFFFD := by unfold firstChar; rw [hq.1]
      refine ⟨hcnt, by simp [runeCount, h1], ?_, hk, fun _ => by simp [runeCount, h1]⟩
      simp only [h1, List.mem_singleton]
      rintro r rfl
      rw [hfc]
  · rw [hc] at h3; cases h3

example : (analyze Toy.tokUser Toy.ideo (str "東京もab東の") modeNormal).map (·.map (fun t => (t.cls, t.id, t.surface))) =
    some [(.dummy, -1, str "BOS"), (.user, 0, str "東京"), (.known, 3, str "も"), (.unknown, 1, str "ab"), (.known, 6, str "東"),
      (.known, 4, str "の"), (.dummy, -1, str "EOS")] := by decide +kernel

/-! ### C11 -/

/-- C11: non-empty texts give words, and no word is empty. -/
theorem C11_words (h : Tame t inp) (ha : analyze t ideo inp mode = some toks) :
    (inp ≠ [] → inner toks ≠ []) ∧ (∀ tok ∈ inner toks, tok.surface ≠ []) ∧ (inp = [] → inner toks = []) := by
  obtain ⟨ws, ps, hana, -, hloc, -, hps, hflat, -⟩ := analyze_inner h ideo ha
  obtain ⟨hlen, _⟩ := located_get hloc
  refine ⟨?_, ?_, ?_⟩
  · intro hne h0
    rw [h0] at hlen
    have : ps = [] := List.length_eq_zero_iff.mp hlen.symm
    rw [this] at hflat
    exact hne hflat.symm
  · intro tok ht
    obtain ⟨p, hp⟩ := located_rel hloc tok ht
    exact hp.2.2.1
  · intro h0
    subst h0
    cases hana' : ws with
    | nil =>
      rw [hps, hana'] at hlen
      exact List.length_eq_zero_iff.mp hlen
    | cons w ws' =>
      exfalso
      rw [hana'] at hana
      generalize hs : ([] : Bytes) = s at hana
      cases hana with
      | cons w rest ws hw _ =>
        have := (cand_ok h.wf hw).cnt
        have h2 : w.surface = [] := (List.append_eq_nil_iff.mp hs.symm).1
        rw [h2] at this
        simp [runeCount] at this

/-- C11: the empty text gives exactly BOS and EOS. -/
theorem C11_empty (wf : WellFormed t.dict t.userDict) (ideo : Nat → Bool) (mode : Int) :
    (analyze { t with omitBosEos := false } ideo [] mode).map (·.map (fun tok => (tok.index, tok.id, tok.surface))) =
      some [(0, -1, str "BOS"), (1, -1, str "EOS")] := by
  have htame : Tame t [] := ⟨wf, Or.inr (by simp), fits_short _ (by simp [runeCount])⟩
  obtain ⟨words, hw, h1, _⟩ := C05_frame htame ideo mode
  have htame' : Tame { t with omitBosEos := false } [] := ⟨wf, Or.inr (by simp), fits_short _ (by simp [runeCount])⟩
  have h2 := (C11_words htame' h1).2.2 rfl
  have h3 : words = [] := by
    cases words with
    | nil => rfl
    | cons w ws =>
      exfalso
      have := hw w (by simp)
      unfold inner at h2
      simp [this] at h2
  rw [h1, h3]
  rfl

end Kagome
