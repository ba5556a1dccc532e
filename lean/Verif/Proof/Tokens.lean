import Verif.Proof.Analyze
import Verif.Spec.Tokens

/-! The tokens of a result, their texts and their places. -/

namespace Kagome

open Spec

/-- Cut a text into pieces of given lengths. -/
def cutAt : List Nat → Bytes → List Bytes
  | [], _ => []
  | w :: ws, s => s.take w :: cutAt ws (s.drop w)

/-- The characters of a text. -/
def chars (s : Bytes) : List Bytes := cutAt ((runes s).map Prod.snd) s

theorem chars_cons {s : Bytes} (hs : s ≠ []) :
    chars s = s.take (decodeRune s).2 :: chars (s.drop (decodeRune s).2) := by
  unfold chars
  rw [runes_cons hs]
  rfl

theorem chars_flatten (s : Bytes) : (chars s).flatten = s := by
  induction s using runes_induction with
  | nil => rfl
  | cons s hs ih => rw [chars_cons hs, List.flatten_cons, ih, List.take_append_drop]

theorem runes_take_first {s : Bytes} (hs : s ≠ []) : runes (s.take (decodeRune s).2) = [decodeRune s] := by
  have := (runes_split (s := s) (a := [decodeRune s]) (by rw [runes_cons hs]; rfl)).1
  simpa using this

theorem runes_encodeRune {s : Bytes} (hs : s ≠ []) : ∃ w, runes (encodeRune (decodeRune s).1) = [((decodeRune s).1, w)] := by
  by_cases h : (decodeRune s).1 = runeError
  · rw [h]; exact ⟨3, by decide⟩
  · obtain ⟨c, h1, _, _⟩ := decode_not_error hs h
    rw [← h1, encodeRune_char]
    have := runes_encode_append c []
    rw [List.append_nil] at this
    exact ⟨_, this⟩

theorem runeCount_encodeRune {s : Bytes} (hs : s ≠ []) : runeCount (encodeRune (decodeRune s).1) = 1 := by
  obtain ⟨w, h⟩ := runes_encodeRune hs
  unfold runeCount; rw [h]; rfl

theorem encodeRune_ne_nil (r : Nat) : encodeRune r ≠ [] := by
  unfold encodeRune
  (repeat' split) <;> simp

theorem repaired_append {a b : Bytes} (h : runes (a ++ b) = runes a ++ runes b) : repaired (a ++ b) = repaired a ++ repaired b := by
  unfold repaired; rw [h, List.flatMap_append]

theorem repaired_valid {v : Bytes} (hv : ValidUtf8 v) : repaired v = v := by
  obtain ⟨cs, rfl⟩ := hv
  induction cs with
  | nil => rfl
  | cons c cs ih =>
    simp only [List.flatMap_cons]
    unfold repaired
    rw [runes_encode_append]
    simp only [List.flatMap_cons, encodeRune_char]
    congr 1

/-- Tokens in a row over pieces of text, starting at a byte and character offset. -/
def Located (rel : Token → Bytes → Prop) : Nat → Nat → List Token → List Bytes → Prop
  | _, _, [], [] => True
  | pos, cnt, t :: ts, p :: ps => t.position = pos ∧ t.start = cnt ∧ t.stop = cnt + runeCount p ∧ rel t p ∧
      Located rel (pos + p.length) (cnt + runeCount p) ts ps
  | _, _, _, _ => False

theorem located_append {rel : Token → Bytes → Prop} {pos cnt : Nat} {ts ts' : List Token} {ps ps' : List Bytes}
    (h : Located rel pos cnt ts ps)
    (h' : Located rel (pos + ps.flatten.length) (cnt + (ps.map runeCount).sum) ts' ps') :
    Located rel pos cnt (ts ++ ts') (ps ++ ps') := by
  induction ts generalizing ps pos cnt with
  | nil =>
    cases ps with
    | nil => simpa using h'
    | cons p ps => exact absurd h (by simp [Located])
  | cons t ts ih =>
    cases ps with
    | nil => exact absurd h (by simp [Located])
    | cons p ps =>
      obtain ⟨h1, h2, h3, h4, h5⟩ := h
      refine ⟨h1, h2, h3, h4, ih h5 ?_⟩
      simp only [List.flatten_cons, List.length_append, List.map_cons, List.sum_cons] at h'
      rw [Nat.add_assoc, Nat.add_assoc]
      exact h'

/-- A token stands for a piece of text: its surface is the piece, or for a `DUMMY` token of Extended mode the repaired piece. -/
def Stands (ext : Bool) (t : Token) (p : Bytes) : Prop :=
  p ≠ [] ∧ t.id ≠ -1 ∧ t.surface ≠ [] ∧
  t.surface = (if ext = true ∧ t.cls = .dummy then repaired p else p) ∧
  (t.cls = .dummy → ext = true ∧ runeCount p = 1)

theorem body_append (t : Tokenizer) (k : Nat) (a b : List Node) : body t k (a ++ b) = body t k a ++ body t (k + a.length) b := by
  induction a generalizing k with
  | nil => rfl
  | cons n a ih => simp only [List.cons_append, body, ih, List.length_cons]; rw [Nat.add_assoc k 1, Nat.add_comm 1]

theorem explode_located (t : Tokenizer) (p : Node) (hid : p.id ≠ -1) (s : Bytes) : ∀ (q i k : Nat),
    Located (Stands true) (p.position + q) (p.start + i) (body t k (explode p i (withPos q (runes s)))) (chars s) ∧
    (body t k (explode p i (withPos q (runes s)))).map wordOfToken =
      (runes s).map (fun r => ⟨.dummy, p.id, encodeRune r.1⟩) := by
  induction s using runes_induction with
  | nil => intro q i k; exact ⟨trivial, rfl⟩
  | cons s hs ih =>
    intro q i k
    rw [chars_cons hs, runes_cons hs]
    have hd := decodeRune_width hs
    have hlen : (s.take (decodeRune s).2).length = (decodeRune s).2 := by simp; omega
    have hr := runes_take_first hs
    have hc : runeCount (s.take (decodeRune s).2) = 1 := by unfold runeCount; rw [hr]; rfl
    have hre := runeCount_encodeRune hs
    obtain ⟨h1, h2⟩ := ih (q + (decodeRune s).2) (i + 1) (k + 1)
    rcases hdr : decodeRune s with ⟨r, w⟩
    rw [hdr] at hd hlen hr hc hre h1 h2
    simp only at hd hlen hc hre h1 h2 ⊢
    constructor
    · refine ⟨rfl, rfl, ?_, ?_, ?_⟩
      · change _ + runeCount (encodeRune r) = _
        rw [hre, hc]
      · refine ⟨?_, hid, encodeRune_ne_nil _, ?_, ?_⟩
        · intro h0; rw [h0] at hlen; simp at hlen; omega
        · rw [if_pos ⟨rfl, rfl⟩]
          unfold repaired
          rw [hr]
          simp
        · intro _; exact ⟨rfl, hc⟩
      · rw [hlen, hc, Nat.add_assoc, Nat.add_assoc]
        exact h1
    · simp only [withPos, explode, body, List.map_cons]
      congr 1

/-- The pieces of text the tokens of a word stand for. -/
def wordPieces (ext : Bool) (w : Word) : List Bytes :=
  if ext = true ∧ w.cls = .unknown then chars w.surface else [w.surface]

/-- The words printed for a word. -/
def shown (ext : Bool) (w : Word) : List Word := if ext = true then splitUnknown w else [w]

/-- `true` for extended mode. -/
def isExt (m : LMode) : Bool := match m with | .extended => true | _ => false

theorem runes_chars_sum (s : Bytes) : ((chars s).map runeCount).sum = runeCount s := by
  induction s using runes_induction with
  | nil => rfl
  | cons s hs ih =>
    rw [chars_cons hs]
    have : runeCount s = 1 + runeCount (s.drop (decodeRune s).2) := by
      conv => lhs; unfold runeCount; rw [runes_cons hs]
      unfold runeCount; simp; omega
    have hc : runeCount (s.take (decodeRune s).2) = 1 := by unfold runeCount; rw [runes_take_first hs]; rfl
    simp only [List.map_cons, List.sum_cons, ih, hc, this]

theorem wordPieces_flatten (ext : Bool) (w : Word) : (wordPieces ext w).flatten = w.surface := by
  unfold wordPieces
  split
  · exact chars_flatten _
  · simp

theorem wordPieces_count (ext : Bool) (w : Word) : ((wordPieces ext w).map runeCount).sum = runeCount w.surface := by
  unfold wordPieces
  split
  · exact runes_chars_sum _
  · simp

theorem emit_located (t : Tokenizer) (d : Dict) (m : LMode) {rest : Bytes} {w : Word} (hok : CandOk d rest w) (pos cnt k : Nat) :
    Located (Stands (isExt m)) pos cnt (body t k (emitFwd m (mkNode d w.cls w.id pos cnt w.surface))) (wordPieces (isExt m) w) ∧
    (body t k (emitFwd m (mkNode d w.cls w.id pos cnt w.surface))).map wordOfToken = shown (isExt m) w := by
  have hid : w.id ≠ -1 := by have := hok.id; omega
  have hne : w.surface ≠ [] := by
    intro h; have := hok.cnt; rw [h] at this; simp [runeCount] at this
  have hone : ∀ e, (e = true → w.cls ≠ .unknown) →
      Located (Stands e) pos cnt (body t k [mkNode d w.cls w.id pos cnt w.surface]) [w.surface] ∧
      (body t k [mkNode d w.cls w.id pos cnt w.surface]).map wordOfToken = shown e w := by
    intro e he
    refine ⟨⟨rfl, rfl, rfl, ⟨hne, hid, hne, ?_, ?_⟩, trivial⟩, ?_⟩
    · have hcd : ¬ (e = true ∧ (mkNode d w.cls w.id pos cnt w.surface).cls = .dummy) := fun h => hok.cls h.2
      exact (if_neg hcd).symm
    · intro h; exact absurd h hok.cls
    · unfold shown splitUnknown
      cases e with
      | false => rfl
      | true => simp only [if_true]; rw [if_neg (he rfl)]; rfl
  by_cases hx : m = .extended ∧ w.cls = .unknown
  · obtain ⟨rfl, hc⟩ := hx
    have hem : emitFwd .extended (mkNode d w.cls w.id pos cnt w.surface) =
        explode (mkNode d w.cls w.id pos cnt w.surface) 0 (rangeString w.surface) := by
      unfold emitFwd
      rw [if_neg]
      · rfl
      · rintro (h | h)
        · exact h rfl
        · exact h hc
    rw [hem]
    have := explode_located t (mkNode d w.cls w.id pos cnt w.surface) hid w.surface 0 0 k
    unfold wordPieces shown splitUnknown isExt
    rw [if_pos ⟨rfl, hc⟩, if_pos rfl, if_pos hc]
    exact this
  · have hem : emitFwd m (mkNode d w.cls w.id pos cnt w.surface) = [mkNode d w.cls w.id pos cnt w.surface] := by
      unfold emitFwd
      rw [if_pos]
      by_cases h : m = .extended
      · right; intro hc; exact hx ⟨h, hc⟩
      · exact Or.inl h
    have hp : wordPieces (isExt m) w = [w.surface] := by
      unfold wordPieces
      rw [if_neg]
      rintro ⟨h1, h2⟩
      apply hx
      cases m <;> simp [isExt] at h1
      exact ⟨rfl, h2⟩
    rw [hem, hp]
    apply hone
    intro he hc
    apply hx
    cases m <;> simp [isExt] at he
    exact ⟨rfl, hc⟩

/-- The tokens of an analysis. -/
theorem words_located (t : Tokenizer) (d : Dict) {u : Option UserDict} (wf : WellFormed d u) (m : LMode) {rest : Bytes} {ws : List Word}
    (ha : Analysis d u rest ws) : ∀ (pos cnt k : Nat),
    Located (Stands (isExt m)) pos cnt (body t k ((nodesFrom d cnt pos ws).flatMap (emitFwd m))) (ws.flatMap (wordPieces (isExt m))) ∧
    (body t k ((nodesFrom d cnt pos ws).flatMap (emitFwd m))).map wordOfToken = ws.flatMap (shown (isExt m)) := by
  induction ha with
  | nil => intro pos cnt k; exact ⟨trivial, rfl⟩
  | cons w rest ws hw hws ih =>
    intro pos cnt k
    have hok := cand_ok wf hw
    obtain ⟨h1, h2⟩ := emit_located t d m hok pos cnt k
    simp only [nodesFrom, List.flatMap_cons, body_append, List.map_append]
    obtain ⟨h3, h4⟩ := ih (pos + w.surface.length) (cnt + runeCount w.surface)
      (k + (emitFwd m (mkNode d w.cls w.id pos cnt w.surface)).length)
    refine ⟨located_append h1 ?_, by rw [h2, h4]⟩
    rw [wordPieces_flatten, wordPieces_count]
    exact h3

/-- The pieces of an analysis make up the text and are cut between characters. -/
theorem pieces_runes {d : Dict} {u : Option UserDict} (wf : WellFormed d u) (ext : Bool) {rest : Bytes} {ws : List Word}
    (ha : Analysis d u rest ws) : (ws.flatMap (wordPieces ext)).flatten = rest ∧
      runes rest = ((ws.flatMap (wordPieces ext)).map runes).flatten := by
  induction ha with
  | nil => exact ⟨rfl, rfl⟩
  | cons w rest ws hw hws ih =>
    have hok := cand_ok wf hw
    have hr := hok.rns
    simp only [List.drop_left] at hr
    have hch : ∀ s : Bytes, runes s = ((chars s).map runes).flatten := by
      intro s
      induction s using runes_induction with
      | nil => rfl
      | cons s hs ih =>
        rw [chars_cons hs, List.map_cons, List.flatten_cons, ← ih, runes_take_first hs]
        exact runes_cons hs
    constructor
    · simp only [List.flatMap_cons, List.flatten_append, wordPieces_flatten, ih.1]
    · simp only [List.flatMap_cons, List.map_append, List.flatten_append, ← ih.2]
      rw [hr]
      congr 1
      unfold wordPieces
      split
      · exact hch _
      · simp

/-- Reading off a place in a row of tokens. -/
theorem located_get {rel : Token → Bytes → Prop} {pos cnt : Nat} {ts : List Token} {ps : List Bytes}
    (h : Located rel pos cnt ts ps) : ts.length = ps.length ∧ ∀ (i : Nat) t p, ts[i]? = some t → ps[i]? = some p →
      t.position = pos + (ps.take i).flatten.length ∧ t.start = cnt + ((ps.take i).map runeCount).sum ∧
      t.stop = t.start + runeCount p ∧ rel t p := by
  induction ts generalizing ps pos cnt with
  | nil =>
    cases ps with
    | nil => exact ⟨rfl, by simp⟩
    | cons p ps => exact absurd h (by simp [Located])
  | cons t ts ih =>
    cases ps with
    | nil => exact absurd h (by simp [Located])
    | cons p ps =>
      obtain ⟨h1, h2, h3, h4, h5⟩ := h
      obtain ⟨hl, hg⟩ := ih h5
      refine ⟨by simp [hl], ?_⟩
      intro i t' p' ht hp
      cases i with
      | zero =>
        simp only [List.getElem?_cons_zero, Option.some.injEq] at ht hp
        subst ht hp
        simp [h1, h2, h3, h4]
      | succ i =>
        simp only [List.getElem?_cons_succ] at ht hp
        obtain ⟨g1, g2, g3, g4⟩ := hg i t' p' ht hp
        refine ⟨?_, ?_, g3, g4⟩
        · rw [g1]; simp; omega
        · rw [g2]; simp; omega

theorem located_rel {rel : Token → Bytes → Prop} {pos cnt : Nat} {ts : List Token} {ps : List Bytes}
    (h : Located rel pos cnt ts ps) : ∀ t ∈ ts, ∃ p, rel t p := by
  intro t ht
  obtain ⟨i, hi⟩ := List.getElem?_of_mem ht
  obtain ⟨hl, hg⟩ := located_get h
  have hlt := (List.getElem?_eq_some_iff.mp hi).1
  exact ⟨_, (hg i t _ hi (List.getElem?_eq_getElem (by omega))).2.2.2⟩

/-- Characters before the `i`-th piece. -/
theorem pieces_take {inp : Bytes} {ps : List Bytes} (h1 : ps.flatten = inp) (h2 : runes inp = (ps.map runes).flatten) (i : Nat) :
    runeCount (ps.take i).flatten = ((ps.take i).map runeCount).sum := by
  have hw : ∀ l : List Bytes, wsum ((l.map runes).flatten) = l.flatten.length := by
    intro l
    induction l with
    | nil => rfl
    | cons a l ih => simp [wsum_runes, ih]
  have hc : ∀ l : List Bytes, ((l.map runes).flatten).length = (l.map runeCount).sum := by
    intro l
    induction l with
    | nil => rfl
    | cons a l ih => simp [ih]; rfl
  have hsplit : runes inp = ((ps.take i).map runes).flatten ++ ((ps.drop i).map runes).flatten := by
    rw [h2, ← List.flatten_append, ← List.map_append, List.take_append_drop]
  have h3 := (runes_split hsplit).1
  rw [hw] at h3
  have h4 : inp.take (ps.take i).flatten.length = (ps.take i).flatten := by
    conv => lhs; rw [← h1, ← List.take_append_drop i ps, List.flatten_append]
    simp
  rw [h4] at h3
  unfold runeCount
  rw [h3, hc]
  rfl

end Kagome
