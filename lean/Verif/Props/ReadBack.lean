import Verif.Props.Commands
import Verif.Props.Modes
import Verif.Props.Segmentation
import Verif.Proof.Json
import Verif.Spec.ReadBack

/-! C80: what `tokenize` prints can be read back. -/

namespace Kagome

open Spec

/-! ## Bytes below 0x80 -/

theorem encodeRune_cases (r : Nat) : (r < 0x80 ∧ encodeRune r = [UInt8.ofNat r]) ∨ ∀ b ∈ encodeRune r, 0x80 ≤ b.toNat := by
  unfold encodeRune
  (repeat' split)
  · exact .inl ⟨‹_›, rfl⟩
  all_goals
    right
    simp only [List.mem_cons, List.not_mem_nil, or_false]
    intro b hb
    (repeat' rcases hb with rfl | hb) <;> try subst hb
    all_goals first | decide | (simp only [UInt8.toNat_ofNat']; omega)

theorem mem_of_rune {s : Bytes} {r w : Nat} (h : (r, w) ∈ runes s) (hr : r < 0x80) : UInt8.ofNat r ∈ s := by
  generalize hn : s.length = n
  induction n using Nat.strongRecOn generalizing s with
  | ind n ih =>
    by_cases hs : s = []
    · subst hs; cases h
    · rw [runes_cons hs] at h
      have hw := decodeRune_width hs
      rcases List.mem_cons.mp h with h | h
      · cases hd : decodeValid s with
        | none =>
          rw [decodeRune_of_none hs hd] at h
          cases h
          exact absurd hr (by decide)
        | some d =>
          rw [decodeRune_of_valid hd] at h
          subst h
          obtain ⟨c, h1, h2, h3⟩ := decodeValid_some hd
          have := encode_ascii (c := c) (by omega)
          rw [this, h1] at h3
          rw [h3]
          simp
      · have := ih _ (by rw [List.length_drop]; omega) h rfl
        exact List.mem_of_mem_drop this

/-! ## Reading rows -/

theorem cut_last {a b : Bytes} (hb : (0x09 : UInt8) ∉ b) : beforeTab (a ++ 0x09 :: b) = a ∧ behindTab (a ++ 0x09 :: b) = b := by
  have e : (a ++ 0x09 :: b).reverse = b.reverse ++ 0x09 :: a.reverse := by simp
  have hb' : ∀ x ∈ b.reverse, (x != 0x09) = true := by
    intro x hx
    rw [List.mem_reverse] at hx
    simp only [bne_iff_ne]
    rintro rfl
    exact hb hx
  unfold beforeTab behindTab
  rw [e, List.dropWhile_append_of_pos hb', List.takeWhile_append_of_pos hb']
  simp

theorem join_cell {fs : List Bytes} (h : ∀ f ∈ fs, CellText f) (sep : UInt8) (h1 : sep ≠ 0x09) (h2 : sep ≠ 0x0A) : CellText (join [sep] fs) := by
  have key : ∀ b, b ∈ join [sep] fs → b = sep ∨ ∃ f ∈ fs, b ∈ f := by
    induction fs with
    | nil => intro b hb; cases hb
    | cons f fs ih =>
      intro b hb
      cases fs with
      | nil => exact .inr ⟨f, by simp, hb⟩
      | cons g gs =>
        have e : join [sep] (f :: g :: gs) = f ++ [sep] ++ join [sep] (g :: gs) := rfl
        rw [e] at hb
        simp only [List.mem_append, List.mem_singleton] at hb
        rcases hb with (hb | hb) | hb
        · exact .inr ⟨f, by simp, hb⟩
        · exact .inl hb
        · rcases ih (fun x hx => h x (by simp [hx])) b hb with h' | ⟨x, hx, h'⟩
          · exact .inl h'
          · exact .inr ⟨x, by simp [hx], h'⟩
  constructor
  · intro hb
    rcases key _ hb with e | ⟨f, hf, e⟩
    · exact h1 e.symm
    · exact (h f hf).1 e
  · intro hb
    rcases key _ hb with e | ⟨f, hf, e⟩
    · exact h2 e.symm
    · exact (h f hf).2 e

theorem features_cells {t : Token} {d : Dict} {u : Option UserDict} (ct : CellTexts d u) (hd : t.dict = some d) (hu : t.udict = u) {fs : List Bytes}
    (h : HasFeatures t fs) : ∀ f ∈ fs, CellText f := by
  cases h with
  | known d' n ids names c _ hd' _ _ hlen hn hc =>
    rw [hd] at hd'
    cases hd'
    intro f hf
    rcases List.mem_append.mp hf with hf | hf
    · obtain ⟨k, hk, rfl⟩ := List.getElem_of_mem hf
      obtain ⟨e, -⟩ := hn k (ids[k]'(by omega)) (List.getElem?_eq_getElem (by omega))
      rw [List.getElem?_eq_getElem hk] at e
      exact ct.names _ (List.mem_of_getElem? e.symm)
    · rcases hc with ⟨-, rfl⟩ | ⟨cs, hcs, hc⟩
      · cases hf
      · exact ct.contents cs hcs c (List.mem_of_getElem? hc) f hf
  | unknown d' n c _ hd' _ hc =>
    rw [hd] at hd'
    cases hd'
    exact ct.unk fs (List.mem_of_getElem? hc)
  | user ud n c _ hu' _ hc =>
    rw [hu] at hu'
    obtain ⟨h1, h2, h3⟩ := ct.user ud hu' c (List.mem_of_getElem? hc)
    intro f hf
    simp only [List.mem_cons, List.not_mem_nil, or_false] at hf
    rcases hf with rfl | rfl | rfl
    · exact h1
    · exact join_cell h2 0x2F (by decide) (by decide)
    · exact join_cell h3 0x2F (by decide) (by decide)
  | dummy _ => intro f hf; cases hf

/-- What a token must be for its row to be readable. -/
structure Readable (d : Dict) (u : Option UserDict) (t : Token) : Prop where
  dict : t.dict = some d
  udict : t.udict = u
  ne : t.surface ≠ []
  feed : (0x0A : UInt8) ∉ t.surface
  bare : t.cls = .dummy → t.surface ≠ str "EOS" ∧ ((0x09 : UInt8) ∈ t.surface → t.surface = [0x09])

theorem row_read {d : Dict} {u : Option UserDict} (ct : CellTexts d u) {t : Token} (ht : Readable d u t) {row : Bytes} (h : TokenLine t row) :
    ∃ r, row = r ++ str "\n" ∧ (0x0A : UInt8) ∉ r ∧ r ≠ str "EOS" ∧ Says t (readRow r) := by
  have e9 : str "\t" = [0x09] := by decide
  have eE : str "EOS" = [0x45, 0x4F, 0x53] := by decide
  cases h with
  | bare hc =>
    obtain ⟨h1, h2⟩ := ht.bare hc
    refine ⟨_, rfl, ht.feed, h1, ?_⟩
    have : readRow t.surface = (t.surface, none) := by
      unfold readRow
      rw [if_pos]
      by_cases hm : (0x09 : UInt8) ∈ t.surface
      · exact .inl (h2 hm)
      · exact .inr hm
    rw [this]
    exact ⟨rfl, fun _ => rfl, fun hn => absurd hc hn⟩
  | @full fs hc hf =>
    have hcell := join_cell (features_cells ct ht.dict ht.udict hf) 0x2C (by decide) (by decide)
    have e2 : str "," = [0x2C] := by decide
    rw [e9, e2]
    refine ⟨_, rfl, ?_, ?_, ?_⟩
    · simp only [List.mem_append, List.mem_singleton, not_or]
      exact ⟨⟨ht.feed, by decide⟩, hcell.2⟩
    · rw [eE]
      intro he
      have : (0x09 : UInt8) ∈ ([0x45, 0x4F, 0x53] : Bytes) := by rw [← he]; simp
      revert this
      decide
    · have hr : readRow (t.surface ++ [0x09] ++ join [0x2C] fs) = (t.surface, some (join [0x2C] fs)) := by
        have e3 : t.surface ++ [0x09] ++ join [0x2C] fs = t.surface ++ 0x09 :: join [0x2C] fs := by simp
        unfold readRow
        rw [e3, if_neg, (cut_last hcell.1).1, (cut_last hcell.1).2]
        rintro (he | he)
        · have := ht.ne
          cases hs : t.surface with
          | nil => exact this hs
          | cons b bs =>
            rw [hs] at he
            have := congrArg List.length he
            simp at this
        · exact he (by simp)
      rw [hr]
      exact ⟨rfl, fun h => absurd h hc, fun _ => ⟨fs, hf, by rw [e2]⟩⟩

theorem tables_block {rows : List Bytes} (h : ∀ r ∈ rows, r ≠ str "EOS") (rest : List Bytes) :
    tables (rows ++ str "EOS" :: rest) = rows :: tables rest := by
  induction rows with
  | nil => rw [List.nil_append, tables, if_pos rfl]
  | cons r rows ih =>
    rw [List.cons_append, tables, if_neg (h r (by simp)), ih (fun x hx => h x (by simp [hx]))]

theorem rawLines_more {ls : List Bytes} (h : ∀ l ∈ ls, (0x0A : UInt8) ∉ l) (rest : Bytes) :
    rawLines (ls.flatMap (· ++ str "\n") ++ rest) = ls ++ rawLines rest := by
  induction ls with
  | nil => rfl
  | cons l ls ih =>
    have : (l :: ls).flatMap (· ++ str "\n") ++ rest = l ++ 0x0A :: (ls.flatMap (· ++ str "\n") ++ rest) := by
      simp [show str "\n" = [0x0A] from rfl]
    rw [this, rawLines_lf (h l (by simp)), ih fun x hx => h x (by simp [hx])]
    rfl

theorem rows_read {d : Dict} {u : Option UserDict} (ct : CellTexts d u) : ∀ (ts : List Token) (rows : List Bytes), rows.length = ts.length →
    (∀ t ∈ ts, Readable d u t) →
    (∀ (i : Nat) (t : Token) (row : Bytes), ts[i]? = some t → rows[i]? = some row → TokenLine t row) →
    ∃ rs : List Bytes, rows.flatten = rs.flatMap (· ++ str "\n") ∧ (∀ r ∈ rs, (0x0A : UInt8) ∉ r) ∧ (∀ r ∈ rs, r ≠ str "EOS") ∧ SaysAll ts (rs.map readRow) := by
  intro ts
  induction ts with
  | nil =>
    intro rows hl _ _
    have : rows = [] := List.length_eq_zero_iff.mp hl
    subst this
    exact ⟨[], rfl, by simp, by simp, rfl, by simp⟩
  | cons t ts ih =>
    intro rows hl hr hi
    cases rows with
    | nil => simp at hl
    | cons row rows =>
      obtain ⟨rs, h1, h2, h3, h4, h5⟩ := ih rows (by simpa using hl) (fun x hx => hr x (by simp [hx]))
        (fun i t' r ht hrow => hi (i + 1) t' r (by simpa using ht) (by simpa using hrow))
      obtain ⟨r, g1, g2, g3, g4⟩ := row_read ct (hr t (by simp)) (hi 0 t row rfl rfl)
      refine ⟨r :: rs, ?_, ?_, ?_, ?_, ?_⟩
      · rw [List.flatten_cons, h1, g1, List.flatMap_cons]
      · intro x hx
        rcases List.mem_cons.mp hx with rfl | hx
        · exact g2
        · exact h2 x hx
      · intro x hx
        rcases List.mem_cons.mp hx with rfl | hx
        · exact g3
        · exact h3 x hx
      · simpa using h4
      · intro i t' row' ht hrow
        cases i with
        | zero => simp at ht hrow; subst ht; subst hrow; exact g4
        | succ i => exact h5 i t' row' (by simpa using ht) (by simpa using hrow)

theorem block_read {d : Dict} {u : Option UserDict} (ct : CellTexts d u) {toks : List Token} (hr : ∀ t ∈ inner toks, Readable d u t) {out : Bytes}
    (h : PlainText toks out) (rest : Bytes) : ∃ table, readBack (out ++ rest) = table :: readBack rest ∧ SaysAll (inner toks) table := by
  obtain ⟨rows, h1, h2, h3⟩ := h
  obtain ⟨rs, g1, g2, g3, g4⟩ := rows_read ct _ rows h1 hr h2
  refine ⟨rs.map readRow, ?_, g4⟩
  have e : str "EOS\n" = str "EOS" ++ str "\n" := by decide
  have e2 : out ++ rest = (rs ++ [str "EOS"]).flatMap (· ++ str "\n") ++ rest := by
    rw [h3, g1, e, List.flatMap_append]
    simp
  unfold readBack
  rw [e2, rawLines_more, List.append_assoc, List.singleton_append, tables_block g3]
  · rfl
  · intro l hl
    rcases List.mem_append.mp hl with hl | hl
    · exact g2 l hl
    · rw [List.mem_singleton.mp hl]; decide

/-! ## The tokens of a text are readable -/

theorem surface_ne_nil {t : Tokenizer} (wf : WellFormed t.dict t.userDict) {ideo : Nat → Bool} {inp : Bytes} {mode : Int} {toks : List Token}
    (ha : analyze t ideo inp mode = some toks) {tok : Token} (ht : tok ∈ toks) (hc : tok.cls ≠ .dummy) : tok.surface ≠ [] := by
  obtain ⟨k, pos, rest, w, -, hw, h⟩ := analyze_weak wf ha ht (.inr hc)
  rcases h with ⟨-, -, h, -⟩ | ⟨-, -, h, -⟩
  · have := (weak_ok wf hw).cnt
    intro he
    rw [← h, he] at this
    revert this
    decide
  · exact absurd h hc

theorem analyze_readable {t : Tokenizer} (wf : WellFormed t.dict t.userDict) {ideo : Nat → Bool} {inp : Bytes} {mode : Int} {toks : List Token}
    (hf : (0x0A : UInt8) ∉ inp) (ha : analyze t ideo inp mode = some toks) : ∀ tok ∈ inner toks, Readable t.dict t.userDict tok := by
  have hsub : ∀ {tok : Token}, tok.surface <+: inp.drop tok.position → (0x0A : UInt8) ∉ tok.surface := by
    intro tok h hb
    exact hf (List.mem_of_mem_drop (h.subset hb))
  intro tok ht
  have hm : tok ∈ toks ∧ tok.id ≠ -1 := by simpa [inner] using ht
  obtain ⟨h1, h2, h3, h4⟩ := C08_source wf ha hm.1 hm.2
  by_cases hc : tok.cls = .dummy
  · -- a character of an unknown word
    have hmode : mode = modeExtended := by
      rw [hc] at h4
      exact h4.1
    subst hmode
    rw [C15_extended wf] at ha
    simp only [Option.map_eq_some_iff] at ha
    obtain ⟨stoks, hs, hst⟩ := ha
    have hx : ∃ c ∈ stoks.flatMap cutToken, c.surface = tok.surface ∧ c.cls = tok.cls ∧ c.id = tok.id := by
      rw [← hst] at hm
      have := hm.1
      unfold renumber at this
      rw [List.mem_map] at this
      obtain ⟨x, hx, rfl⟩ := this
      exact ⟨x.1, List.fst_mem_of_mem_zipIdx hx, rfl, rfl, rfl⟩
    obtain ⟨c, hcm, e1, e2, e3⟩ := hx
    rw [List.mem_flatMap] at hcm
    obtain ⟨st, hstm, hcut⟩ := hcm
    unfold cutToken at hcut
    split at hcut
    next hunk =>
      rw [List.mem_map] at hcut
      obtain ⟨x, hx, rfl⟩ := hcut
      simp only at e1 e3
      have hid : st.id ≠ -1 := by rw [e3]; exact hm.2
      obtain ⟨-, -, g3, -⟩ := C08_source wf hs hstm hid
      have hst0 := hsub (g3 (by rw [hunk]; decide))
      have hr : ∃ w, (x.1.2, w) ∈ runes st.surface := by
        have := List.fst_mem_of_mem_zipIdx hx
        unfold rangeString at this
        have key : ∀ (l : List (Nat × Nat)) (p : Nat) (y : Nat × Nat), y ∈ withPos p l → ∃ w, (y.2, w) ∈ l := by
          intro l
          induction l with
          | nil => intro p y hy; cases hy
          | cons a l ih =>
            intro p y hy
            rcases List.mem_cons.mp hy with rfl | hy
            · exact ⟨a.2, by simp⟩
            · obtain ⟨w, hw⟩ := ih _ _ hy
              exact ⟨w, by simp [hw]⟩
        exact key _ _ _ this
      obtain ⟨w, hw⟩ := hr
      have eE : str "EOS" = [0x45, 0x4F, 0x53] := by decide
      rcases encodeRune_cases x.1.2 with ⟨hlt, he⟩ | hhigh
      · rw [he] at e1
        refine ⟨h1, h2, by rw [← e1]; simp, ?_, fun _ => ⟨by rw [← e1, eE]; simp, ?_⟩⟩
        · rw [← e1]
          intro hb
          rw [List.mem_singleton] at hb
          have := mem_of_rune hw hlt
          rw [← hb] at this
          exact hst0 this
        · rw [← e1]
          intro hb
          rw [List.mem_singleton] at hb
          rw [hb]
      · have hne : encodeRune x.1.2 ≠ [] := by
          unfold encodeRune
          (repeat' split) <;> simp
        rw [e1] at hhigh hne
        refine ⟨h1, h2, hne, ?_, fun _ => ⟨?_, ?_⟩⟩
        · intro hb; exact absurd (hhigh _ hb) (by decide)
        · intro he
          rw [he, eE] at hhigh
          exact absurd (hhigh 0x45 (by simp)) (by decide)
        · intro hb; exact absurd (hhigh _ hb) (by decide)
    next hunk =>
      rw [List.mem_singleton] at hcut
      subst hcut
      obtain ⟨-, -, -, g4⟩ := C08_source wf hs hstm (by rw [e3]; exact hm.2)
      rw [e2, hc] at g4
      exact absurd g4.1 (by decide)
  · exact ⟨h1, h2, surface_ne_nil wf ha hm.1 hc, hsub (h3 hc), fun h => absurd h hc⟩

/-! ## Whole runs -/

theorem outs_read {t : Tokenizer} (wf : WellFormed t.dict t.userDict) (ct : CellTexts t.dict t.userDict) {ideo : Nat → Bool} {m : Int} :
    ∀ (texts outs : List Bytes), (∀ text ∈ texts, (0x0A : UInt8) ∉ text) →
      ForEach (fun text out => ∃ toks, analyze t ideo text m = some toks ∧ PlainText toks out) texts outs →
      (readBack outs.flatten).length = texts.length ∧
        ∀ (i : Nat) (text : Bytes) (table : List (Bytes × Option Bytes)), texts[i]? = some text → (readBack outs.flatten)[i]? = some table →
          ∃ toks, analyze t ideo text m = some toks ∧ SaysAll (inner toks) table
  | [], [], _, _ => ⟨rfl, by simp⟩
  | [], _ :: _, _, h => h.elim
  | _ :: _, [], _, h => h.elim
  | text :: texts, out :: outs, hn, h => by
    obtain ⟨⟨toks, ha, hp⟩, hr⟩ := h
    obtain ⟨i1, i2⟩ := outs_read wf ct texts outs (fun x hx => hn x (by simp [hx])) hr
    obtain ⟨table, g1, g2⟩ := block_read ct (analyze_readable wf (hn text (by simp)) ha) hp outs.flatten
    rw [List.flatten_cons, g1]
    refine ⟨by simp [i1], ?_⟩
    intro i text' table' ht htab
    cases i with
    | zero => simp at ht htab; subst ht; subst htab; exact ⟨toks, ha, g2⟩
    | succ i => exact i2 i text' table' (by simpa using ht) (by simpa using htab)

/-- What holds of the tokens of every buffer holds of those of the scan. -/
theorem scan_tokens {split : SplitFunc} {P : Bytes → Prop}
    (hd : ∀ atEOF fuel buf r, drain split atEOF fuel buf = some r → ∀ t ∈ r.1, P t) (reader : List ReadResult) : ∀ (k : Nat) (buf : Bytes) (toks : List Bytes)
    (ending : ScanEnd), scanFrom split reader k buf = some (toks, ending) → ∀ t ∈ toks, P t := by
  induction reader with
  | nil =>
    intro k buf toks ending h
    unfold scanFrom at h
    cases hr : drain split true (buf.length + 1) buf with
    | none => rw [hr] at h; cases h
    | some r => rw [hr] at h; cases h; exact hd _ _ _ _ hr
  | cons rd rds ih =>
    intro k buf toks ending h
    unfold scanFrom at h
    split at h
    · cases hr : drain split true ((buf ++ rd.bytes).length + 1) (buf ++ rd.bytes) with
      | none => rw [hr] at h; cases h
      | some r => rw [hr] at h; cases h; exact hd _ _ _ _ hr
    · split at h
      · split at h
        · cases hr : drain split true (buf.length + 1) buf with
          | none => rw [hr] at h; cases h
          | some r => rw [hr] at h; cases h; exact hd _ _ _ _ hr
        · exact ih _ _ _ _ h
      · cases hr : drain split false ((buf ++ rd.bytes).length + 1) (buf ++ rd.bytes) with
        | none => rw [hr] at h; cases h
        | some r =>
          rw [hr] at h
          simp only [Option.bind_eq_bind, Option.bind_some] at h
          split at h
          · cases h; exact hd _ _ _ _ hr
          · cases hm : scanFrom split rds 0 r.2 with
            | none => rw [hm] at h; cases h
            | some m =>
              rw [hm] at h
              cases h
              intro t ht
              rcases List.mem_append.mp ht with ht | ht
              · exact hd _ _ _ _ hr t ht
              · exact ih _ _ _ _ hm t ht

theorem drain_lines_no_feed (atEOF : Bool) (fuel : Nat) : ∀ (buf : Bytes) (r : List Bytes × Bytes), drain scanLines atEOF fuel buf = some r →
    ∀ t ∈ r.1, (0x0A : UInt8) ∉ t := by
  induction fuel with
  | zero => intro buf r h; cases h
  | succ fuel ih =>
    intro buf r h
    unfold drain at h
    split at h
    · cases h; simp
    · have key : ∃ res, scanLines buf atEOF = some res ∧ res.data = buf ∧
          ∀ a b, res.token = some (a, b) → (0x0A : UInt8) ∉ (buf.take b).drop a := by
        rcases scanLines_cases buf atEOF with ⟨a, x, e, hn, hs⟩ | ⟨hn, hat, hne, hs⟩ | ⟨hn, hat, hs⟩
        · refine ⟨_, hs, rfl, ?_⟩
          intro i j hij
          cases hij
          rw [e, List.take_append_of_le_length (dropCRLen_le a)]
          intro hb
          exact hn (List.mem_of_mem_take (List.mem_of_mem_drop hb))
        · refine ⟨_, hs, rfl, ?_⟩
          intro i j hij
          cases hij
          intro hb
          exact hn (List.mem_of_mem_take (List.mem_of_mem_drop hb))
        · refine ⟨_, hs, rfl, ?_⟩
          intro i j hij
          cases hij
      obtain ⟨res, h1, h2, h3⟩ := key
      rw [h1] at h
      simp only [Option.bind_eq_bind, Option.bind_some] at h
      split at h
      · cases ht : res.token with
        | none => rw [ht] at h; cases h; simp
        | some ab =>
          rw [ht] at h
          simp only at h
          cases hm : drain scanLines atEOF fuel (res.data.drop res.advance) with
          | none => rw [hm] at h; cases h
          | some m =>
            rw [hm] at h
            cases h
            intro t ht'
            rcases List.mem_cons.mp ht' with rfl | ht'
            · rw [h2]
              exact h3 _ _ ht
            · exact ih _ _ hm t ht'
      · cases h

theorem scan_texts_no_feed {split : Bool} {reads : List ReadResult} {texts : List Bytes} {ending : ScanEnd}
    (hs : scanAll (if split then defaultSplitter.scanSentences else scanLines) reads = some (texts, ending)) :
    ∀ text ∈ texts, (0x0A : UInt8) ∉ text := by
  cases split with
  | true => exact scan_no_feed (s := defaultSplitter) rfl _ _ _ _ _ hs
  | false => exact scan_tokens drain_lines_no_feed _ _ _ _ _ hs

variable (w : World) {args : List Bytes} {o : Tok.Opts} {m : Int} {t : Tokenizer} {src : Source}

/-- C80: whatever the input and the mode, a program that cuts the output of `tokenize` into tables at the rows `EOS`, and each row at its last tab, gets a table for
every text in which every word stands with its features. The dictionaries must not have tabs or line feeds in their texts; the input may. -/
theorem C80_table (hl : TokenizeLine args o) (hm : ModeText o.mode m) (ht : ChosenTokenizer w o t) (hi : ChosenInput w o src)
    (wf : WellFormed t.dict t.userDict) (tab : FeatureTables t.dict) (ct : CellTexts t.dict t.userDict) (hj : o.json = false)
    {texts : List Bytes} {ending : ScanEnd}
    (hs : scanAll (if o.split then defaultSplitter.scanSentences else scanLines) src.reads = some (texts, ending)) :
    ∃ r, Tok.run w args = some r ∧ r.err = scanError src ending ∧ (readBack r.out).length = texts.length ∧
      ∀ (i : Nat) (text : Bytes) (table : List (Bytes × Option Bytes)), texts[i]? = some text → (readBack r.out)[i]? = some table →
        ∃ toks, analyze t w.ideo text m = some toks ∧ SaysAll (inner toks) table := by
  obtain ⟨outs, h1, h2⟩ := C41_texts w hl hm ht hi wf tab hj hs
  exact ⟨_, h1, rfl, outs_read wf ct texts outs (scan_texts_no_feed hs) h2⟩

theorem saysAll_words {toks : List Token} {table : List (Bytes × Option Bytes)} (h : SaysAll toks table) :
    table.map Prod.fst = toks.map (fun tok => tok.surface) := by
  obtain ⟨h1, h2⟩ := h
  apply List.ext_getElem?
  intro i
  rw [List.getElem?_map, List.getElem?_map]
  cases hi : table[i]? with
  | none =>
    rw [List.getElem?_eq_none_iff] at hi
    rw [List.getElem?_eq_none (by omega)]
    rfl
  | some row =>
    obtain ⟨hlt, -⟩ := List.getElem?_eq_some_iff.mp hi
    have e : toks[i]? = some (toks[i]'(by omega)) := List.getElem?_eq_getElem (by omega)
    rw [e, Option.map_some, Option.map_some, (h2 i _ _ e hi).1]

/-- C80: the words of each table, joined, are the text it was made from — with every broken byte replaced by U+FFFD if the mode is Extended. -/
theorem C80_words (hl : TokenizeLine args o) (hm : ModeText o.mode m) (ht : ChosenTokenizer w o t) (hi : ChosenInput w o src)
    (tab : FeatureTables t.dict) (ct : CellTexts t.dict t.userDict) (hj : o.json = false) (wf : WellFormed t.dict t.userDict)
    {texts : List Bytes} {ending : ScanEnd}
    (hs : scanAll (if o.split then defaultSplitter.scanSentences else scanLines) src.reads = some (texts, ending))
    (htame : ∀ text ∈ texts, Tame t text) :
    ∃ r, Tok.run w args = some r ∧ r.err = scanError src ending ∧
      (wordsBack r.out).map List.flatten = texts.map (fun text => if m = 3 then repaired text else text) := by
  obtain ⟨r, h1, h2, h3, h4⟩ := C80_table w hl hm ht hi wf tab ct hj hs
  refine ⟨r, h1, h2, ?_⟩
  unfold wordsBack
  rw [List.map_map]
  apply List.ext_getElem?
  intro i
  rw [List.getElem?_map, List.getElem?_map]
  cases hb : (readBack r.out)[i]? with
  | none =>
    rw [List.getElem?_eq_none_iff] at hb
    rw [List.getElem?_eq_none (by omega)]
    rfl
  | some table =>
    obtain ⟨hlt, -⟩ := List.getElem?_eq_some_iff.mp hb
    have e : texts[i]? = some (texts[i]'(by omega)) := List.getElem?_eq_getElem (by omega)
    obtain ⟨toks, ha, hsay⟩ := h4 i _ _ e hb
    have htm := htame _ (List.mem_of_getElem? e)
    rw [e, Option.map_some, Option.map_some, Option.some.injEq, Function.comp, saysAll_words hsay, ← List.flatMap_def]
    by_cases h3 : m = 3
    · subst h3
      rw [if_pos rfl]
      exact C03_lossless_repaired htm ha
    · rw [if_neg h3]
      exact C02_lossless htm h3 ha

/-- C80 (lines): without `-split`, in Normal and Search mode, the words of the tables are the lines of the input. -/
theorem C80_lines (hl : TokenizeLine args o) (hm : ModeText o.mode m) (ht : ChosenTokenizer w o t) (hi : ChosenInput w o src)
    (tab : FeatureTables t.dict) (ct : CellTexts t.dict t.userDict) (hj : o.json = false) (hsp : o.split = false) (hmx : m ≠ 3)
    (hr : Lively 0 src.reads) (wf : WellFormed t.dict t.userDict)
    (hshort : ∀ l ∈ rawLines (delivered src.reads), l.length < 65536) (htame : ∀ l ∈ lines (delivered src.reads), Tame t l) :
    ∃ r, Tok.run w args = some r ∧ r.err = src.failure ∧ (wordsBack r.out).map List.flatten = lines (delivered src.reads) := by
  have hs : scanAll (if o.split then defaultSplitter.scanSentences else scanLines) src.reads = some (lines (delivered src.reads), .done) := by
    rw [hsp]
    exact scan_lines src.reads 0 [] hr (by simp) hshort
  obtain ⟨r, h1, h2, h3⟩ := C80_words w hl hm ht hi tab ct hj wf hs htame
  refine ⟨r, h1, h2, ?_⟩
  rw [h3]
  simp [hmx]

/-- C80 (sentences): with `-split` the words, all joined, are the characters of the input that are not white space: all of them when no error is returned, and
otherwise those at the beginning. -/
theorem C80_split (hl : TokenizeLine args o) (hm : ModeText o.mode m) (ht : ChosenTokenizer w o t) (hi : ChosenInput w o src)
    (tab : FeatureTables t.dict) (ct : CellTexts t.dict t.userDict) (hj : o.json = false) (hsp : o.split = true) (hmx : m ≠ 3)
    (hv : ∀ rd ∈ src.reads, ValidUtf8 rd.bytes) (wf : WellFormed t.dict t.userDict)
    (htame : ∀ texts ending, scanAll defaultSplitter.scanSentences src.reads = some (texts, ending) → ∀ text ∈ texts, Tame t text) :
    ∃ r cs ks, Tok.run w args = some r ∧ delivered src.reads = enc cs ∧ (wordsBack r.out).flatten.flatten = enc ks ∧
      ks <+: cs.filter nonSpace ∧ (r.err = none → ks = cs.filter nonSpace) := by
  obtain ⟨texts, ending, cs, ks, h1, h2, h3, h4, h5⟩ := C34_whole_characters defaultSplitter rfl src.reads hv
  have hs : scanAll (if o.split then defaultSplitter.scanSentences else scanLines) src.reads = some (texts, ending) := by rw [hsp]; exact h1
  obtain ⟨r, g1, g2, g3⟩ := C80_words w hl hm ht hi tab ct hj wf hs (htame _ _ h1)
  refine ⟨r, cs, ks, g1, h2, ?_, h4, ?_⟩
  · rw [← h3]
    simp only [hmx, if_false, List.map_id'] at g3
    rw [← g3, List.flatten_flatten]
  · intro he
    apply h5
    rw [g2] at he
    cases ending with
    | done => rfl
    | tooLong => cases he
    | noProgress => cases he

/-- C80: nothing of the input gets lost in the output, not even what the words are: two inputs with the same output — with whatever dictionaries, Normal or Search
mode, in whatever pieces they came — have the same lines. -/
theorem C80_injective {w' : World} {args' : List Bytes} {o' : Tok.Opts} {m' : Int} {t' : Tokenizer} {src' : Source}
    (hl : TokenizeLine args o) (hm : ModeText o.mode m) (ht : ChosenTokenizer w o t) (hi : ChosenInput w o src)
    (tab : FeatureTables t.dict) (ct : CellTexts t.dict t.userDict) (hj : o.json = false) (hsp : o.split = false) (hmx : m ≠ 3)
    (hr : Lively 0 src.reads) (wf : WellFormed t.dict t.userDict)
    (hshort : ∀ l ∈ rawLines (delivered src.reads), l.length < 65536) (htame : ∀ l ∈ lines (delivered src.reads), Tame t l)
    (hl' : TokenizeLine args' o') (hm' : ModeText o'.mode m') (ht' : ChosenTokenizer w' o' t') (hi' : ChosenInput w' o' src')
    (tab' : FeatureTables t'.dict) (ct' : CellTexts t'.dict t'.userDict) (hj' : o'.json = false) (hsp' : o'.split = false) (hmx' : m' ≠ 3)
    (hr' : Lively 0 src'.reads) (wf' : WellFormed t'.dict t'.userDict)
    (hshort' : ∀ l ∈ rawLines (delivered src'.reads), l.length < 65536) (htame' : ∀ l ∈ lines (delivered src'.reads), Tame t' l)
    (hout : (Tok.run w args).map (·.out) = (Tok.run w' args').map (·.out)) :
    lines (delivered src.reads) = lines (delivered src'.reads) := by
  obtain ⟨r, h1, -, h2⟩ := C80_lines w hl hm ht hi tab ct hj hsp hmx hr wf hshort htame
  obtain ⟨r', h1', -, h2'⟩ := C80_lines w' hl' hm' ht' hi' tab' ct' hj' hsp' hmx' hr' wf' hshort' htame'
  rw [h1, h1'] at hout
  simp only [Option.map_some, Option.some.injEq] at hout
  rw [← h2, ← h2', hout]

/-! ## The condition on the dictionaries is needed -/

/-- Two words, `a` with the feature `x<tab>y` and `a<tab>x` with the feature `y`. -/
def Toy.tabbed : Dict := { Toy.dict with
  prefixSearch := Toy.searchFrom 0 ["a", "a\tx"]
  invokeList := [false, false, false, false]
  nameList := [str "x\ty", str "y", str "z", str "z"]
  poss := [[0], [1], [0], [0], [0], [0], [0], [0]]
  contents := none }

def Toy.tabbedWorld (inp : Bytes) : World := { Toy.world with ipa := Toy.tabbed, stdin := ⟨[⟨inp, true⟩], none⟩ }

/-- With a tab in a feature two inputs can have the same output. -/
theorem C80_ambiguous : (Tok.run (Toy.tabbedWorld (str "a")) []).map (·.out) = some (str "a\tx\ty\nEOS\n") ∧
    (Tok.run (Toy.tabbedWorld (str "a\tx")) []).map (·.out) = some (str "a\tx\ty\nEOS\n") := by
  constructor <;> decide +kernel

/-! ## Examples -/

theorem Toy.cellTexts : CellTexts Toy.dict none where
  names := by decide +kernel
  contents := by
    intro cs h
    cases h
    decide +kernel
  unk := by decide +kernel
  user := by intro ud h; cases h

/-- The hypotheses of `C80_lines` are met. -/
example : TokenizeLine [str "-mode=search"] Toy.opts ∧ ModeText Toy.opts.mode 2 ∧ ChosenTokenizer Toy.world Toy.opts Toy.tok ∧
    ChosenInput Toy.world Toy.opts Toy.input ∧ FeatureTables Toy.tok.dict ∧ CellTexts Toy.tok.dict Toy.tok.userDict ∧ Lively 0 Toy.input.reads ∧
    (∀ l ∈ rawLines (delivered Toy.input.reads), l.length < 65536) ∧ (∀ l ∈ lines (delivered Toy.input.reads), Tame Toy.tok l) ∧
    lines (delivered Toy.input.reads) = [str "すもも", str "の"] := by
  refine ⟨Toy.line_ok, .search, .plain (.ipa rfl rfl rfl) rfl, .stdin rfl, Toy.featureTables, Toy.cellTexts, ?_, by decide +kernel, ?_, by decide +kernel⟩
  · simp [Lively, Toy.input, str]
  · have e : lines (delivered Toy.input.reads) = [str "すもも", str "の"] := by decide +kernel
    rw [e]
    intro l hl
    refine ⟨Toy.wellFormed_none, Toy.replacementOk _, fits_short _ ?_⟩
    simp only [List.mem_cons, List.not_mem_nil, or_false] at hl
    rcases hl with rfl | rfl <;> decide +kernel

/-- What is read from an output. -/
example : readBack (str "すもも\t名詞,すもも\nEOS\nの\t助詞,連体化,の\nEOS\n") =
    [[(str "すもも", some (str "名詞,すもも"))], [(str "の", some (str "助詞,連体化,の"))]] := by decide +kernel

/-- Tabs in the input are no obstacle: a word with a tab, and, in Extended mode, the tab as a character of its own. -/
example : readBack (str "a\tb\t記号\n\t\nE\nEOS\n") = [[(str "a\tb", some (str "記号")), (str "\t", none), (str "E", none)]] := by decide +kernel

end Kagome
