import Verif.Proof.Chars
import Verif.Spec.Utf8

/-!
# C33 – C39: the sentence splitter

`s.scanSentences data atEOF` is one call of the split function, `scanAll s.scanSentences reader` a whole scan.
-/

namespace Kagome

open Spec

/-! ## C35, C39: the contract of a split function -/

/-- C35 (one call): `ScanSentences` never panics, keeps the length of the buffer, never advances beyond the data, gives a
token only together with progress, the token lies inside the consumed part, and at the end of the input it always gives
a token unless there is nothing left. -/
theorem C35_contract (s : Splitter) (data : Bytes) (atEOF : Bool) :
    ∃ res, s.scanSentences data atEOF = some res ∧ res.data.length = data.length ∧ res.advance ≤ data.length ∧
      (∀ a b, res.token = some (a, b) → 0 < res.advance ∧ a ≤ b ∧ b ≤ res.advance) ∧
      (atEOF = true → data ≠ [] → res.token ≠ none) := by
  by_cases h : atEOF = false ∨ data ≠ []
  · rcases call_cases s data atEOF h with ⟨H, G, u, rest, h1, hu, -, hH, -, hl, e⟩ | ⟨hE, H, G, u, h1, -, hH, -, -, hl, e⟩ |
        ⟨hE, H, n, u, h1, -, hH, -, -, hl, e⟩
    · refine ⟨_, e, ?_, ?_, ?_, ?_⟩
      · simp only [returned_data, List.length_append]; omega
      · simp only [returned_advance, List.length_append]; omega
      · intro a b hab
        rw [returned_token] at hab
        cases hab
        simp only [returned_advance, List.length_append]
        refine ⟨?_, by omega, by omega⟩
        -- the consumed characters are not empty
        have ht := congrArg text h1
        simp only [text_pieces, text_append] at ht
        have hu2 : 0 < (text u).length := by
          cases u with
          | nil => exact absurd rfl hu
          | cons c u =>
            have := piece_length (s := data) (c := c) (by rw [h1]; simp)
            simp only [text_cons, List.length_append]
            omega
        have := congrArg List.length ht
        simp only [List.length_append] at this
        omega
      · intro _ _; rw [returned_token]; simp
    · refine ⟨_, e, ?_, ?_, ?_, ?_⟩
      · simp only [returned_data, List.length_append, List.length_nil]; omega
      · simp only [returned_advance, List.length_append]; omega
      · intro a b hab
        rw [returned_token] at hab
        cases hab
        have hd : data ≠ [] := by
          rcases h with h | h
          · rw [h] at hE; cases hE
          · exact h
        have := List.length_pos_iff.mpr hd
        simp only [returned_advance, List.length_append]
        omega
      · intro _ _; rw [returned_token]; simp
    · refine ⟨_, e, ?_, ?_, ?_, ?_⟩
      · simp only [List.length_append, List.length_replicate]; omega
      · simp only; omega
      · intro a b hab; cases hab
      · intro h2; rw [hE] at h2; cases h2
  · have hE : atEOF = true := by cases atEOF <;> simp_all
    have hd : data = [] := Classical.byContradiction fun hd => h (.inr hd)
    subst hE hd
    exact ⟨⟨[], 0, none⟩, rfl, rfl, by simp, by simp, by simp⟩

/-- C39: when a token is returned, the unread bytes (those after `advance`) are what they were. -/
theorem C39_unread (s : Splitter) (data : Bytes) (atEOF : Bool) {res : SplitResult} {tok : Nat × Nat}
    (h : s.scanSentences data atEOF = some res) (ht : res.token = some tok) :
    res.data.length = data.length ∧ res.data.drop res.advance = data.drop res.advance ∧
      tok.1 ≤ tok.2 ∧ tok.2 ≤ res.advance := by
  obtain ⟨res', h0, h1, h2, h3, h4⟩ := C35_contract s data atEOF
  rw [h] at h0
  cases h0
  obtain ⟨h5, h6, h7⟩ := h3 tok.1 tok.2 ht
  refine ⟨h1, ?_, h6, h7⟩
  by_cases hc : atEOF = false ∨ data ≠ []
  · rcases call_cases s data atEOF hc with ⟨H, G, u, rest, g1, hu, -, hH, -, hl, e⟩ | ⟨hE, H, G, u, g1, -, hH, -, -, hl, e⟩ |
        ⟨hE, H, n, u, g1, -, hH, -, -, hl, e⟩
    · rw [h] at e
      cases e
      rw [returned_rest, returned_advance]
      have ht := congrArg text g1
      simp only [text_pieces, text_append] at ht
      have e2 : (H ++ text (u.filter (kept s)) ++ G).length = (text (leading s (pieces data)) ++ text u).length := by
        have := congrArg List.length ht
        simp only [List.length_append] at this hl ⊢
        omega
      rw [e2]
      generalize text (leading s (pieces data)) ++ text u = x at ht
      rw [ht, List.drop_left]
    · rw [h] at e
      cases e
      rw [returned_rest, returned_advance]
      have : data.length ≤ (H ++ text (u.filter (kept s)) ++ G).length := by
        simp only [List.length_append]; omega
      rw [List.drop_eq_nil_of_le this]
    · rw [h] at e; cases e; cases ht
  · have hE : atEOF = true := by cases atEOF <;> simp_all
    have hd : data = [] := Classical.byContradiction fun hd => hc (.inr hd)
    subst hE hd
    cases h
    cases ht

/-- The calls on one buffer end, without a panic. -/
theorem drain_total (s : Splitter) (atEOF : Bool) (fuel : Nat) : ∀ buf : Bytes, buf.length < fuel →
    ∃ r, drain s.scanSentences atEOF fuel buf = some r := by
  induction fuel with
  | zero => intro buf h; omega
  | succ fuel ih =>
    intro buf hf
    unfold drain
    split
    · exact ⟨_, rfl⟩
    · obtain ⟨res, h0, h1, h2, h3, -⟩ := C35_contract s buf atEOF
      rw [h0]
      simp only [Option.bind_eq_bind, Option.bind_some]
      rw [if_pos (by omega)]
      cases ht : res.token with
      | none => exact ⟨_, rfl⟩
      | some tok =>
        obtain ⟨a, b⟩ := tok
        obtain ⟨h5, -, -⟩ := h3 a b ht
        obtain ⟨r, hr⟩ := ih (res.data.drop res.advance) (by rw [List.length_drop]; omega)
        simp only [hr, Option.bind_some]
        exact ⟨_, rfl⟩

theorem scanFrom_total (s : Splitter) (reader : List ReadResult) : ∀ (empties : Nat) (buf : Bytes),
    ∃ r, scanFrom s.scanSentences reader empties buf = some r := by
  induction reader with
  | nil =>
    intro empties buf
    obtain ⟨r, hr⟩ := drain_total s true (buf.length + 1) buf (by omega)
    unfold scanFrom
    rw [hr]; exact ⟨_, rfl⟩
  | cons rd rds ih =>
    intro empties buf
    unfold scanFrom
    split
    · obtain ⟨r, hr⟩ := drain_total s true ((buf ++ rd.bytes).length + 1) (buf ++ rd.bytes) (by omega)
      rw [hr]; exact ⟨_, rfl⟩
    · split
      · split
        · obtain ⟨r, hr⟩ := drain_total s true (buf.length + 1) buf (by omega)
          rw [hr]; exact ⟨_, rfl⟩
        · exact ih _ _
      · obtain ⟨r, hr⟩ := drain_total s false ((buf ++ rd.bytes).length + 1) (buf ++ rd.bytes) (by omega)
        rw [hr]
        simp only [Option.bind_eq_bind, Option.bind_some]
        split
        · exact ⟨_, rfl⟩
        · obtain ⟨r2, hr2⟩ := ih 0 r.2
          rw [hr2]; exact ⟨_, rfl⟩

/-- C35 (whole scan): a Scanner over any reader that delivers finitely many pieces ends, without a panic. -/
theorem C35_scan_ends (s : Splitter) (reader : List ReadResult) :
    ∃ sentences ending, scanAll s.scanSentences reader = some (sentences, ending) := by
  obtain ⟨r, hr⟩ := scanFrom_total s reader 0 []
  exact ⟨r.1, r.2, hr⟩

/-! ## C33: nothing is lost without white-space skipping -/

theorem drain_exact {s : Splitter} (h : s.skipWhiteSpace = false) {atEOF : Bool} {fuel : Nat} {buf : Bytes}
    {r : List Bytes × Bytes} (hr : drain s.scanSentences atEOF fuel buf = some r) :
    r.1.flatten ++ r.2 = buf ∧ (atEOF = true → r.2 = []) ∧
      (r.2 = [] ∨ (r.2.length : Int) ≤ 4 * (s.maxRuneLen - 1)) := by
  refine drain_induct s atEOF (fun buf toks left => toks.flatten ++ left = buf ∧ (atEOF = true → left = []) ∧
    (left = [] ∨ (left.length : Int) ≤ 4 * (s.maxRuneLen - 1))) ?_ ?_ ?_ ?_ fuel buf r hr
  · exact ⟨rfl, fun _ => rfl, .inl rfl⟩
  · rintro data used rest toks left h1 - - - ⟨ih1, ih2⟩
    refine ⟨?_, ih2⟩
    rw [kept_off h, List.flatten_cons, List.append_assoc, ih1, ← text_append]
    rw [leading_off h, List.nil_append] at h1
    rw [← h1, text_pieces]
  · intro _ data used _ h1 _ _ _
    refine ⟨?_, fun _ => rfl, .inl rfl⟩
    rw [leading_off h, List.nil_append] at h1
    rw [kept_off h, ← h1, text_pieces]
    simp
  · intro hE data used n hne h1 hrest hbody _ hl
    rw [leading_off h, List.nil_append] at h1
    rw [leading_off h, kept_off h, ← h1, text_pieces] at hl
    have hn : n = 0 := by simp at hl; omega
    subst hn
    refine ⟨?_, fun hx => (by rw [hE] at hx; cases hx), .inr ?_⟩
    · rw [kept_off h, ← h1, text_pieces]; simp
    · have hu := body_unfinished s _ 0 false hrest
      change _ ∧ ((sentence s (pieces data)).body = [] ∨ 0 + ((sentence s (pieces data)).body.length : Int) < _) at hu
      rw [hbody, kept_off h] at hu
      have hlen := length_text_le (b := data) (cs := used) (by rw [h1]; exact fun c hc => hc)
      rw [kept_off h]
      rcases hu.2 with hu2 | hu2
      · rw [hu2] at h1; rw [pieces_eq_nil] at h1; exact absurd h1 hne
      · simp only [List.replicate_zero, List.append_nil]
        omega

theorem scanFrom_exact {s : Splitter} (h : s.skipWhiteSpace = false) (reader : List ReadResult) :
    ∀ (empties : Nat) (buf : Bytes) (toks : List Bytes) (ending : ScanEnd),
    scanFrom s.scanSentences reader empties buf = some (toks, ending) →
      (toks.flatten <+: buf ++ delivered reader) ∧ (ending = .done → toks.flatten = buf ++ delivered reader) ∧
      (s.maxRuneLen ≤ 16384 → ending ≠ .tooLong) := by
  induction reader with
  | nil =>
    intro empties buf toks ending hs
    unfold scanFrom at hs
    cases hd : drain s.scanSentences true (buf.length + 1) buf with
    | none => rw [hd] at hs; cases hs
    | some r =>
      rw [hd] at hs; cases hs
      obtain ⟨h1, h2, -⟩ := drain_exact h hd
      rw [h2 rfl, List.append_nil] at h1
      rw [h1]
      exact ⟨by simp [delivered], by simp [delivered], by simp⟩
  | cons rd rds ih =>
    intro empties buf toks ending hs
    unfold scanFrom at hs
    unfold delivered
    by_cases he : rd.err = true
    · rw [if_pos he] at hs ⊢
      cases hd : drain s.scanSentences true ((buf ++ rd.bytes).length + 1) (buf ++ rd.bytes) with
      | none => rw [hd] at hs; cases hs
      | some r =>
        rw [hd] at hs; cases hs
        obtain ⟨h1, h2, -⟩ := drain_exact h hd
        rw [h2 rfl, List.append_nil] at h1
        rw [h1]
        exact ⟨List.prefix_refl _, fun _ => rfl, by simp⟩
    · rw [if_neg he] at hs ⊢
      by_cases hb : rd.bytes.isEmpty = true
      · rw [if_pos hb] at hs
        have hb' : rd.bytes = [] := List.isEmpty_iff.mp hb
        by_cases hm : maxEmptyReads ≤ empties
        · rw [if_pos hm] at hs
          cases hd : drain s.scanSentences true (buf.length + 1) buf with
          | none => rw [hd] at hs; cases hs
          | some r =>
            rw [hd] at hs; cases hs
            obtain ⟨h1, h2, -⟩ := drain_exact h hd
            rw [h2 rfl, List.append_nil] at h1
            rw [h1]
            exact ⟨List.prefix_append _ _, by simp, by simp⟩
        · rw [if_neg hm] at hs
          have := ih _ _ _ _ hs
          rw [hb', List.nil_append]
          exact this
      · rw [if_neg hb] at hs
        cases hd : drain s.scanSentences false ((buf ++ rd.bytes).length + 1) (buf ++ rd.bytes) with
        | none => rw [hd] at hs; cases hs
        | some r =>
          rw [hd] at hs
          simp only [Option.bind_eq_bind, Option.bind_some] at hs
          obtain ⟨h1, -, h3⟩ := drain_exact h hd
          by_cases ht : maxTokenSize ≤ r.2.length
          · rw [if_pos ht] at hs
            cases hs
            refine ⟨?_, by simp, ?_⟩
            · rw [← List.append_assoc, ← h1, List.append_assoc]; exact List.prefix_append _ _
            · intro hmax
              unfold maxTokenSize at ht
              rcases h3 with h3 | h3
              · rw [h3] at ht; simp at ht
              · omega
          · rw [if_neg ht] at hs
            cases hc : scanFrom s.scanSentences rds 0 r.2 with
            | none => rw [hc] at hs; cases hs
            | some m =>
              rw [hc] at hs
              cases hs
              obtain ⟨g1, g2, g3⟩ := ih 0 r.2 m.1 m.2 hc
              refine ⟨?_, ?_, g3⟩
              · rw [List.flatten_append, ← List.append_assoc, ← h1, List.append_assoc]
                exact (List.prefix_append_right_inj _).mpr g1
              · intro hdone
                rw [List.flatten_append, g2 hdone, ← List.append_assoc, h1, List.append_assoc]

/-- C33: with `SkipWhiteSpace` off the sentences, concatenated, are a prefix of what the reader delivers, and all of it when
the scan ends regularly, however the reader cuts the text. -/
theorem C33_exact (s : Splitter) (hs : s.skipWhiteSpace = false) (reader : List ReadResult) :
    ∃ sentences ending, scanAll s.scanSentences reader = some (sentences, ending) ∧
      sentences.flatten <+: delivered reader ∧ (ending = .done → sentences.flatten = delivered reader) := by
  obtain ⟨toks, ending, h⟩ := C35_scan_ends s reader
  have := scanFrom_exact hs reader 0 [] toks ending h
  rw [List.nil_append] at this
  exact ⟨toks, ending, h, this.1, this.2.1⟩

/-- C33: with `SkipWhiteSpace` off and `MaxRuneLen` at most 16384 (default 128) the scan never fails with
`bufio.ErrTooLong`. -/
theorem C33_never_too_long (s : Splitter) (hs : s.skipWhiteSpace = false) (hm : s.maxRuneLen ≤ 16384)
    (reader : List ReadResult) {sentences : List Bytes} {ending : ScanEnd}
    (h : scanAll s.scanSentences reader = some (sentences, ending)) : ending ≠ .tooLong :=
  (scanFrom_exact hs reader 0 [] sentences ending h).2.2 hm

/-- A configuration without white-space skipping, and two chunks. -/
example : scanAll { defaultSplitter with skipWhiteSpace := false }.scanSentences
    [⟨str "a? b", false⟩, ⟨str "!!c", false⟩] = some ([str "a?", str " b!!", str "c"], .done) := by decide +kernel

/-! ## C34: only white space is lost -/

theorem delivered_chars {l : List ReadResult} (hx : ∀ x ∈ l, ValidUtf8 x.bytes) : ∃ ds, delivered l = enc ds := by
  induction l with
  | nil => exact ⟨[], rfl⟩
  | cons x l ihl =>
    obtain ⟨cx, hcx⟩ := hx x (by simp)
    obtain ⟨cl, hcl⟩ := ihl fun y hy => hx y (by simp [hy])
    unfold delivered
    split
    · exact ⟨cx, hcx⟩
    · exact ⟨cx ++ cl, by rw [hcx, hcl, enc_append]⟩

theorem scanFrom_chars {s : Splitter} (h : s.skipWhiteSpace = true) (reader : List ReadResult)
    (hv : ∀ rd ∈ reader, ValidUtf8 rd.bytes) :
    ∀ (empties : Nat) (bs : List Char) (toks : List Bytes) (ending : ScanEnd),
    scanFrom s.scanSentences reader empties (enc bs) = some (toks, ending) →
      ∃ ds ks, delivered reader = enc ds ∧ toks.flatten = enc ks ∧
        (ks <+: (bs ++ ds).filter nonSpace) ∧ (ending = .done → ks = (bs ++ ds).filter nonSpace) := by
  induction reader with
  | nil =>
    intro empties bs toks ending hs
    unfold scanFrom at hs
    cases hd : drain s.scanSentences true ((enc bs).length + 1) (enc bs) with
    | none => rw [hd] at hs; cases hs
    | some r =>
      rw [hd] at hs; cases hs
      obtain ⟨ks, ls, g1, g2, g3, g4⟩ := drain_chars h hd bs rfl
      rw [g4 rfl] at g3
      simp only [List.filter_nil, List.append_nil] at g3
      exact ⟨[], ks, rfl, g1, by rw [List.append_nil, g3]; exact List.prefix_refl _, fun _ => by rw [List.append_nil, g3]⟩
  | cons rd rds ih =>
    intro empties bs toks ending hs
    have ih := ih fun x hx => hv x (by simp [hx])
    obtain ⟨rs, hrs⟩ := hv rd (by simp)
    change rd.bytes = enc rs at hrs
    unfold scanFrom at hs
    unfold delivered
    by_cases he : rd.err = true
    · rw [if_pos he] at hs ⊢
      cases hd : drain s.scanSentences true ((enc bs ++ rd.bytes).length + 1) (enc bs ++ rd.bytes) with
      | none => rw [hd] at hs; cases hs
      | some r =>
        rw [hd] at hs; cases hs
        obtain ⟨ks, ls, g1, g2, g3, g4⟩ := drain_chars h hd (bs ++ rs) (by rw [hrs, enc_append])
        rw [g4 rfl] at g3
        simp only [List.filter_nil, List.append_nil] at g3
        exact ⟨rs, ks, hrs, g1, by rw [g3]; exact List.prefix_refl _, fun _ => g3⟩
    · rw [if_neg he] at hs ⊢
      by_cases hb : rd.bytes.isEmpty = true
      · rw [if_pos hb] at hs
        have hb' : rd.bytes = [] := List.isEmpty_iff.mp hb
        by_cases hm : maxEmptyReads ≤ empties
        · rw [if_pos hm] at hs
          cases hd : drain s.scanSentences true ((enc bs).length + 1) (enc bs) with
          | none => rw [hd] at hs; cases hs
          | some r =>
            rw [hd] at hs; cases hs
            obtain ⟨ks, ls, g1, g2, g3, g4⟩ := drain_chars h hd bs rfl
            rw [g4 rfl] at g3
            simp only [List.filter_nil, List.append_nil] at g3
            obtain ⟨ds, hds⟩ := delivered_chars (l := rds) fun x hx => hv x (by simp [hx])
            refine ⟨ds, ks, by rw [hb', hds]; rfl, g1, ?_, by simp⟩
            rw [List.filter_append, g3]; exact List.prefix_append _ _
        · rw [if_neg hm] at hs
          obtain ⟨ds, ks, i1, i2, i3⟩ := ih _ _ _ _ hs
          exact ⟨ds, ks, by rw [hb', i1]; rfl, i2, i3⟩
      · rw [if_neg hb] at hs
        cases hd : drain s.scanSentences false ((enc bs ++ rd.bytes).length + 1) (enc bs ++ rd.bytes) with
        | none => rw [hd] at hs; cases hs
        | some r =>
          rw [hd] at hs
          simp only [Option.bind_eq_bind, Option.bind_some] at hs
          obtain ⟨ks, ls, g1, g2, g3, g4⟩ := drain_chars h hd (bs ++ rs) (by rw [hrs, enc_append])
          by_cases ht : maxTokenSize ≤ r.2.length
          · rw [if_pos ht] at hs
            cases hs
            obtain ⟨ds, hds⟩ := delivered_chars (l := rds) fun x hx => hv x (by simp [hx])
            refine ⟨rs ++ ds, ks, by rw [hrs, hds, enc_append], g1, ?_, by simp⟩
            rw [← List.append_assoc, List.filter_append, ← g3, List.append_assoc]
            exact List.prefix_append _ _
          · rw [if_neg ht, g2] at hs
            cases hc : scanFrom s.scanSentences rds 0 (enc ls) with
            | none => rw [hc] at hs; cases hs
            | some m =>
              rw [hc] at hs
              cases hs
              obtain ⟨ds, ks2, i1, i2, i3, i4⟩ := ih 0 ls m.1 m.2 hc
              refine ⟨rs ++ ds, ks ++ ks2, by rw [hrs, i1, enc_append], ?_, ?_, ?_⟩
              · rw [List.flatten_append, g1, i2, enc_append]
              · rw [← List.append_assoc, List.filter_append, ← g3, List.append_assoc]
                rw [List.filter_append] at i3
                exact (List.prefix_append_right_inj _).mpr i3
              · intro hdone
                rw [← List.append_assoc, List.filter_append, ← g3, List.append_assoc, i4 hdone, List.filter_append]

/-- C34: with `SkipWhiteSpace` on and a reader that delivers whole characters, the sentences, concatenated, are the text
without its white space (a prefix of that, if the scan does not end regularly). -/
theorem C34_whole_characters (s : Splitter) (hs : s.skipWhiteSpace = true) (reader : List ReadResult)
    (hv : ∀ rd ∈ reader, ValidUtf8 rd.bytes) :
    ∃ sentences ending cs ks, scanAll s.scanSentences reader = some (sentences, ending) ∧
      delivered reader = enc cs ∧ sentences.flatten = enc ks ∧ ks <+: cs.filter nonSpace ∧
      (ending = .done → ks = cs.filter nonSpace) := by
  obtain ⟨toks, ending, h⟩ := C35_scan_ends s reader
  obtain ⟨cs, ks, h1, h2, h3, h4⟩ := scanFrom_chars hs reader hv 0 [] toks ending h
  exact ⟨toks, ending, cs, ks, h, h1, h2, h3, h4⟩

theorem scanFrom_thin {s : Splitter} (h : s.skipWhiteSpace = true) (reader : List ReadResult) :
    ∀ (empties : Nat) (buf : Bytes) (toks : List Bytes),
    scanFrom s.scanSentences reader empties buf = some (toks, .done) →
      Thin (buf ++ delivered reader) toks.flatten ∧ ∀ x ∈ toks.flatten, x ≠ 0x20 := by
  induction reader with
  | nil =>
    intro empties buf toks hs
    unfold scanFrom at hs
    cases hd : drain s.scanSentences true (buf.length + 1) buf with
    | none => rw [hd] at hs; cases hs
    | some r =>
      rw [hd] at hs; cases hs
      obtain ⟨g1, g2, g3⟩ := drain_thin h hd
      rw [g2 rfl, List.append_nil] at g1
      exact ⟨by simpa [delivered] using g1, g3⟩
  | cons rd rds ih =>
    intro empties buf toks hs
    unfold scanFrom at hs
    unfold delivered
    by_cases he : rd.err = true
    · rw [if_pos he] at hs ⊢
      cases hd : drain s.scanSentences true ((buf ++ rd.bytes).length + 1) (buf ++ rd.bytes) with
      | none => rw [hd] at hs; cases hs
      | some r =>
        rw [hd] at hs; cases hs
        obtain ⟨g1, g2, g3⟩ := drain_thin h hd
        rw [g2 rfl, List.append_nil] at g1
        exact ⟨g1, g3⟩
    · rw [if_neg he] at hs ⊢
      by_cases hb : rd.bytes.isEmpty = true
      · rw [if_pos hb] at hs
        have hb' : rd.bytes = [] := List.isEmpty_iff.mp hb
        by_cases hm : maxEmptyReads ≤ empties
        · rw [if_pos hm] at hs
          cases hd : drain s.scanSentences true (buf.length + 1) buf with
          | none => rw [hd] at hs; cases hs
          | some r => rw [hd] at hs; cases hs
        · rw [if_neg hm] at hs
          rw [hb', List.nil_append]
          exact ih _ _ _ hs
      · rw [if_neg hb] at hs
        cases hd : drain s.scanSentences false ((buf ++ rd.bytes).length + 1) (buf ++ rd.bytes) with
        | none => rw [hd] at hs; cases hs
        | some r =>
          rw [hd] at hs
          simp only [Option.bind_eq_bind, Option.bind_some] at hs
          obtain ⟨g1, -, g3⟩ := drain_thin h hd
          by_cases ht : maxTokenSize ≤ r.2.length
          · rw [if_pos ht] at hs; cases hs
          · rw [if_neg ht] at hs
            cases hc : scanFrom s.scanSentences rds 0 r.2 with
            | none => rw [hc] at hs; cases hs
            | some m =>
              obtain ⟨m1, m2⟩ := m
              rw [hc] at hs
              cases hs
              obtain ⟨i1, i2⟩ := ih 0 r.2 m1 hc
              refine ⟨?_, ?_⟩
              · rw [List.flatten_append, ← List.append_assoc]
                refine (g1.append_right (delivered rds)).trans ?_
                rw [List.append_assoc]
                exact i1.append_left _
              · intro x hx
                rw [List.flatten_append] at hx
                rcases List.mem_append.mp hx with hx | hx
                · exact g3 x hx
                · exact i2 x hx

/-- C34, for every chunking of a valid text, even one that cuts characters in two: when the scan ends regularly, the
sentences, concatenated, are the text with some white-space characters left out and nothing else changed. -/
theorem C34_any_chunks (s : Splitter) (hs : s.skipWhiteSpace = true) (reader : List ReadResult) (cs : List Char)
    (hv : delivered reader = enc cs) {sentences : List Bytes}
    (h : scanAll s.scanSentences reader = some (sentences, .done)) :
    ∃ ks, sentences.flatten = enc ks ∧ ks.Sublist cs ∧ ks.filter nonSpace = cs.filter nonSpace := by
  obtain ⟨h1, h2⟩ := scanFrom_thin hs reader 0 [] sentences h
  rw [List.nil_append, hv] at h1
  obtain ⟨ks, g1, g2, g3⟩ := h1 [] [] (cs.filter (· != ' ')) (by simpa using noBlank_enc cs)
  refine ⟨ks, ?_, g2.trans List.filter_sublist, ?_⟩
  · rw [← g1]
    simp only [List.nil_append, List.append_nil]
    symm
    apply List.filter_eq_self.mpr
    intro x hx
    simpa using h2 x hx
  · rw [g3, List.filter_filter]
    apply List.filter_congr
    intro c _
    by_cases hc : c = ' '
    · subst hc; decide
    · simp [hc]

/-- White space may survive when a reader cuts a character in two (here U+3000 after its first byte; the blank before
makes the splitter pad the buffer). -/
theorem C34_cut_character :
    scanAll defaultSplitter.scanSentences [⟨str "a b" ++ [0xE3], false⟩, ⟨[0x80, 0x80] ++ str "c?", false⟩] =
      some ([str "ab" ++ [0xE3, 0x80, 0x80] ++ str "c?"], .done) := by decide +kernel

example : scanAll defaultSplitter.scanSentences [⟨str "a b\tc", false⟩, ⟨str " ? d", false⟩] =
    some ([str "abc?", str "d"], .done) := by decide +kernel

/-! ## C36: the shape of a sentence -/

/-- C36: the sentence a call returns is a body of at most `max 1 MaxRuneLen` characters, with no delimiter except possibly
the last one, followed by delimiters and followers only; all are characters of the data, in order. -/
theorem C36_shape (s : Splitter) (data : Bytes) (atEOF : Bool) {res : SplitResult} {a b : Nat}
    (h : s.scanSentences data atEOF = some res) (ht : res.token = some (a, b)) :
    ∃ body tail : List Piece, (res.data.take b).drop a = text (body ++ tail) ∧
      (body ++ tail).Sublist (pieces data) ∧
      (body.length : Int) ≤ max 1 s.maxRuneLen ∧
      (∀ c ∈ body.dropLast, s.isDelim c.1 = false) ∧
      (∀ c ∈ tail, s.isDelim c.1 = true ∨ s.isFollower c.1 = true) := by
  have hclose : ∀ c ∈ (sentence s (pieces data)).closing, s.isDelim c.1 = true ∨ s.isFollower c.1 = true := by
    have : ∀ (cs : List Piece) (n : Int) (fed : Bool), ∀ c ∈ (body s n fed cs).closing,
        s.isDelim c.1 = true ∨ s.isFollower c.1 = true := by
      intro cs
      induction cs with
      | nil => intro n fed; simp [body]
      | cons c cs ih =>
        intro n fed
        rcases body_cases s n fed c cs with ⟨-, -, e⟩ | ⟨-, -, -, e⟩ | ⟨-, -, -, e⟩ | ⟨-, -, -, e⟩ | ⟨-, -, -, -, e⟩ <;>
          rw [e]
        · simp
        · exact ih n _
        · simp
        · intro x hx
          obtain ⟨u, -, -, h3⟩ := closing_split s false cs
          simpa using h3 x hx
        · exact ih _ _
    exact this _ 0 false
  by_cases hc : atEOF = false ∨ data ≠ []
  · have hlen := body_at_most s ((pieces data).dropWhile (blank s)) 0 false
    have hdel := body_delim s ((pieces data).dropWhile (blank s)) 0 false
    rw [Int.sub_zero] at hlen
    rcases call_cases s data atEOF hc with ⟨H, G, u, rest, g1, hu, -, hH, hb, hl, e⟩ |
        ⟨hE, H, G, u, g1, -, hH, hb, hcl, hl, e⟩ | ⟨hE, H, n, u, g1, -, hH, -, -, hl, e⟩
    · rw [h] at e
      cases e
      rw [returned_token] at ht
      cases ht
      refine ⟨(sentence s (pieces data)).body, (sentence s (pieces data)).closing, ?_, ?_, hlen, hdel, hclose⟩
      · rw [returned_text, hb]
      · rw [hb, g1, List.append_assoc]
        exact (List.filter_sublist.trans (List.sublist_append_left _ _)).trans (List.sublist_append_right _ _)
    · rw [h] at e
      cases e
      rw [returned_token] at ht
      cases ht
      refine ⟨(sentence s (pieces data)).body, (sentence s (pieces data)).closing, ?_, ?_, hlen, hdel, hclose⟩
      · rw [returned_text, hb, hcl, List.append_nil]
      · rw [hb, hcl, List.append_nil, g1]
        exact List.filter_sublist.trans (List.sublist_append_right _ _)
    · rw [h] at e; cases e; cases ht
  · have hE : atEOF = true := by cases atEOF <;> simp_all
    have hd : data = [] := Classical.byContradiction fun hd => hc (.inr hd)
    subst hE hd
    cases h
    cases ht

/-- A call with a token (hypotheses of `C39_unread` and `C36_shape`): white space and the leftover are in front of the unread `c`. -/
example : defaultSplitter.scanSentences (str " a b?) c") false = some ⟨str " ab?)) c", 7, some (1, 5)⟩ := by decide +kernel

/-- C36, the other direction: without `DoubleLineFeedSplit`, and with no white space among the delimiters, a sentence that
leaves text behind ends with a delimiter or has reached `MaxRuneLen`, and the text behind it starts with a character that is
neither delimiter nor follower nor skipped white space. -/
theorem C36_no_early_cut (s : Splitter) (data : Bytes) (atEOF : Bool) {res : SplitResult} {a b : Nat}
    (hf : s.doubleLineFeedSplit = false) (hw : ∀ r, isSpace r = true → s.isDelim r = false)
    (h : s.scanSentences data atEOF = some res) (ht : res.token = some (a, b)) (hl : res.advance < data.length) :
    ∃ (body tail : List Piece) (last next : Piece) (more : List Piece),
      (res.data.take b).drop a = text (body ++ [last] ++ tail) ∧
      (s.isDelim last.1 = true ∨ s.maxRuneLen ≤ body.length + 1) ∧
      data.drop res.advance = text (next :: more) ∧ pieces (data.drop res.advance) = next :: more ∧
      s.isDelim next.1 = false ∧ s.isFollower next.1 = false ∧ (s.skipWhiteSpace && isSpace next.1) = false := by
  have hun := (C39_unread s data atEOF h ht).2.1
  have hcl : ∀ (cs : List Piece) (fed : Bool) (c : Piece) (r : List Piece), (closing s fed cs).2 = c :: r →
      s.isDelim c.1 = false ∧ s.isFollower c.1 = false ∧ blank s c = false := by
    intro cs
    induction cs with
    | nil => intro fed c r hx; simp [closing] at hx
    | cons d cs ih =>
      intro fed c r hx
      have hfd : feed s d = false := by simp [feed, hf]
      unfold closing at hx
      by_cases hb : blank s d = true
      · rw [if_pos hb, hfd] at hx
        exact ih _ c r hx
      · rw [if_neg hb] at hx
        by_cases hd : (s.isDelim d.1 || s.isFollower d.1) = true
        · rw [if_pos hd] at hx; exact ih _ c r hx
        · rw [if_neg hd] at hx
          cases hx
          rw [Bool.or_eq_true, not_or] at hd
          exact ⟨by simpa using hd.1, by simpa using hd.2, by simpa using hb⟩
  have hbody : ∀ (cs : List Piece) (n : Int) (fed : Bool) (c : Piece) (r : List Piece),
      (body s n fed cs).rest = some (c :: r) →
      (∃ bd last, (body s n fed cs).body = bd ++ [last] ∧ (s.isDelim last.1 = true ∨ s.maxRuneLen ≤ n + bd.length + 1)) ∧
      s.isDelim c.1 = false ∧ s.isFollower c.1 = false ∧ blank s c = false := by
    intro cs
    induction cs with
    | nil => intro n fed c r hx; simp [body] at hx
    | cons d cs ih =>
      intro n fed c r hx
      have hfd : feed s d = false := by simp [feed, hf]
      rcases body_cases s n fed d cs with ⟨hb, hd, e⟩ | ⟨-, -, -, e⟩ | ⟨-, hd, -, e⟩ | ⟨-, -, hd, e⟩ | ⟨-, -, -, hm, e⟩ <;>
        rw [e] at hx ⊢
      · exfalso
        rcases hd with hd | ⟨hd, -⟩
        · rw [blank, Bool.and_eq_true] at hb
          rw [hw _ hb.2] at hd; cases hd
        · rw [hfd] at hd; cases hd
      · exact ih n _ c r hx
      · rw [hfd] at hd; cases hd
      · exact ⟨⟨[], d, rfl, by simpa using hd⟩, hcl _ _ _ _ (Option.some.inj hx)⟩
      · obtain ⟨⟨bd, last, h1, h2⟩, h3⟩ := ih _ _ c r hx
        refine ⟨⟨d :: bd, last, by simp [Cut.cons, h1], ?_⟩, h3⟩
        rcases h2 with h2 | h2
        · exact .inl h2
        · right; simp only [List.length_cons]; omega
  by_cases hc : atEOF = false ∨ data ≠ []
  · rcases call_cases s data atEOF hc with ⟨H, G, u, rest, g1, hu, hr, hH, hb, hlen, e⟩ |
        ⟨hE, H, G, u, g1, -, hH, hb, hcl2, hlen, e⟩ | ⟨hE, H, n, u, g1, -, hH, -, -, hlen, e⟩
    · rw [h] at e
      cases e
      rw [returned_token] at ht
      cases ht
      rw [returned_rest] at hun
      have hrest : pieces (text rest) = rest := pieces_text_suffix g1
      cases rest with
      | nil =>
        rw [returned_advance] at hl
        simp only [List.length_append, text_nil, List.length_nil] at hl hlen
        omega
      | cons c r =>
        obtain ⟨⟨bd, last, h1, h2⟩, h3, h4, h5⟩ := hbody _ _ _ c r hr
        refine ⟨bd, (sentence s (pieces data)).closing, last, c, r, ?_, ?_, hun.symm, ?_, h3, h4, h5⟩
        · rw [returned_text, ← hb]
          change text ((sentence s (pieces data)).body ++ _) = _
          rw [sentence, h1]
        · simpa using h2
        · rw [← hun, hrest]
    · rw [h] at e
      cases e
      rw [returned_advance] at hl
      simp only [List.length_append] at hl
      omega
    · rw [h] at e; cases e; cases ht
  · have hE : atEOF = true := by cases atEOF <;> simp_all
    have hd : data = [] := Classical.byContradiction fun hd => hc (.inr hd)
    subst hE hd
    cases h
    cases ht

/-- The hypotheses of `C36_no_early_cut` are met. -/
example : ∃ res, { defaultSplitter with doubleLineFeedSplit := false }.scanSentences (str "ab?) c") false = some res ∧
    res.token = some (0, 4) ∧ res.advance = 5 := ⟨_, rfl, by decide +kernel, by decide +kernel⟩

/-! ## C37: line feeds -/

/-- A line feed character. -/
def lf : Piece := (10, [10])

theorem closing_feeds {s : Splitter} (hf : s.doubleLineFeedSplit = true)
    (hd : s.skipWhiteSpace = true ∨ (s.isDelim 10 = false ∧ s.isFollower 10 = false)) (x y : List Piece) :
    ∀ fed, ∃ z, (closing s fed (x ++ lf :: lf :: y)).2 = z ++ y := by
  have hfeed : feed s lf = true := by simp [feed, hf, lf]
  induction x with
  | nil =>
    intro fed
    by_cases hs : s.skipWhiteSpace = true
    · have hb : blank s lf = true := by simp [blank, hs, lf, isSpace]
      cases fed with
      | true => exact ⟨[lf], by simp [closing, hb, hfeed]⟩
      | false => exact ⟨[], by simp [closing, hb, hfeed]⟩
    · have hb : blank s lf = false := by simp [blank, hs]
      obtain ⟨h1, h2⟩ := hd.resolve_left hs
      have h1' : s.isDelim lf.1 = false := h1
      have h2' : s.isFollower lf.1 = false := h2
      exact ⟨[lf, lf], by simp [closing, hb, h1', h2']⟩
  | cons c x ih =>
    intro fed
    rw [List.cons_append]
    unfold closing
    split
    · split
      · exact ⟨x ++ [lf, lf], by simp⟩
      · exact ih _
    · split
      · exact ih _
      · exact ⟨c :: x ++ [lf, lf], by simp⟩

theorem body_feeds {s : Splitter} (hf : s.doubleLineFeedSplit = true)
    (hd : s.skipWhiteSpace = true ∨ (s.isDelim 10 = false ∧ s.isFollower 10 = false)) (x y : List Piece) :
    ∀ n fed, ∃ z, (body s n fed (x ++ lf :: lf :: y)).rest = some (z ++ y) := by
  have hfeed : feed s lf = true := by simp [feed, hf, lf]
  induction x with
  | nil =>
    intro n fed
    rw [List.nil_append]
    rcases body_cases s n fed lf (lf :: y) with ⟨-, -, e⟩ | ⟨hb, hdl, -, e⟩ | ⟨-, -, -, e⟩ | ⟨hnb, -, -, e⟩ | ⟨hb, -, hdl, hm, e⟩ <;>
      rw [e]
    · exact ⟨[lf], rfl⟩
    · rcases body_cases s n (feed s lf) lf y with ⟨-, -, e⟩ | ⟨-, -, h, e⟩ | ⟨-, -, -, e⟩ | ⟨h, -, -, e⟩ | ⟨h, -, -, -, e⟩
      · rw [e]; exact ⟨[], rfl⟩
      · exact absurd ⟨hfeed, hfeed⟩ h
      · rw [e]; exact ⟨[], rfl⟩
      · rw [hb] at h; cases h
      · rw [hb] at h; cases h
    · exact ⟨[lf], rfl⟩
    · obtain ⟨z, hz⟩ := closing_feeds hf hd [] y false
      have hb : ∃ z, (closing s false (lf :: y)).2 = z ++ y := by
        by_cases hs : s.skipWhiteSpace = true
        · simp [blank, hs, lf, isSpace] at hnb
        · have hb : blank s lf = false := by simp [blank, hs]
          obtain ⟨h1, h2⟩ := hd.resolve_left hs
          have h1' : s.isDelim lf.1 = false := h1
          have h2' : s.isFollower lf.1 = false := h2
          exact ⟨[lf], by simp [closing, hb, h1', h2']⟩
      obtain ⟨z, hz⟩ := hb
      exact ⟨z, by simp [hz]⟩
    · rcases body_cases s (n + 1) (fed || feed s lf) lf y with ⟨h, -, e⟩ | ⟨h, -, -, e⟩ | ⟨-, -, -, e⟩ | ⟨-, h, -, e⟩ | ⟨-, h, -, -, e⟩
      · rw [hb] at h; cases h
      · rw [hb] at h; cases h
      · rw [e]; exact ⟨[], rfl⟩
      · exact absurd ⟨hfeed, by simp [hfeed]⟩ h
      · exact absurd ⟨hfeed, by simp [hfeed]⟩ h
  | cons c x ih =>
    intro n fed
    rw [List.cons_append]
    rcases body_cases s n fed c (x ++ lf :: lf :: y) with ⟨-, -, e⟩ | ⟨-, -, -, e⟩ | ⟨-, -, -, e⟩ | ⟨-, -, -, e⟩ | ⟨-, -, -, -, e⟩ <;>
      rw [e]
    · exact ⟨x ++ [lf, lf], by simp⟩
    · exact ih _ _
    · exact ⟨x ++ [lf, lf], by simp⟩
    · obtain ⟨z, hz⟩ := closing_feeds hf hd x y false
      exact ⟨z, by simp [hz]⟩
    · exact ih _ _

/-- C37, first half: with `DoubleLineFeedSplit` on, a call on data with two consecutive line feeds (after the first character
that is not skipped, if white space is skipped) returns a sentence that ends no later than there. The line feed must not be
configured as a delimiter or follower itself, unless white space is skipped. -/
theorem C37_double (s : Splitter) (hf : s.doubleLineFeedSplit = true)
    (hd : s.skipWhiteSpace = true ∨ (s.isDelim 10 = false ∧ s.isFollower 10 = false))
    (data : Bytes) (atEOF : Bool) (x y : List Piece)
    (hx : pieces data = x ++ lf :: lf :: y) (hc : s.skipWhiteSpace = true → ∃ c ∈ x, isSpace c.1 = false) :
    ∃ res tok, s.scanSentences data atEOF = some res ∧ res.token = some tok ∧
      res.advance ≤ (text (x ++ [lf, lf])).length := by
  have hdrop : ∃ x', (pieces data).dropWhile (blank s) = x' ++ lf :: lf :: y := by
    by_cases hs : s.skipWhiteSpace = true
    · obtain ⟨c, hcx, hcs⟩ := hc hs
      rw [hx]
      clear hx hc
      induction x with
      | nil => simp at hcx
      | cons d x ih =>
        rw [List.cons_append, List.dropWhile_cons]
        by_cases hb : blank s d = true
        · rw [if_pos hb]
          rcases List.mem_cons.mp hcx with h | h
          · subst h
            rw [blank, hcs, Bool.and_false] at hb; cases hb
          · exact ih h
        · rw [if_neg hb]; exact ⟨d :: x, rfl⟩
    · have : ∀ l : List Piece, l.dropWhile (blank s) = l := by
        intro l
        cases l with
        | nil => rfl
        | cons d l => rw [List.dropWhile_cons, if_neg (by simp [blank, hs])]
      exact ⟨x, by rw [this, hx]⟩
  obtain ⟨x', hx'⟩ := hdrop
  obtain ⟨z, hz⟩ := body_feeds hf hd x' y 0 false
  rw [← hx'] at hz
  change (sentence s (pieces data)).rest = _ at hz
  have hne : data ≠ [] := by rintro rfl; rw [pieces_nil] at hx; simp at hx
  rcases call_cases s data atEOF (.inr hne) with ⟨H, G, u, rest, g1, hu, hr, hH, hb, hl, e⟩ |
      ⟨hE, H, G, u, g1, hr, hH, hb, hcl, hl, e⟩ | ⟨hE, H, n, u, g1, hr, hH, -, -, hl, e⟩
  · refine ⟨_, _, e, returned_token _ _ _ _, ?_⟩
    rw [hz] at hr
    cases hr
    have hlen := congrArg (fun l => (text l).length) hx
    simp only [text_pieces, text_append, text_cons, text_nil, List.length_append, List.length_nil] at hlen
    rw [returned_advance]
    simp only [text_append, text_cons, text_nil, List.length_append, List.length_nil] at hl ⊢
    omega
  · rw [hz] at hr; cases hr
  · rw [hz] at hr; cases hr

example : ∃ res tok, defaultSplitter.scanSentences (str "a b\n\nc") false = some res ∧ res.token = some tok ∧
    res.advance ≤ 5 := by
  obtain ⟨r, t, h1, h2, h3⟩ := C37_double defaultSplitter rfl (.inl rfl) (str "a b\n\nc") false
    (pieces (str "a b")) (pieces (str "c")) (by decide +kernel) (fun _ => ⟨(97, [97]), by decide +kernel, by decide⟩)
  exact ⟨r, t, h1, h2, h3⟩

/-- C37, the full second half for a splitter: when no two line feeds of the data are adjacent, the call returns the same sentence
and advance whether `DoubleLineFeedSplit` is on or off. -/
def C37_claim (s : Splitter) : Prop := ∀ (data : Bytes) (atEOF : Bool) (on off : SplitResult),
  (∀ x y, data ≠ x ++ 10 :: 10 :: y) → { s with doubleLineFeedSplit := true }.scanSentences data atEOF = some on →
  { s with doubleLineFeedSplit := false }.scanSentences data atEOF = some off → on.advance = off.advance ∧ on.token = off.token

/-- C37, second half, is false of the code: in `"a\nb\nc"` no two line feeds are adjacent, and yet the sentence is cut at the
second one (filter/sentence_splitter.go:80-97 does not clear `nn` at a character that is not white space). -/
theorem C37_single_violated :
    defaultSplitter.scanSentences (str "a\nb\nc") true = some ⟨str "abb\nc", 4, some (0, 2)⟩ := by decide +kernel

/-- C37, second half, as claimed does not hold of the default splitter. -/
theorem C37_claim_false : ¬ C37_claim defaultSplitter := by
  intro h
  have := h (str "a\nb\nc") true ⟨str "abb\nc", 4, some (0, 2)⟩ ⟨str "abc\nc", 5, some (0, 3)⟩ ?_ C37_single_violated
    (by decide +kernel)
  · exact absurd this.1 (by decide)
  · intro x y e
    have h1 : ((str "a\nb\nc").drop x.length).take 2 = [10, 10] := by rw [e, List.drop_left]; rfl
    have h2 : x.length < 6 := by
      have := congrArg List.length e
      rw [show (str "a\nb\nc").length = 5 by decide +kernel] at this
      simp only [List.length_append, List.length_cons] at this; omega
    have h3 : ∀ k < 6, ((str "a\nb\nc").drop k).take 2 ≠ [10, 10] := by decide +kernel
    exact h3 x.length h2 h1

theorem closing_one_feed {s : Splitter} (cs : List Piece) : ∀ fed,
    (fed = false ∧ (cs.filter (·.1 == 10)).length ≤ 1 ∨ (cs.filter (·.1 == 10)).length = 0) →
    closing { s with doubleLineFeedSplit := true } fed cs = closing { s with doubleLineFeedSplit := false } false cs := by
  induction cs with
  | nil => intro fed _; rfl
  | cons c cs ih =>
    intro fed h
    have hb : blank { s with doubleLineFeedSplit := true } c = blank { s with doubleLineFeedSplit := false } c := rfl
    have hf1 : feed { s with doubleLineFeedSplit := true } c = (c.1 == 10) := by simp [feed]
    have hf2 : feed { s with doubleLineFeedSplit := false } c = false := by simp [feed]
    unfold closing
    rw [hf1, hf2, hb]
    simp only [Splitter.isDelim, Splitter.isFollower]
    by_cases hc : (c.1 == 10) = true
    · rw [List.filter_cons, if_pos hc] at h
      simp only [List.length_cons] at h
      have hfed : fed = false := by rcases h with h | h; exact h.1; omega
      subst hfed
      rw [hc]
      simp only [Bool.and_false, Bool.false_eq_true, if_false, Bool.or_true, Bool.or_false]
      rw [ih true (.inr (by omega))]
      rw [ih false (.inr (by omega))]
      rfl
    · rw [List.filter_cons, if_neg hc] at h
      have hc' : (c.1 == 10) = false := by simpa using hc
      rw [hc']
      simp only [Bool.false_and, Bool.false_eq_true, if_false, Bool.or_false]
      rw [ih fed h]
      rfl

theorem body_one_feed {s : Splitter} (cs : List Piece) : ∀ (n : Int) fed,
    (fed = false ∧ (cs.filter (·.1 == 10)).length ≤ 1 ∨ (cs.filter (·.1 == 10)).length = 0) →
    body { s with doubleLineFeedSplit := true } n fed cs = body { s with doubleLineFeedSplit := false } n false cs := by
  induction cs with
  | nil => intro n fed _; rfl
  | cons c cs ih =>
    intro n fed h
    have hb : blank { s with doubleLineFeedSplit := true } c = blank { s with doubleLineFeedSplit := false } c := rfl
    have hf1 : feed { s with doubleLineFeedSplit := true } c = (c.1 == 10) := by simp [feed]
    have hf2 : feed { s with doubleLineFeedSplit := false } c = false := by simp [feed]
    unfold body
    rw [hf1, hf2, hb]
    simp only [Splitter.isDelim]
    by_cases hc : (c.1 == 10) = true
    · rw [List.filter_cons, if_pos hc] at h
      simp only [List.length_cons] at h
      have hfed : fed = false := by rcases h with h | h; exact h.1; omega
      subst hfed
      rw [hc]
      simp only [Bool.and_false, Bool.false_eq_true, if_false, Bool.or_true, Bool.or_false, if_true]
      rw [ih n true (.inr (by omega)), ih (n + 1) true (.inr (by omega)), closing_one_feed cs false (.inr (by omega))]
    · rw [List.filter_cons, if_neg hc] at h
      have hc' : (c.1 == 10) = false := by simpa using hc
      rw [hc']
      simp only [Bool.false_and, Bool.false_eq_true, if_false, Bool.or_false]
      have h0 : (false = false ∧ (cs.filter (·.1 == 10)).length ≤ 1) ∨ (cs.filter (·.1 == 10)).length = 0 := by
        rcases h with h | h
        · exact .inl ⟨rfl, h.2⟩
        · exact .inr h
      rw [ih n false h0, ih (n + 1) fed h, closing_one_feed cs false h0]

theorem same_call (s : Splitter) (data : Bytes) (atEOF : Bool)
    (hs : sentence { s with doubleLineFeedSplit := true } (pieces data) =
      sentence { s with doubleLineFeedSplit := false } (pieces data)) :
    ∃ on off, { s with doubleLineFeedSplit := true }.scanSentences data atEOF = some on ∧
      { s with doubleLineFeedSplit := false }.scanSentences data atEOF = some off ∧
      on.advance = off.advance ∧ on.token = off.token ∧
      ∀ a b, on.token = some (a, b) → (on.data.take b).drop a = (off.data.take b).drop a := by
  by_cases hc : atEOF = false ∨ data ≠ []
  · have h1 := scanSentences_spec { s with doubleLineFeedSplit := true } data atEOF hc
    have h2 := scanSentences_spec { s with doubleLineFeedSplit := false } data atEOF hc
    rw [hs] at h1
    change Answer _ _ (text (leading { s with doubleLineFeedSplit := false } (pieces data))) _ _ _ at h1
    unfold Answer at h1 h2
    generalize (sentence { s with doubleLineFeedSplit := false } (pieces data)) = k at h1 h2
    generalize text (leading { s with doubleLineFeedSplit := false } (pieces data)) = H at h1 h2
    obtain ⟨bd, cl, rest⟩ := k
    cases rest with
    | some rest =>
      obtain ⟨G1, l1, e1⟩ := h1
      obtain ⟨G2, l2, e2⟩ := h2
      refine ⟨_, _, e1, e2, ?_, rfl, ?_⟩
      · simp only [returned_advance, List.length_append] at l1 l2 ⊢; omega
      · intro a b hab
        rw [returned_token] at hab
        cases hab
        rw [returned_text, returned_text]
    | none =>
      cases atEOF with
      | true =>
        obtain ⟨G1, l1, e1⟩ := h1
        obtain ⟨G2, l2, e2⟩ := h2
        refine ⟨_, _, e1, e2, ?_, rfl, ?_⟩
        · simp only [returned_advance, List.length_append] at l1 l2 ⊢; omega
        · intro a b hab
          rw [returned_token] at hab
          cases hab
          rw [returned_text, returned_text]
      | false =>
        obtain ⟨n1, l1, e1⟩ := h1
        obtain ⟨n2, l2, e2⟩ := h2
        exact ⟨_, _, e1, e2, rfl, rfl, by simp⟩
  · have hE : atEOF = true := by cases atEOF <;> simp_all
    have hd : data = [] := Classical.byContradiction fun hd => hc (.inr hd)
    subst hE hd
    exact ⟨⟨[], 0, none⟩, ⟨[], 0, none⟩, rfl, rfl, rfl, rfl, by simp⟩

/-- C37, what holds of the second half: when at most one line feed follows the skipped beginning of the data, the call returns
the same sentence and advance whether `DoubleLineFeedSplit` is on or off. Missing from the full claim: texts with several line
feeds that are not adjacent, where the code does split (`C37_single_violated`). -/
theorem C37_single_partial (s : Splitter) (data : Bytes) (atEOF : Bool)
    (h : (((pieces data).dropWhile (blank s)).filter (·.1 == 10)).length ≤ 1) :
    ∃ on off, { s with doubleLineFeedSplit := true }.scanSentences data atEOF = some on ∧
      { s with doubleLineFeedSplit := false }.scanSentences data atEOF = some off ∧
      on.advance = off.advance ∧ on.token = off.token ∧
      ∀ a b, on.token = some (a, b) → (on.data.take b).drop a = (off.data.take b).drop a :=
  same_call s data atEOF (body_one_feed _ 0 false (.inl ⟨rfl, h⟩))

example : (((pieces (str "\n\na\nb?c")).dropWhile (blank defaultSplitter)).filter (·.1 == 10)).length ≤ 1 := by
  decide +kernel

/-! ## C38: chunks -/

/-- The non-empty sentences. -/
def nonEmpty (l : List Bytes) : List Bytes := l.filter (fun t => !t.isEmpty)

/-- C38, the full claim for a splitter: readers that deliver the same text give the same sentences. -/
def C38_claim (s : Splitter) : Prop := ∀ (one two : List ReadResult) (a b : List Bytes), delivered one = delivered two →
  scanAll s.scanSentences one = some (a, .done) → scanAll s.scanSentences two = some (b, .done) → nonEmpty a = nonEmpty b

/-- C38 is false of the code: the same text, delivered in one piece or in two, is split differently. A double line feed that
straddles the pieces is missed; a closing bracket in the second piece is not attached to its sentence. -/
theorem C38_violated :
    (∃ one two : List ReadResult, delivered one = delivered two ∧
      scanAll defaultSplitter.scanSentences one = some ([str "a", str "b"], .done) ∧
      scanAll defaultSplitter.scanSentences two = some ([str "ab"], .done)) ∧
    (∃ one two : List ReadResult, delivered one = delivered two ∧
      scanAll defaultSplitter.scanSentences one = some ([str "a?)", str "b"], .done) ∧
      scanAll defaultSplitter.scanSentences two = some ([str "a?", str ")b"], .done)) :=
  ⟨⟨[⟨str "a\n\nb", false⟩], [⟨str "a\n", false⟩, ⟨str "\nb", false⟩], by decide +kernel, by decide +kernel,
    by decide +kernel⟩,
   ⟨[⟨str "a?)b", false⟩], [⟨str "a?", false⟩, ⟨str ")b", false⟩], by decide +kernel, by decide +kernel,
    by decide +kernel⟩⟩

/-- C38 as claimed does not hold of the default splitter. -/
theorem C38_claim_false : ¬ C38_claim defaultSplitter := by
  intro h
  obtain ⟨⟨one, two, h1, h2, h3⟩, -⟩ := C38_violated
  exact absurd (h one two _ _ h1 h2 h3) (by decide +kernel)

theorem nonEmpty_append (a b : List Bytes) : nonEmpty (a ++ b) = nonEmpty a ++ nonEmpty b := by simp [nonEmpty]

theorem sentence_empty {s : Splitter} {cs : List Piece} (h : cs.dropWhile (blank s) = []) :
    sentence s cs = ⟨[], [], none⟩ := by unfold sentence; rw [h]; rfl

theorem sentence_body_ne {s : Splitter} {cs : List Piece} (h : cs.dropWhile (blank s) ≠ []) :
    (sentence s cs).body ≠ [] := by
  cases hd : cs.dropWhile (blank s) with
  | nil => exact absurd hd h
  | cons c r =>
    have hb : blank s c = false := by
      have := List.head_dropWhile_not (blank s) h
      simp only [hd, List.head_cons] at this
      exact this
    obtain ⟨b, hb⟩ := body_first s 0 false c r hb
    unfold sentence
    rw [hd, hb]; simp

theorem text_ne_nil {b : Bytes} {cs : List Piece} (h : ∀ c ∈ cs, c ∈ pieces b) (hne : cs ≠ []) : text cs ≠ [] := by
  cases cs with
  | nil => exact absurd rfl hne
  | cons c cs =>
    have := piece_length (h c (by simp))
    intro h0
    rw [text_cons] at h0
    have := congrArg List.length h0
    simp only [List.length_append, List.length_nil] at this
    omega

theorem sentencesUpTo_enough (s : Splitter) : ∀ (n m : Nat) (cs : List Piece), cs.length ≤ n → cs.length ≤ m →
    sentencesUpTo s n cs = sentencesUpTo s m cs := by
  intro n
  induction n with
  | zero =>
    intro m cs h _
    have : cs = [] := List.length_eq_zero_iff.mp (by omega)
    subst this
    cases m <;> simp [sentencesUpTo]
  | succ n ih =>
    intro m cs h1 h2
    cases m with
    | zero =>
      have : cs = [] := List.length_eq_zero_iff.mp (by omega)
      subst this
      simp [sentencesUpTo]
    | succ m =>
      unfold sentencesUpTo
      split
      · rfl
      · congr 1
        obtain ⟨u, g1, g2, g3, g4⟩ := sentence_split s cs
        cases hr : (sentence s cs).rest with
        | none => rfl
        | some rest =>
          rw [hr] at g1 g3
          have hu := List.length_pos_iff.mpr (g3 rfl)
          have := congrArg List.length g1
          simp only [List.length_append, Option.getD_some] at this
          exact ih m rest (by omega) (by omega)

/-- The sentences of a text given as characters. -/
def sentencesOf (s : Splitter) (cs : List Piece) : List Bytes := (sentencesUpTo s cs.length cs).map text

theorem sentencesOf_cons {s : Splitter} {cs rest : List Piece} (h : (sentence s cs).rest = some rest) :
    sentencesOf s cs = text ((sentence s cs).body ++ (sentence s cs).closing) :: sentencesOf s rest := by
  have hd : cs.dropWhile (blank s) ≠ [] := by
    intro h0; rw [sentence_empty h0] at h; cases h
  obtain ⟨u, g1, g2, g3, g4⟩ := sentence_split s cs
  rw [h] at g1 g3
  have hu := List.length_pos_iff.mpr (g3 rfl)
  have hl := congrArg List.length g1
  simp only [List.length_append, Option.getD_some] at hl
  unfold sentencesOf
  cases hn : cs.length with
  | zero => omega
  | succ n =>
    rw [sentencesUpTo, if_neg hd, h]
    simp only [List.map_cons]
    rw [sentencesUpTo_enough s n rest.length rest (by omega) (by omega)]

theorem sentencesOf_last {s : Splitter} {cs : List Piece} (h : (sentence s cs).rest = none) :
    sentencesOf s cs = if cs.dropWhile (blank s) = [] then [] else [text (sentence s cs).body] := by
  obtain ⟨u, g1, g2, g3, g4⟩ := sentence_split s cs
  unfold sentencesOf
  cases hn : cs.length with
  | zero =>
    have : cs = [] := List.length_eq_zero_iff.mp hn
    subst this; simp [sentencesUpTo]
  | succ n =>
    rw [sentencesUpTo]
    split
    · rfl
    · rw [h, g4 h]; simp

/-- What the calls on a buffer at the end of the input give. -/
theorem drain_eof_sentences {s : Splitter} {fuel : Nat} {buf : Bytes} {r : List Bytes × Bytes}
    (hr : drain s.scanSentences true fuel buf = some r) : nonEmpty r.1 = sentencesOf s (pieces buf) := by
  refine drain_induct s true (fun buf toks _ => nonEmpty toks = sentencesOf s (pieces buf)) ?_ ?_ ?_ ?_ fuel buf r hr
  · rfl
  · intro data used rest toks left h1 h2 h3 hne ih
    rw [sentencesOf_cons h2, h3]
    rw [pieces_text_suffix h1] at ih
    rw [← ih]
    have hd : (pieces data).dropWhile (blank s) ≠ [] := by
      intro h0; rw [sentence_empty h0] at h2; cases h2
    have hb := sentence_body_ne hd
    have hu : used.filter (kept s) ≠ [] := by rw [← h3]; simp [hb]
    have ht := text_ne_nil (b := data) (cs := used.filter (kept s))
      (fun c hc => by rw [h1]; have := (List.mem_filter.mp hc).1; simp [this]) hu
    simp [nonEmpty, ht]
  · intro _ data used hne h1 h2 h3 h4
    rw [sentencesOf_last h2, h3]
    by_cases hd : (pieces data).dropWhile (blank s) = []
    · rw [if_pos hd]
      rw [sentence_empty hd] at h3
      rw [← h3]; rfl
    · rw [if_neg hd]
      have hb := sentence_body_ne hd
      have ht := text_ne_nil (b := data) (cs := used.filter (kept s))
        (fun c hc => by rw [h1]; have := (List.mem_filter.mp hc).1; simp [this]) (by rw [← h3]; exact hb)
      simp [nonEmpty, ht]
  · intro h; cases h

/-- Rescanning an unfinished sentence followed by blanks. -/
theorem body_rescan {s : Splitter} (hs : s.skipWhiteSpace = true) (hsp : s.isDelim 0x20 = false) (sp : List Piece)
    (hsps : ∀ c ∈ sp, c.1 = 0x20) (fs : List Piece) : ∀ (n : Int) (fed : Bool),
    (∀ c ∈ fs, blank s c = false) → (∀ c ∈ fs, s.isDelim c.1 = false) → (fs = [] ∨ n + fs.length < s.maxRuneLen) →
    body s n fed (fs ++ sp) = ⟨fs, [], none⟩ := by
  induction fs with
  | nil =>
    intro n fed _ _ _
    rw [List.nil_append]
    induction sp generalizing fed with
    | nil => rfl
    | cons c sp ih =>
      have hc := hsps c (by simp)
      have hb : blank s c = true := by rw [blank, hs, hc]; rfl
      have hf : feed s c = false := by rw [feed, hc]; simp
      have hd : s.isDelim c.1 = false := by rw [hc]; exact hsp
      unfold body
      rw [if_pos hb, if_neg (by simp [hd]), if_neg (by simp [hf])]
      exact ih (fun x hx => hsps x (by simp [hx])) false
  | cons c fs ih =>
    intro n fed h1 h2 h3
    have hb := h1 c (by simp)
    have hd := h2 c (by simp)
    have hf : feed s c = false := by
      cases hx : feed s c with
      | false => rfl
      | true =>
        rw [feed, Bool.and_eq_true, beq_iff_eq] at hx
        rw [blank, hs, hx.2] at hb
        exact absurd hb (by decide)
    have hm : n + 1 + fs.length < s.maxRuneLen := by
      rcases h3 with h3 | h3
      · cases h3
      · simp only [List.length_cons] at h3; omega
    rw [List.cons_append]
    unfold body
    rw [if_neg (by simp [hb]), if_neg (by simp [hf]), if_neg]
    · rw [ih (n + 1) _ (fun x hx => h1 x (by simp [hx])) (fun x hx => h2 x (by simp [hx])) (.inr hm)]
      rfl
    · rw [hd]; simp; omega

/-- What the calls on a buffer give before the end of the input. -/
theorem drain_more_sentences {s : Splitter} (hsp : s.isDelim 0x20 = false) {fuel : Nat} {buf : Bytes}
    {r : List Bytes × Bytes} (hr : drain s.scanSentences false fuel buf = some r) :
    ∀ bs, buf = enc bs → nonEmpty r.1 ++ sentencesOf s (pieces r.2) = sentencesOf s (pieces buf) ∧ r.2.length ≤ buf.length := by
  refine drain_induct s false (fun buf toks left => ∀ bs, buf = enc bs →
    nonEmpty toks ++ sentencesOf s (pieces left) = sentencesOf s (pieces buf) ∧ left.length ≤ buf.length) ?_ ?_ ?_ ?_ fuel buf r hr
  · intro bs _; exact ⟨rfl, by simp⟩
  · intro data used rest toks left h1 h2 h3 hne ih bs hbs
    rw [sentencesOf_cons h2, h3]
    rw [pieces_text_suffix h1] at ih
    have hrest : ∃ cs, text rest = enc cs := by
      subst hbs
      rw [pieces_enc] at h1
      obtain ⟨c1, c3, e1, e2, e3⟩ := split_chars h1
      exact ⟨c3, by rw [e3, text_charPieces]⟩
    obtain ⟨cs, hcs⟩ := hrest
    obtain ⟨i1, i2⟩ := ih cs hcs
    have hd : (pieces data).dropWhile (blank s) ≠ [] := by
      intro h0; rw [sentence_empty h0] at h2; cases h2
    have hb := sentence_body_ne hd
    have hu : used.filter (kept s) ≠ [] := by rw [← h3]; simp [hb]
    have ht := text_ne_nil (b := data) (cs := used.filter (kept s))
      (fun c hc => by rw [h1]; have := (List.mem_filter.mp hc).1; simp [this]) hu
    refine ⟨?_, ?_⟩
    · rw [← i1]
      simp [nonEmpty, ht]
    · have := congrArg (fun l => (text l).length) h1
      simp only [text_pieces, text_append, List.length_append] at this
      omega
  · intro h; cases h
  · intro _ data used n hne h1 h2 h3 h4 hl bs hbs
    refine ⟨?_, by simp only [List.length_append, List.length_replicate]; omega⟩
    change [] ++ _ = _
    rw [List.nil_append]
    by_cases hs : s.skipWhiteSpace = true
    · subst hbs
      rw [pieces_enc] at h1
      obtain ⟨c1, c3, e1, e2, e3⟩ := split_chars h1
      have hleft : pieces (text (used.filter (kept s)) ++ List.replicate n 0x20) =
          used.filter (kept s) ++ (List.replicate n ' ').map charPiece := by
        rw [e3, kept_charPieces hs, text_charPieces, enc_spaces, pieces_enc_append, pieces_enc]
      have hk : ∀ c ∈ used.filter (kept s), blank s c = false := by
        intro c hc
        have := (List.mem_filter.mp hc).2
        simpa using this
      have hunf := body_unfinished s _ 0 false h2
      change (∀ c ∈ (sentence s (pieces (enc bs))).body, _) ∧ ((sentence s (pieces (enc bs))).body = [] ∨
        0 + ((sentence s (pieces (enc bs))).body.length : Int) < _) at hunf
      rw [h3] at hunf
      have hsps : ∀ c ∈ (List.replicate n ' ').map charPiece, c.1 = 0x20 := by
        intro c hc
        obtain ⟨x, hx, rfl⟩ := List.mem_map.mp hc
        rw [List.eq_of_mem_replicate hx]; rfl
      have hre : ∀ fed, body s 0 fed (used.filter (kept s) ++ (List.replicate n ' ').map charPiece) =
          ⟨used.filter (kept s), [], none⟩ := fun fed => body_rescan hs hsp _ hsps _ 0 fed hk hunf.1 hunf.2
      rw [sentencesOf_last h2, h3]
      by_cases hd : (pieces (enc bs)).dropWhile (blank s) = []
      · rw [if_pos hd, hleft]
        rw [sentence_empty hd] at h3
        rw [← h3, List.nil_append]
        have hdw : ((List.replicate n ' ').map charPiece).dropWhile (blank s) = [] := by
          have hall : ∀ l : List Piece, (∀ c ∈ l, c.1 = 0x20) → l.dropWhile (blank s) = [] := by
            intro l
            induction l with
            | nil => intro _; rfl
            | cons c l ih =>
              intro hl
              rw [List.dropWhile_cons, if_pos (by rw [blank, hs, hl c (by simp)]; rfl)]
              exact ih fun x hx => hl x (by simp [hx])
          exact hall _ hsps
        have hse := sentence_empty hdw
        rw [sentencesOf_last (by rw [hse]), if_pos hdw]
      · rw [if_neg hd, hleft]
        have hb := sentence_body_ne hd
        rw [h3] at hb
        have hdw : (used.filter (kept s) ++ (List.replicate n ' ').map charPiece).dropWhile (blank s) =
            used.filter (kept s) ++ (List.replicate n ' ').map charPiece := by
          cases hu : used.filter (kept s) with
          | nil => exact absurd hu hb
          | cons c cs =>
            rw [List.cons_append, List.dropWhile_cons, if_neg]
            rw [hk c (by rw [hu]; simp)]; simp
        have hse : sentence s (used.filter (kept s) ++ (List.replicate n ' ').map charPiece) =
            ⟨used.filter (kept s), [], none⟩ := by
          unfold sentence; rw [hdw]; exact hre false
        rw [sentencesOf_last (by rw [hse]), hdw, hse, if_neg (by simp [hb])]
    · have hs' : s.skipWhiteSpace = false := by simpa using hs
      rw [leading_off hs', List.nil_append] at h1
      rw [leading_off hs', kept_off hs', ← h1, text_pieces] at hl
      have hn : n = 0 := by simp at hl; omega
      subst hn
      rw [kept_off hs', ← h1, text_pieces]; simp

/-- C38, when the reader delivers the whole text together with the end of the input: the non-empty sentences are those of
the direct definition, for every text and configuration. -/
theorem C38_at_once_partial (s : Splitter) (t : Bytes) :
    ∃ out, scanAll s.scanSentences [⟨t, true⟩] = some (out, .done) ∧ nonEmpty out = sentences s t := by
  obtain ⟨out, ending, h⟩ := C35_scan_ends s [⟨t, true⟩]
  unfold scanAll scanFrom at h
  rw [if_pos rfl] at h
  cases hd : drain s.scanSentences true (([] ++ t).length + 1) ([] ++ t) with
  | none => rw [hd] at h; cases h
  | some r =>
    have hs := drain_eof_sentences hd
    refine ⟨r.1, ?_, hs⟩
    unfold scanAll scanFrom
    rw [if_pos rfl, hd]; rfl

/-- C38, when the reader delivers the whole text in one read and reports the end with the next one: the same, for every
valid text shorter than the scanner's buffer limit, unless the blank is configured as a delimiter. -/
theorem C38_one_read_partial (s : Splitter) (hsp : s.isDelim 0x20 = false) (t : Bytes) (hv : ValidUtf8 t)
    (hlen : t.length < maxTokenSize) :
    ∃ out, scanAll s.scanSentences [⟨t, false⟩] = some (out, .done) ∧ nonEmpty out = sentences s t := by
  obtain ⟨bs, hbs⟩ := hv
  by_cases ht : t.isEmpty = true
  · have : t = [] := List.isEmpty_iff.mp ht
    subst this
    exact ⟨[], rfl, rfl⟩
  · obtain ⟨r1, hr1⟩ := drain_total s false (([] ++ t).length + 1) ([] ++ t) (by omega)
    obtain ⟨h1, h2⟩ := drain_more_sentences hsp hr1 bs hbs
    obtain ⟨r2, hr2⟩ := drain_total s true (r1.2.length + 1) r1.2 (by omega)
    have h3 := drain_eof_sentences hr2
    refine ⟨r1.1 ++ r2.1, ?_, ?_⟩
    · unfold scanAll scanFrom
      rw [if_neg (by simp), if_neg ht, hr1]
      simp only [Option.bind_eq_bind, Option.bind_some]
      rw [if_neg (by simp only [List.nil_append] at h2; omega)]
      unfold scanFrom
      rw [hr2]; rfl
    · rw [nonEmpty_append, h3, h1]; rfl

example : sentences defaultSplitter (str " a b?) c\n\nd") = [str "ab?)", str "c", str "d"] := by decide +kernel

/-! ## A finding: long gaps -/

/-- `kagome sentence` (the default splitter with the Scanner's default buffer) fails on a text that has a long run of white
space inside a sentence: the blanks that replace skipped white space stay in the buffer. Every reader that delivers `a` and
then only blanks, 65536 bytes or more in total, in pieces of any size, ends with `bufio.ErrTooLong` and yields no sentence. -/
theorem C34_long_gap (pieces : List Nat) (hp : ∀ n ∈ pieces, n ≠ 0) (h : maxTokenSize ≤ 1 + pieces.sum) :
    scanAll defaultSplitter.scanSentences
      (⟨str "a", false⟩ :: pieces.map fun n => ⟨List.replicate n 0x20, false⟩) = some ([], .tooLong) := by
  -- one call on `a` followed by blanks
  have hcall : ∀ n : Nat, drain defaultSplitter.scanSentences false ((0x61 :: List.replicate n 0x20 : Bytes).length + 1)
      (0x61 :: List.replicate n 0x20) = some ([], 0x61 :: List.replicate n 0x20) := by
    intro n
    have hpc : Spec.pieces (0x61 :: List.replicate n 0x20) = charPiece 'a' :: (List.replicate n ' ').map charPiece := by
      have : (0x61 :: List.replicate n 0x20 : Bytes) = enc ('a' :: List.replicate n ' ') := by
        rw [enc_cons, ← enc_spaces]; rfl
      rw [this, pieces_enc]; rfl
    have hsps : ∀ c ∈ (List.replicate n ' ').map charPiece, c.1 = 0x20 := by
      intro c hc
      obtain ⟨x, hx, rfl⟩ := List.mem_map.mp hc
      rw [List.eq_of_mem_replicate hx]; rfl
    have hb := body_rescan (s := defaultSplitter) rfl (by decide) _ hsps [charPiece 'a'] 0 false
      (by intro c hc; rw [List.mem_singleton.mp hc]; decide) (by intro c hc; rw [List.mem_singleton.mp hc]; decide)
      (.inr (by decide))
    have hdw : (Spec.pieces (0x61 :: List.replicate n 0x20)).dropWhile (blank defaultSplitter) =
        [charPiece 'a'] ++ (List.replicate n ' ').map charPiece := by
      rw [hpc, List.dropWhile_cons, if_neg (by decide)]; rfl
    have hsent : sentence defaultSplitter (Spec.pieces (0x61 :: List.replicate n 0x20)) = ⟨[charPiece 'a'], [], none⟩ := by
      unfold sentence; rw [hdw, hb]
    rcases call_cases defaultSplitter (0x61 :: List.replicate n 0x20) false (.inl rfl) with
      ⟨H, G, u, rest, g1, hu, hr, hH, hb, hl, e⟩ | ⟨hE, -⟩ | ⟨hE, H, m, u, g1, hr, hH, hbd, hcl, hl, e⟩
    · rw [hsent] at hr; cases hr
    · cases hE
    · have hlead : leading defaultSplitter (Spec.pieces (0x61 :: List.replicate n 0x20)) = [] := by
        rw [hpc, leading, List.takeWhile_cons, if_neg (by decide)]
      rw [hlead] at hH
      rw [hsent] at hbd
      simp only at hbd
      rw [← hbd, hH] at e hl
      have hm : m = n := by
        have : (text [charPiece 'a']).length = 1 := by decide
        simp only [text_nil, List.length_nil, this, List.length_cons, List.length_replicate] at hl
        omega
      subst hm
      unfold drain
      rw [if_neg (by simp), e]
      simp only [Option.bind_eq_bind, Option.bind_some]
      rw [if_pos (by simp)]
      simp [charPiece, text]
      rfl
  -- the buffer only grows
  have hgrow : ∀ (l : List Nat) (n : Nat), (∀ k ∈ l, k ≠ 0) → 1 + n < maxTokenSize → maxTokenSize ≤ 1 + n + l.sum →
      scanFrom defaultSplitter.scanSentences (l.map fun n => ⟨List.replicate n 0x20, false⟩) 0
        (0x61 :: List.replicate n 0x20) = some ([], .tooLong) := by
    intro l
    induction l with
    | nil => intro n _ h1 h2; simp at h2; omega
    | cons k l ih =>
      intro n hk h1 h2
      have hk0 := hk k (by simp)
      rw [List.map_cons]
      unfold scanFrom
      have hne : (List.replicate k (0x20 : UInt8)).isEmpty = false := by
        cases k with
        | zero => exact absurd rfl hk0
        | succ k => rfl
      have happ : (0x61 :: List.replicate n 0x20 : Bytes) ++ List.replicate k 0x20 = 0x61 :: List.replicate (n + k) 0x20 := by
        rw [List.cons_append, List.replicate_append_replicate]
      simp only [hne, Bool.false_eq_true, if_false, happ, hcall, Option.bind_eq_bind, Option.bind_some]
      simp only [List.length_cons, List.length_replicate]
      by_cases hbig : maxTokenSize ≤ n + k + 1
      · rw [if_pos hbig]
      · rw [if_neg hbig, ih (n + k) (fun x hx => hk x (by simp [hx])) (by omega) (by simp at h2; omega)]
        rfl
  unfold scanAll scanFrom
  have h0 := hcall 0
  have hs : [] ++ str "a" = (0x61 :: List.replicate 0 0x20 : Bytes) := by decide
  simp only [hs, h0]
  rw [if_neg (by simp), if_neg (by decide)]
  simp only [Option.bind_eq_bind, Option.bind_some]
  rw [if_neg (by decide), hgrow pieces 0 hp (by decide) (by omega)]
  rfl

/-- Sixteen reads of 4096 bytes suffice. -/
example : scanAll defaultSplitter.scanSentences
    (⟨str "a", false⟩ :: (List.replicate 16 4096).map fun n => ⟨List.replicate n 0x20, false⟩) = some ([], .tooLong) :=
  C34_long_gap _ (by intro n hn; rw [List.eq_of_mem_replicate hn]; decide) (by decide)

/-- C34: white space is what Unicode calls White_Space. -/
theorem C34_white_space (r : Nat) : isSpace r = true ↔ r ∈ whiteSpace := by
  simp only [isSpace, whiteSpace, Bool.or_eq_true, Bool.and_eq_true, decide_eq_true_eq, beq_iff_eq, List.mem_cons, List.not_mem_nil, or_false]
  omega

/-! ### The splitter without configuration -/

theorem default_delim (r : Nat) : defaultSplitter.isDelim r = true ↔ r ∈ enders.map (·.val.toNat) := by
  simp only [Splitter.isDelim, List.any_eq_true, beq_iff_eq, exists_eq_right']
  rfl

theorem default_follower (r : Nat) : defaultSplitter.isFollower r = true ↔ r ∈ closers.map (·.val.toNat) := by
  simp only [Splitter.isFollower, List.any_eq_true, beq_iff_eq, exists_eq_right']
  rfl

/-- C36, for the function `ScanSentences` of the package: a sentence has at most 128 characters up to its end, none of them but the last one of
`enders`, and after its end only characters of `enders` and `closers`. -/
theorem C36_default (data : Bytes) (atEOF : Bool) {res : SplitResult} {a b : Nat}
    (h : scanSentences data atEOF = some res) (ht : res.token = some (a, b)) :
    ∃ body tail : List Piece, (res.data.take b).drop a = text (body ++ tail) ∧ (body ++ tail).Sublist (pieces data) ∧ body.length ≤ 128 ∧
      (∀ c ∈ body.dropLast, c.1 ∉ enders.map (·.val.toNat)) ∧ (∀ c ∈ tail, c.1 ∈ (enders ++ closers).map (·.val.toNat)) := by
  obtain ⟨bd, tl, h1, h2, h3, h4, h5⟩ := C36_shape defaultSplitter data atEOF h ht
  refine ⟨bd, tl, h1, h2, ?_, ?_, ?_⟩
  · have : (max 1 defaultSplitter.maxRuneLen : Int) = 128 := by decide
    omega
  · intro c hc hm
    have := h4 c hc
    rw [(default_delim c.1).mpr hm] at this
    cases this
  · intro c hc
    rw [List.map_append, List.mem_append]
    exact (h5 c hc).imp (default_delim c.1).mp (default_follower c.1).mp

/-- A character that neither ends a sentence nor closes one nor is white space. -/
def PlainChar (c : Char) : Prop := c ∉ enders ∧ c ∉ closers ∧ isSpace c.val.toNat = false

theorem char_mem_map {c : Char} {l : List Char} (h : c.val.toNat ∈ l.map (·.val.toNat)) : c ∈ l := by
  obtain ⟨d, hd, e⟩ := List.mem_map.mp h
  have : d = c := Char.ext (UInt32.toNat_inj.mp e)
  exact this ▸ hd

theorem ordinary_facts {c : Char} (h : PlainChar c) : blank defaultSplitter (charPiece c) = false ∧ feed defaultSplitter (charPiece c) = false ∧
    defaultSplitter.isDelim (charPiece c).1 = false ∧ defaultSplitter.isFollower (charPiece c).1 = false := by
  obtain ⟨h1, h2, h3⟩ := h
  have hc : (charPiece c).1 = c.val.toNat := rfl
  refine ⟨?_, ?_, ?_, ?_⟩
  · rw [blank, hc, h3, Bool.and_false]
  · have : c.val.toNat ≠ 10 := by
      intro e
      rw [e] at h3
      revert h3
      decide
    rw [feed, hc, beq_eq_false_iff_ne.mpr this, Bool.and_false]
  · rw [Bool.eq_false_iff]
    exact fun hd => h1 (char_mem_map ((default_delim _).mp hd))
  · rw [Bool.eq_false_iff]
    exact fun hd => h2 (char_mem_map ((default_follower _).mp hd))

theorem body_ordinary (cs : List Char) (hc : ∀ c ∈ cs, PlainChar c) : ∀ (n : Nat) (_ : n < 128) (_ : 128 ≤ n + cs.length),
    body defaultSplitter n false (cs.map charPiece) = ⟨(cs.take (128 - n)).map charPiece, [], some ((cs.drop (128 - n)).map charPiece)⟩ := by
  induction cs with
  | nil => intro n h1 h2; simp at h2; omega
  | cons c cs ih =>
    intro n h1 h2
    obtain ⟨f1, f2, f3, f4⟩ := ordinary_facts (hc c (by simp))
    rw [List.map_cons, body, f1, f2, f3]
    simp only [Bool.false_eq_true, if_false, Bool.false_and, Bool.false_or, decide_eq_true_eq]
    have hm : defaultSplitter.maxRuneLen = 128 := rfl
    rw [hm]
    by_cases hn : (128 : Int) ≤ n + 1
    · have hn' : n = 127 := by omega
      subst hn'
      rw [if_pos hn]
      have hcl : closing defaultSplitter false (cs.map charPiece) = ([], cs.map charPiece) := by
        cases cs with
        | nil => rfl
        | cons d ds =>
          obtain ⟨g1, g2, g3, g4⟩ := ordinary_facts (hc d (by simp))
          rw [List.map_cons, closing, g1, g3, g4]
          rfl
      rw [hcl]
      rfl
    · rw [if_neg hn]
      have := ih (fun x hx => hc x (by simp [hx])) (n + 1) (by omega) (by simp only [List.length_cons] at h2; omega)
      have e : ((n + 1 : Nat) : Int) = (n : Int) + 1 := by omega
      rw [e] at this
      rw [this]
      have e2 : 128 - n = (128 - (n + 1)) + 1 := by omega
      rw [e2]
      rfl

/-- C36, for the function `ScanSentences` of the package: a text of 128 or more ordinary characters is cut exactly after the 128th. -/
theorem C36_default_cut (cs : List Char) (hc : ∀ c ∈ cs, PlainChar c) (hl : 128 ≤ cs.length) (atEOF : Bool) :
    ∃ res a b, scanSentences (enc cs) atEOF = some res ∧ res.token = some (a, b) ∧ (res.data.take b).drop a = enc (cs.take 128) ∧
      res.advance = (enc (cs.take 128)).length := by
  have hp : pieces (enc cs) = cs.map charPiece := pieces_enc cs
  have hnil : cs ≠ [] := by intro e; rw [e] at hl; simp at hl
  have hdw : (cs.map charPiece).dropWhile (blank defaultSplitter) = cs.map charPiece := by
    cases cs with
    | nil => rfl
    | cons c cs =>
      rw [List.map_cons, List.dropWhile_cons, if_neg]
      rw [(ordinary_facts (hc c (by simp))).1]
      simp
  have hlead : leading defaultSplitter (cs.map charPiece) = [] := by
    cases cs with
    | nil => rfl
    | cons c cs =>
      rw [leading, List.map_cons, List.takeWhile_cons, if_neg]
      rw [(ordinary_facts (hc c (by simp))).1]
      simp
  have hs : sentence defaultSplitter (cs.map charPiece) = ⟨(cs.take 128).map charPiece, [], some ((cs.drop 128).map charPiece)⟩ := by
    rw [sentence, hdw]
    exact body_ordinary cs hc 0 (by omega) (by omega)
  have hne : enc cs ≠ [] := by
    intro e
    rw [e] at hp
    cases cs with
    | nil => exact hnil rfl
    | cons c cs => cases hp
  have hcall := call_cases defaultSplitter (enc cs) atEOF (Or.inr hne)
  rw [hp, hs, hlead] at hcall
  simp only [reduceCtorEq, false_and, and_false, exists_false, or_false, List.append_nil, Option.some.injEq] at hcall
  obtain ⟨H, G, used, rest, -, -, h1, h2, h3, h4, h5⟩ := hcall
  subst h1
  rw [← h3, text_charPieces, text_charPieces] at h4 h5
  have hH : H = [] := by simpa [text] using h2
  subst hH
  have hG : G = [] := by
    have : (enc (cs.take 128)).length + (enc (cs.drop 128)).length = (enc cs).length := by
      rw [← List.length_append, ← List.flatMap_append, List.take_append_drop]
    apply List.eq_nil_of_length_eq_zero
    simp only [List.length_nil] at h4
    omega
  subst hG
  refine ⟨_, _, _, h5, returned_token .., returned_text .., ?_⟩
  rw [returned_advance]
  simp

example : (∀ c ∈ List.replicate 200 'あ', PlainChar c) ∧ 128 ≤ (List.replicate 200 'あ').length := by
  refine ⟨fun c hc => ?_, by rw [List.length_replicate]; decide⟩
  rw [List.eq_of_mem_replicate hc]
  unfold PlainChar
  decide

end Kagome
