import Verif.Spec.Live
import Verif.Props.Request
import Verif.Props.Live

/-! C67: what is typed into the demo page and what its table shows. -/

namespace Kagome

open Spec

/-! ### Code units -/

theorem utf16Decode_iff {u v r : Nat} : utf16Decode u (some v) = some r ↔ IsHigh u ∧ IsLow v ∧ r = 0x10000 + (u - 0xD800) * 0x400 + (v - 0xDC00) := by
  unfold utf16Decode IsHigh IsLow
  simp only
  split
  · simp only [Option.some.injEq]; omega
  · simp only [reduceCtorEq, false_iff]; omega

theorem unitsJson_cons {u : Nat} {us : List Nat} (h : ∀ lo us', us = lo :: us' → ¬ (IsHigh u ∧ IsLow lo)) :
    unitsJson (u :: us) = unitJson u ++ unitsJson us := by
  cases us with
  | nil => simp [unitsJson]
  | cons v us =>
    rw [unitsJson]
    have : utf16Decode u (some v) = none := by
      cases e : utf16Decode u (some v) with
      | none => rfl
      | some r => obtain ⟨h1, h2, -⟩ := utf16Decode_iff.mp e; exact absurd ⟨h1, h2⟩ (h v us rfl)
    rw [this]

theorem unitsJson_pair {u v : Nat} {us : List Nat} {c : Char} (h1 : IsHigh u) (h2 : IsLow v)
    (h3 : c.val.toNat = 0x10000 + (u - 0xD800) * 0x400 + (v - 0xDC00)) :
    unitsJson (u :: v :: us) = String.utf8EncodeChar c ++ unitsJson us := by
  rw [unitsJson, utf16Decode_iff.mpr ⟨h1, h2, h3⟩]
  simp only [encodeRune_char]

theorem hexVal_byte : ∀ n, n < 16 → hexVal (hexByte n) = some n := by decide

theorem hexUnit_unit {u : Nat} (h : u < 0x10000) :
    hexUnit (hexByte (u / 256 / 16 % 16)) (hexByte (u / 256 % 16)) (hexByte (u / 16 % 16)) (hexByte (u % 16)) = some u := by
  unfold hexUnit
  rw [hexVal_byte _ (by omega), hexVal_byte _ (by omega), hexVal_byte _ (by omega), hexVal_byte _ (by omega)]
  simp only [Option.some.injEq]
  omega

theorem hex4_eq (u : Nat) :
    hex4 u = [0x5C, 0x75, hexByte (u / 256 / 16 % 16), hexByte (u / 256 % 16), hexByte (u / 16 % 16), hexByte (u % 16)] := by
  unfold hex4 hex2
  rw [show str "\\u" = [0x5C, 0x75] by decide]
  rfl

theorem unitJson_surrogate {u : Nat} (h : IsHigh u ∨ IsLow u) : unitJson u = hex4 u := by
  have hs := (surrogate_iff u).mpr h
  unfold IsHigh IsLow at h
  unfold unitJson
  rw [if_neg (by omega), if_neg (by omega), if_neg (by omega), if_neg (by omega), if_neg (by omega), if_neg (by omega), if_neg (by omega), if_pos (.inr hs)]

theorem char_eq {c d : Char} (h : c.val.toNat = d.val.toNat) : c = d := Char.ext (UInt32.toNat_inj.mp h)

theorem stringText_unit (c : Char) (hc : c.val.toNat < 0x10000) {raw s : Bytes} (h : StringText raw s) :
    StringText (unitJson c.val.toNat ++ raw) (String.utf8EncodeChar c ++ s) := by
  have two : ∀ (e x : UInt8) (d : Char), escape e = some x → String.utf8EncodeChar d = [x] → c.val.toNat = d.val.toNat →
      StringText ([0x5C, e] ++ raw) (String.utf8EncodeChar c ++ s) := by
    intro e x d he hd hcd
    rw [char_eq hcd, hd]
    exact .short e x he h
  unfold unitJson
  by_cases h1 : c.val.toNat = 0x08
  · rw [if_pos h1, show str "\\b" = [0x5C, 0x62] by decide]; exact two _ 0x08 (Char.ofNat 8) (by decide) (by decide) h1
  rw [if_neg h1]
  by_cases h2 : c.val.toNat = 0x09
  · rw [if_pos h2, show str "\\t" = [0x5C, 0x74] by decide]; exact two _ 0x09 (Char.ofNat 9) (by decide) (by decide) h2
  rw [if_neg h2]
  by_cases h3 : c.val.toNat = 0x0A
  · rw [if_pos h3, show str "\\n" = [0x5C, 0x6E] by decide]; exact two _ 0x0A (Char.ofNat 10) (by decide) (by decide) h3
  rw [if_neg h3]
  by_cases h4 : c.val.toNat = 0x0C
  · rw [if_pos h4, show str "\\f" = [0x5C, 0x66] by decide]; exact two _ 0x0C (Char.ofNat 12) (by decide) (by decide) h4
  rw [if_neg h4]
  by_cases h5 : c.val.toNat = 0x0D
  · rw [if_pos h5, show str "\\r" = [0x5C, 0x72] by decide]; exact two _ 0x0D (Char.ofNat 13) (by decide) (by decide) h5
  rw [if_neg h5]
  by_cases h6 : c.val.toNat = 0x22
  · rw [if_pos h6, show str "\\\"" = [0x5C, 0x22] by decide]; exact two _ 0x22 '"' (by decide) (by decide) h6
  rw [if_neg h6]
  by_cases h7 : c.val.toNat = 0x5C
  · rw [if_pos h7, show str "\\\\" = [0x5C, 0x5C] by decide]; exact two _ 0x5C '\\' (by decide) (by decide) h7
  rw [if_neg h7]
  by_cases h8 : c.val.toNat < 0x20
  · rw [if_pos (.inl h8), hex4_eq]
    exact .code _ _ _ _ c (hexUnit_unit hc) h
  · rw [if_neg (by rw [not_surrogate]; simp only [Bool.false_eq_true, or_false]; exact h8), encodeRune_char]
    exact .char c (by omega) (fun e => h6 (by rw [e]; rfl)) (fun e => h7 (by rw [e]; rfl)) h

/-- An escape for a low surrogate comes from one. -/
theorem unitsJson_low {us : List Nat} {s : Bytes} (h : Utf16 us s) {a b c d : UInt8} {lo : Nat} {raw : Bytes}
    (he : unitsJson us = 0x5C :: 0x75 :: a :: b :: c :: d :: raw) (hu : hexUnit a b c d = some lo) (hl : IsLow lo) :
    ∃ us', us = lo :: us' := by
  have hchar : ∀ (ch : Char) (r : Bytes), 0x20 ≤ ch.val.toNat → ch ≠ '\\' → String.utf8EncodeChar ch ++ r = 0x5C :: 0x75 :: a :: b :: c :: d :: raw → False := by
    intro ch r h1 h2 h3
    by_cases h : ch.val.toNat < 0x80
    · rw [encode_ascii h] at h3
      have := congrArg UInt8.toNat (List.cons.inj h3).1
      rw [ofNat_toNat h] at this
      exact h2 (char_eq this)
    · obtain ⟨b0, r0, hb, -, -⟩ := encode_shape ch
      have := encode_high h b0 (by rw [hb]; simp)
      rw [hb, List.cons_append] at h3
      rw [(List.cons.inj h3).1] at this
      exact absurd this (by decide)
  have hunit : ∀ u r, u < 0x10000 → hex4 u ++ r = 0x5C :: 0x75 :: a :: b :: c :: d :: raw → u = lo := by
    intro u r h1 h2
    rw [hex4_eq] at h2
    simp only [List.cons_append, List.nil_append, List.cons.injEq, true_and] at h2
    obtain ⟨rfl, rfl, rfl, rfl, -⟩ := h2
    rw [hexUnit_unit h1] at hu
    exact Option.some.inj hu
  cases h with
  | nil => simp [unitsJson] at he
  | @char ch us s hc h =>
    exfalso
    rw [unitsJson_cons (fun _ _ _ hx => by
      have := not_surrogate ch
      rw [Bool.eq_false_iff] at this
      exact this ((surrogate_iff _).mpr (.inl hx.1)))] at he
    have two : ∀ e : UInt8, e ≠ 0x75 → [0x5C, e] ++ unitsJson us = 0x5C :: 0x75 :: a :: b :: c :: d :: raw → False := by
      intro e h1 h2
      simp only [List.cons_append, List.nil_append, List.cons.injEq, true_and] at h2
      exact h1 h2.1
    unfold unitJson at he
    by_cases h1 : ch.val.toNat = 0x08
    · rw [if_pos h1, show str "\\b" = [0x5C, 0x62] by decide] at he; exact two _ (by decide) he
    rw [if_neg h1] at he
    by_cases h2 : ch.val.toNat = 0x09
    · rw [if_pos h2, show str "\\t" = [0x5C, 0x74] by decide] at he; exact two _ (by decide) he
    rw [if_neg h2] at he
    by_cases h3 : ch.val.toNat = 0x0A
    · rw [if_pos h3, show str "\\n" = [0x5C, 0x6E] by decide] at he; exact two _ (by decide) he
    rw [if_neg h3] at he
    by_cases h4 : ch.val.toNat = 0x0C
    · rw [if_pos h4, show str "\\f" = [0x5C, 0x66] by decide] at he; exact two _ (by decide) he
    rw [if_neg h4] at he
    by_cases h5 : ch.val.toNat = 0x0D
    · rw [if_pos h5, show str "\\r" = [0x5C, 0x72] by decide] at he; exact two _ (by decide) he
    rw [if_neg h5] at he
    by_cases h6 : ch.val.toNat = 0x22
    · rw [if_pos h6, show str "\\\"" = [0x5C, 0x22] by decide] at he; exact two _ (by decide) he
    rw [if_neg h6] at he
    by_cases h7 : ch.val.toNat = 0x5C
    · rw [if_pos h7, show str "\\\\" = [0x5C, 0x5C] by decide] at he; exact two _ (by decide) he
    rw [if_neg h7] at he
    by_cases h8 : ch.val.toNat < 0x20
    · rw [if_pos (.inl h8)] at he
      have := hunit _ _ hc he
      unfold IsLow at hl
      omega
    · rw [if_neg (by rw [not_surrogate]; simp only [Bool.false_eq_true, or_false]; exact h8), encodeRune_char] at he
      exact hchar ch _ (by omega) (fun e => h7 (by rw [e]; rfl)) he
  | pair hi lo' ch h1 h2 h3 h4 =>
    exfalso
    rw [unitsJson_pair h1 h2 h3] at he
    refine hchar ch _ (by omega) ?_ he
    rintro rfl
    revert h3
    rw [show ('\\' : Char).val.toNat = 0x5C from rfl]
    omega
  | @lone u us s h1 h2 h3 =>
    rw [unitsJson_cons h2, unitJson_surrogate h1] at he
    have : u < 0x10000 := by unfold IsHigh IsLow at h1; omega
    rw [hunit u _ this he]
    exact ⟨_, rfl⟩

theorem stringText_units {us : List Nat} {s : Bytes} (h : Utf16 us s) : StringText (unitsJson us) s := by
  induction h with
  | nil => exact .nil
  | char c hc h ih =>
    rw [unitsJson_cons (fun _ _ _ hx => by
      have := not_surrogate c
      rw [Bool.eq_false_iff] at this
      exact this ((surrogate_iff _).mpr (.inl hx.1)))]
    exact stringText_unit c hc ih
  | pair hi lo c h1 h2 h3 h4 ih =>
    rw [unitsJson_pair h1 h2 h3]
    have hc : 0x10000 ≤ c.val.toNat := by omega
    refine .char c (by omega) ?_ ?_ ih
    · rintro rfl; exact absurd hc (by decide)
    · rintro rfl; exact absurd hc (by decide)
  | lone u h1 h2 h3 ih =>
    rw [unitsJson_cons h2, unitJson_surrogate h1, hex4_eq]
    refine .lone _ _ _ _ u (hexUnit_unit (by unfold IsHigh IsLow at h1; omega)) h1 ?_ ih
    intro a b c d lo raw he hu hh
    obtain ⟨us', e⟩ := unitsJson_low h3 he hu hh.2
    exact h2 lo us' e hh

/-- Every text of a browser stands for a text in UTF-8. -/
theorem utf16_total (us : List Nat) (h : ∀ u ∈ us, u < 0x10000) : ∃ s, Utf16 us s := by
  have : ∀ n (us : List Nat), us.length ≤ n → (∀ u ∈ us, u < 0x10000) → ∃ s, Utf16 us s := by
    intro n
    induction n with
    | zero => intro us hl _; cases us with
      | nil => exact ⟨_, .nil⟩
      | cons u us => simp at hl
    | succ n ih =>
      intro us hl hu
      cases us with
      | nil => exact ⟨_, .nil⟩
      | cons u us =>
        simp only [List.length_cons] at hl
        obtain ⟨s, hs⟩ := ih us (by omega) (fun x hx => hu x (by simp [hx]))
        have hu0 := hu u (by simp)
        by_cases h1 : IsHigh u ∨ IsLow u
        · by_cases h2 : ∃ lo us', us = lo :: us' ∧ IsHigh u ∧ IsLow lo
          · obtain ⟨lo, us', rfl, h3, h4⟩ := h2
            obtain ⟨s', hs'⟩ := ih us' (by simp at hl; omega) (fun x hx => hu x (by simp [hx]))
            have hb : 0xDFFF < 0x10000 + (u - 0xD800) * 0x400 + (lo - 0xDC00) ∧ 0x10000 + (u - 0xD800) * 0x400 + (lo - 0xDC00) < 0x110000 := by
              unfold IsHigh at h3
              unfold IsLow at h4
              omega
            obtain ⟨c, hc⟩ := char_of (.inr hb)
            exact ⟨_, .pair u lo c h3 h4 hc hs'⟩
          · exact ⟨_, .lone u h1 (fun lo us' e hh => h2 ⟨lo, us', e, hh⟩) hs⟩
        · have hb : u < 0xD800 ∨ (0xDFFF < u ∧ u < 0x110000) := by
            unfold IsHigh IsLow at h1
            omega
          obtain ⟨c, hc⟩ := char_of hb
          subst hc
          exact ⟨_, .char c hu0 hs⟩
  exact this _ us (Nat.le_refl _) h

/-! ### The request -/

/-- C67: the server understands what the script sends: the text of the field, and the value of the checked button. -/
theorem C67_request {text : List Nat} {mode : Option (List Nat)} {s m : Bytes} (hs : Utf16 text s)
    (hm : mode = none ∧ m = [] ∨ ∃ us, mode = some us ∧ Utf16 us m) : Carries (liveBody text mode) ⟨s, m⟩ := by
  have hk1 : StringText (str "sentence") (str "sentence") := key_text _ (by decide)
  have hk2 : StringText (str "mode") (str "mode") := key_text _ (by decide)
  have n1 : Names (str "sentence") (str "sentence") := (equalFold_iff sentence_letters).mp (by decide)
  have n2 : Names (str "mode") (str "mode") := (equalFold_iff mode_letters).mp (by decide)
  have e1 : str "{\"sentence\":\"" = 0x7B :: 0x22 :: (str "sentence" ++ [0x22, 0x3A, 0x22]) := by decide
  have e2 : str "}" = [0x7D] := by decide
  have e3 : str ",\"mode\":\"" = 0x2C :: 0x22 :: (str "mode" ++ [0x22, 0x3A, 0x22]) := by decide
  have e4 : str "\"" = [0x22] := by decide
  rcases hm with ⟨rfl, rfl⟩ | ⟨us, rfl, hm⟩
  · have hs := MembersText.last 9999 (str "sentence") (.str s) [] (str "sentence") [] [] _ [] isSpace_nil hk1 isSpace_nil isSpace_nil
      (.str 9999 _ _ (stringText_units hs)) isSpace_nil
    refine ⟨[], _, [], _, ?_, isSpace_nil, .obj 9999 _ _ hs, .inr ⟨_, rfl, ⟨?_, .inl ⟨[], _, _, rfl, n1, ?_⟩⟩, ⟨?_, .inr ⟨rfl, ?_⟩⟩⟩⟩
    · unfold liveBody
      rw [e1, e2, e4]
      simp
    · intro x hx _
      rw [List.mem_singleton] at hx
      subst hx
      exact .inr ⟨_, rfl⟩
    · intro x hx; cases hx
    · intro x hx _
      rw [List.mem_singleton] at hx
      subst hx
      exact .inr ⟨_, rfl⟩
    · intro x hx hn
      rw [List.mem_singleton] at hx
      subst hx
      exact absurd n1 (fun h => names_apart h hn)
  · have hm := MembersText.last 9999 (str "mode") (.str m) [] (str "mode") [] [] _ [] isSpace_nil hk2 isSpace_nil isSpace_nil
      (.str 9999 _ _ (stringText_units hm)) isSpace_nil
    have hs := MembersText.more 9999 (str "sentence") (.str s) _ [] (str "sentence") [] [] _ [] _ isSpace_nil hk1 isSpace_nil isSpace_nil
      (.str 9999 _ _ (stringText_units hs)) isSpace_nil hm
    refine ⟨[], _, [], _, ?_, isSpace_nil, .obj 9999 _ _ hs, .inr ⟨_, rfl, ⟨?_, .inl ⟨[], _, _, rfl, n1, ?_⟩⟩, ⟨?_, .inl ⟨[_], _, [], rfl, n2, ?_⟩⟩⟩⟩
    · unfold liveBody
      rw [e1, e2, e3, e4]
      simp
    · intro x hx _
      simp only [List.mem_cons, List.not_mem_nil, or_false] at hx
      rcases hx with rfl | rfl <;> exact .inr ⟨_, rfl⟩
    · intro x hx hn
      rw [List.mem_singleton] at hx
      subst hx
      exact absurd n2 (fun h => names_apart hn h)
    · intro x hx _
      simp only [List.mem_cons, List.not_mem_nil, or_false] at hx
      rcases hx with rfl | rfl <;> exact .inr ⟨_, rfl⟩
    · intro x hx; cases hx

theorem utf16_unique {us : List Nat} {s s' : Bytes} (h : Utf16 us s) (h' : Utf16 us s') : s = s' := by
  have := carries_unique (C67_request h (.inl ⟨rfl, rfl⟩)) (C67_request h' (.inl ⟨rfl, rfl⟩))
  exact congrArg ApiRequest.input this

theorem utf16_valid {us : List Nat} {s : Bytes} (h : Utf16 us s) : ValidUtf8 s := stringText_valid (stringText_units h)

/-! ### The rows -/

theorem livePos_data (d : TokenData) : livePos (dataJson d) = some (d.pos.map (·.map repaired)) := by
  have h : (dataJson d).get? (str "pos") = some (textsJson d.pos) := by
    unfold dataJson
    rw [get_skip _ _ (by decide), get_skip _ _ (by decide), get_skip _ _ (by decide), get_skip _ _ (by decide), get_skip _ _ (by decide), get_here]
  unfold livePos
  rw [h]
  cases d.pos with
  | none => rfl
  | some l =>
    simp only [textsJson, Option.map_some]
    induction l with
    | nil => rfl
    | cons x l ih =>
      simp only [List.map_cons, List.mapM_cons] at ih ⊢
      rw [Option.map_eq_some_iff] at ih
      obtain ⟨a, h1, h2⟩ := ih
      rw [h1]
      cases h2
      rfl

theorem liveRow_data (d : TokenData) : liveRowOf (dataJson d) = some (liveRow (readData d)) := by
  have h1 : liveText (dataJson d) (str "surface") = some (repaired d.surface) := by
    unfold liveText dataJson
    rw [get_skip _ _ (by decide), get_skip _ _ (by decide), get_skip _ _ (by decide), get_here]
    rfl
  have h2 : liveText (dataJson d) (str "base_form") = some (repaired d.baseForm) := by
    unfold liveText dataJson
    rw [get_skip _ _ (by decide), get_skip _ _ (by decide), get_skip _ _ (by decide), get_skip _ _ (by decide), get_skip _ _ (by decide),
      get_skip _ _ (by decide), get_here]
    rfl
  have h3 : liveText (dataJson d) (str "reading") = some (repaired d.reading) := by
    unfold liveText dataJson
    rw [get_skip _ _ (by decide), get_skip _ _ (by decide), get_skip _ _ (by decide), get_skip _ _ (by decide), get_skip _ _ (by decide),
      get_skip _ _ (by decide), get_skip _ _ (by decide), get_here]
    rfl
  have h4 : liveText (dataJson d) (str "pronunciation") = some (repaired d.pronunciation) := by
    unfold liveText dataJson
    rw [get_skip _ _ (by decide), get_skip _ _ (by decide), get_skip _ _ (by decide), get_skip _ _ (by decide), get_skip _ _ (by decide),
      get_skip _ _ (by decide), get_skip _ _ (by decide), get_skip _ _ (by decide), get_here]
    rfl
  unfold liveRowOf
  rw [h1, h2, h3, h4, livePos_data]
  rfl

theorem liveTable_answer (old : List Bytes) {out : Bytes} {ds : List TokenData} (h : readJson out = some (answer (ds.map dataJson))) :
    liveTable old ⟨200, str "application/json", out⟩ = some (ds.map (fun d => liveRow (readData d))) := by
  have h1 : (answer (ds.map dataJson)).get? (str "tokens") = some (.arr (ds.map dataJson)) := by
    unfold answer
    rw [get_skip _ _ (by decide), get_here]
  have h2 : ∀ ds : List TokenData, (ds.map dataJson).mapM liveRowOf = some (ds.map (fun d => liveRow (readData d))) := by
    intro ds
    induction ds with
    | nil => rfl
    | cons d ds ih => simp only [List.map_cons, List.mapM_cons, liveRow_data, ih]; rfl
  unfold liveTable
  rw [if_pos rfl]
  simp only [h, h1, h2]

/-- C67: when the answer has come, the table shows the tokens of the text that was sent, in the mode of the button that was checked, and nothing else. -/
theorem C67_rows {t : Tokenizer} (tab : FeatureTables t.dict) (ideo : Nat → Bool) (short : Bool) (old : List Bytes) {text : List Nat}
    {mode : Option (List Nat)} {s m : Bytes} (hs : Utf16 text s) (hm : mode = none ∧ m = [] ∨ ∃ us, mode = some us ∧ Utf16 us m) (h : Tame t s) :
    ∃ rows, liveType t ideo short old text mode = some rows ∧ Shows t ideo s m rows := by
  have hb := C67_request hs hm
  unfold liveType
  rw [serveApi_eq ((C66_ok _ _).mpr hb)]
  by_cases hne : s = []
  · obtain ⟨out, h1, h2⟩ := C43_empty t ideo short (decode := fun _ => .ok ⟨s, m⟩) (body := liveBody text mode) rfl hne
    refine ⟨[], ?_, .inl ⟨hne, rfl⟩⟩
    rw [h1]
    exact liveTable_answer old (ds := []) h2.reads
  · obtain ⟨toks, ds, out, h1, h2, _, h3, h4⟩ := C43_answer h.wf tab ideo short (decode := fun _ => .ok ⟨s, m⟩) (body := liveBody text mode) rfl hne h.rep
    refine ⟨_, ?_, .inr ⟨hne, toks, ds, h1, h2, rfl, ?_⟩⟩
    · rw [h3]
      exact liveTable_answer old h4.reads
    · have e1 := repaired_surfaces h h1
      rw [repaired_valid (utf16_valid hs)] at e1
      rw [← e1]
      have : ∀ (toks : List Token) (ds : List TokenData), toks.map newTokenData = ds.map some →
          ds.flatMap (fun d => (readData d).surface) = toks.flatMap (fun tok => repaired tok.surface) := by
        intro toks
        induction toks with
        | nil => intro ds h; cases ds with
          | nil => rfl
          | cons d ds => cases h
        | cons tok toks ih =>
          intro ds h
          cases ds with
          | nil => cases h
          | cons d ds =>
            simp only [List.map_cons, List.cons.injEq] at h
            rw [List.flatMap_cons, List.flatMap_cons, ih ds h.2]
            have : d.surface = tok.surface := by
              have := h.1
              unfold newTokenData at this
              split at this
              · cases this; rfl
              · cases this
            simp only [readData, this]
      exact this _ _ h2

/-- A page is not JSON. -/
theorem liveTable_page (old : List Bytes) (ct : Bytes) (page : DemoPage) : liveTable old ⟨200, ct, renderPage page⟩ = some old := by
  have hh : ∃ r, renderPage page = 0x3C :: r := by
    cases page with
    | form s m => exact ⟨_, by
        have : formTop = 0x3C :: formTop.drop 1 := by decide +kernel
        rw [renderPage, renderForm, this]; rfl⟩
    | graph s rs e svg m => exact ⟨_, by
        have : graphTop = 0x3C :: graphTop.drop 1 := by decide +kernel
        rw [renderPage, renderGraph, this]; rfl⟩
  obtain ⟨r, hr⟩ := hh
  have hj : readJson (0x3C :: r) = none := by
    have hv : readValue ((0x3C :: r).length + 1) (0x3C :: r) = none := by
      have e0 : skipWs (0x3C :: r) = 0x3C :: r := by rw [skipWs, if_neg (by decide)]
      have e1 : ∀ w : Bytes, w.head? ≠ some 0x3C → w ≠ [] → ¬ w <+: 0x3C :: r := by
        intro w h1 h2 h3
        cases w with
        | nil => exact h2 rfl
        | cons b w =>
          rw [List.cons_prefix_cons] at h3
          rw [h3.1] at h1
          exact h1 rfl
      rw [readValue, e0]
      simp only
      rw [if_neg (by decide), if_neg (by decide), if_neg (by decide), if_neg (e1 _ (by decide) (by decide)), if_neg (e1 _ (by decide) (by decide)),
        if_neg (e1 _ (by decide) (by decide))]
      rfl
    unfold readJson
    rw [hv]
  unfold liveTable
  rw [if_pos rfl]
  simp only [hr, hj]

/-! ### The order of the answers -/

/-- Code units, and a text that the dictionary can deal with. -/
def Typable (t : Tokenizer) (r : List Nat × Option (List Nat)) : Prop :=
  (∀ u ∈ r.1, u < 0x10000) ∧ (∀ us, r.2 = some us → ∀ u ∈ us, u < 0x10000) ∧ ∀ s, Utf16 r.1 s → Tame t s

theorem typable_rows {t : Tokenizer} (tab : FeatureTables t.dict) (ideo : Nat → Bool) (short : Bool) (old : List Bytes) {r : List Nat × Option (List Nat)}
    (h : Typable t r) : ∃ rows, liveType t ideo short old r.1 r.2 = some rows ∧ ShowsInput t ideo r rows := by
  obtain ⟨s, hs⟩ := utf16_total r.1 h.1
  have hm : ∃ m, r.2 = none ∧ m = [] ∨ ∃ us, r.2 = some us ∧ Utf16 us m := by
    cases e : r.2 with
    | none => exact ⟨[], .inl ⟨rfl, rfl⟩⟩
    | some us =>
      obtain ⟨m, hm⟩ := utf16_total us (h.2.1 us e)
      exact ⟨m, .inr ⟨us, rfl, hm⟩⟩
  obtain ⟨m, hm⟩ := hm
  obtain ⟨rows, h1, h2⟩ := C67_rows tab ideo short old hs hm (h.2.2 s hs)
  exact ⟨rows, h1, s, m, hs, hm, h2⟩

theorem liveRun_shows {t : Tokenizer} (tab : FeatureTables t.dict) (ideo : Nat → Bool) (short : Bool) (es : List LiveEvent) (p : LivePage)
    (h : ∀ r ∈ p.waiting ++ inputs es, Typable t r) :
    ∃ q, liveRun t ideo short p es = some q ∧ (q.rows = p.rows ∨ ∃ r ∈ p.waiting ++ inputs es, ShowsInput t ideo r q.rows) := by
  induction es generalizing p with
  | nil => exact ⟨p, rfl, .inl rfl⟩
  | cons e es ih =>
    rw [liveRun]
    cases e with
    | input text mode =>
      obtain ⟨q, h1, h2⟩ := ih ⟨p.rows, p.waiting ++ [(text, mode)]⟩ (by intro r hr; exact h r (by simpa [inputs] using hr))
      refine ⟨q, h1, ?_⟩
      simpa [inputs] using h2
    | answer i =>
      rw [liveStep]
      cases hi : p.waiting[i]? with
      | none =>
        obtain ⟨q, h1, h2⟩ := ih p h
        exact ⟨q, h1, h2⟩
      | some r =>
        have hr : r ∈ p.waiting := List.mem_of_getElem? hi
        obtain ⟨rows, h1, h2⟩ := typable_rows tab ideo short p.rows (h r (by simp [hr]))
        simp only [h1]
        obtain ⟨q, h3, h4⟩ := ih ⟨rows, p.waiting.eraseIdx i⟩ (by
          intro r hr
          rw [List.mem_append] at hr
          refine h r (List.mem_append.mpr (hr.imp (fun hr => List.mem_of_mem_eraseIdx hr) id)))
        refine ⟨q, h3, ?_⟩
        rcases h4 with h4 | ⟨r', h5, h6⟩
        · exact .inr ⟨r, by simp [hr], by rw [h4]; exact h2⟩
        · rw [List.mem_append] at h5
          exact .inr ⟨r', List.mem_append.mpr (h5.imp (fun hr => List.mem_of_mem_eraseIdx hr) id), h6⟩
    | lost i =>
      obtain ⟨q, h3, h4⟩ := ih ⟨p.rows, p.waiting.eraseIdx i⟩ (by
        intro r hr
        rw [List.mem_append] at hr
        refine h r (List.mem_append.mpr (hr.imp (fun hr => List.mem_of_mem_eraseIdx hr) id)))
      refine ⟨q, h3, ?_⟩
      rcases h4 with h4 | ⟨r', h5, h6⟩
      · exact .inl h4
      · rw [List.mem_append] at h5
        exact .inr ⟨r', List.mem_append.mpr (h5.imp (fun hr => List.mem_of_mem_eraseIdx hr) id), h6⟩
    | button page =>
      rw [liveStep, liveTable_page]
      exact ih p h

/-- C67: whatever happens, the table shows what it showed at first, or the analysis of something that was typed. Choosing another mode does not change it. -/
theorem C67_history {t : Tokenizer} (tab : FeatureTables t.dict) (ideo : Nat → Bool) (short : Bool) (rows : List Bytes) (es : List LiveEvent)
    (h : ∀ r ∈ inputs es, Typable t r) :
    ∃ q, liveRun t ideo short ⟨rows, []⟩ es = some q ∧ (q.rows = rows ∨ ∃ r ∈ inputs es, ShowsInput t ideo r q.rows) :=
  liveRun_shows tab ideo short es ⟨rows, []⟩ (by simpa using h)

theorem liveRun_answers {t : Tokenizer} (tab : FeatureTables t.dict) (ideo : Nat → Bool) (short : Bool) (es : List LiveEvent) (p : LivePage)
    (h : ∀ r ∈ p.waiting ++ inputs es, Typable t r) :
    ∃ q, liveRun t ideo short p es = some q ∧
      (answeredOf p.waiting es = [] ∧ q.rows = p.rows ∨ ∃ r, (answeredOf p.waiting es).getLast? = some r ∧ ShowsInput t ideo r q.rows) := by
  induction es generalizing p with
  | nil => exact ⟨p, rfl, .inl ⟨rfl, rfl⟩⟩
  | cons e es ih =>
    rw [liveRun]
    cases e with
    | input text mode =>
      exact ih ⟨p.rows, p.waiting ++ [(text, mode)]⟩ (by intro r hr; exact h r (by simpa [inputs] using hr))
    | answer i =>
      rw [liveStep, answeredOf]
      cases hi : p.waiting[i]? with
      | none => exact ih p h
      | some r =>
        have hr : r ∈ p.waiting := List.mem_of_getElem? hi
        obtain ⟨rows, h1, h2⟩ := typable_rows tab ideo short p.rows (h r (by simp [hr]))
        simp only [h1]
        obtain ⟨q, h3, h4⟩ := ih ⟨rows, p.waiting.eraseIdx i⟩ (by
          intro r hr
          rw [List.mem_append] at hr
          refine h r (List.mem_append.mpr (hr.imp (fun hr => List.mem_of_mem_eraseIdx hr) id)))
        refine ⟨q, h3, .inr ?_⟩
        rcases h4 with ⟨h4, h5⟩ | ⟨r', h5, h6⟩
        · exact ⟨r, by rw [h4]; rfl, by rw [h5]; exact h2⟩
        · exact ⟨r', by rw [List.getLast?_cons, h5]; rfl, h6⟩
    | lost i =>
      exact ih ⟨p.rows, p.waiting.eraseIdx i⟩ (by
        intro r hr
        rw [List.mem_append] at hr
        refine h r (List.mem_append.mpr (hr.imp (fun hr => List.mem_of_mem_eraseIdx hr) id)))
    | button page =>
      rw [liveStep, liveTable_page]
      exact ih p h

/-- C67: in whatever order the answers come, and whatever is lost, the table shows what it showed at first if there was no answer, and
otherwise the analysis of the request whose answer came last. -/
theorem C67_any_order {t : Tokenizer} (tab : FeatureTables t.dict) (ideo : Nat → Bool) (short : Bool) (rows : List Bytes) (es : List LiveEvent)
    (h : ∀ r ∈ inputs es, Typable t r) :
    ∃ q, liveRun t ideo short ⟨rows, []⟩ es = some q ∧
      (answeredOf [] es = [] ∧ q.rows = rows ∨ ∃ r, (answeredOf [] es).getLast? = some r ∧ ShowsInput t ideo r q.rows) :=
  liveRun_answers tab ideo short es ⟨rows, []⟩ (by simpa using h)

/-- Three texts; the answer to the second is lost, and that to the third comes before that to the first, which is shown. -/
example : (answeredOf [] [.input [1] none, .input [2] none, .lost 1, .input [3] none, .answer 1, .answer 0]).getLast? = some ([1], none) := rfl

theorem liveRun_order {t : Tokenizer} (tab : FeatureTables t.dict) (ideo : Nat → Bool) (short : Bool) (es : List LiveEvent) (ho : InOrder es) (p : LivePage)
    (h : ∀ r ∈ p.waiting ++ inputs es, Typable t r) :
    ∃ q answered, liveRun t ideo short p es = some q ∧ p.waiting ++ inputs es = answered ++ q.waiting ∧
      (answered = [] ∧ q.rows = p.rows ∨ ∃ r, answered.getLast? = some r ∧ ShowsInput t ideo r q.rows) := by
  induction es generalizing p with
  | nil => exact ⟨p, [], rfl, by simp [inputs], .inl ⟨rfl, rfl⟩⟩
  | cons e es ih =>
    have ho' : InOrder es := fun e he => ho e (by simp [he])
    rw [liveRun]
    cases e with
    | input text mode =>
      obtain ⟨q, a, h1, h2, h3⟩ := ih ho' ⟨p.rows, p.waiting ++ [(text, mode)]⟩ (by intro r hr; exact h r (by simpa [inputs] using hr))
      exact ⟨q, a, h1, by simpa [inputs] using h2, h3⟩
    | answer i =>
      have hi : i = 0 := (ho _ (by simp)).1 i rfl
      subst hi
      rw [liveStep]
      cases hp : p.waiting with
      | nil =>
        obtain ⟨q, a, h1, h2, h3⟩ := ih ho' p h
        rw [hp] at h2
        exact ⟨q, a, h1, h2, h3⟩
      | cons r ws =>
        obtain ⟨rows, h1, h2⟩ := typable_rows tab ideo short p.rows (h r (by simp [hp]))
        simp only [List.getElem?_cons_zero, h1]
        obtain ⟨q, a, h3, h4, h5⟩ := ih ho' ⟨rows, ws⟩ (by
          intro r hr
          refine h r ?_
          rw [hp]
          simp only [List.mem_append, List.mem_cons] at hr ⊢
          exact hr.imp .inr id)
        refine ⟨q, r :: a, h3, by simpa [inputs] using h4, .inr ?_⟩
        rcases h5 with ⟨rfl, h5⟩ | ⟨r', h5, h6⟩
        · exact ⟨r, rfl, by rw [h5]; exact h2⟩
        · refine ⟨r', ?_, h6⟩
          rw [List.getLast?_cons, h5]; rfl
    | lost i => exact absurd rfl ((ho (.lost i) (by simp)).2 i)
    | button page =>
      rw [liveStep, liveTable_page]
      exact ih ho' p h

/-- C67: if the answers come in the order of the requests, and all have come, the table shows what was typed last. -/
theorem C67_last_partial {t : Tokenizer} (tab : FeatureTables t.dict) (ideo : Nat → Bool) (short : Bool) (rows : List Bytes) (es : List LiveEvent)
    (h : ∀ r ∈ inputs es, Typable t r) (ho : InOrder es) {last : List Nat × Option (List Nat)} (hl : (inputs es).getLast? = some last) :
    ∃ q, liveRun t ideo short ⟨rows, []⟩ es = some q ∧ (q.waiting = [] → ShowsInput t ideo last q.rows) := by
  obtain ⟨q, a, h1, h2, h3⟩ := liveRun_order tab ideo short es ho ⟨rows, []⟩ (by simpa using h)
  refine ⟨q, h1, fun hw => ?_⟩
  rw [hw, List.append_nil, List.nil_append] at h2
  rcases h3 with ⟨rfl, -⟩ | ⟨r, h4, h5⟩
  · rw [h2] at hl; cases hl
  · rw [← h2, hl] at h4
    cases h4
    exact h5

theorem showsInput_unique {t : Tokenizer} {ideo : Nat → Bool} {r : List Nat × Option (List Nat)} {rows rows' : List Bytes}
    (h : ShowsInput t ideo r rows) (h' : ShowsInput t ideo r rows') : rows = rows' := by
  obtain ⟨s, m, h1, h2, h3⟩ := h
  obtain ⟨s', m', h1', h2', h3'⟩ := h'
  have es := utf16_unique h1 h1'
  subst es
  have em : m = m' := by
    rcases h2 with ⟨e, rfl⟩ | ⟨us, e, h2⟩ <;> rcases h2' with ⟨e', rfl⟩ | ⟨us', e', h2'⟩
    · rfl
    · rw [e] at e'; cases e'
    · rw [e] at e'; cases e'
    · rw [e] at e'; cases e'; exact utf16_unique h2 h2'
  subst em
  rcases h3 with ⟨e, rfl⟩ | ⟨e, toks, ds, h3, h4, rfl, -⟩ <;> rcases h3' with ⟨e', rfl⟩ | ⟨e', toks', ds', h3', h4', rfl, -⟩
  · rfl
  · exact absurd e e'
  · exact absurd e' e
  · rw [h3] at h3'
    cases h3'
    rw [h4] at h4'
    rw [List.map_inj_right (fun _ _ h => Option.some.inj h)] at h4'
    rw [h4']

/-! ### Cases -/

/-- も, もも and the button of the Normal mode. -/
def typedShort : List Nat × Option (List Nat) := ([0x3082], some ((str "Normal").map UInt8.toNat))
@[inherit_doc typedShort] def typedLong : List Nat × Option (List Nat) := ([0x3082, 0x3082], some ((str "Normal").map UInt8.toNat))

theorem typed_reads : Utf16 typedLong.1 (str "もも") ∧ Utf16 typedShort.1 (str "も") := by
  have h : Utf16 [0x3082] (str "も") := .char 'も' (by decide) .nil
  exact ⟨.char 'も' (by decide) h, h⟩

theorem toy_tame_short {s : Bytes} (h : runeCount s ≤ 16000) : Tame Toy.tok s := ⟨Toy.wellFormed_none, Toy.replacementOk _, fits_short _ h⟩

theorem typable_long : Typable Toy.tok typedLong := by
  refine ⟨by decide, ?_, ?_⟩
  · intro us h
    cases h
    decide
  · intro s h
    rw [utf16_unique h typed_reads.1]
    exact toy_tame_short (by decide +kernel)

theorem typable_short : Typable Toy.tok typedShort := by
  refine ⟨by decide, ?_, ?_⟩
  · intro us h
    cases h
    decide
  · intro s h
    rw [utf16_unique h typed_reads.2]
    exact toy_tame_short (by decide +kernel)

theorem normal_reads : Utf16 ((str "Normal").map UInt8.toNat) (str "Normal") :=
  .char 'N' (by decide) (.char 'o' (by decide) (.char 'r' (by decide) (.char 'm' (by decide) (.char 'a' (by decide) (.char 'l' (by decide) .nil)))))

theorem showsInput_toy {us : List Nat} {s : Bytes} (h : Utf16 us s) (rows : List Bytes) (hr : Shows Toy.tok Toy.ideo s (str "Normal") rows) :
    ShowsInput Toy.tok Toy.ideo (us, some ((str "Normal").map UInt8.toNat)) rows := ⟨s, _, h, .inr ⟨_, rfl, normal_reads⟩, hr⟩

theorem toy_short : Shows Toy.tok Toy.ideo (str "も") (str "Normal") [str "<tr><td>も</td><td>助詞,係助詞</td><td>係助詞</td><td>*</td><td>*</td></tr>"] := by
  refine .inr ⟨by decide, (analyze Toy.tok Toy.ideo (str "も") (apiMode (str "Normal"))).getD [], [⟨3, 0, 1, str "も", str "KNOWN", some [str "助詞", str "係助詞"], str "係助詞", [], [],
      some [str "助詞", str "係助詞", str "も"]⟩], by rfl, ?_, ?_, ?_⟩ <;>
    decide +kernel

theorem toy_long : Shows Toy.tok Toy.ideo (str "もも") (str "Normal") [str "<tr><td>もも</td><td>名詞</td><td>もも</td><td>*</td><td>*</td></tr>"] := by
  refine .inr ⟨by decide, (analyze Toy.tok Toy.ideo (str "もも") (apiMode (str "Normal"))).getD [], [⟨2, 0, 2, str "もも", str "KNOWN", some [str "名詞"], str "もも", [], [],
      some [str "名詞", str "もも"]⟩], by rfl, ?_, ?_, ?_⟩ <;>
    decide +kernel

/-- も is typed twice, and the answers come as the events say. -/
def twice (answers : List LiveEvent) : List LiveEvent := .input typedShort.1 typedShort.2 :: .input typedLong.1 typedLong.2 :: answers

/-- The answers overtake each other. -/
example : ∃ q, liveRun Toy.tok Toy.ideo true ⟨[], []⟩ (twice [.answer 1, .answer 0]) = some q ∧ ShowsInput Toy.tok Toy.ideo typedShort q.rows := by
  obtain ⟨q, h1, h2⟩ := C67_any_order Toy.featureTables Toy.ideo true [] (twice [.answer 1, .answer 0]) (by
    intro r hr
    have hr : r = typedShort ∨ r = typedLong := by simpa [twice, inputs] using hr
    rcases hr with rfl | rfl
    · exact typable_short
    · exact typable_long)
  have e : answeredOf [] (twice [.answer 1, .answer 0]) = [typedLong, typedShort] := rfl
  rw [e] at h2
  rcases h2 with ⟨h2, -⟩ | ⟨r, h2, h3⟩
  · cases h2
  · cases h2
    exact ⟨q, h1, h3⟩

/-- C67, in full, would say that the table shows what was typed last when all answers have come. The script does not look which request an answer belongs to: if
the answers come in another order, the table shows an analysis of a text that is not in the field any more, and it stays so. -/
theorem C67_stale_wrong : ∃ es q, liveRun Toy.tok Toy.ideo true ⟨[], []⟩ es = some q ∧ q.waiting = [] ∧ (inputs es).getLast? = some typedLong ∧
    ShowsInput Toy.tok Toy.ideo typedShort q.rows ∧ ¬ ShowsInput Toy.tok Toy.ideo typedLong q.rows := by
  have key : ∀ r, Typable Toy.tok r → ∃ rows, ShowsInput Toy.tok Toy.ideo r rows ∧ ∀ old, liveType Toy.tok Toy.ideo true old r.1 r.2 = some rows := by
    intro r h
    obtain ⟨rows, h1, h2⟩ := typable_rows (t := Toy.tok) Toy.featureTables Toy.ideo true [] h
    refine ⟨rows, h2, fun old => ?_⟩
    obtain ⟨rows', h1', h2'⟩ := typable_rows (t := Toy.tok) Toy.featureTables Toy.ideo true old h
    rw [h1', showsInput_unique h2 h2']
  obtain ⟨rows1, s1, t1⟩ := key _ typable_short
  obtain ⟨rows2, s2, t2⟩ := key _ typable_long
  have e3 : liveRun Toy.tok Toy.ideo true ⟨[], []⟩ (twice [.answer 1, .answer 0]) = some ⟨rows1, []⟩ := by
    simp only [twice, liveRun, liveStep, List.nil_append, List.cons_append, Option.bind_some, List.getElem?_cons_succ, List.getElem?_cons_zero, t1, t2,
      Option.map_some, List.eraseIdx_cons_succ, List.eraseIdx_cons_zero]
  refine ⟨_, _, e3, rfl, rfl, s1, fun h => ?_⟩
  have e := (showsInput_unique h (showsInput_toy typed_reads.1 _ toy_long)).symm.trans (showsInput_unique s1 (showsInput_toy typed_reads.2 _ toy_short))
  revert e
  decide +kernel

/-- The hypotheses of C67_history and C67_last_partial: two inputs, another button, answers in order. -/
example : let es := twice [.answer 0, .button (.form [] []), .answer 0]
    (∀ r ∈ inputs es, Typable Toy.tok r) ∧ InOrder es ∧ (inputs es).getLast? = some typedLong ∧ FeatureTables Toy.tok.dict ∧
    ∃ q, liveRun Toy.tok Toy.ideo true ⟨[], []⟩ es = some q ∧ q.waiting = [] := by
  obtain ⟨rows1, t1, -⟩ := typable_rows (t := Toy.tok) Toy.featureTables Toy.ideo true [] typable_short
  obtain ⟨rows2, t2, -⟩ := typable_rows (t := Toy.tok) Toy.featureTables Toy.ideo true rows1 typable_long
  refine ⟨?_, ?_, rfl, Toy.featureTables, ⟨rows2, []⟩, ?_, rfl⟩
  rotate_left 2
  · simp only [twice, liveRun, liveStep, List.nil_append, List.cons_append, Option.bind_some, List.getElem?_cons_zero, t1, t2, Option.map_some,
      List.eraseIdx_cons_zero, liveTable_page]
  · intro r hr
    simp only [twice, inputs, List.mem_cons, List.not_mem_nil, or_false] at hr
    rcases hr with rfl | rfl
    · exact typable_short
    · exact typable_long
  · intro e he
    simp only [twice, List.mem_cons, List.not_mem_nil, or_false] at he
    rcases he with rfl | rfl | rfl | rfl | rfl <;> simp

/-- A pair of surrogates, a surrogate alone, a line feed, a quotation mark. -/
example : ∃ s, Utf16 [0xD83C, 0xDF51, 0xD83C, 0x0A, 0x22] s ∧ s = str "🍑\uFFFD\n\"" ∧
    liveBody [0xD83C, 0xDF51, 0xD83C, 0x0A, 0x22] none = str "{\"sentence\":\"🍑\\ud83c\\n\\\"\"}" := by
  refine ⟨_, .pair 0xD83C 0xDF51 '🍑' ⟨by decide, by decide⟩ ⟨by decide, by decide⟩ (by decide) (.lone 0xD83C (.inl ⟨by decide, by decide⟩) ?_ (.char (Char.ofNat 10) (by decide)
    (.char '"' (by decide) .nil))), by decide, by decide +kernel⟩
  rintro lo us' h ⟨-, h2⟩
  cases h
  exact absurd h2.1 (by decide)

/-- The empty text: the table is emptied. -/
example : Utf16 [] [] ∧ Shows Toy.tok Toy.ideo [] (str "Normal") [] ∧ ∀ rows, Shows Toy.tok Toy.ideo [] (str "Normal") rows → rows = [] :=
  ⟨.nil, .inl ⟨rfl, rfl⟩, by rintro rows (⟨-, h⟩ | ⟨h, -⟩); exact h; exact absurd rfl h⟩

end Kagome
