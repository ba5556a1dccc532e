import Verif.Spec.Request
import Verif.Model.Request
import Verif.Proof.JsonPrefix
import Verif.Props.Api

/-! C66: the API from the bytes of a body to the bytes of the answer. -/

namespace Kagome

open Spec

deriving instance DecidableEq for ApiRequest
deriving instance DecidableEq for Except

/-! ### Names of fields -/

theorem upperMask_table : ∀ n, n < 26 → ∀ m, m < 128 →
    ((UInt8.ofNat (0x61 + n) == UInt8.ofNat m || upperMask (UInt8.ofNat (0x61 + n)) == upperMask (UInt8.ofNat m)) = true ↔
      UInt8.ofNat m = UInt8.ofNat (0x61 + n) ∨ UInt8.ofNat m = UInt8.ofNat (0x61 + n) - 0x20) := by
  decide +kernel

theorem fold_ascii {a b : UInt8} (h1 : 0x61 ≤ a) (h2 : a ≤ 0x7A) (h3 : b < 0x80) :
    (a == b || upperMask a == upperMask b) = true ↔ b = a ∨ b = a - 0x20 := by
  rw [UInt8.le_iff_toNat_le] at h1 h2
  rw [UInt8.lt_iff_toNat_lt] at h3
  have e1 : (0x61 : UInt8).toNat = 97 := rfl
  have e2 : (0x7A : UInt8).toNat = 122 := rfl
  have e3 : (0x80 : UInt8).toNat = 128 := rfl
  have := upperMask_table (a.toNat - 0x61) (by omega) b.toNat (by omega)
  rw [show 0x61 + (a.toNat - 0x61) = a.toNat by omega, UInt8.ofNat_toNat, UInt8.ofNat_toNat] at this
  exact this

theorem longS_bytes {s : Bytes} (h : (decodeRune s).1 = 0x17F) : ∃ t, s = 0xC5 :: 0xBF :: t ∧ (decodeRune s).2 = 2 := by
  have hs : s ≠ [] := by rintro rfl; revert h; decide
  have hne : (decodeRune s).1 ≠ runeError := by rw [h]; decide
  obtain ⟨c, h1, h2, h3⟩ := decode_not_error hs hne
  have hc : c = 'ſ' := Char.ext (UInt32.toNat_inj.mp (by rw [h1, h]; rfl))
  subst hc
  refine ⟨_, h3, ?_⟩
  rw [← h2]; decide

theorem equalFold_iff {name key : Bytes} (hn : ∀ b ∈ name, 0x61 ≤ b ∧ b ≤ 0x7A) : equalFoldRight name key = true ↔ Names key name := by
  induction name generalizing key with
  | nil =>
    rw [equalFoldRight]
    constructor
    · intro h; rw [beq_iff_eq] at h; subst h; exact .nil
    · intro h; cases h; rfl
  | cons a name ih =>
    have ha := hn a (by simp)
    have ih' := fun key => ih (key := key) (fun b hb => hn b (by simp [hb]))
    cases key with
    | nil =>
      rw [equalFoldRight]
      constructor
      · intro h; cases h
      · intro h; cases h
    | cons b t =>
      rw [equalFoldRight]
      split
      · rename_i hb
        rw [Bool.and_eq_true, fold_ascii ha.1 ha.2 hb, ih']
        constructor
        · rintro ⟨rfl | rfl, h⟩
          · exact .same _ h
          · exact .upper a ha.1 ha.2 h
        · intro h
          cases h with
          | same _ h => exact ⟨.inl rfl, h⟩
          | upper _ _ _ h => exact ⟨.inr rfl, h⟩
          | long h => exact absurd hb (by decide)
      · rename_i hb
        simp only [Bool.and_eq_true, beq_iff_eq]
        constructor
        · rintro ⟨⟨rfl, h1⟩, h2⟩
          obtain ⟨u, e, hw⟩ := longS_bytes h1
          rw [hw, e] at h2
          rw [e]
          exact .long ((ih' u).mp (by simpa using h2))
        · intro h
          cases h with
          | same _ h =>
            exfalso; apply hb
            rw [UInt8.lt_iff_toNat_lt]
            have := ha.2
            rw [UInt8.le_iff_toNat_le] at this
            have e1 : (0x80 : UInt8).toNat = 128 := rfl
            have e2 : (0x7A : UInt8).toNat = 122 := rfl
            omega
          | upper _ _ _ h =>
            exfalso; apply hb
            have h1 := ha.1
            have h2 := ha.2
            rw [UInt8.le_iff_toNat_le] at h1 h2
            have e1 : (0x80 : UInt8).toNat = 128 := rfl
            have e2 : (0x7A : UInt8).toNat = 122 := rfl
            have e3 : (0x61 : UInt8).toNat = 97 := rfl
            have e4 : (0x20 : UInt8).toNat = 32 := rfl
            rw [UInt8.lt_iff_toNat_lt, UInt8.toNat_sub_of_le _ _ (by rw [UInt8.le_iff_toNat_le]; omega)]
            omega
          | long h =>
            rename_i k
            have hd : decodeRune (0xC5 :: 0xBF :: k) = (0x17F, 2) := by
              have := decodeValid_encode 'ſ' k
              exact decodeRune_of_valid this
            refine ⟨⟨rfl, by rw [hd]⟩, ?_⟩
            rw [hd]
            exact (ih' k).mpr h

theorem sentence_letters : ∀ b ∈ str "sentence", (0x61 : UInt8) ≤ b ∧ b ≤ 0x7A := by decide
theorem mode_letters : ∀ b ∈ str "mode", (0x61 : UInt8) ≤ b ∧ b ≤ 0x7A := by decide

theorem names_head {key n : Bytes} {a : UInt8} (h : Names key (a :: n)) : key.head? = some a ∨ key.head? = some (a - 0x20) ∨ key.head? = some 0xC5 := by
  cases h with
  | same => exact .inl rfl
  | upper => exact .inr (.inl rfl)
  | long => exact .inr (.inr rfl)

theorem names_head' {key n : Bytes} {a : UInt8} (h : Names key (a :: n)) (ha : a ≠ 0x73) : key.head? = some a ∨ key.head? = some (a - 0x20) := by
  cases h with
  | same => exact .inl rfl
  | upper => exact .inr rfl
  | long => exact absurd rfl ha

theorem names_apart {key : Bytes} (h : Names key (str "sentence")) (h' : Names key (str "mode")) : False := by
  have e1 : str "sentence" = 0x73 :: str "entence" := by decide
  have e2 : str "mode" = 0x6D :: str "ode" := by decide
  rw [e1] at h; rw [e2] at h'
  rcases names_head h with e | e | e <;> rcases names_head' h' (by decide) with e' | e' <;> rw [e] at e' <;> revert e' <;> decide

/-! ### What is stored -/

/-- The text a field holds behind some members, where it held `cur` before them. -/
def HeldText (members : List (Bytes × JTree)) (name cur s : Bytes) : Prop :=
  (∀ m ∈ members, Names m.1 name → m.2 = .null ∨ ∃ x, m.2 = .str x) ∧
  ((∃ before key after, members = before ++ (key, .str s) :: after ∧ Names key name ∧ ∀ m ∈ after, Names m.1 name → m.2 = .null) ∨
    (s = cur ∧ ∀ m ∈ members, Names m.1 name → m.2 = .null))

theorem held_skip {k : Bytes} {v : JTree} {l : List (Bytes × JTree)} {name cur s : Bytes} (h : ¬ Names k name) :
    HeldText ((k, v) :: l) name cur s ↔ HeldText l name cur s := by
  constructor
  · rintro ⟨h1, h2⟩
    refine ⟨fun m hm => h1 m (by simp [hm]), ?_⟩
    rcases h2 with ⟨before, key, after, e, hk, ha⟩ | ⟨e, ha⟩
    · cases before with
      | nil =>
        simp only [List.nil_append, List.cons.injEq, Prod.mk.injEq] at e
        obtain ⟨⟨rfl, -⟩, -⟩ := e
        exact absurd hk h
      | cons x before =>
        simp only [List.cons_append, List.cons.injEq] at e
        exact .inl ⟨before, key, after, e.2, hk, ha⟩
    · exact .inr ⟨e, fun m hm => ha m (by simp [hm])⟩
  · rintro ⟨h1, h2⟩
    refine ⟨?_, ?_⟩
    · intro m hm
      rcases List.mem_cons.mp hm with rfl | hm
      · intro hn; exact absurd hn h
      · exact h1 m hm
    · rcases h2 with ⟨before, key, after, e, hk, ha⟩ | ⟨e, ha⟩
      · exact .inl ⟨(k, v) :: before, key, after, by rw [e]; rfl, hk, ha⟩
      · refine .inr ⟨e, ?_⟩
        intro m hm
        rcases List.mem_cons.mp hm with rfl | hm
        · intro hn; exact absurd hn h
        · exact ha m hm

theorem held_null {k : Bytes} {l : List (Bytes × JTree)} {name cur s : Bytes} :
    HeldText ((k, .null) :: l) name cur s ↔ HeldText l name cur s := by
  constructor
  · rintro ⟨h1, h2⟩
    refine ⟨fun m hm => h1 m (by simp [hm]), ?_⟩
    rcases h2 with ⟨before, key, after, e, hk, ha⟩ | ⟨e, ha⟩
    · cases before with
      | nil => simp at e
      | cons x before =>
        simp only [List.cons_append, List.cons.injEq] at e
        exact .inl ⟨before, key, after, e.2, hk, ha⟩
    · exact .inr ⟨e, fun m hm => ha m (by simp [hm])⟩
  · rintro ⟨h1, h2⟩
    refine ⟨?_, ?_⟩
    · intro m hm
      rcases List.mem_cons.mp hm with rfl | hm
      · intro _; exact .inl rfl
      · exact h1 m hm
    · rcases h2 with ⟨before, key, after, e, hk, ha⟩ | ⟨e, ha⟩
      · exact .inl ⟨(k, .null) :: before, key, after, by rw [e]; rfl, hk, ha⟩
      · refine .inr ⟨e, ?_⟩
        intro m hm
        rcases List.mem_cons.mp hm with rfl | hm
        · intro _; rfl
        · exact ha m hm

theorem held_str {k x : Bytes} {l : List (Bytes × JTree)} {name cur s : Bytes} (h : Names k name) :
    HeldText ((k, .str x) :: l) name cur s ↔ HeldText l name x s := by
  constructor
  · rintro ⟨h1, h2⟩
    refine ⟨fun m hm => h1 m (by simp [hm]), ?_⟩
    rcases h2 with ⟨before, key, after, e, hk, ha⟩ | ⟨-, ha⟩
    · cases before with
      | nil =>
        simp only [List.nil_append, List.cons.injEq, Prod.mk.injEq, JTree.str.injEq] at e
        obtain ⟨⟨-, rfl⟩, rfl⟩ := e
        exact .inr ⟨rfl, ha⟩
      | cons y before =>
        simp only [List.cons_append, List.cons.injEq] at e
        exact .inl ⟨before, key, after, e.2, hk, ha⟩
    · exact absurd (ha _ (List.mem_cons_self ..) h) (by simp)
  · rintro ⟨h1, h2⟩
    refine ⟨?_, ?_⟩
    · intro m hm
      rcases List.mem_cons.mp hm with rfl | hm
      · intro _; exact .inr ⟨x, rfl⟩
      · exact h1 m hm
    · rcases h2 with ⟨before, key, after, e, hk, ha⟩ | ⟨rfl, ha⟩
      · exact .inl ⟨(k, .str x) :: before, key, after, by rw [e]; rfl, hk, ha⟩
      · exact .inl ⟨[], k, l, rfl, h, ha⟩

theorem held_not {k : Bytes} {v : JTree} {l : List (Bytes × JTree)} {name cur s : Bytes} (h : Names k name) (h1 : v ≠ .null) (h2 : ∀ x, v ≠ .str x) :
    ¬ HeldText ((k, v) :: l) name cur s := by
  rintro ⟨h3, -⟩
  rcases h3 _ (List.mem_cons_self ..) h with e | ⟨x, e⟩
  · exact h1 e
  · exact h2 x e

theorem storeString_cases (name cur : Bytes) (v : JTree) :
    (v = .null ∧ storeString name cur v = (cur, none)) ∨ (∃ x, v = .str x ∧ storeString name cur v = (x, none)) ∨
    (v ≠ .null ∧ (∀ x, v ≠ .str x) ∧ storeString name cur v = (cur, some (fieldError name v))) := by
  cases v <;> simp [storeString]

theorem storeMembers_error (l : List (Bytes × JTree)) (req : ApiRequest) (e : Bytes) : (storeMembers req (some e) l).2 = some e := by
  induction l generalizing req with
  | nil => rfl
  | cons m l ih =>
    obtain ⟨k, v⟩ := m
    rw [storeMembers]
    split
    · exact ih _
    · split
      · exact ih _
      · exact ih _

theorem storeMembers_iff (l : List (Bytes × JTree)) (req req' : ApiRequest) :
    storeMembers req none l = (req', none) ↔ HeldText l (str "sentence") req.input req'.input ∧ HeldText l (str "mode") req.mode req'.mode := by
  induction l generalizing req with
  | nil =>
    obtain ⟨i, m⟩ := req
    obtain ⟨i', m'⟩ := req'
    rw [storeMembers]
    simp only [HeldText, List.not_mem_nil, false_implies, implies_true, true_and, and_true, Prod.mk.injEq, ApiRequest.mk.injEq]
    constructor
    · rintro ⟨rfl, rfl⟩; exact ⟨.inr rfl, .inr rfl⟩
    · rintro ⟨h1, h2⟩
      refine ⟨?_, ?_⟩
      · rcases h1 with ⟨b, k, a, e, -⟩ | h
        · simp at e
        · exact h.symm
      · rcases h2 with ⟨b, k, a, e, -⟩ | h
        · simp at e
        · exact h.symm
  | cons m l ih =>
    obtain ⟨k, v⟩ := m
    rw [storeMembers]
    split
    · rename_i hk
      rw [equalFold_iff sentence_letters] at hk
      have hm : ¬ Names k (str "mode") := fun h => names_apart hk h
      rw [held_skip hm]
      rcases storeString_cases (str "sentence") req.input v with ⟨rfl, e⟩ | ⟨x, rfl, e⟩ | ⟨h1, h2, e⟩
      · rw [e, held_null]; exact ih _
      · rw [e, held_str hk]; exact ih _
      · rw [e]
        constructor
        · intro h
          have := storeMembers_error l { req with input := req.input } (fieldError (str "sentence") v)
          replace h : storeMembers { req with input := req.input } (some (fieldError (str "sentence") v)) l = (req', none) := h
          rw [h] at this
          cases this
        · intro h; exact absurd h.1 (held_not hk h1 h2)
    · rename_i hs
      rw [equalFold_iff sentence_letters] at hs
      rw [held_skip hs]
      split
      · rename_i hk
        rw [equalFold_iff mode_letters] at hk
        rcases storeString_cases (str "mode") req.mode v with ⟨rfl, e⟩ | ⟨x, rfl, e⟩ | ⟨h1, h2, e⟩
        · rw [e, held_null]; exact ih _
        · rw [e, held_str hk]; exact ih _
        · rw [e]
          constructor
          · intro h
            have := storeMembers_error l { req with mode := req.mode } (fieldError (str "mode") v)
            replace h : storeMembers { req with mode := req.mode } (some (fieldError (str "mode") v)) l = (req', none) := h
            rw [h] at this
            cases this
          · intro h; exact absurd h.2 (held_not hk h1 h2)
      · rename_i hk
        rw [equalFold_iff mode_letters] at hk
        rw [held_skip hk]
        exact ih _

theorem storeRequest_iff (v : JTree) (req : ApiRequest) : storeRequest v = .ok req ↔ IsRequest v req := by
  unfold IsRequest
  cases v with
  | null =>
    obtain ⟨i, m⟩ := req
    simp [storeRequest, eq_comm]
  | obj l =>
    have := storeMembers_iff l ⟨[], []⟩ req
    simp only [storeRequest, reduceCtorEq, false_and, JTree.obj.injEq, exists_eq_left', false_or]
    change _ ↔ HeldText l (str "sentence") [] req.input ∧ HeldText l (str "mode") [] req.mode
    rw [← this]
    split
    · rename_i r hr; rw [hr]; simp
    · rename_i r e hr; rw [hr]; simp
  | bool b => simp [storeRequest]
  | num t => simp [storeRequest]
  | str s => simp [storeRequest]
  | arr l => simp [storeRequest]

/-! ### The whole way -/

theorem readFirst_total (body : Bytes) : ∃ r, readFirst body = some r := by
  unfold readFirst
  split
  · exact ⟨_, rfl⟩
  · exact ⟨_, rfl⟩
  · exact ⟨_, rfl⟩
  · rename_i h
    rcases (scan_error _ _ _ _).1 (Nat.le_refl _) h with h | ⟨b, c, h⟩ <;> cases h
  · rename_i h
    rcases (scan_error _ _ _ _).1 (Nat.le_refl _) h with h | ⟨b, c, h⟩ <;> cases h

/-- C66: reading a request comes to an end and does not panic, whatever the body. -/
theorem C66_total (body : Bytes) : ∃ r, decodeRequest body = some r := by
  unfold decodeRequest
  obtain ⟨r, h⟩ := readFirst_total body
  rw [h]
  cases r with
  | error e => exact ⟨_, rfl⟩
  | ok v => exact ⟨_, rfl⟩

theorem readFirst_ok {body : Bytes} {v : JTree} :
    readFirst body = some (.ok v) ↔ ∃ rest, scanValue (2 * body.length + 1) 10000 body = .ok (v, rest) := by
  unfold readFirst
  split
  · rename_i w rest h
    rw [h]
    constructor
    · intro h; cases h; exact ⟨rest, rfl⟩
    · rintro ⟨r, h⟩; cases h; rfl
  all_goals
    rename_i h
    rw [h]
    constructor
    · intro h; cases h
    · rintro ⟨r, h⟩; cases h

/-- C66: which bodies the server understands, and as what. -/
theorem C66_ok (body : Bytes) (req : ApiRequest) : decodeRequest body = some (.ok req) ↔ Carries body req := by
  unfold decodeRequest
  constructor
  · intro h
    obtain ⟨r, hr⟩ := readFirst_total body
    rw [hr] at h
    cases r with
    | error e => cases h
    | ok v =>
      simp only [Option.some.injEq] at h
      obtain ⟨rest, hs⟩ := readFirst_ok.mp hr
      obtain ⟨ws, text, e, hw, hv⟩ := (scan_sound _ _ _).1 v rest hs
      exact ⟨ws, text, rest, v, e, hw, hv, (storeRequest_iff v req).mp h⟩
  · rintro ⟨ws, text, rest, v, rfl, hw, hv, hreq⟩
    have hn : ∀ t, v = .num t → NumEnd rest := by
      rintro t rfl
      rcases hreq with ⟨h, -⟩ | ⟨l, h, -⟩ <;> cases h
    have := scan_complete hv rest (2 * (ws ++ text ++ rest).length + 1) (ws ++ text ++ rest) hn (by simp; omega)
      (by rw [List.append_assoc, dropSpace_ws hw])
    rw [readFirst_ok.mpr ⟨rest, this⟩]
    simp only
    rw [(storeRequest_iff v req).mpr hreq]

/-- C66: a body carries one request at most. -/
theorem carries_unique {body : Bytes} {r r' : ApiRequest} (h : Carries body r) (h' : Carries body r') : r = r' := by
  rw [← C66_ok] at h h'
  rw [h] at h'
  simpa using h'

theorem stringText_valid {raw s : Bytes} (h : StringText raw s) : ValidUtf8 s := by
  induction h with
  | nil => exact valid_nil
  | char c _ _ _ _ ih => exact valid_append (valid_encode c) ih
  | short e x h _ ih =>
    refine valid_append (a := [x]) (valid_ascii ?_) ih
    have : ∀ n, n < 256 → ∀ x, escape (UInt8.ofNat n) = some x → x.toNat < 0x80 := by
      intro n hn
      have : ∀ n, n < 256 → ((escape (UInt8.ofNat n)).all fun x => x.toNat < 0x80) = true := by decide +kernel
      intro x hx
      have := this n hn
      rw [hx] at this
      simpa using this
    have h2 := this e.toNat (UInt8.toNat_lt e) x
    rw [UInt8.ofNat_toNat] at h2
    exact h2 h
  | code a b c d ch _ _ ih => exact valid_append (valid_encode ch) ih
  | pair a b c d a' b' c' d' hi lo ch _ _ _ _ _ _ ih => exact valid_append (valid_encode ch) ih
  | lone a b c d u _ _ _ _ ih => exact valid_append (valid_encode _) ih
  | bad b _ _ _ ih => exact valid_append (valid_encode _) ih

theorem members_valid {n : Nat} {l : List (Bytes × JTree)} {text : Bytes} (h : MembersText n l text) : ∀ m ∈ l, ∀ x, m.2 = .str x → ValidUtf8 x := by
  refine MembersText.rec
    (motive_1 := fun n v text _ => ∀ x, v = .str x → ValidUtf8 x)
    (motive_2 := fun n l text _ => True)
    (motive_3 := fun n l text _ => ∀ m ∈ l, ∀ x, m.2 = .str x → ValidUtf8 x)
    ?null ?true ?false ?num ?str ?noItems ?arr ?noMembers ?obj ?ilast ?imore ?mlast ?mmore h
  case str => intro n raw s hs x hx; cases hx; exact stringText_valid hs
  case ilast => intros; trivial
  case imore => intros; trivial
  case mlast =>
    intro n k v ws raw ws1 ws2 text ws' h1 h2 h3 h4 hv h5 ih m hm x hx
    rw [List.mem_singleton] at hm
    subst hm
    exact ih x hx
  case mmore =>
    intro n k v l ws raw ws1 ws2 text ws' more h1 h2 h3 h4 hv h5 hm ih ih2 m hm x hx
    rcases List.mem_cons.mp hm with rfl | hm
    · exact ih x hx
    · exact ih2 m hm x hx
  all_goals (intros; simp_all)

theorem hasText_valid {l : List (Bytes × JTree)} {name s : Bytes} (h : ∀ m ∈ l, ∀ x, m.2 = .str x → ValidUtf8 x) (ht : HasText l name s) :
    ValidUtf8 s := by
  rcases ht.2 with ⟨before, key, after, e, -, -⟩ | ⟨rfl, -⟩
  · exact h (key, .str s) (by rw [e]; simp) s rfl
  · exact valid_nil

/-- C66: the texts of a request are valid UTF-8, whatever the bytes of the body. -/
theorem C66_valid {body : Bytes} {req : ApiRequest} (h : Carries body req) : ValidUtf8 req.input ∧ ValidUtf8 req.mode := by
  obtain ⟨ws, text, rest, v, -, -, hv, hr⟩ := h
  rcases hr with ⟨-, h1, h2⟩ | ⟨l, rfl, h1, h2⟩
  · rw [h1, h2]; exact ⟨valid_nil, valid_nil⟩
  · have hm : ∀ m ∈ l, ∀ x, m.2 = .str x → ValidUtf8 x := by
      cases hv with
      | noMembers => intro m hm; cases hm
      | obj _ _ _ h => exact members_valid h
    exact ⟨hasText_valid hm h1, hasText_valid hm h2⟩

theorem serveApi_eq {t : Tokenizer} {ideo : Nat → Bool} {short : Bool} {body : Bytes} {r : Except Bytes ApiRequest} (h : decodeRequest body = some r) :
    serveApi t ideo short body = serveTokenize t ideo short (fun _ => r) body := by
  unfold serveApi; rw [h]

/-- C66: a client that posts a JSON object with a sentence, and possibly the name of a mode, in whatever JSON text, gets a JSON object with `status` true
whose `tokens` are those of the sentence in that mode. The sentence can be read back: the surfaces of the tokens, joined, are the sentence. -/
theorem C66_client {t : Tokenizer} (tab : FeatureTables t.dict) (ideo : Nat → Bool) (short : Bool) {body : Bytes} {req : ApiRequest} (hb : Carries body req)
    (h : Tame t req.input) :
    ∃ (out : Bytes) (v : Json), serveApi t ideo short body = some ⟨200, str "application/json", out⟩ ∧ readJson out = some v ∧
      v.get? (str "status") = some (.bool true) ∧ surfacesOf v = req.input ∧
      (req.input ≠ [] → ∃ (toks : List Token) (ds : List TokenData), analyze t ideo req.input (apiMode req.mode) = some toks ∧
        (inner toks).map newTokenData = ds.map some ∧ v = answer (ds.map dataJson)) := by
  have hs := (C66_valid hb).1
  rw [serveApi_eq ((C66_ok body req).mpr hb)]
  by_cases hne : req.input = []
  · obtain ⟨out, h1, h2⟩ := C43_empty t ideo short (decode := fun _ => .ok req) (body := body) rfl hne
    refine ⟨out, _, h1, h2.reads, rfl, ?_, fun h => absurd hne h⟩
    rw [hne]; rfl
  · obtain ⟨toks, ds, out, h1, h2, _, h3, h4⟩ := C43_answer h.wf tab ideo short (decode := fun _ => .ok req) (body := body) rfl hne h.rep
    refine ⟨out, _, h3, h4.reads, rfl, ?_, fun _ => ⟨toks, ds, h1, h2, rfl⟩⟩
    rw [surfaces_of_data h2, repaired_surfaces h h1, repaired_valid hs]

/-- C66: every body gets an answer: status 200 if it carries a request, and 400 if it carries none. -/
theorem C66_status {t : Tokenizer} (wf : WellFormed t.dict t.userDict) (tab : FeatureTables t.dict) (ideo : Nat → Bool) (short : Bool) (body : Bytes) :
    ∃ r, serveApi t ideo short body = some r ∧ (r.status = 200 ↔ ∃ req, Carries body req) ∧ (r.status = 400 ↔ ¬ ∃ req, Carries body req) := by
  obtain ⟨d, hd⟩ := C66_total body
  obtain ⟨r, h1, h2, h3⟩ := C43_total wf tab ideo short (fun _ => d) body
  refine ⟨r, by rw [serveApi_eq hd]; exact h1, ?_, ?_⟩
  · rw [h2]
    constructor
    · rintro ⟨req, rfl⟩; exact ⟨req, (C66_ok body req).mp hd⟩
    · rintro ⟨req, hc⟩
      rw [← C66_ok, hd] at hc
      exact ⟨req, by simpa using hc⟩
  · rw [h3]
    constructor
    · rintro ⟨e, rfl⟩ ⟨req, hc⟩
      rw [← C66_ok, hd] at hc
      simp at hc
    · intro hn
      cases d with
      | error e => exact ⟨e, rfl⟩
      | ok req => exact absurd ⟨req, (C66_ok body req).mp hd⟩ hn

/-! ### Reasons -/

theorem typeName_eq (v : JTree) : v.kind = typeName v := by cases v <;> rfl

theorem storeString_unfit {name cur : Bytes} {v : JTree} (h : Unfit v) : storeString name cur v = (cur, some (fieldError name v)) := by
  rcases storeString_cases name cur v with ⟨rfl, -⟩ | ⟨x, rfl, -⟩ | ⟨-, -, e⟩
  · exact absurd rfl h.1
  · exact absurd rfl (h.2 x)
  · exact e

theorem storeString_fit {name cur : Bytes} {v : JTree} (h : ¬ Unfit v) : (storeString name cur v).2 = none := by
  rcases storeString_cases name cur v with ⟨-, e⟩ | ⟨x, -, e⟩ | ⟨h1, h2, -⟩
  · rw [e]
  · rw [e]
  · exact absurd ⟨h1, h2⟩ h

theorem fit_of_none {name cur : Bytes} {v : JTree} (h : (storeString name cur v).2 = none) : ¬ Unfit v := by
  intro hu
  rw [storeString_unfit hu] at h
  cases h

theorem storeMembers_reason (l : List (Bytes × JTree)) (req : ApiRequest) (e : Bytes) (h : (storeMembers req none l).2 = some e) :
    ∃ before k name v after, l = before ++ (k, v) :: after ∧ name ∈ fields ∧ Names k name ∧ Unfit v ∧
      (∀ m ∈ before, ∀ name ∈ fields, Names m.1 name → ¬ Unfit m.2) ∧ e = fieldError name v := by
  induction l generalizing req with
  | nil => cases h
  | cons m l ih =>
    obtain ⟨k, v⟩ := m
    have skip : ∀ {req'}, (∀ name ∈ fields, Names k name → ¬ Unfit v) → (storeMembers req' none l).2 = some e →
        ∃ before k' name v' after, (k, v) :: l = before ++ (k', v') :: after ∧ name ∈ fields ∧ Names k' name ∧ Unfit v' ∧
          (∀ m ∈ before, ∀ name ∈ fields, Names m.1 name → ¬ Unfit m.2) ∧ e = fieldError name v' := by
      intro req' hfit h
      obtain ⟨before, k', name, v', after, e1, h1, h2, h3, h4, h5⟩ := ih _ h
      refine ⟨(k, v) :: before, k', name, v', after, by rw [e1]; rfl, h1, h2, h3, ?_, h5⟩
      intro m hm
      rcases List.mem_cons.mp hm with rfl | hm
      · exact hfit
      · exact h4 m hm
    have hit : ∀ {name : Bytes} {cur : Bytes} {req' : ApiRequest}, name ∈ fields → Names k name →
        (storeMembers req' ((none : Option Bytes).or (storeString name cur v).2) l).2 = some e →
        ∃ before k' name v' after, (k, v) :: l = before ++ (k', v') :: after ∧ name ∈ fields ∧ Names k' name ∧ Unfit v' ∧
          (∀ m ∈ before, ∀ name ∈ fields, Names m.1 name → ¬ Unfit m.2) ∧ e = fieldError name v' := by
      intro name cur req' hf hk h
      cases hu : (storeString name cur v).2 with
      | none =>
        rw [hu] at h
        exact skip (fun _ _ _ => fit_of_none hu) h
      | some x =>
        have hun : Unfit v := by
          apply Classical.byContradiction
          intro hn
          rw [storeString_fit hn] at hu; cases hu
        rw [storeString_unfit hun] at h
        rw [show ((none : Option Bytes).or (cur, some (fieldError name v)).2) = some (fieldError name v) from rfl, storeMembers_error] at h
        cases h
        exact ⟨[], k, name, v, l, rfl, hf, hk, hun, (fun m hm => by cases hm), rfl⟩
    rw [storeMembers] at h
    split at h
    · rename_i hk
      rw [equalFold_iff sentence_letters] at hk
      exact hit (by simp [fields]) hk h
    · rename_i hs
      rw [equalFold_iff sentence_letters] at hs
      split at h
      · rename_i hk
        rw [equalFold_iff mode_letters] at hk
        exact hit (by simp [fields]) hk h
      · rename_i hk
        rw [equalFold_iff mode_letters] at hk
        refine skip ?_ h
        intro name hn hname
        simp only [fields, List.mem_cons, List.not_mem_nil, or_false] at hn
        rcases hn with rfl | rfl
        · exact absurd hname hs
        · exact absurd hname hk

theorem storeRequest_reason {v : JTree} {e : Bytes} (h : storeRequest v = .error e) : TypeError v e := by
  cases v with
  | null => cases h
  | obj l =>
    rw [storeRequest] at h
    split at h
    · cases h
    · rename_i req e' hm
      cases h
      obtain ⟨before, k, name, v, after, rfl, h1, h2, h3, h4, rfl⟩ := storeMembers_reason l _ e (by rw [hm])
      unfold fieldError
      rw [typeName_eq]
      exact .field before after k name v h1 h2 h3 h4
  | bool b => cases h; exact .whole (.bool b) (by simp) (by simp)
  | num t => cases h; exact .whole (.num t) (by simp) (by simp)
  | str s => cases h; exact .whole (.str s) (by simp) (by simp)
  | arr l => cases h; exact .whole (.arr l) (by simp) (by simp)

theorem front_scan {body : Bytes} {v : JTree} (h : Front body v) (hn : ¬ ∃ t, v = .num t) {f : Nat} (hf : 2 * body.length + 1 ≤ f) :
    ∃ rest, scanValue f 10000 body = .ok (v, rest) := by
  obtain ⟨ws, text, rest, rfl, hw, hv⟩ := h
  exact ⟨rest, scan_complete hv rest f _ (fun t ht => absurd ⟨t, ht⟩ hn) (by simp at hf; omega) (by rw [List.append_assoc, dropSpace_ws hw])⟩

theorem front_number {body : Bytes} {e : JErr} (h : scanValue (2 * body.length + 1) 10000 body = .error e) : ∀ v, Front body v → ∃ t, v = .num t := by
  intro v hv
  apply Classical.byContradiction
  intro hn
  obtain ⟨rest, hr⟩ := front_scan hv hn (Nat.le_refl _)
  rw [h] at hr; cases hr

theorem beginning_of_short {f : Nat} {s : Bytes} (h : scanValue f 10000 s = .error .short) : Beginning s := by
  obtain ⟨more, ws, v, text, h⟩ := (scan_short f 10000 s).1 h
  exact ⟨more, ws, text, v, h⟩

theorem not_beginning {good : Bytes} {c : UInt8} {ctx : Bytes}
    (h : ∀ rest' f', 2 * (good ++ c :: rest').length + 1 ≤ f' → scanValue f' 10000 (good ++ c :: rest') = .error (.bad c ctx)) : ¬ Beginning (good ++ [c]) := by
  rintro ⟨more, ws, text, v, e, hw, hv⟩
  have h1 := h more _ (Nat.le_refl _)
  have e2 : good ++ c :: more = ws ++ text := by rw [← e]; simp
  rw [e2] at h1
  have := scan_complete hv [] (2 * (ws ++ text).length + 1) (ws ++ text) (by intro t _ b hb; cases hb) (by simp; omega)
    (by rw [dropSpace_ws hw, List.append_nil])
  rw [h1] at this
  cases this

/-- C66: the reason for which a body is refused is the right one. -/
theorem decode_reason {body e : Bytes} (h : decodeRequest body = some (.error e)) : Refusal body e := by
  unfold decodeRequest at h
  split at h
  · cases h
  · rename_i e' hr
    simp only [Option.some.injEq, Except.error.injEq] at h
    subst h
    unfold readFirst at hr
    split at hr
    · cases hr
    · rename_i c ctx hs
      cases hr
      obtain ⟨good, rest, e, hP, hg, hb⟩ := (scan_bad _ _ _ _ _).1 hs
      exact .wrong good c rest _ ctx e (beginning_of_short (hg _ (Nat.le_refl _))) (not_beginning hb) (front_number hs) (shown_quoteChar c) hP
    · rename_i hs
      cases hr
      split
      · rename_i hb
        exact .blank (dropSpace_nil.mp hb)
      · rename_i hb
        exact .short (fun h => hb (dropSpace_nil.mpr h)) (beginning_of_short hs) (front_number hs)
    · cases hr
    · cases hr
  · rename_i v hr
    simp only [Option.some.injEq] at h
    obtain ⟨rest, hs⟩ := readFirst_ok.mp hr
    obtain ⟨ws, text, e, hw, hv⟩ := (scan_sound _ _ _).1 v rest hs
    exact .type v _ ⟨ws, text, rest, e, hw, hv⟩ (storeRequest_reason h)

/-- C66: a body that carries no request gets status 400 and the reason. -/
theorem C66_refused (t : Tokenizer) (ideo : Nat → Bool) (short : Bool) {body : Bytes} (h : ¬ ∃ req, Carries body req) :
    ∃ reason, Refusal body reason ∧
      serveApi t ideo short body = some ⟨400, str "text/plain; charset=utf-8", str "{\"status\":false,\"error\":\"" ++ reason ++ str "\"}\n"⟩ := by
  obtain ⟨d, hd⟩ := C66_total body
  cases d with
  | ok req => exact absurd ⟨req, (C66_ok body req).mp hd⟩ h
  | error e =>
    refine ⟨e, decode_reason hd, ?_⟩
    rw [serveApi_eq hd]
    exact C43_undecoded t ideo short (decode := fun _ => .error e) rfl

/-! ### A client that uses json.Marshal -/

theorem hexUnit_ascii : ∀ n, n < 128 → hexUnit 0x30 0x30 (hexByte (n / 16)) (hexByte (n % 16)) = some n := by decide +kernel

theorem escape_table : escape 0x5C = some 0x5C ∧ escape 0x22 = some 0x22 ∧ escape 0x62 = some 0x08 ∧ escape 0x66 = some 0x0C ∧ escape 0x6E = some 0x0A ∧
    escape 0x72 = some 0x0D ∧ escape 0x74 = some 0x09 := by decide

theorem stringText_rune (short : Bool) {c : Char} {w : Nat} {raw s : Bytes} (h : StringText raw s) :
    StringText (jsonRune short (c.val.toNat, w) ++ raw) (String.utf8EncodeChar c ++ s) := by
  by_cases ha : c.val.toNat < 0x80
  · have hn : (UInt8.ofNat c.val.toNat).toNat = c.val.toNat := ofNat_toNat ha
    obtain ⟨e1, e2, e3, e4, e5, e6, e7⟩ := escape_table
    unfold jsonRune
    rw [if_pos ha]
    dsimp only
    by_cases hs : htmlSafe c.val.toNat = true
    · rw [if_pos hs, ← encode_ascii ha]
      simp only [htmlSafe, Bool.and_eq_true, decide_eq_true_eq] at hs
      obtain ⟨⟨⟨⟨⟨h1, h2⟩, -⟩, -⟩, -⟩, h6⟩ := hs
      refine .char c h1 ?_ ?_ h
      · rintro rfl; exact h2 (by decide)
      · rintro rfl; exact h6 (by decide)
    rw [if_neg hs, encode_ascii ha]
    by_cases hq : c.val.toNat = 0x5C ∨ c.val.toNat = 0x22
    · rw [if_pos hq]
      rcases hq with hq | hq
      · rw [hq]; exact .short 0x5C _ e1 h
      · rw [hq]; exact .short 0x22 _ e2 h
    rw [if_neg hq]
    split
    · rename_i hb
      have hb := (Bool.and_eq_true _ _ ▸ hb).2
      rw [decide_eq_true_eq] at hb
      rw [hb, str_b]; exact .short 0x62 _ e3 h
    split
    · rename_i hb
      have hb := (Bool.and_eq_true _ _ ▸ hb).2
      rw [decide_eq_true_eq] at hb
      rw [hb, str_f]; exact .short 0x66 _ e4 h
    split
    · rename_i hb; rw [hb, str_n]; exact .short 0x6E _ e5 h
    split
    · rename_i hb; rw [hb, str_r]; exact .short 0x72 _ e6 h
    split
    · rename_i hb; rw [hb, str_t]; exact .short 0x74 _ e7 h
    · rw [← encode_ascii ha, str_u00]
      exact .code _ _ _ _ c (hexUnit_ascii _ ha) h
  · unfold jsonRune
    rw [if_neg ha]
    split
    · rename_i he
      have he : c.val.toNat = runeError := (Prod.mk.inj he).1
      rw [str_ufffd]
      refine .code _ _ _ _ c ?_ h
      rw [he]; decide
    split
    · rename_i _ hb
      dsimp only at hb
      rw [str_u202]
      refine .code _ _ _ _ c ?_ h
      rcases hb with hb | hb <;> rw [hb] <;> dsimp only <;> decide
    · dsimp only
      rw [encodeRune_char]
      refine .char c (by omega) ?_ ?_ h
      · rintro rfl; exact ha (by decide)
      · rintro rfl; exact ha (by decide)

theorem stringText_marshal (short : Bool) (s : Bytes) : StringText ((runes s).flatMap (jsonRune short)) (repaired s) := by
  unfold repaired
  have : ∀ l : List (Nat × Nat), (∀ r ∈ l, ∃ c : Char, r.1 = c.val.toNat) → StringText (l.flatMap (jsonRune short)) (l.flatMap (fun r => encodeRune r.1)) := by
    intro l
    induction l with
    | nil => intro _; exact .nil
    | cons r l ih =>
      intro h
      obtain ⟨c, hc⟩ := h r (by simp)
      obtain ⟨n, w⟩ := r
      dsimp only at hc
      subst hc
      rw [List.flatMap_cons, List.flatMap_cons, encodeRune_char]
      exact stringText_rune short (ih (fun r hr => h r (by simp [hr])))
  exact this _ (fun r hr => rune_char hr)

theorem key_text (s : String) (h : ∀ c ∈ s.toList, 0x20 ≤ c.val.toNat ∧ c ≠ '"' ∧ c ≠ '\\') : StringText (str s) (str s) := by
  unfold str
  generalize s.toList = l at h
  induction l with
  | nil => exact .nil
  | cons c l ih =>
    rw [List.flatMap_cons]
    obtain ⟨h1, h2, h3⟩ := h c (by simp)
    exact .char c h1 h2 h3 (ih (fun c hc => h c (by simp [hc])))

/-- C66: a request written by json.Marshal, with texts of arbitrary bytes, is understood: what is not UTF-8 in it is replaced. -/
theorem C66_marshal (short : Bool) (s m : Bytes) :
    Carries (str "{" ++ jsonField (str "sentence") (jsonString short s) ++ str "," ++ jsonField (str "mode") (jsonString short m) ++ str "}")
      ⟨repaired s, repaired m⟩ := by
  have hk1 : StringText (str "sentence") (str "sentence") := key_text _ (by decide)
  have hk2 : StringText (str "mode") (str "mode") := key_text _ (by decide)
  have n1 : Names (str "sentence") (str "sentence") := (equalFold_iff sentence_letters).mp (by decide)
  have n2 : Names (str "mode") (str "mode") := (equalFold_iff mode_letters).mp (by decide)
  have e1 : str "{" = [0x7B] := by decide
  have e2 : str "}" = [0x7D] := by decide
  have e3 : str "," = [0x2C] := by decide
  have e4 : str "\":" = [0x22, 0x3A] := by decide
  have hm := MembersText.last 9999 (str "mode") (.str (repaired m)) [] (str "mode") [] [] _ [] isSpace_nil hk2 isSpace_nil isSpace_nil
    (.str 9999 _ _ (stringText_marshal short m)) isSpace_nil
  have hs := MembersText.more 9999 (str "sentence") (.str (repaired s)) _ [] (str "sentence") [] [] _ [] _ isSpace_nil hk1 isSpace_nil isSpace_nil
    (.str 9999 _ _ (stringText_marshal short s)) isSpace_nil hm
  refine ⟨[], _, [], _, ?_, isSpace_nil, .obj 9999 _ _ hs, .inr ⟨_, rfl, ⟨?_, .inl ⟨[], _, _, rfl, n1, ?_⟩⟩, ⟨?_, .inl ⟨[_], _, [], rfl, n2, ?_⟩⟩⟩⟩
  · unfold jsonField jsonString
    rw [e1, e2, e3, e4, str_quote]
    simp
  · intro x hx _
    simp only [List.mem_cons, List.not_mem_nil, or_false] at hx
    rcases hx with rfl | rfl <;> exact .inr ⟨_, rfl⟩
  · intro x hx hn
    rw [List.mem_singleton] at hx
    subst hx
    exact absurd n2 (fun h => names_apart hn h)
  · intro x hx _
    simp only [List.mem_cons, List.not_mem_nil, or_false] at hx
    rcases hx with rfl | rfl <;> exact .inr ⟨_, rfl⟩
  · intro x hx; cases hx

/-! ### The body of a refusal -/

/-- The characters a JSON string may contain as they are. -/
def PlainText (s : Bytes) : Prop := ∀ b ∈ s, 0x20 ≤ b.toNat ∧ b.toNat < 0x80 ∧ b ≠ 0x22 ∧ b ≠ 0x5C

instance (s : Bytes) : Decidable (PlainText s) := inferInstanceAs (Decidable (∀ b ∈ s, _))

theorem plain_append {a b : Bytes} (ha : PlainText a) (hb : PlainText b) : PlainText (a ++ b) := by
  intro x hx
  rcases List.mem_append.mp hx with hx | hx
  · exact ha x hx
  · exact hb x hx

theorem plain_typeName (v : JTree) : PlainText (typeName v) := by cases v <;> dsimp only [typeName] <;> decide +kernel

theorem plain_typeError {v : JTree} {e : Bytes} (h : TypeError v e) : PlainText e := by
  cases h with
  | whole => exact plain_append (plain_append (by decide +kernel) (plain_typeName v)) (by decide +kernel)
  | field _ _ _ name v hf =>
    refine plain_append (plain_append (plain_append (plain_append (by decide +kernel) (plain_typeName v)) (by decide +kernel)) ?_) (by decide +kernel)
    simp only [fields, List.mem_cons, List.not_mem_nil, or_false] at hf
    rcases hf with rfl | rfl <;> decide +kernel

theorem plain_valid {s : Bytes} (h : PlainText s) : ValidUtf8 s := by
  induction s with
  | nil => exact valid_nil
  | cons b s ih => exact valid_append (a := [b]) (valid_ascii (h b (by simp)).2.1) (ih (fun x hx => h x (by simp [hx])))

theorem reads_plain {s : Bytes} (h : PlainText s) : Reads (.str s) (0x22 :: (s ++ [0x22])) := by
  refine ⟨⟨0x22, _, rfl, by decide⟩, ?_⟩
  intro fuel t hf _
  obtain ⟨f, rfl⟩ : ∃ f, fuel = f + 1 := ⟨fuel - 1, by omega⟩
  have hs : readString (s ++ 0x22 :: t) = some (s, t) := by
    refine readString_plain s (fun b hb => ?_) t
    obtain ⟨h1, h2, h3, h4⟩ := h b hb
    refine ⟨h3, h4, ?_⟩
    rw [UInt8.lt_iff_toNat_lt]
    have : (0x20 : UInt8).toNat = 32 := rfl
    omega
  rw [readValue, List.cons_append, skipWs_cons (by decide)]
  simp only [if_true, List.append_assoc, List.cons_append, List.nil_append, hs]
  rfl

theorem reads_false : Reads (.bool false) (str "false") := by
  refine ⟨⟨0x66, str "alse", by decide, by decide⟩, ?_⟩
  intro fuel t hf _
  obtain ⟨f, rfl⟩ : ∃ f, fuel = f + 1 := ⟨fuel - 1, by omega⟩
  rfl

/-- The object of a refusal. -/
def refusal (reason : Bytes) : Json := .obj [(str "status", .bool false), (str "error", .str reason)]

theorem refusal_json {reason : Bytes} (h : PlainText reason) :
    IsJson (str "{\"status\":false,\"error\":\"" ++ reason ++ str "\"}\n") (refusal reason) := by
  constructor
  · exact valid_append (valid_append (valid_str _) (plain_valid h)) (valid_str _)
  · have hr := reads_obj [⟨str "status", .bool false, str "false"⟩, ⟨str "error", .str reason, 0x22 :: (reason ++ [0x22])⟩] (by
      intro x hx
      simp only [List.mem_cons, List.not_mem_nil, or_false] at hx
      rcases hx with rfl | rfl
      · exact ⟨by decide, reads_false⟩
      · exact ⟨by dsimp only; decide, reads_plain h⟩)
    have := readJson_of hr (ws := [0x0A]) (by decide)
    simp only [List.map_cons, List.map_nil] at this
    unfold refusal
    rw [← this]
    have e1 : str "{\"status\":false,\"error\":\"" = str "{" ++ jsonField (str "status") (str "false") ++ str "," ++ str "\"error\":\"" := by decide
    have e2 : str "\"}\n" = [0x22] ++ str "}" ++ [0x0A] := by decide
    have e3 : jsonField (str "error") (0x22 :: (reason ++ [0x22])) = str "\"error\":\"" ++ reason ++ [0x22] := by
      rw [jsonField, show str "\"error\":\"" = str "\"" ++ str "error" ++ str "\":" ++ [0x22] from by decide]
      simp
    rw [e1, e2, join_cons_cons, join, e3]
    simp

/-- C66: the answer to a refused body is a JSON object with `status` false and the reason, if no character of the body is wrong: the body is the beginning of a JSON
text, or it has a value of the wrong type. In general it is not: see `C66_error_body`. -/
theorem C66_error_json (t : Tokenizer) (ideo : Nat → Bool) (short : Bool) {body : Bytes} (h : ¬ ∃ req, Carries body req)
    (hb : Beginning body ∨ ∃ v, Front body v ∧ ∀ t, v ≠ .num t) :
    ∃ reason out, Refusal body reason ∧ serveApi t ideo short body = some ⟨400, str "text/plain; charset=utf-8", out⟩ ∧ IsJson out (refusal reason) := by
  obtain ⟨reason, hr, he⟩ := C66_refused t ideo short h
  refine ⟨reason, _, hr, he, refusal_json ?_⟩
  cases hr with
  | blank => decide +kernel
  | short => decide +kernel
  | wrong good c rest char why e h1 h2 h3 =>
    exfalso
    rcases hb with hb | ⟨v, hv, hn⟩
    · obtain ⟨more, ws, text, v, e2, hw, hv⟩ := hb
      apply h2
      exact ⟨rest ++ more, ws, text, v, by rw [← e2, e]; simp, hw, hv⟩
    · obtain ⟨t, ht⟩ := h3 v hv
      exact hn t ht
  | type v _ _ ht => exact plain_typeError ht

/-- C66: the body of a refusal is not always JSON: a quotation mark, or a backslash, in the reason is not escaped. -/
theorem C66_error_body :
    (∃ out, serveApi Toy.tok Toy.ideo true (str "{\"sentence\"\"すもも\"}") = some ⟨400, str "text/plain; charset=utf-8", out⟩ ∧ ∀ v, ¬ IsJson out v) ∧
    (∃ out, serveApi Toy.tok Toy.ideo true (str "{\"sentence\":\"\\u30g2\"}") = some ⟨400, str "text/plain; charset=utf-8", out⟩ ∧ ∀ v, ¬ IsJson out v) := by
  have key : ∀ {body e : Bytes}, decodeRequest body = some (.error e) → (readJson (str "{\"status\":false,\"error\":\"" ++ e ++ str "\"}\n")).isNone = true →
      ∃ out, serveApi Toy.tok Toy.ideo true body = some ⟨400, str "text/plain; charset=utf-8", out⟩ ∧ ∀ v, ¬ IsJson out v := by
    intro body e h1 h2
    refine ⟨_, by rw [serveApi_eq h1]; exact C43_undecoded _ _ _ (decode := fun _ => .error e) rfl, ?_⟩
    intro v hv
    rw [hv.reads] at h2
    cases h2
  refine ⟨key (e := str "invalid character '\"' after object key") (by decide +kernel) (by decide +kernel),
    key (e := str "invalid character 'g' in \\u hexadecimal character escape") (by decide +kernel) (by decide +kernel)⟩

/-! ### The hypotheses hold in cases of interest -/

/-- A body that carries a request: names in other letters, a member of another name, an escape, something behind the value. -/
def Toy.requestBody : Bytes := str " {\"Mode\":\"Search\",\"x\":[1,{}],\"ſentence\":\"も\\u3082\"} tail"

example : Carries Toy.requestBody ⟨str "もも", str "Search"⟩ ∧ Tame Toy.tok (str "もも") ∧ FeatureTables Toy.tok.dict ∧ str "もも" ≠ [] := by
  refine ⟨?_, ⟨Toy.wellFormed_none, Toy.replacementOk _, fits_short _ (by decide +kernel)⟩, Toy.featureTables, by decide⟩
  rw [← C66_ok]
  decide +kernel

/-- Of two members of the same name the last counts; `null` leaves what was there. -/
example : Carries (str "{\"sentence\":\"a\",\"SENTENCE\":\"b\",\"sentence\":null}") ⟨str "b", []⟩ ∧ Carries (str "null") ⟨[], []⟩ := by
  constructor <;> rw [← C66_ok] <;> decide +kernel

theorem not_carries {body e : Bytes} (h : decodeRequest body = some (.error e)) : ¬ ∃ req, Carries body req := by
  rintro ⟨req, hc⟩
  rw [← C66_ok, h] at hc
  cases hc

/-- Bodies that carry no request, and the reasons: a bracket that is not closed, a wrong character, a value of another type. -/
example : (¬ ∃ req, Carries (str "{\"sentence\":") req) ∧ Refusal (str "{\"sentence\":") (str "unexpected EOF") ∧
    (¬ ∃ req, Carries (str "{sentence:1}") req) ∧ Refusal (str "{sentence:1}") (str "invalid character 's' looking for beginning of object key string") ∧
    (¬ ∃ req, Carries (str "{\"sentence\":[]}") req) ∧
    Refusal (str "{\"sentence\":[]}") (str "json: cannot unmarshal array into Go struct field TokenizerRequestBody.sentence of type string") ∧
    Refusal (str " ") (str "EOF") :=
  ⟨not_carries (e := str "unexpected EOF") (by decide +kernel), decode_reason (by decide +kernel),
    not_carries (e := str "invalid character 's' looking for beginning of object key string") (by decide +kernel), decode_reason (by decide +kernel),
    not_carries (e := str "json: cannot unmarshal array into Go struct field TokenizerRequestBody.sentence of type string") (by decide +kernel),
    decode_reason (by decide +kernel), decode_reason (by decide +kernel)⟩

/-- The hypotheses of `C66_error_json`. -/
example : (¬ ∃ req, Carries (str "[") req) ∧ Beginning (str "[") := by
  refine ⟨not_carries (e := str "unexpected EOF") (by decide +kernel), ?_⟩
  refine ⟨[0x5D], [], [0x5B, 0x5D], .arr [], by decide, isSpace_nil, ?_⟩
  exact .noItems 9999 [] isSpace_nil

end Kagome
