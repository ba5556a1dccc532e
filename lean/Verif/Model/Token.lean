import Verif.Model.Tokenizer

/-!
`/repo/tokenizer/token.go`: the accessors of a token.

A panic is `none`. A slice that may be nil is an `Option (List _)` whose `none` is nil; a `(string, bool)` result is `(Bytes × Bool)`.
-/

namespace Kagome

/-- The metadata keys of `kagome-dict` (the package is outside /repo; only the constant names are used there, in token.go:166-170 and
214-234). -/
inductive MetaKey
  | posStart | posHierarchy | inflectionalType | inflectionalForm | base | reading | pronunciation
deriving DecidableEq, Repr

/-- The string behind a key (`dict.POSStartIndex` and so on). Constants of kagome-dict, used at tokenizer/token.go:161-250 and lattice.go:284, 288. -/
def MetaKey.name : MetaKey → Bytes
  | .posStart => str "_pos_start"
  | .posHierarchy => str "_pos_hierarchy"
  | .inflectionalType => str "_inflectional_type"
  | .inflectionalForm => str "_inflectional_form"
  | .base => str "_base"
  | .reading => str "_reading"
  | .pronunciation => str "_pronunciation"

/-- token.go:26-39 `TokenClass.String`. -/
def className : NodeClass → Bytes
  | .dummy => str "DUMMY"
  | .known => str "KNOWN"
  | .unknown => str "UNKNOWN"
  | .user => str "USER"

/-- token.go:63-65 and 160-162: the names of a list of POS ids; `none` if one is out of range. -/
def posNames (d : Dict) : List Nat → Option (List Bytes)
  | [] => some []
  | id :: ids =>
    match d.nameList[id]? with
    | none => none
    | some n => (posNames d ids).map (n :: ·)

/-- token.go:55-83 `Features`. -/
def features (t : Token) : Option (Option (List Bytes)) :=
  match t.cls with
  | .known =>
    match t.dict with
    | none => none
    | some d =>
      match (match d.contents with | none => some [] | some cs => goGet cs t.id) with
      | none => none
      | some c =>
        match goGet d.poss t.id with
        | none => none
        | some ids => (posNames d ids).map (fun ns => some (ns ++ c))
  | .unknown =>
    match t.dict with
    | none => none
    | some d => (goGet d.unk.contents t.id).map some
  | .user =>
    match t.udict with
    | none => none
    | some u => (goGet u.contents t.id).map (fun c => some [c.pos, join (str "/") c.tokens, join (str "/") c.yomi])
  | .dummy => some none

/-- The failure result of `FeatureAt`. tokenizer/token.go:88, 96, 102, 106, 111, 115, 120, 131. -/
def noFeature : Bytes × Bool := ([], false)

/-- token.go:86-132 `FeatureAt`. -/
def featureAt (t : Token) (i : Int) : Option (Bytes × Bool) :=
  if i < 0 then some noFeature
  else
    match t.cls with
    | .known =>
      match t.dict with
      | none => none
      | some d =>
        match goGet d.poss t.id with
        | none => none
        | some pos =>
          if i < pos.length then
            match goGet pos i with
            | none => none
            | some id =>
              if id > d.nameList.length then some noFeature
              else (d.nameList[id]?).map (fun n => (n, true))
          else
            let i := i - pos.length
            let cs := d.contents.getD []
            if (cs.length : Int) ≤ t.id then some noFeature
            else
              match goGet cs t.id with
              | none => none
              | some c => if i ≥ c.length then some noFeature else (goGet c i).map (fun n => (n, true))
    | .unknown =>
      match t.dict with
      | none => none
      | some d =>
        if (d.unk.contents.length : Int) ≤ t.id then some noFeature
        else
          match goGet d.unk.contents t.id with
          | none => none
          | some c => if i ≥ c.length then some noFeature else (goGet c i).map (fun n => (n, true))
    | .user =>
      match t.udict with
      | none => none
      | some u =>
        if (u.contents.length : Int) ≤ t.id then some noFeature
        else if i = 0 then (goGet u.contents t.id).map (fun c => (c.pos, true))
        else if i = 1 then (goGet u.contents t.id).map (fun c => (join (str "/") c.tokens, true))
        else if i = 2 then (goGet u.contents t.id).map (fun c => (join (str "/") c.yomi, true))
        else some noFeature
    | .dummy => some noFeature

/-- token.go:178-180 and lattice.go:295-299: the loop `for i := start; i < end; i++` with `n = end - start` steps left. -/
def featureRange (feature : List Bytes) : Int → Nat → Option (List Bytes)
  | _, 0 => some []
  | i, n + 1 =>
    match goGet feature i with
    | none => none
    | some f => (featureRange feature (i + 1) n).map (f :: ·)

/-- token.go:165-172: the block of POS features of unknown words, `(start, end)`. -/
def unkPosRange (d : Dict) : Int × Int :=
  let start := match d.unk.contentsMeta MetaKey.posStart.name with | some v => v.toInt | none => 0
  let stop := match d.unk.contentsMeta MetaKey.posHierarchy.name with | some v => start + v.toInt | none => 1
  (start, stop)

/-- token.go:156-187 `POS`. -/
def tokenPOS (t : Token) : Option (Option (List Bytes)) :=
  match t.cls with
  | .known =>
    match t.dict with
    | none => none
    | some d =>
      match goGet d.poss t.id with
      | none => none
      | some ids => (posNames d ids).map some
  | .unknown =>
    match t.dict with
    | none => none
    | some d =>
      let start := (unkPosRange d).1
      let stop := (unkPosRange d).2
      match goGet d.unk.contents t.id with
      | none => none
      | some feature =>
        if start ≥ stop ∨ stop > feature.length then some none
        else (featureRange feature start (stop - start).toNat).map some
  | .user =>
    match t.udict with
    | none => none
    | some u => (goGet u.contents t.id).map (fun c => some [c.pos])
  | .dummy => some none

/-- token.go:200-210 `EqualFeatures`, the loop over the index with `n` steps left. -/
def equalLoop (lhs rhs : List Bytes) : Nat → Nat → Option Bool
  | _, 0 => some true
  | i, n + 1 =>
    match lhs[i]?, rhs[i]? with
    | some a, some b => if a ≠ b then some false else equalLoop lhs rhs (i + 1) n
    | _, _ => none

/-- token.go:200-210 `EqualFeatures` (a nil slice is an empty one here). -/
def equalFeatures (lhs rhs : List Bytes) : Option Bool :=
  if lhs.length ≠ rhs.length then some false else equalLoop lhs rhs 0 lhs.length

/-- token.go:190-192 `Token.EqualFeatures`. -/
def tokenEqualFeatures (t tt : Token) : Option Bool :=
  match features t, features tt with
  | some a, some b => equalFeatures (a.getD []) (b.getD [])
  | _, _ => none

/-- token.go:195-197 `Token.EqualPOS`. -/
def tokenEqualPOS (t tt : Token) : Option Bool :=
  match tokenPOS t, tokenPOS tt with
  | some a, some b => equalFeatures (a.getD []) (b.getD [])
  | _, _ => none

/-- token.go:258-262 `Equal`. -/
def tokenEqual (t v : Token) : Bool := t.id = v.id && t.cls = v.cls && t.surface = v.surface

/-- token.go:237-250 `pickupFromFeatures`; for `USER` and `DUMMY` tokens the map is nil. A nil dictionary panics. -/
def pickup (t : Token) (key : MetaKey) : Option (Bytes × Bool) :=
  match t.cls with
  | .known =>
    match t.dict with
    | none => none
    | some d => match d.contentsMeta key.name with | none => some noFeature | some i => featureAt t i.toInt
  | .unknown =>
    match t.dict with
    | none => none
    | some d => match d.unk.contentsMeta key.name with | none => some noFeature | some i => featureAt t i.toInt
  | _ => some noFeature

/-- token.go:213-215. -/
def inflectionalType (t : Token) := pickup t .inflectionalType
/-- token.go:218-220. -/
def inflectionalForm (t : Token) := pickup t .inflectionalForm
/-- token.go:223-225. -/
def baseForm (t : Token) := pickup t .base
/-- token.go:228-230. -/
def reading (t : Token) := pickup t .reading
/-- token.go:233-235. -/
def pronunciation (t : Token) := pickup t .pronunciation

/-- token.go:265-276 `TokenData`. A nil slice would be `none`. -/
structure TokenData where
  id : Int
  start : Nat
  stop : Nat
  surface : Bytes
  cls : Bytes
  pos : Option (List Bytes)
  baseForm : Bytes
  reading : Bytes
  pronunciation : Bytes
  features : Option (List Bytes)
deriving DecidableEq, Repr

/-- token.go:279-299 `NewTokenData`. -/
def newTokenData (t : Token) : Option TokenData :=
  match tokenPOS t, features t, baseForm t, reading t, pronunciation t with
  | some pos, some fs, some b, some r, some p =>
    some { id := t.id, start := t.start, stop := t.stop, surface := t.surface, cls := className t.cls,
           pos := match pos with | none => some [] | some l => some l,
           features := match fs with | none => some [] | some l => some l,
           baseForm := b.1, reading := r.1, pronunciation := p.1 }
  | _, _, _, _, _ => none

/-! ### `UserExtra` with slices as addresses

A heap of string slices: the address of a slice is its index. -/

/-- All slices of strings in memory. The slices that tokenizer/token.go:55-83 gives out and those it reads (`dict.POSTable`, `dict.Contents`). -/
abbrev Heap := List (List Bytes)

/-- A user entry as it is in memory: the addresses of its two slices (`UserDictContent`, token.go:145-148). -/
structure UserCell where
  tokens : Nat
  yomi : Nat

/-- token.go:135-138 `UserExtra`, in memory. -/
structure UserExtra where
  tokens : Nat
  readings : Nat

/-- token.go:145-152: `make` and `copy` for both slices. -/
def copySlice (h : Heap) (a : Nat) : Option (Heap × Nat) := (h[a]?).map (fun s => (h ++ [s], h.length))

/-- token.go:141-153 `UserExtra`: the new heap and the result (`none` inside is nil). `contents` is `t.udict.Contents`. -/
def userExtra (contents : List UserCell) (t : Token) (h : Heap) : Option (Heap × Option UserExtra) :=
  if t.cls ≠ .user then some (h, none)
  else
    match goGet contents t.id with
    | none => none
    | some c =>
      match copySlice h c.tokens with
      | none => none
      | some (h, a) =>
        match copySlice h c.yomi with
        | none => none
        | some (h, b) => some (h, some ⟨a, b⟩)

end Kagome
