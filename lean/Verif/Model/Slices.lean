import Verif.Model.Filter

/-!
The slices of strings that the library hands out, in memory: `/repo/tokenizer/token.go`, `Wakati` of `/repo/tokenizer/tokenizer.go` and `Yield` of
`/repo/filter/ja/filter.go` with arrays that can be shared. In the other files a slice of strings is a list, which cannot be shared.
-/

namespace Kagome

/-- A slice of strings: an array (by its number), where it begins in it, its length and its capacity. Go's `[]string`, tokenizer/token.go:55. -/
structure StrSlice where
  arr : Nat
  off : Nat
  len : Nat
  cap : Nat
deriving DecidableEq, Repr

/-- All arrays of strings in memory. Those that tokenizer/token.go:55-187 makes and those of the dictionaries it reads. -/
abbrev Arrays := List (List Bytes)

/-- Code that works on the arrays; `none` is a panic. tokenizer/token.go:55-187. -/
abbrev SliceM := StateT Arrays Option

/-- A panic if there is none. Index expressions such as `t.dict.Contents[t.ID]`, tokenizer/token.go:60. -/
def orPanic {α : Type} (o : Option α) : SliceM α := fun h => o.map (·, h)

namespace StrSlice

/-- The strings of a slice. What `range` and `strings.Join` see, tokenizer/token.go:78. -/
def read (h : Arrays) (s : StrSlice) : List Bytes := (((h[s.arr]?).getD []).drop s.off).take s.len

/-- The strings of a slice, in a program. tokenizer/token.go:67, 78, 79. -/
def all (s : StrSlice) : SliceM (List Bytes) := fun h => some (s.read h, h)

/-- `s[i]`. tokenizer/token.go:64. -/
def get (s : StrSlice) (i : Int) : SliceM Bytes := fun h => (goGet (s.read h) i).map (·, h)

/-- `s[i] = v`. tokenizer/token.go:73. -/
def set (s : StrSlice) (i : Nat) (v : Bytes) : SliceM Unit := fun h =>
  if i < s.len then some ((), h.modify s.arr (fun a => a.set (s.off + i) v)) else none

/-- `s[a:b]` for `b` at most `len(s)`. The caller's code. -/
def cut (s : StrSlice) (a b : Nat) : Option StrSlice := if a ≤ b ∧ b ≤ s.len then some ⟨s.arr, s.off + a, b - a, s.cap - a⟩ else none

end StrSlice

/-- `make([]string, len, cap)`. tokenizer/token.go:62, 71, 145, 147, 159, 177. -/
def makeStrs (len cap : Nat) : SliceM StrSlice := fun h => some (⟨h.length, 0, len, cap⟩, h ++ [List.replicate cap []])

/-- `append(s, v)`: in place if there is room, otherwise in a new array, as large as the runtime likes. tokenizer/token.go:64, 161, 179. -/
def appendStr (grow : Nat → Nat) (s : StrSlice) (v : Bytes) : SliceM StrSlice := fun h =>
  if s.len < s.cap then some (⟨s.arr, s.off, s.len + 1, s.cap⟩, h.modify s.arr (fun a => a.set (s.off + s.len) v))
  else
    let cap := max (s.len + 1) (grow s.len)
    some (⟨h.length, 0, s.len + 1, cap⟩, h ++ [s.read h ++ v :: List.replicate (cap - (s.len + 1)) []])

/-- `append(s, vs...)`. tokenizer/token.go:67. Simplification: one string after the other. -/
def appendStrs (grow : Nat → Nat) : StrSlice → List Bytes → SliceM StrSlice
  | s, [] => pure s
  | s, v :: vs => do
    let s ← appendStr grow s v
    appendStrs grow s vs

/-- `for i := range src { dst[i] = src[i] }` from `i` on with `n` rounds left, and `copy(dst, src)`. tokenizer/token.go:72-74, 146, 148. -/
def copyStrs (dst src : StrSlice) : Nat → Nat → SliceM Unit
  | _, 0 => pure ()
  | i, n + 1 => do
    let v ← src.get i
    dst.set i v
    copyStrs dst src (i + 1) n

/-- `[]string{...}`. tokenizer/token.go:80, 185. -/
def literalStrs (vs : List Bytes) : SliceM StrSlice := fun h => some (⟨h.length, 0, vs.length, vs.length⟩, h ++ [vs])

/-- The tables of the dictionary that the accessors read, in memory. `POSs` is never handed out, so its lists of numbers need no addresses.
tokenizer/token.go:59-74, 92-121, 157-181. -/
structure DictMem where
  poss : List (List Nat)
  nameList : StrSlice
  contentsMeta : Bytes → Option Int8
  contents : Option (List StrSlice)
  unkMeta : Bytes → Option Int8
  unkContents : List StrSlice

/-- An entry of the user dictionary, in memory. tokenizer/token.go:77-79, 145-148. -/
structure UserEntryMem where
  tokens : StrSlice
  yomi : StrSlice
  pos : Bytes

/-- Both dictionaries of a tokenizer (`t.dict`, `t.udict`). tokenizer/token.go:50-51. -/
structure DictsMem where
  dict : DictMem
  user : Option (List UserEntryMem)

/-- token.go:63-65, 160-162: the loop over the numbers of the parts of speech. -/
def posNamesS (grow : Nat → Nat) (D : DictMem) : StrSlice → List Nat → SliceM StrSlice
  | s, [] => pure s
  | s, id :: ids => do
    let n ← D.nameList.get id
    let s ← appendStr grow s n
    posNamesS grow D s ids

/-- token.go:55-83 `Features`. -/
def featuresS (grow : Nat → Nat) (D : DictsMem) (t : Token) : SliceM (Option StrSlice) :=
  match t.cls with
  | .known => do
    let c ← match D.dict.contents with
      | none => pure none
      | some cs => do let c ← orPanic (goGet cs t.id); pure (some c)
    let ids ← orPanic (goGet D.dict.poss t.id)
    let s ← makeStrs 0 (ids.length + (match c with | none => 0 | some c => c.len))
    let s ← posNamesS grow D.dict s ids
    match c with
    | none => return some s
    | some c => do
      let vs ← c.all
      let s ← appendStrs grow s vs
      return some s
  | .unknown => do
    let c ← orPanic (goGet D.dict.unkContents t.id)
    let s ← makeStrs c.len c.len
    copyStrs s c 0 c.len
    return some s
  | .user => do
    let us ← orPanic D.user
    let c ← orPanic (goGet us t.id)
    let tokens ← c.tokens.all
    let yomi ← c.yomi.all
    let s ← literalStrs [c.pos, join (str "/") tokens, join (str "/") yomi]
    return some s
  | .dummy => return none

/-- token.go:178-180: the loop with `n` rounds left. -/
def rangeS (grow : Nat → Nat) (feature : StrSlice) : StrSlice → Int → Nat → SliceM StrSlice
  | s, _, 0 => pure s
  | s, i, n + 1 => do
    let v ← feature.get i
    let s ← appendStr grow s v
    rangeS grow feature s (i + 1) n

/-- token.go:165-172. -/
def posRangeS (D : DictMem) : Int × Int :=
  let start := match D.unkMeta MetaKey.posStart.name with | some v => v.toInt | none => 0
  let stop := match D.unkMeta MetaKey.posHierarchy.name with | some v => start + v.toInt | none => 1
  (start, stop)

/-- token.go:156-187 `POS`. -/
def posS (grow : Nat → Nat) (D : DictsMem) (t : Token) : SliceM (Option StrSlice) :=
  match t.cls with
  | .known => do
    let ids ← orPanic (goGet D.dict.poss t.id)
    let s ← makeStrs 0 ids.length
    let s ← posNamesS grow D.dict s ids
    return some s
  | .unknown => do
    let start := (posRangeS D.dict).1
    let stop := (posRangeS D.dict).2
    let feature ← orPanic (goGet D.dict.unkContents t.id)
    if start ≥ stop ∨ stop > feature.len then return none
    else do
      let s ← makeStrs 0 (stop - start).toNat
      let s ← rangeS grow feature s start (stop - start).toNat
      return some s
  | .user => do
    let us ← orPanic D.user
    let c ← orPanic (goGet us t.id)
    let s ← literalStrs [c.pos]
    return some s
  | .dummy => return none

/-- token.go:141-153 `UserExtra`: the two slices; `none` is nil. -/
def extraS (D : DictsMem) (t : Token) : SliceM (Option (StrSlice × StrSlice)) :=
  if t.cls ≠ .user then pure none
  else do
    let us ← orPanic D.user
    let c ← orPanic (goGet us t.id)
    let tokens ← makeStrs c.tokens.len c.tokens.len
    copyStrs tokens c.tokens 0 c.tokens.len
    let yomi ← makeStrs c.yomi.len c.yomi.len
    copyStrs yomi c.yomi 0 c.yomi.len
    return some (tokens, yomi)

/-- token.go:101-108, 110-121: the end of `FeatureAt` for the slices of a table. -/
def cellS (cs : List StrSlice) (id : Int) (i : Int) : SliceM (Bytes × Bool) :=
  if (cs.length : Int) ≤ id then pure noFeature
  else do
    let c ← orPanic (goGet cs id)
    if i ≥ c.len then pure noFeature
    else do
      let v ← c.get i
      return (v, true)

/-- token.go:86-132 `FeatureAt`. -/
def featureAtS (D : DictsMem) (t : Token) (i : Int) : SliceM (Bytes × Bool) :=
  if i < 0 then pure noFeature
  else
    match t.cls with
    | .known => do
      let pos ← orPanic (goGet D.dict.poss t.id)
      if i < pos.length then do
        let id ← orPanic (goGet pos i)
        if id > D.dict.nameList.len then pure noFeature
        else do
          let v ← D.dict.nameList.get id
          return (v, true)
      else cellS (D.dict.contents.getD []) t.id (i - pos.length)
    | .unknown => cellS D.dict.unkContents t.id i
    | .user => do
      let us ← orPanic D.user
      if (us.length : Int) ≤ t.id then pure noFeature
      else if i = 0 then do
        let c ← orPanic (goGet us t.id)
        return (c.pos, true)
      else if i = 1 then do
        let c ← orPanic (goGet us t.id)
        let vs ← c.tokens.all
        return (join (str "/") vs, true)
      else if i = 2 then do
        let c ← orPanic (goGet us t.id)
        let vs ← c.yomi.all
        return (join (str "/") vs, true)
      else pure noFeature
    | .dummy => pure noFeature

/-- token.go:237-250 `pickupFromFeatures`. -/
def pickupS (D : DictsMem) (t : Token) (key : MetaKey) : SliceM (Bytes × Bool) :=
  match t.cls with
  | .known => match D.dict.contentsMeta key.name with | none => pure noFeature | some i => featureAtS D t i.toInt
  | .unknown => match D.dict.unkMeta key.name with | none => pure noFeature | some i => featureAtS D t i.toInt
  | _ => pure noFeature

/-- token.go:289-294: `if x == nil { x = []string{} }`. -/
def orEmpty : Option StrSlice → SliceM StrSlice
  | none => literalStrs []
  | some s => pure s

/-- token.go:279-299 `NewTokenData`: its two slices and the three texts. The other fields are copied from the token. -/
def tokenDataS (grow : Nat → Nat) (D : DictsMem) (t : Token) : SliceM (StrSlice × StrSlice × Bytes × Bytes × Bytes) := do
  let pos ← posS grow D t
  let fs ← featuresS grow D t
  let pos ← orEmpty pos
  let fs ← orEmpty fs
  let b ← pickupS D t .base
  let r ← pickupS D t .reading
  let p ← pickupS D t .pronunciation
  return (pos, fs, b.1, r.1, p.1)

/-- tokenizer.go:74-78, the loop of `Wakati`. -/
def wakatiLoopS (grow : Nat → Nat) : StrSlice → List Token → SliceM StrSlice
  | s, [] => pure s
  | s, v :: ts => if v.cls ≠ .dummy ∧ v.surface ≠ [] then do
      let s ← appendStr grow s v.surface
      wakatiLoopS grow s ts
    else wakatiLoopS grow s ts

/-- tokenizer.go:71-80 `Wakati`. -/
def wakatiS (grow : Nat → Nat) (t : Tokenizer) (ideo : Nat → Bool) (inp : Bytes) : SliceM StrSlice := do
  let ts ← orPanic (analyze t ideo inp modeNormal)
  let s ← makeStrs 0 ts.length
  wakatiLoopS grow s ts

/-- `append` to a slice that may be nil. ja/filter.go:119, 123. -/
def appendNil (grow : Nat → Nat) (s : Option StrSlice) (v : Bytes) : SliceM (Option StrSlice) := do
  let s ← appendStr grow (s.getD ⟨0, 0, 0, 0⟩) v
  return some s

/-- `Match` of a slice that may be nil. filter/pos.go:26-28. -/
def posMatchS (f : FNode) (p : Option StrSlice) : SliceM Bool := fun h => some (posMatch f (p.map (·.read h)), h)

/-- ja/filter.go:108-126 `Yield`; the result is nil as long as nothing has been appended. -/
def yieldS (grow : Nat → Nat) (D : DictsMem) (f : JaFilter) : Option StrSlice → List Token → SliceM (Option StrSlice)
  | ret, [] => pure ret
  | ret, v :: vs => do
    let p ← posS grow D v
    let stop ← posMatchS f.stopTags p
    if stop then yieldS grow D f ret vs
    else if wordMatch f.stopWords v.surface then yieldS grow D f ret vs
    else do
      let p ← posS grow D v
      let base ← posMatchS f.baseForm p
      if base then do
        let b ← pickupS D v .base
        if b.2 then do
          let ret ← appendNil grow ret b.1
          yieldS grow D f ret vs
        else yieldS grow D f ret vs
      else do
        let ret ← appendNil grow ret v.surface
        yieldS grow D f ret vs

end Kagome
