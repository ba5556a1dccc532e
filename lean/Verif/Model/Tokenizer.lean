import Verif.Model.Lattice

/-! `/repo/tokenizer/tokenizer.go` and `tokenizer_option.go`. -/

namespace Kagome

/-- tokenizer.go:46-50 `Tokenizer` (the dictionary is never nil: see `newTokenizer`). -/
structure Tokenizer where
  dict : Dict
  userDict : Option UserDict
  omitBosEos : Bool

/-- token.go:42-52 `Token`. A nil dictionary pointer is `none`. `TokenClass` is the node class (token.go:12-23). -/
structure Token where
  index : Nat
  id : Int
  cls : NodeClass
  position : Nat
  start : Nat
  stop : Nat
  surface : Bytes
  dict : Option Dict
  udict : Option UserDict

/-- tokenizer.go:34-43: `TokenizeMode` is an `int`; these are the three named modes. -/
def modeNormal : Int := 1
/-- `Search`, tokenizer.go:37. -/
def modeSearch : Int := 2
/-- `Extended`, tokenizer.go:39. -/
def modeExtended : Int := 3

/-- tokenizer.go:87-95: the lattice mode for a tokenizer mode (any other value means normal). -/
def latticeMode (mode : Int) : LMode :=
  if mode = modeNormal then .normal
  else if mode = modeSearch then .search
  else if mode = modeExtended then .extended
  else .normal

/-- tokenizer.go:84-97: `New`, `Build`, `Forward`, `Backward`; returns the solved lattice and its `Output`. -/
def solve (t : Tokenizer) (ideo : Nat → Bool) (inp : Bytes) (m : LMode) : Option (Cols × List Node) :=
  match build t.dict t.userDict inp with
  | none => none
  | some cols =>
    match forward t.dict ideo m cols with
    | none => none
    | some cols => (backward m cols).map (fun out => (cols, out))

/-- tokenizer.go:105-122: the token for output node `n`, the `i`-th from the end, when `k` tokens exist already. -/
def mkToken (t : Tokenizer) (i k : Nat) (n : Node) : Token :=
  { index := k, id := n.id, cls := n.cls, position := n.position, start := n.start,
    stop := n.start + runeCount n.surface,
    surface := if n.id = bosEosID then (if i = 0 then str "BOS" else str "EOS") else n.surface,
    dict := some t.dict, udict := t.userDict }

/-- tokenizer.go:100-124: the loop over `Output` from its end; `i` is the loop variable, `k` is `len(tokens)`. -/
def tokenLoop (t : Tokenizer) : Nat → Nat → List Node → List Token
  | _, _, [] => []
  | i, k, n :: ns =>
    if t.omitBosEos ∧ n.id = bosEosID then tokenLoop t (i + 1) k ns
    else mkToken t i k n :: tokenLoop t (i + 1) (k + 1) ns

/-- tokenizer.go:83-126 `Analyze`. -/
def analyze (t : Tokenizer) (ideo : Nat → Bool) (inp : Bytes) (mode : Int) : Option (List Token) :=
  (solve t ideo inp (latticeMode mode)).map (fun r => tokenLoop t 0 0 r.2.reverse)

/-- tokenizer.go:66-68 `Tokenize`. -/
def tokenize (t : Tokenizer) (ideo : Nat → Bool) (inp : Bytes) : Option (List Token) :=
  analyze t ideo inp modeNormal

/-- tokenizer.go:74-78, the loop of `Wakati`. -/
def wakatiLoop : List Token → List Bytes
  | [] => []
  | v :: ts => if v.cls ≠ .dummy ∧ v.surface ≠ [] then v.surface :: wakatiLoop ts else wakatiLoop ts

/-- tokenizer.go:71-80 `Wakati`. -/
def wakati (t : Tokenizer) (ideo : Nat → Bool) (inp : Bytes) : Option (List Bytes) :=
  (analyze t ideo inp modeNormal).map wakatiLoop

/-- tokenizer.go:152-168: the token of `AnalyzeGraph` (`Index` and `Position` are not set). -/
def mkGraphToken (t : Tokenizer) (i : Nat) (n : Node) : Token :=
  { index := 0, id := n.id, cls := n.cls, position := 0, start := n.start,
    stop := n.start + runeCount n.surface,
    surface := if n.id = bosEosID then (if i = 0 then str "BOS" else str "EOS") else n.surface,
    dict := some t.dict, udict := t.userDict }

/-- tokenizer.go:150-170, the loop of `AnalyzeGraph`. -/
def graphLoop (t : Tokenizer) : Nat → List Node → List Token
  | _, [] => []
  | i, n :: ns => mkGraphToken t i n :: graphLoop t (i + 1) ns

/-- tokenizer.go:134-173 `AnalyzeGraph` without the drawing (`Verif/Model/Dot.lean`): the returned tokens. -/
def analyzeGraph (t : Tokenizer) (ideo : Nat → Bool) (inp : Bytes) (mode : Int) : Option (List Token) :=
  (solve t ideo inp (latticeMode mode)).map (fun r => graphLoop t 0 r.2.reverse)

/-- tokenizer_option.go: an option either fails or changes the tokenizer. -/
abbrev TOption := Tokenizer → Except String Tokenizer

/-- tokenizer_option.go:13-17 `Nop`. -/
def optNop : TOption := fun t => .ok t

/-- tokenizer_option.go:20-28 `UserDict`; a nil pointer is `none`. -/
def optUserDict (d : Option UserDict) : TOption := fun t =>
  match d with
  | none => .error "empty user dictionary"
  | some d => .ok { t with userDict := some d }

/-- tokenizer_option.go:31-36 `OmitBosEos`. -/
def optOmitBosEos : TOption := fun t => .ok { t with omitBosEos := true }

/-- tokenizer.go:57-61, the loop over the options. -/
def applyOpts : List TOption → Tokenizer → Except String Tokenizer
  | [], t => .ok t
  | o :: os, t =>
    match o t with
    | .error e => .error e
    | .ok t => applyOpts os t

/-- tokenizer.go:53-63 `New`; a nil dictionary is `none`. -/
def newTokenizer (d : Option Dict) (opts : List TOption) : Except String Tokenizer :=
  match d with
  | none => .error "empty dictionary"
  | some d => applyOpts opts { dict := d, userDict := none, omitBosEos := false }

end Kagome
