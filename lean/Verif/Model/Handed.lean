import Verif.Model.Slices

/-!
A program that calls the accessors of tokens, `Wakati` and `Yield`, and does with the slices it gets what it likes.
-/

namespace Kagome

/-- What such a program can do: call an accessor (tokenizer/token.go:55, 86, 141, 156, 279), `Wakati` (tokenizer/tokenizer.go:71) or `Yield`
(filter/ja/filter.go:108), and with the slice that it got as number `j`: write an element, append (`xs = append(xs, v)`), keep a part (`xs = xs[a:b]`). -/
inductive Use where
  | features (tok : Token)
  | featureAt (tok : Token) (i : Int)
  | extra (tok : Token)
  | pos (tok : Token)
  | data (tok : Token)
  | wakati (inp : Bytes)
  | yield (f : JaFilter) (toks : List Token)
  | write (j i : Nat) (v : Bytes)
  | append (j : Nat) (v : Bytes)
  | part (j a b : Nat)

/-- Texts that a call returns. tokenizer/token.go:86, 269-272. -/
inductive Told where
  | feature (r : Bytes × Bool)
  | data (base reading pronunciation : Bytes)
deriving DecidableEq

/-- The program and the memory: the slices that it has got, in order (`none` is nil), and the texts. tokenizer/token.go:55-299. -/
structure Held where
  arrays : Arrays
  slices : List (Option StrSlice)
  told : List Told

/-- A step of such a program; `none` is a panic. tokenizer/token.go:55-299. -/
def Use.step (grow : Nat → Nat) (t : Tokenizer) (ideo : Nat → Bool) (D : DictsMem) (m : Held) : Use → Option Held
  | .features tok => (featuresS grow D tok m.arrays).map (fun r => ⟨r.2, m.slices ++ [r.1], m.told⟩)
  | .featureAt tok i => (featureAtS D tok i m.arrays).map (fun r => ⟨r.2, m.slices, m.told ++ [.feature r.1]⟩)
  | .extra tok => (extraS D tok m.arrays).map (fun r => ⟨r.2, m.slices ++ (match r.1 with | none => [] | some (a, b) => [some a, some b]), m.told⟩)
  | .pos tok => (posS grow D tok m.arrays).map (fun r => ⟨r.2, m.slices ++ [r.1], m.told⟩)
  | .data tok => (tokenDataS grow D tok m.arrays).map (fun r => ⟨r.2, m.slices ++ [some r.1.1, some r.1.2.1], m.told ++ [.data r.1.2.2.1 r.1.2.2.2.1 r.1.2.2.2.2]⟩)
  | .wakati inp => (wakatiS grow t ideo inp m.arrays).map (fun r => ⟨r.2, m.slices ++ [some r.1], m.told⟩)
  | .yield f toks => (yieldS grow D f none toks m.arrays).map (fun r => ⟨r.2, m.slices ++ [r.1], m.told⟩)
  | .write j i v =>
    match m.slices[j]? with
    | some (some s) => (s.set i v m.arrays).map (fun r => ⟨r.2, m.slices, m.told⟩)
    | _ => none
  | .append j v =>
    match m.slices[j]? with
    | some s => (appendNil grow s v m.arrays).map (fun r => ⟨r.2, m.slices.set j r.1, m.told⟩)
    | none => none
  | .part j a b =>
    match m.slices[j]? with
    | some (some s) => (s.cut a b).map (fun s => ⟨m.arrays, m.slices.set j (some s), m.told⟩)
    | _ => none

/-- Any number of steps. tokenizer/token.go:55-299. -/
def Use.run (grow : Nat → Nat) (t : Tokenizer) (ideo : Nat → Bool) (D : DictsMem) : List Use → Held → Option Held
  | [], m => some m
  | u :: us, m => (u.step grow t ideo D m).bind (Use.run grow t ideo D us)

end Kagome
