import Verif.Model.Filter

/-!
# Filters used in several goroutines

`Yield` of filter/ja/filter.go reads the tokens of a slice. `Drop` and `Keep` of filter/filter.go, filter/pos.go, filter/word.go and filter/ja/filter.go move tokens within the array of the slice
they are given. Here the cells of all these arrays are one memory, and goroutines that filter slices run at the same time, one access to
a cell after the other in any order. A filter is written by nobody after it has been made (filter/feature.go:79-92 and
filter/word.go:24-27 only read it), so it is a constant here. Each goroutine has a variable of its own for the slice, and what its match
functions remember (`σ`) is its own too.
-/

namespace Kagome

/-- The cells for tokens, by address: the arrays behind the slices `*tokens` of filter/filter.go:17. -/
abbrev Cells := Nat → Token

/-- What a goroutine does with a slice: a call of `Drop` (`drop`) or `Keep`, filter/filter.go:8-15, with its match function, which may keep
a state and may panic; or a loop over the tokens that only reads them, like filter/ja/filter.go:110-124. -/
inductive FilterUse (σ : Type)
  | filter (hit : σ → Token → Option (Bool × σ)) (drop : Bool)
  | look (visit : σ → Token → Option σ)

/-- A goroutine that filters the slice of the `len` cells from `base` on, by one call of filter/filter.go:17 (or filter/ja/filter.go:108) after the other. -/
structure FilterJob (σ : Type) where
  uses : List (FilterUse σ)
  init : σ
  base : Nat
  len : Nat

/-- Where a goroutine is, with the calls it still has to make (the first of `us` is running) and the length `len` of its slice: about to
read the token `i` of the slice (filter.go:22), about to write `v`, which was token `i`, to the place `tail` (filter.go:27), done with
all calls, with a slice of length `n`, or stopped by a panic of a match function. -/
inductive FilterAt (σ : Type)
  | read (us : List (FilterUse σ)) (len i tail : Nat) (s : σ)
  | write (hit : σ → Token → Option (Bool × σ)) (drop : Bool) (us : List (FilterUse σ)) (len i tail : Nat) (v : Token) (s : σ)
  | done (n : Nat) (s : σ)
  | panicked

/-- The memory and where each goroutine is. No counterpart in /repo: the state of goroutines that call filter/filter.go:8-15. -/
structure FilterState (σ : Type) where
  cells : Cells
  at_ : Nat → FilterAt σ

/-- filter.go:21-31 (pos.go:43-53, word.go:43-53 alike): one step, up to the next access to a cell. At the end of the loop the slice is
cut to `tail` and the next call begins. A loop that only reads (ja/filter.go:110-124) leaves the slice as it is. -/
def filterMove {σ : Type} (base : Nat) (m : Cells) : FilterAt σ → FilterAt σ × Cells
  | .read [] len _ _ s => (.done len s, m)
  | .read (.filter hit drop :: us) len i tail s =>
    if i < len then
      let v := m (base + i)
      match hit s v with
      | none => (.panicked, m)
      | some (b, s) =>
        if b = drop then (.read (.filter hit drop :: us) len (i + 1) tail s, m)
        else if i ≠ tail then (.write hit drop us len i tail v s, m)
        else (.read (.filter hit drop :: us) len (i + 1) (tail + 1) s, m)
    else (.read us tail 0 0 s, m)
  | .read (.look visit :: us) len i tail s =>
    if i < len then
      match visit s (m (base + i)) with
      | none => (.panicked, m)
      | some s => (.read (.look visit :: us) len (i + 1) tail s, m)
    else (.read us len 0 0 s, m)
  | .write hit drop us len i tail v s => (.read (.filter hit drop :: us) len (i + 1) (tail + 1) s, fun a => if a = base + tail then v else m a)
  | .done n s => (.done n s, m)
  | .panicked => (.panicked, m)

/-- One step of goroutine `k`, which runs filter/filter.go:17-32. -/
def filterStep {σ : Type} (js : List (FilterJob σ)) (s : FilterState σ) (k : Nat) : FilterState σ :=
  match js[k]? with
  | none => s
  | some j =>
    let r := filterMove j.base s.cells (s.at_ k)
    ⟨r.2, fun l => if l = k then r.1 else s.at_ l⟩

/-- The goroutines take steps in the order of `sched`. No counterpart in /repo: the scheduler of Go. -/
def filterRun {σ : Type} (js : List (FilterJob σ)) (s : FilterState σ) (sched : List Nat) : FilterState σ := sched.foldl (filterStep js) s

/-- All goroutines begin their first call: filter/filter.go:21-22. -/
def filterStart {σ : Type} (js : List (FilterJob σ)) (m : Cells) : FilterState σ :=
  ⟨m, fun k => match js[k]? with | none => .panicked | some j => .read j.uses j.len 0 0 j.init⟩

/-- The next access of a goroutine to the memory: the address, and whether it writes (filter/filter.go:22 and 27). -/
def filterAccess {σ : Type} (base : Nat) : FilterAt σ → Option (Nat × Bool)
  | .read (_ :: _) len i _ _ => if i < len then some (base + i, false) else none
  | .read [] .. => none
  | .write _ _ _ _ _ tail _ _ => some (base + tail, true)
  | .done .. => none
  | .panicked => none

/-- filter/word.go:30-37: `Drop` and `Keep` of a word filter. -/
def wordUse {σ : Type} (f : WordFilter) (drop : Bool) : FilterUse σ := .filter (fun s t => some (wordMatch f t.surface, s)) drop

/-- filter/pos.go:30-37: `Drop` and `Keep` of a part-of-speech filter; `v.POS()` may panic. -/
def posUse {σ : Type} (f : FNode) (drop : Bool) : FilterUse σ := .filter (fun s t => (tokenPOS t).map (fun p => (posMatch f p, s))) drop

/-- filter/ja/filter.go:129-132: `Drop` of the Japanese filter is two calls. -/
def jaUses {σ : Type} (f : JaFilter) : List (FilterUse σ) := [posUse f.stopTags true, wordUse f.stopWords true]

/-- filter/ja/filter.go:111-123, the body of the loop of `Yield`: what is appended to `ret`. -/
def yieldVisit (f : JaFilter) (ret : List Bytes) (v : Token) : Option (List Bytes) :=
  match tokenPOS v with
  | none => none
  | some p =>
    if posMatch f.stopTags p then some ret
    else if wordMatch f.stopWords v.surface then some ret
    else
      match tokenPOS v with
      | none => none
      | some p =>
        if posMatch f.baseForm p then
          match baseForm v with
          | none => none
          | some (b, ok) => some (if ok then ret ++ [b] else ret)
        else some (ret ++ [v.surface])

/-- filter/ja/filter.go:108-126: `Yield`. -/
def yieldUse (f : JaFilter) : FilterUse (List Bytes) := .look (yieldVisit f)

end Kagome
