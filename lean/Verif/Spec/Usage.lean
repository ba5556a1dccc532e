import Verif.Spec.Refusal

/-! How a person reads the help texts of the commands. -/

namespace Kagome.Spec

open Kagome

/-- The parts of a text between a given byte. -/
def splitAt (sep : UInt8) : Bytes → List Bytes
  | [] => [[]]
  | c :: cs =>
    if c = sep then [] :: splitAt sep cs
    else match splitAt sep cs with
      | [] => [[c]]
      | p :: ps => (c :: p) :: ps

/-- What is behind the first place where `pat` occurs. -/
def behind (pat : Bytes) : Bytes → Option Bytes
  | [] => if pat = [] then some [] else none
  | c :: cs => if pat.isPrefixOf (c :: cs) then some ((c :: cs).drop pat.length) else behind pat cs

/-- An option as a usage line shows it in brackets. -/
inductive UsageItem where
  /-- `[-v]` -/
  | switch (name : Bytes)
  /-- `[-dict (ipa|uni)]` -/
  | choice (name : Bytes) (values : List Bytes)
  /-- `[-file filename]` -/
  | value (name : Bytes)
  /-- `[-http=:6060]` -/
  | assigned (name : Bytes)
deriving DecidableEq, Repr

/-- Reading the text in a pair of brackets, behind the minus sign. -/
def readItem (text : Bytes) : UsageItem :=
  let name := text.takeWhile (fun c => c ≠ 0x20 ∧ c ≠ 0x3D)
  match text.drop name.length with
  | [] => .switch name
  | c :: rest =>
    if c = 0x3D then .assigned name
    else if rest.head? = some 0x28 then .choice name (splitAt 0x7C (rest.drop 1).dropLast)
    else .value name

/-- The options a usage line shows. -/
def usageItems (line : Bytes) : List UsageItem :=
  ((splitAt 0x5B line).drop 1).map (fun part => readItem ((part.takeWhile (· ≠ 0x5D)).drop 1))

/-- The value a usage line shows behind an option and an equals sign. -/
def shownValue (line name : Bytes) : Option Bytes := (behind (str "[-" ++ name ++ str "=") line).map (·.takeWhile (· ≠ 0x5D))

/-- What someone who follows the usage line writes for an option. -/
inductive Written : UsageItem → List Bytes → Prop
  | switch (n : Bytes) : Written (.switch n) [str "-" ++ n]
  | choice (n v : Bytes) (values : List Bytes) : v ∈ values → Written (.choice n values) [str "-" ++ n, v]
  | value (n v : Bytes) : Written (.value n) [str "-" ++ n, v]
  | assigned (n v : Bytes) : Written (.assigned n) [str "-" ++ n ++ str "=" ++ v]

/-- Arguments made of options from a list of options, in any order and number. -/
inductive Follows (items : List UsageItem) : List Bytes → Prop
  | none : Follows items []
  | more {item : UsageItem} {args rest : List Bytes} : item ∈ items → Written item args → Follows items rest → Follows items (args ++ rest)

/-- What is behind `pat` in a text that begins with it. -/
def behindPrefix (pat text : Bytes) : Option Bytes := if pat.isPrefixOf text then some (text.drop pat.length) else none

/-- One flag in the list of flags that `-h` shows: its name, whether it is a switch, and the default in quotes, if there is one. -/
def readFlag (entry : Bytes) : Bytes × Bool × Option Bytes :=
  let name := entry.takeWhile (fun c => c ≠ 0x20 ∧ c ≠ 0x09 ∧ c ≠ 0x0A)
  (name, !((str " string").isPrefixOf (entry.drop name.length)), (behind (str "(default \"") entry).map (·.takeWhile (· ≠ 0x22)))

/-- The list of flags: every entry begins behind a minus sign that is the third byte of its line. -/
def readFlags : Nat → Bytes → List (Bytes × Bool × Option Bytes)
  | 0, _ => []
  | fuel + 1, text =>
    match behind (str "  -") text with
    | none => []
    | some rest => readFlag (rest.take (((behind (str "\n  -") rest).map (fun r => rest.length - r.length - 4)).getD rest.length)) :: readFlags fuel rest

/-- Saying in so many words what holds for a shown flag that is left out. -/
def leftOut (f : Bytes × Bool × Option Bytes) : List Bytes :=
  if f.2.1 then [str "-" ++ f.1 ++ str "=" ++ str "false"] else [str "-" ++ f.1, f.2.2.getD []]

/-- The commands a help text lists, line by line behind the first line, and which of them is in brackets. -/
def readCommands (text : Bytes) : List (Bytes × Bool) :=
  (((splitAt 0x0A text).drop 1).dropLast).map (fun line =>
    let line := line.dropWhile (· = 0x20)
    match behindPrefix (str "[") line with
    | some rest => (rest.takeWhile (· ≠ 0x5D), true)
    | none => (line.takeWhile (· ≠ 0x20), false))

/-- The version `version` shows: the one given to the linker, or else that of the main module, or else `(devel)`. -/
inductive ShownVersion (w : World) : Bytes → Prop
  | linked : w.version ≠ [] → ShownVersion w w.version
  | built {m deps} : w.version = [] → w.buildInfo = some (m, deps) → m ≠ [] → ShownVersion w m
  | devel : w.version = [] → (∀ m deps, w.buildInfo = some (m, deps) → m = []) → ShownVersion w (str "(devel)")

/-- The paths and versions of the dependencies, if they are known. -/
def dependencies (w : World) : List (Bytes × Bytes) :=
  match w.buildInfo with
  | some (_, deps) => deps
  | none => []

end Kagome.Spec
