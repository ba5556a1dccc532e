import Verif.Go.Quote

/-!
# `flag.FlagSet.Parse`

Written from Go's flag/flag.go (`Parse`, `parseOne`) and strconv/atob.go (`ParseBool`); part of the trusted base: the package is not
in /repo. Only string and bool flags occur in /repo. The result is the list of assignments in the order they are made and the arguments
that are left (`Args`). What `failf` prints is in `Verif/Model/Usage.lean`.
-/

namespace Kagome

/-- The value given to a flag. Standard library; used in /repo at cmd/tokenize/cmd.go:53-72, cmd/server/cmd.go:42-55, cmd/lattice/cmd.go:41-57
and cmd/sentence/cmd.go:36-47. -/
inductive FlagVal where
  | str (v : Bytes)
  | bool (b : Bool)
deriving DecidableEq, Repr

/-- Why `Parse` fails. Standard library; used in /repo at cmd/tokenize/cmd.go:53-72, cmd/server/cmd.go:42-55, cmd/lattice/cmd.go:41-57 and
cmd/sentence/cmd.go:36-47. -/
inductive FlagError where
  | badSyntax (arg : Bytes)
  | help
  | undefinedFlag (name : Bytes)
  | badBool (name value : Bytes)
  | needsArgument (name : Bytes)
deriving DecidableEq, Repr

/-- `Error()` of the errors of `Parse` (`parseOne`; `boolValue.Set` fails with "parse error"). `isPrint` is `strconv.IsPrint`. Standard library; used
in /repo at cmd/server/cmd.go:55-57, 136, cmd/lattice/cmd.go:57-59, 156 and cmd/sentence/cmd.go:47-49, 92. -/
def FlagError.text (isPrint : Nat → Bool) : FlagError → Bytes
  | .badSyntax arg => str "bad flag syntax: " ++ arg
  | .help => str "flag: help requested"
  | .undefinedFlag name => str "flag provided but not defined: -" ++ name
  | .badBool name value => str "invalid boolean value " ++ quote isPrint value ++ str " for -" ++ name ++ str ": parse error"
  | .needsArgument name => str "flag needs an argument: -" ++ name

/-- `strconv.ParseBool`. Standard library; used in /repo at cmd/tokenize/cmd.go:53-72, cmd/server/cmd.go:42-55, cmd/lattice/cmd.go:41-57 and
cmd/sentence/cmd.go:36-47. -/
def parseBool (v : Bytes) : Option Bool :=
  if v = str "1" ∨ v = str "t" ∨ v = str "T" ∨ v = str "TRUE" ∨ v = str "true" ∨ v = str "True" then some true
  else if v = str "0" ∨ v = str "f" ∨ v = str "F" ∨ v = str "FALSE" ∨ v = str "false" ∨ v = str "False" then some false
  else none

/-- The loop of `parseOne` that looks for `=`: what is before it and what is behind it. Standard library; used in /repo at
cmd/tokenize/cmd.go:53-72, cmd/server/cmd.go:42-55, cmd/lattice/cmd.go:41-57 and cmd/sentence/cmd.go:36-47. -/
def cutEq : Bytes → Bytes × Option Bytes
  | [] => ([], none)
  | b :: t => if b = 0x3D then ([], some t) else (b :: (cutEq t).1, (cutEq t).2)

/-- What `parseOne` makes of one argument. Standard library; used in /repo at cmd/tokenize/cmd.go:53-72, cmd/server/cmd.go:42-55,
cmd/lattice/cmd.go:41-57 and cmd/sentence/cmd.go:36-47. -/
inductive ArgForm where
  | plain                                              -- not a flag: flags end here
  | terminator                                         -- `--`
  | bad                                                -- bad flag syntax
  | flag (name : Bytes) (value : Option Bytes)
deriving DecidableEq, Repr

/-- `parseOne`, behind the minus signs: `name` is `s[numMinuses:]`; the search for `=` starts at its second byte. Standard library; used in /repo
at cmd/tokenize/cmd.go:53-72, cmd/server/cmd.go:42-55, cmd/lattice/cmd.go:41-57 and cmd/sentence/cmd.go:36-47. -/
def flagForm : Bytes → ArgForm
  | [] => .bad
  | b :: t => if b = 0x2D ∨ b = 0x3D then .bad else .flag (b :: (cutEq t).1) (cutEq t).2

/-- `parseOne`, from the beginning to the loop that looks for `=`. Standard library; used in /repo at cmd/tokenize/cmd.go:53-72,
cmd/server/cmd.go:42-55, cmd/lattice/cmd.go:41-57 and cmd/sentence/cmd.go:36-47. -/
def argForm (s : Bytes) : ArgForm :=
  match s with
  | [] => .plain
  | [_] => .plain
  | a :: b :: t =>
    if a ≠ 0x2D then .plain
    else if b = 0x2D then (if t = [] then .terminator else flagForm t)
    else flagForm (b :: t)

/-- `f.formal[name]`: whether the flag is a bool flag. Standard library; used in /repo at cmd/tokenize/cmd.go:53-72, cmd/server/cmd.go:42-55,
cmd/lattice/cmd.go:41-57 and cmd/sentence/cmd.go:36-47. -/
def formalKind (formal : List (Bytes × Bool)) (name : Bytes) : Option Bool := formal.lookup name

/-- `Parse` with `ContinueOnError`. Standard library; used in /repo at cmd/tokenize/cmd.go:53-72, cmd/server/cmd.go:42-55,
cmd/lattice/cmd.go:41-57 and cmd/sentence/cmd.go:36-47. -/
def parseFlags (formal : List (Bytes × Bool)) : List Bytes → Except FlagError (List (Bytes × FlagVal) × List Bytes)
  | [] => .ok ([], [])
  | s :: rest =>
    match argForm s with
    | .plain => .ok ([], s :: rest)
    | .terminator => .ok ([], rest)
    | .bad => .error (.badSyntax s)
    | .flag name value =>
      match formalKind formal name with
      | none => if name = str "help" ∨ name = str "h" then .error .help else .error (.undefinedFlag name)
      | some true =>
        match parseBool (value.getD (str "true")) with
        | none => .error (.badBool name (value.getD (str "true")))
        | some b => (parseFlags formal rest).map (fun r => ((name, .bool b) :: r.1, r.2))
      | some false =>
        match value, rest with
        | some v, rest => (parseFlags formal rest).map (fun r => ((name, .str v) :: r.1, r.2))
        | none, [] => .error (.needsArgument name)
        | none, v :: rest => (parseFlags formal rest).map (fun r => ((name, .str v) :: r.1, r.2))

/-- `Set` of a string flag: an assignment to `name` changes the variable. Standard library; used in /repo at cmd/tokenize/cmd.go:53-72,
cmd/server/cmd.go:42-55, cmd/lattice/cmd.go:41-57 and cmd/sentence/cmd.go:36-47. -/
def setStr (name v : Bytes) (s : Bytes × FlagVal) : Bytes :=
  match s.2 with
  | .str x => if s.1 = name then x else v
  | .bool _ => v

/-- `Set` of a bool flag. Standard library; used in /repo at cmd/tokenize/cmd.go:53-72, cmd/server/cmd.go:42-55, cmd/lattice/cmd.go:41-57 and
cmd/sentence/cmd.go:36-47. -/
def setBool (name : Bytes) (v : Bool) (s : Bytes × FlagVal) : Bool :=
  match s.2 with
  | .bool x => if s.1 = name then x else v
  | .str _ => v

/-- The value of a string variable after the assignments. Standard library; used in /repo at cmd/tokenize/cmd.go:53-72, cmd/server/cmd.go:42-55,
cmd/lattice/cmd.go:41-57 and cmd/sentence/cmd.go:36-47. -/
def strFlag (name dflt : Bytes) (sets : List (Bytes × FlagVal)) : Bytes := sets.foldl (setStr name) dflt

/-- The value of a bool variable after the assignments. Standard library; used in /repo at cmd/tokenize/cmd.go:53-72, cmd/server/cmd.go:42-55,
cmd/lattice/cmd.go:41-57 and cmd/sentence/cmd.go:36-47. -/
def boolFlag (name : Bytes) (dflt : Bool) (sets : List (Bytes × FlagVal)) : Bool := sets.foldl (setBool name) dflt

/-- A flag as it was declared: `Name`, whether it is a bool flag, `Usage`, and `DefValue` of a string flag (the bool flags of /repo are all
false by default). Standard library; used in /repo at cmd/tokenize/cmd.go:59-66, cmd/server/cmd.go:48-50, cmd/lattice/cmd.go:47-51 and
cmd/sentence/cmd.go:42. -/
structure FlagDoc where
  name : Bytes
  isBool : Bool
  usage : Bytes
  dflt : Bytes
deriving DecidableEq, Repr

/-- Comparison of strings. Language; by it `VisitAll` sorts. Used in /repo at cmd/tokenize/cmd.go:240, cmd/server/cmd.go:157,
cmd/lattice/cmd.go:169 and cmd/sentence/cmd.go:105. -/
def bytesBefore : Bytes → Bytes → Bool
  | _, [] => false
  | [], _ :: _ => true
  | a :: s, b :: t => decide (a < b) || (decide (a = b) && bytesBefore s t)

/-- One step of sorting. Standard library (`sortFlags`); used in /repo at cmd/tokenize/cmd.go:240, cmd/server/cmd.go:157, cmd/lattice/cmd.go:169 and
cmd/sentence/cmd.go:105. -/
def insertDoc (d : FlagDoc) : List FlagDoc → List FlagDoc
  | [] => [d]
  | e :: es => if bytesBefore d.name e.name then d :: e :: es else e :: insertDoc d es

/-- `sortFlags`: by name (names are unique). Standard library; used in /repo at cmd/tokenize/cmd.go:240, cmd/server/cmd.go:157,
cmd/lattice/cmd.go:169 and cmd/sentence/cmd.go:105. -/
def sortDocs (docs : List FlagDoc) : List FlagDoc := docs.foldr insertDoc []

/-- What `PrintDefaults` prints for one flag. The usage texts of /repo hold neither back quotes nor line feeds. Standard library; used in
/repo at cmd/tokenize/cmd.go:240, cmd/server/cmd.go:157, cmd/lattice/cmd.go:169 and cmd/sentence/cmd.go:105. -/
def docText (isPrint : Nat → Bool) (d : FlagDoc) : Bytes :=
  let b := str "  -" ++ d.name ++ (if d.isBool then [] else str " string")
  b ++ (if b.length ≤ 4 then str "\t" else str "\n    \t") ++ d.usage ++
    (if d.isBool = false ∧ d.dflt ≠ [] then str " (default " ++ quote isPrint d.dflt ++ str ")" else []) ++ str "\n"

/-- `PrintDefaults`. Standard library; used in /repo at cmd/tokenize/cmd.go:240, cmd/server/cmd.go:157, cmd/lattice/cmd.go:169 and
cmd/sentence/cmd.go:105. -/
def printDefaults (isPrint : Nat → Bool) (docs : List FlagDoc) : Bytes := (sortDocs docs).flatMap (docText isPrint)

end Kagome
