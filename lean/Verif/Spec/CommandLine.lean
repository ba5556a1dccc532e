import Verif.Go.Flag
import Verif.Model.Cmd

/-!
Command lines, stated as a grammar. `Verif/Go/Flag.lean` is used for the type `FlagVal` only, `Verif/Model/Cmd.lean` for the option
records.
-/

namespace Kagome.Spec

open Kagome

/-- One or two minus signs. -/
def dashes : List Bytes := [str "-", str "--"]

/-- The texts accepted for true and false. -/
def trueWords : List Bytes := [str "1", str "t", str "T", str "TRUE", str "true", str "True"]
def falseWords : List Bytes := [str "0", str "f", str "F", str "FALSE", str "false", str "False"]

/-- A flag as it is written: one or two arguments that give the flag a value. `formal` lists the flags (true: bool flag). -/
inductive FlagArg (formal : List (Bytes × Bool)) : List Bytes → Bytes → FlagVal → Prop
  | value (d n v : Bytes) : d ∈ dashes → (n, false) ∈ formal → FlagArg formal [d ++ n ++ str "=" ++ v] n (.str v)
  | next (d n v : Bytes) : d ∈ dashes → (n, false) ∈ formal → FlagArg formal [d ++ n, v] n (.str v)
  | on (d n : Bytes) : d ∈ dashes → (n, true) ∈ formal → FlagArg formal [d ++ n] n (.bool true)
  | yes (d n v : Bytes) : d ∈ dashes → (n, true) ∈ formal → v ∈ trueWords → FlagArg formal [d ++ n ++ str "=" ++ v] n (.bool true)
  | no (d n v : Bytes) : d ∈ dashes → (n, true) ∈ formal → v ∈ falseWords → FlagArg formal [d ++ n ++ str "=" ++ v] n (.bool false)

/-- An argument that is not a flag: a single minus sign, or one that does not start with a minus sign. -/
def NoFlag (a : Bytes) : Prop := a = str "-" ∨ a.head? ≠ some 0x2D

/-- A command line: flags, then the other arguments. They begin with the first argument that is not a flag, or behind `--`. -/
inductive CommandLine (formal : List (Bytes × Bool)) : List Bytes → List (Bytes × FlagVal) → List Bytes → Prop
  | empty : CommandLine formal [] [] []
  | rest (a : Bytes) (as : List Bytes) : NoFlag a → CommandLine formal (a :: as) [] (a :: as)
  | stop (as : List Bytes) : CommandLine formal (str "--" :: as) [] as
  | flag (pre : List Bytes) (n : Bytes) (v : FlagVal) (as : List Bytes) (sets : List (Bytes × FlagVal)) (rest : List Bytes) :
      FlagArg formal pre n v → CommandLine formal as sets rest → CommandLine formal (pre ++ as) ((n, v) :: sets) rest

/-- The value a flag has: the last one given, or else the default. -/
def Value (sets : List (Bytes × FlagVal)) (n : Bytes) (dflt v : FlagVal) : Prop :=
  (∃ before after, sets = before ++ (n, v) :: after ∧ ∀ s ∈ after, s.1 ≠ n) ∨ ((∀ s ∈ sets, s.1 ≠ n) ∧ v = dflt)

/-- The texts accepted for `-mode`, and what they mean. -/
inductive ModeText : Bytes → Int → Prop
  | none : ModeText [] 1
  | normal : ModeText (str "normal") 1
  | search : ModeText (str "search") 2
  | extended : ModeText (str "extended") 3

/-- The texts accepted for the choice between the built-in dictionaries. -/
def dictTexts : List Bytes := [[], str "ipa", str "uni"]

/-- The flags of `tokenize`. -/
def tokenizeFlags : List (Bytes × Bool) :=
  [(str "file", false), (str "dict", false), (str "udict", false), (str "sysdict", false), (str "simple", true), (str "mode", false),
   (str "split", true), (str "json", true)]

/-- A legal command line of `tokenize` and the options it gives. -/
structure TokenizeLine (args : List Bytes) (o : Tok.Opts) : Prop where
  line : ∃ sets, CommandLine tokenizeFlags args sets [] ∧
    Value sets (str "file") (.str []) (.str o.file) ∧ Value sets (str "dict") (.str []) (.str o.dict) ∧
    Value sets (str "udict") (.str []) (.str o.udict) ∧ Value sets (str "sysdict") (.str (str "ipa")) (.str o.sysdict) ∧
    Value sets (str "simple") (.bool false) (.bool o.simple) ∧ Value sets (str "mode") (.str (str "normal")) (.str o.mode) ∧
    Value sets (str "split") (.bool false) (.bool o.split) ∧ Value sets (str "json") (.bool false) (.bool o.json)
  mode : ∃ m, ModeText o.mode m
  sysdict : o.sysdict ∈ dictTexts

/-- The dictionary `tokenize` works with: a file, or a built-in one. -/
inductive ChosenDict (w : World) (o : Tok.Opts) : Dict → Prop
  | file {d} : o.dict ≠ [] → o.simple = false → w.loadDict o.dict = .ok d → ChosenDict w o d
  | shrunkFile {d} : o.dict ≠ [] → o.simple = true → w.loadShrink o.dict = .ok d → ChosenDict w o d
  | ipa : o.dict = [] → o.sysdict = str "ipa" → o.simple = false → ChosenDict w o w.ipa
  | ipaShrink : o.dict = [] → o.sysdict = str "ipa" → o.simple = true → ChosenDict w o w.ipaShrink
  | uni : o.dict = [] → o.sysdict = str "uni" → o.simple = false → ChosenDict w o w.uni
  | uniShrink : o.dict = [] → o.sysdict = str "uni" → o.simple = true → ChosenDict w o w.uniShrink

/-- The tokenizer `tokenize` works with. -/
inductive ChosenTokenizer (w : World) (o : Tok.Opts) : Tokenizer → Prop
  | plain {d} : ChosenDict w o d → o.udict = [] → ChosenTokenizer w o ⟨d, none, false⟩
  | user {d u} : ChosenDict w o d → o.udict ≠ [] → w.loadUser o.udict = .ok u → ChosenTokenizer w o ⟨d, some u, false⟩

/-- The input `tokenize` reads. -/
inductive ChosenInput (w : World) (o : Tok.Opts) : Source → Prop
  | stdin : o.file = [] → ChosenInput w o w.stdin
  | file {src} : o.file ≠ [] → w.openFile o.file = .ok src → ChosenInput w o src

/-- The flags of `lattice`. -/
def latticeFlags : List (Bytes × Bool) :=
  [(str "udict", false), (str "dict", false), (str "mode", false), (str "output", false), (str "v", true)]

/-- A legal command line of `lattice`: the sentence is what is left, joined with spaces. -/
structure LatticeLine (args : List Bytes) (o : Lat.Opts) : Prop where
  line : ∃ sets rest, CommandLine latticeFlags args sets rest ∧ rest ≠ [] ∧ o.input = join (str " ") rest ∧
    Value sets (str "udict") (.str []) (.str o.udict) ∧ Value sets (str "dict") (.str (str "ipa")) (.str o.dict) ∧
    Value sets (str "mode") (.str (str "normal")) (.str o.mode) ∧ Value sets (str "output") (.str []) (.str o.output) ∧
    Value sets (str "v") (.bool false) (.bool o.verbose)
  mode : ∃ m, ModeText o.mode m
  dict : o.dict ∈ dictTexts

/-- The flags of `server`. -/
def serverFlags : List (Bytes × Bool) := [(str "http", false), (str "userdict", false), (str "dict", false)]

/-- A legal command line of `server`. -/
structure ServerLine (args : List Bytes) (o : Srv.Opts) : Prop where
  line : ∃ sets, CommandLine serverFlags args sets [] ∧
    Value sets (str "http") (.str (str ":6060")) (.str o.http) ∧ Value sets (str "userdict") (.str []) (.str o.udict) ∧
    Value sets (str "dict") (.str (str "ipa")) (.str o.dict)
  dict : o.dict ∈ dictTexts

/-- A legal command line of `sentence` and the file it names. -/
def SentenceLine (args : List Bytes) (file : Bytes) : Prop :=
  ∃ sets, CommandLine [(str "file", false)] args sets [] ∧ Value sets (str "file") (.str []) (.str file)

end Kagome.Spec
