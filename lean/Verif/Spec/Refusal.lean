import Verif.Spec.CommandLine

/-!
Why a command line is refused, stated as a grammar beside that of the legal command lines (`Verif/Spec/CommandLine.lean`), and the words in
which the user is told. Of the model only the types of errors are used.
-/

namespace Kagome.Spec

open Kagome

/-- What can be read as the name of a flag. -/
structure FlagName (n : Bytes) : Prop where
  ne : n ≠ []
  dash : n.head? ≠ some 0x2D
  eq : (0x3D : UInt8) ∉ n

/-- The first thing in a command line that is not a legal flag, though it looks like one. -/
inductive FlagFault (formal : List (Bytes × Bool)) : List Bytes → FlagError → Prop
  /-- too many minus signs, or no name in front of `=` -/
  | form (a : Bytes) (as : List Bytes) : (str "---" <+: a ∨ str "-=" <+: a ∨ str "--=" <+: a) → FlagFault formal (a :: as) (.badSyntax a)
  /-- `-h`, `-help`, where there is no such flag -/
  | help (d n tail : Bytes) (as : List Bytes) : d ∈ dashes → (n = str "h" ∨ n = str "help") → n ∉ formal.map Prod.fst →
      (tail = [] ∨ str "=" <+: tail) → FlagFault formal ((d ++ n ++ tail) :: as) .help
  /-- a name that is not one of the flags -/
  | unknown (d n tail : Bytes) (as : List Bytes) : d ∈ dashes → FlagName n → n ≠ str "h" → n ≠ str "help" → n ∉ formal.map Prod.fst →
      (tail = [] ∨ str "=" <+: tail) → FlagFault formal ((d ++ n ++ tail) :: as) (.undefinedFlag n)
  /-- neither true nor false -/
  | notBool (d n v : Bytes) (as : List Bytes) : d ∈ dashes → (n, true) ∈ formal → v ∉ trueWords → v ∉ falseWords →
      FlagFault formal ((d ++ n ++ str "=" ++ v) :: as) (.badBool n v)
  /-- a flag that takes a value at the very end -/
  | missing (d n : Bytes) : d ∈ dashes → (n, false) ∈ formal → FlagFault formal [d ++ n] (.needsArgument n)
  /-- behind legal flags -/
  | later (pre : List Bytes) (n : Bytes) (v : FlagVal) (as : List Bytes) (e : FlagError) : FlagArg formal pre n v → FlagFault formal as e →
      FlagFault formal (pre ++ as) e

/-- Why `tokenize` refuses a command line. -/
inductive TokenizeFault (args : List Bytes) : ParseError → Prop
  | flag {e} : FlagFault tokenizeFlags args e → TokenizeFault args (.flag e)
  | extra {sets rest} : CommandLine tokenizeFlags args sets rest → rest ≠ [] → TokenizeFault args (.arguments rest)
  | mode {sets v} : CommandLine tokenizeFlags args sets [] → Value sets (str "mode") (.str (str "normal")) (.str v) → (¬ ∃ m, ModeText v m) →
      TokenizeFault args (.mode v)
  | sysdict {sets v m n} : CommandLine tokenizeFlags args sets [] → Value sets (str "mode") (.str (str "normal")) (.str m) → ModeText m n →
      Value sets (str "sysdict") (.str (str "ipa")) (.str v) → v ∉ dictTexts → TokenizeFault args (.sysdict v)

/-- Why `lattice` refuses a command line. -/
inductive LatticeFault (args : List Bytes) : ParseError → Prop
  | flag {e} : FlagFault latticeFlags args e → LatticeFault args (.flag e)
  | none {sets} : CommandLine latticeFlags args sets [] → LatticeFault args .noArgument
  | dict {sets rest v} : CommandLine latticeFlags args sets rest → rest ≠ [] → Value sets (str "dict") (.str (str "ipa")) (.str v) →
      v ∉ dictTexts → LatticeFault args (.dict v)
  | mode {sets rest v d} : CommandLine latticeFlags args sets rest → rest ≠ [] → Value sets (str "dict") (.str (str "ipa")) (.str d) →
      d ∈ dictTexts → Value sets (str "mode") (.str (str "normal")) (.str v) → (¬ ∃ m, ModeText v m) → LatticeFault args (.mode v)

/-- Why `server` refuses a command line. -/
inductive ServerFault (args : List Bytes) : ParseError → Prop
  | flag {e} : FlagFault serverFlags args e → ServerFault args (.flag e)
  | extra {sets rest} : CommandLine serverFlags args sets rest → rest ≠ [] → ServerFault args (.arguments rest)
  | dict {sets v} : CommandLine serverFlags args sets [] → Value sets (str "dict") (.str (str "ipa")) (.str v) → v ∉ dictTexts →
      ServerFault args (.dict v)

/-- Why `sentence` refuses a command line. -/
inductive SentenceFault (args : List Bytes) : ParseError → Prop
  | flag {e} : FlagFault [(str "file", false)] args e → SentenceFault args (.flag e)
  | extra {sets rest} : CommandLine [(str "file", false)] args sets rest → rest ≠ [] → SentenceFault args (.arguments rest)

/-- The words in which a fault is told. `quoted` is the way Go quotes a string. -/
def faultText (quoted : Bytes → Bytes) : ParseError → Bytes
  | .flag (.badSyntax a) => str "bad flag syntax: " ++ a
  | .flag .help => str "flag: help requested"
  | .flag (.undefinedFlag n) => str "flag provided but not defined: -" ++ n
  | .flag (.badBool n v) => str "invalid boolean value " ++ quoted v ++ str " for -" ++ n ++ str ": parse error"
  | .flag (.needsArgument n) => str "flag needs an argument: -" ++ n
  | .arguments rest => str "invalid argument: [" ++ join (str " ") rest ++ str "]"
  | .noArgument => str "no option is specified"
  | .mode v => str "invalid argument: -mode " ++ v
  | .sysdict v => str "invalid argument: -sysdict " ++ v
  | .dict v => str "invalid argument: -dict " ++ v

/-- What `flag` itself writes when it meets a fault: nothing unless it is a flag it cannot read; then the reason (but not for `-h`), the name of the
command and its flags. `flags` is the list of flags as `PrintDefaults` writes it. -/
def flagSays (quoted : Bytes → Bytes) (command flags : Bytes) : ParseError → Bytes
  | .flag .help => str "Usage of " ++ command ++ str ":\n" ++ flags
  | .flag e => faultText quoted (.flag e) ++ str "\n" ++ str "Usage of " ++ command ++ str ":\n" ++ flags
  | _ => []

end Kagome.Spec
