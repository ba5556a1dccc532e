import Verif.Model.Cmd

/-!
The texts the commands write to stderr: `Usage` and `PrintDefaults` of `/repo/kagome.go` and `/repo/cmd`, and what `flag` prints.
-/

namespace Kagome

/-- `filepath.Base` on Unix, without the slashes at the end: what is behind the last slash. Standard library; used in /repo at kagome.go:81. -/
def afterSlash : Bytes → Bytes → Bytes
  | cur, [] => cur.reverse
  | cur, c :: cs => if c = 0x2F then afterSlash [] cs else afterSlash (c :: cur) cs

/-- `filepath.Base` on Unix. Standard library; used in /repo at kagome.go:81. -/
def baseName (path : Bytes) : Bytes :=
  if path = [] then str "."
  else
    let path := (path.reverse.dropWhile (· = 0x2F)).reverse
    if path = [] then str "/" else afterSlash [] path

/-- `CommandName`: cmd/tokenize/cmd.go:24, cmd/server/cmd.go:26, cmd/lattice/cmd.go:20, cmd/sentence/cmd.go:16. -/
def CmdName.name : CmdName → Bytes
  | .tokenize => str "tokenize"
  | .server => str "server"
  | .lattice => str "lattice"
  | .sentence => str "sentence"

/-- The usage messages with the name put in for `%s`: cmd/tokenize/cmd.go:26-27, cmd/server/cmd.go:28, cmd/lattice/cmd.go:22,
cmd/sentence/cmd.go:18. -/
def CmdName.usage : CmdName → Bytes
  | .tokenize => str ("tokenize [-file input_file] [-dict dic_file] [-userdict user_dic_file]" ++
      " [-sysdict (ipa|uni)] [-simple false] [-mode (normal|search|extended)] [-split] [-json]")
  | .server => str "server [-http=:6060] [-userdict userdic_file] [-dict (ipa|uni)]"
  | .lattice => str "lattice [-udict userdict_file] [-dict (ipa|uni)] [-mode (normal|search|extended)] [-output output_file] [-v] sentence"
  | .sentence => str "sentence [-file filename]"

/-- The declarations of the flags: cmd/tokenize/cmd.go:59-66, cmd/server/cmd.go:48-50, cmd/lattice/cmd.go:47-51, cmd/sentence/cmd.go:42. -/
def CmdName.docs : CmdName → List FlagDoc
  | .tokenize =>
    [⟨str "file", false, str "input file", []⟩, ⟨str "dict", false, str "dict", []⟩, ⟨str "udict", false, str "user dict", []⟩,
     ⟨str "sysdict", false, str "system dict type (ipa|uni)", str "ipa"⟩,
     ⟨str "simple", true, str "display abbreviated dictionary contents", []⟩,
     ⟨str "mode", false, str "tokenize mode (normal|search|extended)", str "normal"⟩,
     ⟨str "split", true, str "use tiny sentence splitter", []⟩, ⟨str "json", true, str "outputs in JSON format", []⟩]
  | .server =>
    [⟨str "http", false, str "HTTP service address", str ":6060"⟩, ⟨str "userdict", false, str "user dict", []⟩,
     ⟨str "dict", false, str "system dict type (ipa|uni)", str "ipa"⟩]
  | .lattice =>
    [⟨str "udict", false, str "user dict", []⟩, ⟨str "dict", false, str "dict type (ipa|uni)", str "ipa"⟩,
     ⟨str "mode", false, str "tokenize mode (normal|search|extended)", str "normal"⟩, ⟨str "output", false, str "output file", []⟩,
     ⟨str "v", true, str "verbose mode", []⟩]
  | .sentence => [⟨str "file", false, str "input file", []⟩]

/-- The names and descriptions of the subcommands, kagome.go:30-75 and the `Description`s (cmd/tokenize/cmd.go:25, cmd/server/cmd.go:27,
cmd/lattice/cmd.go:21, cmd/sentence/cmd.go:17). -/
def descriptions : List (Bytes × Bytes) :=
  [(str "tokenize", str "command line tokenize"), (str "server", str "run tokenize server"), (str "lattice", str "lattice viewer"),
   (str "sentence", str "tiny sentence splitter"), (str "version", str "show version")]

/-- kagome.go:109-114: one line of `PrintDefaults`. -/
def commandLine (c : Bytes × Bytes) : Bytes :=
  if c.1 = str "tokenize" then str "   [" ++ c.1 ++ str "] - " ++ c.2 ++ str " (*default)\n" else str "   " ++ c.1 ++ str " - " ++ c.2 ++ str "\n"

/-- The text of a note: kagome.go:79-82 `Usage`, kagome.go:106-115 `PrintDefaults`, kagome.go:133; `Usage` and `PrintDefaults` of the subcommands
(cmd/tokenize/cmd.go:233-241, cmd/server/cmd.go:150-158, cmd/lattice/cmd.go:162-170, cmd/sentence/cmd.go:98-106); what `FlagSet.Parse` prints
(standard library: `failf` and `defaultUsage`); cmd/lattice/cmd.go:138-144 and kagome.go:141. `prog` is `os.Args[0]`. -/
def noteText (isPrint : Nat → Bool) (prog : Bytes) : Note → Bytes
  | .mainUsage => str "Japanese Morphological Analyzer -- github.com/ikawaha/kagome/v2\n" ++ str "usage: " ++ baseName prog ++ str " <command>\n"
  | .commands => str "The commands are:\n" ++ descriptions.flatMap commandLine
  | .blank => str "\n"
  | .usage c => c.usage ++ str "\n"
  | .defaults c => printDefaults isPrint c.docs
  | .flagError c e =>
    (if e = .help then [] else e.text isPrint ++ str "\n") ++ str "Usage of " ++ c.name ++ str ":\n" ++ printDefaults isPrint c.docs
  | .line text => text ++ str "\n"

/-- What the process leaves on stderr. kagome.go:117-144. -/
def stderrText (isPrint : Nat → Bool) (prog : Bytes) (notes : List Note) : Bytes := notes.flatMap (noteText isPrint prog)

end Kagome
