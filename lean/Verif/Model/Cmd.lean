import Verif.Go.Flag
import Verif.Go.Json
import Verif.Go.Lines
import Verif.Model.Dot

/-!
`/repo/kagome.go` and the subcommands in `/repo/cmd`.

What a run needs from outside (dictionaries, files, the network) is a `World`. Output to stderr is a list of `Note`s: fixed texts such as
the usage are named here and spelled out in `Verif/Model/Usage.lean`. Writing to stdout or stderr does not fail here. A panic is `none`; in Go the output written before
it would still be there. The Go code keeps options in variables that `flag` sets; here `parse` returns them.
-/

namespace Kagome

/-- An input file: what its `Read` calls give, and the error (other than `io.EOF`) of the read that reports one. The `fp` of
cmd/tokenize/cmd.go:149-161 and cmd/sentence/cmd.go:67-78. -/
structure Source where
  reads : List ReadResult
  failure : Option Bytes := none

/-- What the program finds outside. Errors are their messages. Used at cmd/tokenize/cmd.go:97-161, cmd/lattice/cmd.go:83-135,
cmd/server/cmd.go:77-116, cmd/sentence/cmd.go:67-73 and kagome.go:84-103. -/
structure World where
  /-- `unicode.Ideographic` -/
  ideo : Nat → Bool
  /-- Go 1.22 or later, see `Verif/Go/Json.lean` -/
  shortEscapes : Bool
  /-- `ipa.Dict`, `ipa.DictShrink`, `uni.Dict`, `uni.DictShrink` -/
  ipa : Dict
  ipaShrink : Dict
  uni : Dict
  uniShrink : Dict
  /-- `dict.LoadDictFile`, `dict.LoadShrink` -/
  loadDict : Bytes → Except Bytes Dict
  loadShrink : Bytes → Except Bytes Dict
  /-- `dict.NewUserDict` (its result is not nil if there is no error) -/
  loadUser : Bytes → Except Bytes UserDict
  /-- `os.Open` -/
  openFile : Bytes → Except Bytes Source
  stdin : Source
  /-- `os.OpenFile` for writing: its error -/
  createError : Bytes → Option Bytes
  /-- `%p` -/
  addr : Ptr → Bytes
  /-- `ListenAndServe`: its error; `none`: it serves until a signal comes -/
  listen : Bytes → Option Bytes
  /-- the variable `version` of kagome.go:28, set by the linker -/
  version : Bytes
  /-- `debug.ReadBuildInfo`: the version of the main module and the paths and versions of the dependencies -/
  buildInfo : Option (Bytes × List (Bytes × Bytes))
  /-- `strconv.IsPrint` -/
  isPrint : Nat → Bool

/-- The subcommands with options, kagome.go:30-62. -/
inductive CmdName where
  | tokenize
  | server
  | lattice
  | sentence
deriving DecidableEq, Repr

/-- What is written to stderr. kagome.go:79-115, 130-143, and `Usage` and `PrintDefaults` of the subcommands (cmd/tokenize/cmd.go:233-241,
cmd/server/cmd.go:150-158, cmd/lattice/cmd.go:162-170, cmd/sentence/cmd.go:98-106). -/
inductive Note where
  | mainUsage                                -- kagome.go `Usage`
  | commands                                 -- kagome.go `PrintDefaults`
  | blank                                    -- an empty line
  | usage (c : CmdName)                      -- `Usage` of a subcommand
  | defaults (c : CmdName)                   -- `PrintDefaults` of a subcommand
  | flagError (c : CmdName) (e : FlagError)  -- what `FlagSet.Parse` prints
  | line (text : Bytes)
deriving DecidableEq, Repr

/-- What a subcommand did. The effects of `Run` (kagome.go:21) of cmd/tokenize/cmd.go:222, cmd/server/cmd.go:131, cmd/lattice/cmd.go:151 and
cmd/sentence/cmd.go:87. -/
structure Ran where
  out : Bytes := []
  notes : List Note := []
  /-- the files written, with their contents -/
  files : List (Bytes × Bytes) := []
  /-- the address served -/
  served : Option Bytes := none
  /-- the error returned -/
  err : Option Bytes := none
deriving DecidableEq, Repr

/-- Why `parse` fails. cmd/tokenize/cmd.go:71-86, cmd/server/cmd.go:54-66, cmd/lattice/cmd.go:56-72, cmd/sentence/cmd.go:46-55. -/
inductive ParseError where
  | flag (e : FlagError)
  | arguments (rest : List Bytes)   -- "invalid argument: %v"
  | noArgument                      -- "no option is specified"
  | mode (v : Bytes)
  | sysdict (v : Bytes)
  | dict (v : Bytes)
deriving DecidableEq, Repr

/-! ### tokenize -/

namespace Tok

/-- cmd/tokenize/cmd.go:38-48 `option`. -/
structure Opts where
  file : Bytes
  dict : Bytes
  udict : Bytes
  sysdict : Bytes
  simple : Bool
  mode : Bytes
  split : Bool
  json : Bool
deriving DecidableEq, Repr

/-- cmd/tokenize/cmd.go:59-66: the flags, and whether they are bool flags. -/
def flags : List (Bytes × Bool) :=
  [(str "file", false), (str "dict", false), (str "udict", false), (str "sysdict", false), (str "simple", true),
   (str "mode", false), (str "split", true), (str "json", true)]

/-- cmd/tokenize/cmd.go:59-66: the variables with their defaults, after the assignments. -/
def bind (sets : List (Bytes × FlagVal)) : Opts where
  file := strFlag (str "file") [] sets
  dict := strFlag (str "dict") [] sets
  udict := strFlag (str "udict") [] sets
  sysdict := strFlag (str "sysdict") (str "ipa") sets
  simple := boolFlag (str "simple") false sets
  mode := strFlag (str "mode") (str "normal") sets
  split := boolFlag (str "split") false sets
  json := boolFlag (str "json") false sets

/-- cmd/tokenize/cmd.go:71-86 `parse`. -/
def parse (args : List Bytes) : Except ParseError Opts :=
  match parseFlags flags args with
  | .error e => .error (.flag e)
  | .ok (sets, rest) =>
    let o := bind sets
    if rest.length ≠ 0 then .error (.arguments rest)
    else if o.mode ≠ [] ∧ o.mode ≠ str "normal" ∧ o.mode ≠ str "search" ∧ o.mode ≠ str "extended" then .error (.mode o.mode)
    else if o.sysdict ≠ [] ∧ o.sysdict ≠ str "ipa" ∧ o.sysdict ≠ str "uni" then .error (.sysdict o.sysdict)
    else .ok o

/-- cmd/tokenize/cmd.go:89-95 `OptionCheck`: whether it returns nil. -/
def optionCheck (args : List Bytes) : Bool := (parse args).isOk

/-- cmd/tokenize/cmd.go:97-117 `selectDict`. -/
def selectDict (w : World) (path sysdict : Bytes) (shrink : Bool) : Except Bytes Dict :=
  if path ≠ [] then (if shrink then w.loadShrink path else w.loadDict path)
  else if sysdict = str "ipa" then .ok (if shrink then w.ipaShrink else w.ipa)
  else if sysdict = str "uni" then .ok (if shrink then w.uniShrink else w.uni)
  else .error (str "unknown dict type, " ++ sysdict)

/-- cmd/tokenize/cmd.go:119-129 `selectMode`. -/
def selectMode (mode : Bytes) : Int :=
  if mode = str "normal" then modeNormal
  else if mode = str "search" then modeSearch
  else if mode = str "extended" then modeExtended
  else modeNormal

/-- cmd/tokenize/cmd.go:182-190: one token of `printTokens`. A nil feature list joins to the empty string. -/
def printToken (v : Token) : Option Bytes :=
  if v.id = bosEosID then some []
  else if v.cls ≠ .dummy then (features v).map (fun fs => v.surface ++ str "\t" ++ join (str ",") (fs.getD []) ++ str "\n")
  else some (v.surface ++ str "\n")

/-- cmd/tokenize/cmd.go:181-191: the loop of `printTokens`. -/
def printLoop : List Token → Option Bytes
  | [] => some []
  | v :: ts =>
    match printToken v with
    | none => none
    | some s => (printLoop ts).map (s ++ ·)

/-- cmd/tokenize/cmd.go:178-193 `printTokens`. -/
def printTokens (tokens : List Token) : Option Bytes := (printLoop tokens).map (· ++ str "EOS\n")

/-- cmd/tokenize/cmd.go:202-213: the loop of `printTokensJSON`; `json.Marshal` of these values gives no error. -/
def jsonLoop (w : World) : List Token → Option (List Bytes)
  | [] => some []
  | v :: ts =>
    if v.cls = .dummy then jsonLoop w ts
    else
      match newTokenData v with
      | none => none
      | some r => (jsonLoop w ts).map (jsonTokenData w.shortEscapes r :: ·)

/-- cmd/tokenize/cmd.go:195-219 `printTokensJSON`. -/
def printTokensJSON (w : World) (tokens : List Token) : Option Bytes :=
  (jsonLoop w tokens).map (fun array =>
    (if tokens.length > 0 then str "[\n" else []) ++ join (str ",\n") array ++ (if tokens.length > 0 then str "\n]\n" else []))

/-- cmd/tokenize/cmd.go:165-174: the loop over the lines. -/
def lineLoop (w : World) (t : Tokenizer) (mode : Int) (json : Bool) : List Bytes → Option Bytes
  | [] => some []
  | l :: ls =>
    match analyze t w.ideo l mode with
    | none => none
    | some toks =>
      match (if json then printTokensJSON w toks else printTokens toks) with
      | none => none
      | some s => (lineLoop w t mode json ls).map (s ++ ·)

end Tok

/-- `Scanner.Err` at the end of a scan. cmd/tokenize/cmd.go:175, cmd/sentence/cmd.go:83. -/
def scanError (src : Source) : ScanEnd → Option Bytes
  | .done => src.failure
  | .tooLong => some (str "bufio.Scanner: token too long")
  | .noProgress => some (str "multiple Read calls return no data or error")

/-- The user dictionary and `tokenizer.New`, the same in three commands (cmd/tokenize/cmd.go:136-147, cmd/lattice/cmd.go:110-121,
cmd/server/cmd.go:92-103). -/
def setUp (w : World) (d : Dict) (udict : Bytes) : Except Bytes Tokenizer :=
  if udict ≠ [] then
    match w.loadUser udict with
    | .error e => .error e
    | .ok u => (newTokenizer (some d) [optUserDict (some u)]).mapError str
  else (newTokenizer (some d) [optNop]).mapError str

namespace Tok

/-- cmd/tokenize/cmd.go:131-176 `command`. -/
def command (w : World) (o : Opts) : Option Ran :=
  match selectDict w o.dict o.sysdict o.simple with
  | .error e => some { err := some e }
  | .ok d =>
    match setUp w d o.udict with
    | .error e => some { err := some e }
    | .ok t =>
      match (if o.file ≠ [] then w.openFile o.file else .ok w.stdin) with
      | .error e => some { err := some e }
      | .ok src =>
        match scanAll (if o.split then defaultSplitter.scanSentences else scanLines) src.reads with
        | none => none
        | some (texts, ending) =>
          (lineLoop w t (selectMode o.mode) o.json texts).map (fun s => { out := s, err := scanError src ending })

/-- What `flag.FlagSet.Parse` prints on an error, if its output is not discarded. cmd/tokenize/cmd.go:223-224, cmd/server/cmd.go:132-133,
cmd/lattice/cmd.go:152-153 (`newOption(Stderr, …)`). -/
def flagNotes (c : CmdName) : ParseError → List Note
  | .flag e => [.flagError c e]
  | _ => []

/-- cmd/tokenize/cmd.go:222-230 `Run`. -/
def run (w : World) (args : List Bytes) : Option Ran :=
  match parse args with
  | .error e => some { notes := flagNotes .tokenize e ++ [.usage .tokenize, .defaults .tokenize], err := some [] }
  | .ok o => command w o

end Tok

/-! ### lattice -/

namespace Lat

/-- cmd/lattice/cmd.go:28-36 `option`. -/
structure Opts where
  udict : Bytes
  dict : Bytes
  mode : Bytes
  output : Bytes
  verbose : Bool
  input : Bytes
deriving DecidableEq, Repr

/-- cmd/lattice/cmd.go:47-51. -/
def flags : List (Bytes × Bool) :=
  [(str "udict", false), (str "dict", false), (str "mode", false), (str "output", false), (str "v", true)]

/-- cmd/lattice/cmd.go:47-51 and 70. -/
def bind (sets : List (Bytes × FlagVal)) (rest : List Bytes) : Opts where
  udict := strFlag (str "udict") [] sets
  dict := strFlag (str "dict") (str "ipa") sets
  mode := strFlag (str "mode") (str "normal") sets
  output := strFlag (str "output") [] sets
  verbose := boolFlag (str "v") false sets
  input := join (str " ") rest

/-- cmd/lattice/cmd.go:56-72 `parse`. -/
def parse (args : List Bytes) : Except ParseError Opts :=
  match parseFlags flags args with
  | .error e => .error (.flag e)
  | .ok (sets, rest) =>
    let o := bind sets rest
    if rest.length = 0 then .error .noArgument
    else if o.dict ≠ [] ∧ o.dict ≠ str "ipa" ∧ o.dict ≠ str "uni" then .error (.dict o.dict)
    else if o.mode ≠ [] ∧ o.mode ≠ str "normal" ∧ o.mode ≠ str "search" ∧ o.mode ≠ str "extended" then .error (.mode o.mode)
    else .ok o

/-- cmd/lattice/cmd.go:75-81 `OptionCheck`: whether it returns nil. -/
def optionCheck (args : List Bytes) : Bool := (parse args).isOk

end Lat

/-- cmd/lattice/cmd.go:83-91 and cmd/server/cmd.go:77-85 `selectDict`. -/
def selectDict (w : World) (name : Bytes) : Except Bytes Dict :=
  if name = str "ipa" then .ok w.ipa
  else if name = str "uni" then .ok w.uni
  else .error (str "unknown name type, " ++ name)

/-- The text of a parse error (`Error()`). cmd/server/cmd.go:60-63, 136, cmd/lattice/cmd.go:56-72, 75-81,
cmd/sentence/cmd.go:52, 92. -/
def ParseError.text (isPrint : Nat → Bool) : ParseError → Bytes
  | .flag e => e.text isPrint
  | .arguments rest => str "invalid argument: [" ++ join (str " ") rest ++ str "]"
  | .noArgument => str "no option is specified"
  | .mode v => str "invalid argument: -mode " ++ v
  | .sysdict v => str "invalid argument: -sysdict " ++ v
  | .dict v => str "invalid argument: -dict " ++ v

namespace Lat

/-- cmd/lattice/cmd.go:93-103 `selectMode` is that of tokenize. -/
def selectMode (mode : Bytes) : Int := Tok.selectMode mode

/-- cmd/lattice/cmd.go:138-144: what `-v` prints for one token. `Features` is called for every token. -/
def verboseLine (tok : Token) : Option Note :=
  (features tok).map (fun fs =>
    if tok.cls = .dummy then .line tok.surface else .line (tok.surface ++ str "\t" ++ join (str ",") (fs.getD [])))

/-- cmd/lattice/cmd.go:137-145: the loop, from index 1 on. -/
def verboseLoop : List Token → Option (List Note)
  | [] => some []
  | tok :: ts =>
    match verboseLine tok with
    | none => none
    | some n => (verboseLoop ts).map (n :: ·)

/-- cmd/lattice/cmd.go:105-148 `command`. What happens when writing fails is in `Verif/Model/Sink.lean`. -/
def command (w : World) (o : Opts) : Option Ran :=
  match selectDict w o.dict with
  | .error e => some { err := some e }
  | .ok d =>
    match setUp w d o.udict with
    | .error e => some { err := some e }
    | .ok t =>
      match (if o.output ≠ [] then w.createError o.output else none) with
      | some e => some { err := some e }
      | none =>
        match analyzeGraph t w.ideo o.input (selectMode o.mode), exportGraph t w.ideo o.input (selectMode o.mode) with
        | some toks, some g =>
          match (if o.verbose then verboseLoop (toks.drop 1) else some []) with
          | none => none
          | some notes =>
            some { out := if o.output ≠ [] then [] else dotText w.addr g, notes := notes,
                   files := if o.output ≠ [] then [(o.output, dotText w.addr g)] else [] }
        | _, _ => none

/-- cmd/lattice/cmd.go:151-159 `Run`. -/
def run (w : World) (args : List Bytes) : Option Ran :=
  match parse args with
  | .error e => some { notes := Tok.flagNotes .lattice e ++ [.usage .lattice, .defaults .lattice], err := some (e.text w.isPrint) }
  | .ok o => command w o

end Lat

/-! ### sentence -/

namespace Sen

/-- cmd/sentence/cmd.go:42. -/
def flags : List (Bytes × Bool) := [(str "file", false)]

/-- cmd/sentence/cmd.go:46-55 `parse`: the file. -/
def parse (args : List Bytes) : Except ParseError Bytes :=
  match parseFlags flags args with
  | .error e => .error (.flag e)
  | .ok (sets, rest) =>
    if rest.length ≠ 0 then .error (.arguments rest) else .ok (strFlag (str "file") [] sets)

/-- cmd/sentence/cmd.go:58-64 `OptionCheck`: whether it returns nil. -/
def optionCheck (args : List Bytes) : Bool := (parse args).isOk

/-- cmd/sentence/cmd.go:66-84 `command`. -/
def command (w : World) (file : Bytes) : Option Ran :=
  match (if file ≠ [] then w.openFile file else .ok w.stdin) with
  | .error e => some { err := some e }
  | .ok src =>
    (scanAll defaultSplitter.scanSentences src.reads).map (fun r =>
      { out := r.1.flatMap (· ++ str "\n"), err := scanError src r.2 })

/-- cmd/sentence/cmd.go:87-95 `Run` (the output of `flag` is discarded). -/
def run (w : World) (args : List Bytes) : Option Ran :=
  match parse args with
  | .error e => some { notes := [.usage .sentence, .defaults .sentence], err := some (str "sentence, " ++ e.text w.isPrint) }
  | .ok f => command w f

end Sen

/-! ### server -/

namespace Srv

/-- cmd/server/cmd.go:32-37 `option`. -/
structure Opts where
  http : Bytes
  dict : Bytes
  udict : Bytes
deriving DecidableEq, Repr

/-- cmd/server/cmd.go:48-50. -/
def flags : List (Bytes × Bool) := [(str "http", false), (str "userdict", false), (str "dict", false)]

/-- cmd/server/cmd.go:48-50. -/
def bind (sets : List (Bytes × FlagVal)) : Opts where
  http := strFlag (str "http") (str ":6060") sets
  udict := strFlag (str "userdict") [] sets
  dict := strFlag (str "dict") (str "ipa") sets

/-- cmd/server/cmd.go:54-66 `parse`. -/
def parse (args : List Bytes) : Except ParseError Opts :=
  match parseFlags flags args with
  | .error e => .error (.flag e)
  | .ok (sets, rest) =>
    let o := bind sets
    if rest.length ≠ 0 then .error (.arguments rest)
    else if o.dict ≠ [] ∧ o.dict ≠ str "ipa" ∧ o.dict ≠ str "uni" then .error (.dict o.dict)
    else .ok o

/-- cmd/server/cmd.go:69-75 `OptionCheck`: whether it returns nil. -/
def optionCheck (args : List Bytes) : Bool := (parse args).isOk

/-- cmd/server/cmd.go:87-128 `command`. The handlers are in `Verif/Model/Server.lean`. What is logged is left out. -/
def command (w : World) (o : Opts) : Option Ran :=
  match selectDict w o.dict with
  | .error e => some { err := some e }
  | .ok d =>
    match setUp w d o.udict with
    | .error e => some { err := some e }
    | .ok _ =>
      match w.listen o.http with
      | some e => some { err := some (str "server error, " ++ e) }
      | none => some { served := some o.http }

/-- cmd/server/cmd.go:131-147 `Run`. -/
def run (w : World) (args : List Bytes) : Option Ran :=
  match parse args with
  | .error e =>
    some { notes := Tok.flagNotes .server e ++ [.usage .server, .defaults .server], err := some (str "option parse error: " ++ e.text w.isPrint) }
  | .ok o => command w o

end Srv

/-! ### main -/

/-- kagome.go:99-103, the loop of `ShowVersion`. -/
def dictVersions : List (Bytes × Bytes) → List Note
  | [] => []
  | v :: deps =>
    let pre := str "github.com/ikawaha/kagome-dict/"
    if pre.isPrefixOf v.1 then .line (str "   " ++ v.1.drop pre.length ++ str " " ++ v.2) :: dictVersions deps else dictVersions deps

/-- kagome.go:86-95: the version `ShowVersion` prints. -/
def versionText (w : World) : Bytes :=
  let version := match w.buildInfo with
    | some info => if w.version = [] then info.1 else w.version
    | none => w.version
  if version = [] then str "(devel)" else version

/-- kagome.go:85-104 `ShowVersion`. -/
def showVersion (w : World) : List Note :=
  .line (versionText w) :: (match w.buildInfo with
    | some info => dictVersions info.2
    | none => [])

/-- kagome.go:64-74, the subcommand `version`. -/
def runVersion (w : World) (_args : List Bytes) : Option Ran := some { notes := showVersion w }

/-- kagome.go:30-75 `subcommands`. -/
def subcommands (w : World) : List (Bytes × (List Bytes → Option Ran)) :=
  [(str "tokenize", Tok.run w), (str "server", Srv.run w), (str "lattice", Lat.run w), (str "sentence", Sen.run w),
   (str "version", runVersion w)]

/-- What the process leaves: `exit` is its exit status. kagome.go:117-144. -/
structure Exit where
  out : Bytes
  notes : List Note
  files : List (Bytes × Bytes)
  served : Option Bytes
  exit : Nat
deriving DecidableEq, Repr

/-- kagome.go:122-126: the loop over the subcommands; a later match replaces an earlier one. -/
def findRun (name : Bytes) : List (Bytes × (List Bytes → Option Ran)) → Option (List Bytes → Option Ran) → Option (List Bytes → Option Ran)
  | [], run => run
  | c :: cs, run => findRun name cs (if name = c.1 then some c.2 else run)

/-- kagome.go:140-143: the end of `main`. -/
def finish (r : Ran) : Exit :=
  match r.err with
  | none => ⟨r.out, r.notes, r.files, r.served, 0⟩
  | some e => ⟨r.out, r.notes ++ [.line e], r.files, r.served, 1⟩

/-- kagome.go:117-144 `main`; `args` is `os.Args`. Slicing an empty `os.Args` panics. -/
def main (w : World) (args : List Bytes) : Option Exit :=
  let found : Option (List Bytes → Option Ran) := match args with
    | _ :: name :: _ => findRun name (subcommands w) none
    | _ => none
  match found with
  | some run => (run (args.drop 2)).map finish
  | none =>
    match args with
    | [] => none
    | _ :: options =>
      if Tok.optionCheck options = false then
        some ⟨[], [.mainUsage, .commands, .blank, .usage .tokenize, .defaults .tokenize], [], none, 1⟩
      else (Tok.run w options).map finish

end Kagome
