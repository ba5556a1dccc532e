import Verif.Go.Writer
import Verif.Model.Cmd
import Verif.Model.Pipe

/-!
The commands once more, with an output that may take less than it is given: a full disk, a limit on the size of a file. `/repo/cmd/tokenize/cmd.go`,
`/repo/cmd/lattice/cmd.go`, `/repo/cmd/sentence/cmd.go`, `Dot` of `/repo/tokenizer/lattice/lattice.go` and `main` of `/repo/kagome.go`.
-/

namespace Kagome

namespace Tok

/-- cmd/tokenize/cmd.go:182-190: what is given to `WriteString` for one token. -/
def tokenWrites (v : Token) : Option (List Bytes) :=
  if v.id = bosEosID then some []
  else if v.cls ≠ .dummy then (features v).map (fun fs => [v.surface, str "\t", join (str ",") (fs.getD []), str "\n"])
  else some [v.surface, str "\n"]

/-- cmd/tokenize/cmd.go:181-191. -/
def loopWrites : List Token → Option (List Bytes)
  | [] => some []
  | v :: ts =>
    match tokenWrites v with
    | none => none
    | some ps => (loopWrites ts).map (ps ++ ·)

/-- cmd/tokenize/cmd.go:178-193 `printTokens`. -/
def printTokensTo (s : Sink) (tokens : List Token) : Option Sink :=
  (loopWrites tokens).map (fun ps => s.printBuffered (ps ++ [str "EOS\n"]))

/-- cmd/tokenize/cmd.go:195-219 `printTokensJSON`. -/
def printTokensJSONTo (w : World) (s : Sink) (tokens : List Token) : Option Sink :=
  (jsonLoop w tokens).map (fun array =>
    s.printBuffered ((if tokens.length > 0 then [str "[\n"] else []) ++ [join (str ",\n") array] ++ (if tokens.length > 0 then [str "\n]\n"] else [])))

/-- cmd/tokenize/cmd.go:165-174. -/
def lineLoopTo (w : World) (t : Tokenizer) (mode : Int) (json : Bool) : Sink → List Bytes → Option Sink
  | s, [] => some s
  | s, l :: ls =>
    match analyze t w.ideo l mode with
    | none => none
    | some toks =>
      match (if json then printTokensJSONTo w s toks else printTokensTo s toks) with
      | none => none
      | some s => lineLoopTo w t mode json s ls

/-- cmd/tokenize/cmd.go:131-176 `command`. -/
def commandTo (w : World) (s : Sink) (o : Opts) : Option Ran :=
  match selectDict w o.dict o.sysdict o.simple with
  | .error e => some { out := s.got, err := some e }
  | .ok d =>
    match setUp w d o.udict with
    | .error e => some { out := s.got, err := some e }
    | .ok t =>
      match (if o.file ≠ [] then w.openFile o.file else .ok w.stdin) with
      | .error e => some { out := s.got, err := some e }
      | .ok src =>
        match scanAll (if o.split then defaultSplitter.scanSentences else scanLines) src.reads with
        | none => none
        | some (texts, ending) =>
          (lineLoopTo w t (selectMode o.mode) o.json s texts).map (fun s => { out := s.got, err := scanError src ending })

/-- cmd/tokenize/cmd.go:222-230 `Run`. -/
def runTo (w : World) (room : Nat → Option Nat) (args : List Bytes) : Option Ran :=
  match parse args with
  | .error e => some { notes := flagNotes .tokenize e ++ [.usage .tokenize, .defaults .tokenize], err := some [] }
  | .ok o => commandTo w (newSink room) o

end Tok

namespace Lat

/-- cmd/lattice/cmd.go:105-148 `command`; `room` is about the place the graph is written to, stdout or the file. -/
def commandTo (w : World) (room : Nat → Option Nat) (o : Opts) : Option Ran :=
  match selectDict w o.dict with
  | .error e => some { err := some e }
  | .ok d =>
    match setUp w d o.udict with
    | .error e => some { err := some e }
    | .ok t =>
      match (if o.output ≠ [] then w.createError o.output else none) with
      | some e => some { err := some e }
      | none =>
        match analyzeGraph t w.ideo o.input (selectMode o.mode), exportGraph t w.ideo o.input (selectMode o.mode) with
        | some toks, some g =>
          match (if o.verbose then verboseLoop (toks.drop 1) else some []) with
          | none => none
          | some notes =>
            let got := ((newSink room).print (dotWrites w.addr g)).got
            some { out := if o.output ≠ [] then [] else got, notes := notes, files := if o.output ≠ [] then [(o.output, got)] else [] }
        | _, _ => none

/-- cmd/lattice/cmd.go:151-159 `Run`. -/
def runTo (w : World) (room : Nat → Option Nat) (args : List Bytes) : Option Ran :=
  match parse args with
  | .error e => some { notes := Tok.flagNotes .lattice e ++ [.usage .lattice, .defaults .lattice], err := some (e.text w.isPrint) }
  | .ok o => commandTo w room o

end Lat

namespace Sen

/-- cmd/sentence/cmd.go:66-84 `command`. -/
def commandTo (w : World) (room : Nat → Option Nat) (file : Bytes) : Option Ran :=
  match (if file ≠ [] then w.openFile file else .ok w.stdin) with
  | .error e => some { err := some e }
  | .ok src =>
    (scanAll defaultSplitter.scanSentences src.reads).map (fun r =>
      { out := ((newSink room).print (r.1.map (· ++ str "\n"))).got, err := scanError src r.2 })

/-- cmd/sentence/cmd.go:87-95 `Run`. -/
def runTo (w : World) (room : Nat → Option Nat) (args : List Bytes) : Option Ran :=
  match parse args with
  | .error e => some { notes := [.usage .sentence, .defaults .sentence], err := some (str "sentence, " ++ e.text w.isPrint) }
  | .ok f => commandTo w room f

end Sen

/-- kagome.go:30-75 `subcommands`. -/
def subcommandsTo (w : World) (room : Nat → Option Nat) : List (Bytes × (List Bytes → Option Ran)) :=
  [(str "tokenize", Tok.runTo w room), (str "server", Srv.run w), (str "lattice", Lat.runTo w room), (str "sentence", Sen.runTo w room),
   (str "version", runVersion w)]

/-- kagome.go:117-144 `main`. -/
def mainTo (w : World) (room : Nat → Option Nat) (args : List Bytes) : Option Exit :=
  let found : Option (List Bytes → Option Ran) := match args with
    | _ :: name :: _ => findRun name (subcommandsTo w room) none
    | _ => none
  match found with
  | some run => (run (args.drop 2)).map finish
  | none =>
    match args with
    | [] => none
    | _ :: options =>
      if Tok.optionCheck options = false then
        some ⟨[], [.mainUsage, .commands, .blank, .usage .tokenize, .defaults .tokenize], [], none, 1⟩
      else (Tok.runTo w room options).map finish

end Kagome
