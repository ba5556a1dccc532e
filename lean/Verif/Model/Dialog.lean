import Verif.Model.Cmd

/-!
The commands `tokenize` and `sentence` with their reads and writes in the order in which they happen. `Model/Cmd` has the result of the whole run only. Each
answer is flushed before the next call of `Scan` (cmd/tokenize/cmd.go:179-180, 196-197; cmd/sentence/cmd.go:81 is not buffered), so it is one write here.
-/

namespace Kagome

/-- A call of `Read` with its result, or bytes that are written to stdout. cmd/tokenize/cmd.go:165-174, cmd/sentence/cmd.go:80-82. -/
inductive Act where
  | read (rd : ReadResult)
  | write (text : Bytes)

/-- `for s.Scan() { … }` where the body writes `say (s.Text())`: what is in the buffer is handed out before `Read` is called again. Standard library
(bufio/scan.go, see `Go/Scanner`); used in /repo at cmd/tokenize/cmd.go:165-174 and cmd/sentence/cmd.go:80-82. -/
def talk (split : SplitFunc) (say : Bytes → Option Bytes) : List ReadResult → (empties : Nat) → Bytes → Option (List Act × ScanEnd)
  | [], _, buf => do
    let last ← drain split true (buf.length + 1) buf
    let outs ← last.1.mapM say
    some (.read ⟨[], true⟩ :: outs.map .write, .done)
  | rd :: rds, empties, buf =>
    if rd.err then do
      let last ← drain split true ((buf ++ rd.bytes).length + 1) (buf ++ rd.bytes)
      let outs ← last.1.mapM say
      some (.read rd :: outs.map .write, .done)
    else if rd.bytes.isEmpty then
      if maxEmptyReads ≤ empties then do
        let last ← drain split true (buf.length + 1) buf
        let outs ← last.1.mapM say
        some (.read rd :: outs.map .write, .noProgress)
      else do
        let more ← talk split say rds (empties + 1) buf
        some (.read rd :: more.1, more.2)
    else do
      let now ← drain split false ((buf ++ rd.bytes).length + 1) (buf ++ rd.bytes)
      let outs ← now.1.mapM say
      if maxTokenSize ≤ now.2.length then some (.read rd :: outs.map .write, .tooLong)
      else do
        let more ← talk split say rds 0 now.2
        some (.read rd :: (outs.map .write ++ more.1), more.2)

namespace Tok

/-- cmd/tokenize/cmd.go:166-173: what is written for one text. -/
def say (w : World) (t : Tokenizer) (mode : Int) (json : Bool) (text : Bytes) : Option Bytes :=
  (analyze t w.ideo text mode).bind (fun toks => if json then printTokensJSON w toks else printTokens toks)

/-- cmd/tokenize/cmd.go:131-176 `command`: reads and writes in order, and the error it returns. -/
def dialog (w : World) (o : Opts) : Option (List Act × Option Bytes) :=
  match selectDict w o.dict o.sysdict o.simple with
  | .error e => some ([], some e)
  | .ok d =>
    match setUp w d o.udict with
    | .error e => some ([], some e)
    | .ok t =>
      match (if o.file ≠ [] then w.openFile o.file else .ok w.stdin) with
      | .error e => some ([], some e)
      | .ok src =>
        (talk (if o.split then defaultSplitter.scanSentences else scanLines) (say w t (selectMode o.mode) o.json) src.reads 0 []).map
          (fun r => (r.1, scanError src r.2))

end Tok

/-- cmd/sentence/cmd.go:66-84 `command`: reads and writes in order, and the error it returns. -/
def Sen.dialog (w : World) (file : Bytes) : Option (List Act × Option Bytes) :=
  match (if file ≠ [] then w.openFile file else .ok w.stdin) with
  | .error e => some ([], some e)
  | .ok src => (talk defaultSplitter.scanSentences (fun text => some (text ++ str "\n")) src.reads 0 []).map (fun r => (r.1, scanError src r.2))

end Kagome
