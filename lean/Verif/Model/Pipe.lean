import Verif.Model.Dot

/-!
The goroutines of a request of the demo page (`/repo/cmd/server/demo.go:82-103`).

Three parties run at the same time: the handler, which writes the graph into an `io.Pipe`; a goroutine of `os/exec`, which copies from that
pipe into the standard input of the process (because `cmd.Stdin` is not a file); and the process `dot`. Written from the documentation and
source of `io.Pipe` and `os/exec`, part of the trusted base:

* a `Write` to an `io.Pipe` ends when readers have taken all of it, or when the read end is closed; `Read` ends with what it gets, or with
  EOF when the write end is closed;
* `os/exec` copies with `io.Copy`; it stops at EOF or when a write fails (the process is gone), then closes the standard input of the
  process, and leaves `cmd.Stdin` open;
* when the time is up the process is killed; that is an `exit` here;
* `Wait` ends when the process and the copying have ended.

Left out: the copying of the output, which does not wait for anyone else.
-/

namespace Kagome

/-- demo.go:97-103: where the handler is. -/
inductive HandlerPhase where
  | writing   -- in `AnalyzeGraph`, which holds a lattice
  | waiting   -- the pipe is closed, in `cmd.Wait`
  | returned
deriving DecidableEq, Repr

/-- The copying goroutine of `os/exec`. cmd/server/demo.go:89-101 (`cmd.Stdin`). -/
inductive Copier where
  | reading
  | holding (bytes : Bytes)
  | stopped
deriving DecidableEq, Repr

/-- The parties of cmd/server/demo.go:89-101, and the pipes between them. -/
structure PipeState where
  /-- the writes to come, with what is left of the current one in front -/
  todo : List Bytes
  handler : HandlerPhase
  copier : Copier
  /-- what is in the standard input of the process -/
  input : Bytes
  /-- what the process has read -/
  got : Bytes
  /-- whether the process has seen the end of its input -/
  eof : Bool
  running : Bool
deriving DecidableEq, Repr

/-- lattice.go:344-389: the calls of `Write` that `Dot` makes, one for each `Fprintln` and `Fprintf`. -/
def dotWrites {π : Type} (addr : π → Bytes) (g : GraphOf π) : List Bytes :=
  [str "graph lattice {\n", str "dpi=48;\n", str "graph [style=filled, splines=true, overlap=false, fontsize=30, rankdir=LR]\n",
    str "edge [fontname=Helvetica, fontcolor=red, color=\"#606060\"]\n",
    str "node [shape=box, style=filled, fillcolor=\"#e8e8f0\", fontname=Helvetica]\n"] ++
  g.nodes.map (nodeLine addr) ++ g.edges.map (edgeLine addr) ++ [str "}\n"]

/-- demo.go:94: the process has been started; `writes` is what `Dot` will write, call by call (lattice.go:344-388). -/
def PipeState.start (writes : List Bytes) : PipeState := ⟨writes, .writing, .reading, [], [], false, true⟩

/-- One step of one of the parties. `buf` is the size of the buffer of `io.Copy`, `cap` that of the standard input of the process.
cmd/server/demo.go:89-101. -/
inductive PipeStep (buf cap : Nat) : PipeState → PipeState → Prop
  /-- the current write meets a read, and all of it is taken -/
  | all (b : Bytes) (rest : List Bytes) (s : PipeState) : s.todo = b :: rest → s.handler = .writing → s.copier = .reading → b.length ≤ buf →
      PipeStep buf cap s { s with todo := rest, copier := if b = [] then .reading else .holding b }
  /-- the current write meets a read that has no room for all of it -/
  | part (b : Bytes) (rest : List Bytes) (s : PipeState) : s.todo = b :: rest → s.handler = .writing → s.copier = .reading → buf < b.length →
      PipeStep buf cap s { s with todo := b.drop buf :: rest, copier := .holding (b.take buf) }
  /-- all is written: `AnalyzeGraph` gives the lattice back, `w0.Close()` -/
  | close (s : PipeState) : s.todo = [] → s.handler = .writing → PipeStep buf cap s { s with handler := .waiting }
  /-- some bytes fit into the standard input of the process -/
  | copy (n : Nat) (b : Bytes) (s : PipeState) : s.copier = .holding b → s.running = true → 0 < n → n ≤ b.length → s.input.length + n ≤ cap →
      PipeStep buf cap s { s with input := s.input ++ b.take n, copier := if b.drop n = [] then .reading else .holding (b.drop n) }
  /-- the process is gone: the write fails, the copying stops -/
  | fail (b : Bytes) (s : PipeState) : s.copier = .holding b → s.running = false → PipeStep buf cap s { s with copier := .stopped }
  /-- the copying reaches the end -/
  | finish (s : PipeState) : s.copier = .reading → s.handler = .waiting → PipeStep buf cap s { s with copier := .stopped }
  /-- the process reads -/
  | read (n : Nat) (s : PipeState) : s.running = true → 0 < n → n ≤ s.input.length →
      PipeStep buf cap s { s with input := s.input.drop n, got := s.got ++ s.input.take n }
  /-- the process finds the end of its input -/
  | eof (s : PipeState) : s.running = true → s.input = [] → s.copier = .stopped → s.eof = false → PipeStep buf cap s { s with eof := true }
  /-- the process ends, for whatever reason -/
  | exit (s : PipeState) : s.running = true → PipeStep buf cap s { s with running := false }
  /-- `cmd.Wait` ends -/
  | wait (s : PipeState) : s.handler = .waiting → s.running = false → s.copier = .stopped → PipeStep buf cap s { s with handler := .returned }

/-- Some number of steps of cmd/server/demo.go:89-101. -/
inductive PipeRun (buf cap : Nat) : PipeState → PipeState → Prop
  | refl (s : PipeState) : PipeRun buf cap s s
  | step {s t u : PipeState} : PipeRun buf cap s t → PipeStep buf cap t u → PipeRun buf cap s u

end Kagome
