import Verif.Go.Str

/-!
# Writing that may fail, and `bufio.Writer`

`bufio.Writer` is written from Go's bufio/bufio.go; part of the trusted base.
-/

namespace Kagome

/-- An `io.Writer` that is an `*os.File`: the next call of `Write` is number `calls`, and call number `i` can write `room i` bytes (`none`: as many as
it is given). `got` is what has been written. A write error is not `EPIPE`, which would end the process when it is about stdout. Standard library; used
in /repo at cmd/tokenize/cmd.go:179,196, cmd/sentence/cmd.go:81, cmd/lattice/cmd.go:122-135 and lattice.go:344-389. -/
structure Sink where
  room : Nat → Option Nat
  calls : Nat
  got : Bytes

/-- Nothing is written yet. -/
def newSink (room : Nat → Option Nat) : Sink := ⟨room, 0, []⟩

/-- What `Write` returns, and the file after it. -/
structure Wrote where
  sink : Sink
  n : Nat
  failed : Bool

/-- `(*os.File).Write`: it returns an error exactly if it has not written everything. Standard library; used in /repo at cmd/tokenize/cmd.go:179,196,
cmd/sentence/cmd.go:81 and lattice.go:344-389. -/
def Sink.write (s : Sink) (p : Bytes) : Wrote :=
  match s.room s.calls with
  | none => ⟨{ s with calls := s.calls + 1, got := s.got ++ p }, p.length, false⟩
  | some k =>
    if p.length ≤ k then ⟨{ s with calls := s.calls + 1, got := s.got ++ p }, p.length, false⟩
    else ⟨{ s with calls := s.calls + 1, got := s.got ++ p.take k }, k, true⟩

/-- `fmt.Fprintln` and `fmt.Fprintf` hand their text to the writer in one call; the result is not looked at. cmd/sentence/cmd.go:81, lattice.go:344-389. -/
def Sink.print (s : Sink) : List Bytes → Sink
  | [] => s
  | p :: ps => (s.write p).sink.print ps

/-- `bufio.Writer`, with `buf` the used part of its buffer. Standard library; used in /repo at cmd/tokenize/cmd.go:179-218. -/
structure BufWriter where
  buf : Bytes
  failed : Bool
  sink : Sink

/-- `bufio.defaultBufSize`. Standard library; used in /repo at cmd/tokenize/cmd.go:179,196. -/
def bufSize : Nat := 4096

/-- `bufio.NewWriter`. Standard library; used in /repo at cmd/tokenize/cmd.go:179,196. -/
def newBufWriter (s : Sink) : BufWriter := ⟨[], false, s⟩

/-- `Flush`. Standard library; used in /repo at cmd/tokenize/cmd.go:180,197. -/
def BufWriter.flush (b : BufWriter) : BufWriter :=
  if b.failed then b
  else if b.buf = [] then b
  else
    let r := b.sink.write b.buf
    if r.failed then ⟨b.buf.drop r.n, true, r.sink⟩ else ⟨[], false, r.sink⟩

/-- The loop of `Write` and of `WriteString` (the file has `WriteString`, which does the same as `Write`). It runs at most twice. Standard library; used
in /repo at cmd/tokenize/cmd.go:185-192,200-217. -/
def BufWriter.writeLoop : Nat → BufWriter → Bytes → BufWriter × Bytes
  | 0, b, p => (b, p)
  | fuel + 1, b, p =>
    if bufSize - b.buf.length < p.length ∧ b.failed = false then
      if b.buf = [] then
        let r := b.sink.write p
        BufWriter.writeLoop fuel { b with failed := r.failed, sink := r.sink } (p.drop r.n)
      else
        let k := bufSize - b.buf.length
        BufWriter.writeLoop fuel ({ b with buf := b.buf ++ p.take k } : BufWriter).flush (p.drop k)
    else (b, p)

/-- `Write` and `WriteString`; what they return is not looked at. Standard library; used in /repo at cmd/tokenize/cmd.go:185-192,200-217. -/
def BufWriter.write (b : BufWriter) (p : Bytes) : BufWriter :=
  let r := BufWriter.writeLoop (p.length + 2) b p
  if r.1.failed then r.1 else { r.1 with buf := r.1.buf ++ r.2.take (bufSize - r.1.buf.length) }

/-- A new `bufio.Writer`, some calls of `Write` or `WriteString`, and `Flush`. cmd/tokenize/cmd.go:179-192, 196-218. -/
def Sink.printBuffered (s : Sink) (ps : List Bytes) : Sink := (ps.foldl BufWriter.write (newBufWriter s)).flush.sink

/-- The second call fails although the first one did not. -/
example : let f := newSink (fun i => if i = 1 then some 0 else none)
    (f.write [1]).failed = false ∧ ((f.write [1]).sink.write [2]).failed = true := by decide

end Kagome
