import Verif.Go.Str

/-!
The goroutines of the server command (`/repo/cmd/server/cmd.go:113-147`), after its options and dictionaries are found to be good: `command`
with its `select`, the goroutine that serves, and the one that waits for a signal. `net/http` is: a server accepts requests, answers
them, and may fail at any time with an error (`ListenAndServe` never returns nil). A signal that arrives before `signal.Notify` ends the
process.
-/

namespace Kagome

/-- What happens from outside. cmd/server/cmd.go:116, 142-143. -/
inductive ServerEvent where
  | signal            -- SIGHUP, SIGINT or SIGTERM
  | cancel            -- the caller of `Run` cancels its context
  | failed (err : Bytes)  -- `ListenAndServe` returns this error
  | request           -- a request comes in
  | answer            -- a request is answered
deriving DecidableEq, Repr

/-- cmd/server/cmd.go:114-117: the goroutine that serves. -/
inductive Serving where
  | listening
  | offering (err : Bytes)   -- `ch <- err`, on a channel without a buffer
  | ended
deriving DecidableEq, Repr

/-- The goroutines of cmd/server/cmd.go:87-147 and what they share. -/
structure ServerState where
  /-- the process has not been ended by a signal -/
  alive : Bool := true
  /-- cmd/server/cmd.go:142: `signal.Notify` has been called -/
  notified : Bool := false
  /-- cmd/server/cmd.go:141: the channel of signals, with room for one -/
  pending : Bool := false
  /-- cmd/server/cmd.go:143-144: the goroutine has received a signal and cancelled the context -/
  received : Bool := false
  /-- the context of `command` is done -/
  done : Bool := false
  serving : Serving := .listening
  /-- requests that are not answered yet -/
  open_ : Nat := 0
  /-- what `Run` has returned: `none` in it is nil -/
  result : Option (Option Bytes) := none
  /-- what has happened from outside, in order -/
  history : List ServerEvent := []
deriving DecidableEq, Repr

/-- One step of one goroutine or of the world. After `Run` has returned the goroutines go on for as long as the process lives.
cmd/server/cmd.go:113-127, 138-146. -/
inductive ServerStep : ServerState → ServerState → Prop
  /-- cmd/server/cmd.go:142 -/
  | notify (s : ServerState) : s.alive = true → ServerStep s { s with notified := true }
  /-- a signal is sent to the channel, or dropped if there is one already -/
  | signal (s : ServerState) : s.alive = true → s.notified = true →
      ServerStep s { s with pending := true, history := s.history ++ [.signal] }
  /-- nobody has asked for signals yet -/
  | kill (s : ServerState) : s.alive = true → s.notified = false → ServerStep s { s with alive := false, history := s.history ++ [.signal] }
  /-- cmd/server/cmd.go:143-144 -/
  | receive (s : ServerState) : s.alive = true → s.pending = true → s.received = false →
      ServerStep s { s with pending := false, received := true, done := true }
  | cancel (s : ServerState) : s.alive = true → ServerStep s { s with done := true, history := s.history ++ [.cancel] }
  | request (s : ServerState) : s.alive = true → s.serving = .listening →
      ServerStep s { s with open_ := s.open_ + 1, history := s.history ++ [.request] }
  | answer (s : ServerState) : s.alive = true → 0 < s.open_ →
      ServerStep s { s with open_ := s.open_ - 1, history := s.history ++ [.answer] }
  /-- cmd/server/cmd.go:116: `ListenAndServe` returns -/
  | fail (err : Bytes) (s : ServerState) : s.alive = true → s.serving = .listening →
      ServerStep s { s with serving := .offering err, history := s.history ++ [.failed err] }
  /-- cmd/server/cmd.go:120-121, 127: the first case of the `select` -/
  | stop (s : ServerState) : s.alive = true → s.result = none → s.done = true → ServerStep s { s with result := some none }
  /-- cmd/server/cmd.go:122-123: the second case; the deferred `cancel` of `Run` ends the context -/
  | report (err : Bytes) (s : ServerState) : s.alive = true → s.result = none → s.serving = .offering err →
      ServerStep s { s with result := some (some (str "server error, " ++ err)), serving := .ended, done := true }

/-- Some number of steps of cmd/server/cmd.go:87-147. -/
inductive ServerRun : ServerState → ServerState → Prop
  | refl (s : ServerState) : ServerRun s s
  | step {s t u : ServerState} : ServerRun s t → ServerStep t u → ServerRun s u

end Kagome
