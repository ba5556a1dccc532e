import Verif.Model.Machine
import Verif.Model.Form
import Verif.Model.Request

/-!
The server of `/repo/cmd/server`: requests on any number of connections, handled by goroutines that share the tokenizer. `net/http` has a goroutine for each
connection, which handles its requests one after the other; a panic of a handler is recovered and closes the connection. (Several streams of one HTTP/2
connection are connections here.)
-/

namespace Kagome

/-- A request: the path and what the handlers look at. `r` of cmd/server/api.go:28 and cmd/server/demo.go:113; the mux of cmd/server/cmd.go:105-107 looks at the
path. -/
structure WebRequest where
  path : Bytes
  http : HttpRequest

/-- What is answered: a response of the API, or the body of a page. cmd/server/api.go:28-64, cmd/server/demo.go:113-158. -/
inductive WebAnswer where
  | api (r : Response)
  | page (body : Bytes)

/-- cmd/server/cmd.go:105-107: one request, handled alone. None is a panic. -/
def serveRequest (t : Tokenizer) (ideo : Nat → Bool) (short : Bool) (viz : Graphviz) (addr : Ptr → Bytes) (q : WebRequest) : Option WebAnswer :=
  match route q.path with
  | .api => (serveApi t ideo short q.http.body).map .api
  | .demo => (serveForm t ideo viz addr q.http).map .page

/-- One client after the other. Sequential execution of the statements of the handlers, cmd/server/demo.go:97-109, 137. -/
def Client.then {α β : Type} : Client α → (α → Client β) → Client β
  | .done a, f => f a
  | .call c k, f => .call c (fun o => (k o).then f)
  | .during c visit k, f => .during c visit (fun o vs => (k o vs).then f)

/-- api.go:28-64, with the call of `Analyze` at line 46 as a call. None is a panic. -/
def apiClient (t : Tokenizer) (short : Bool) (body : Bytes) : Client (Option Response) :=
  match decodeRequest body with
  | none => .done none
  | some (.error e) => .done (some (httpError (apiError e) 400))
  | some (.ok req) =>
    if req.input = [] then .done (some ⟨200, str "application/json", str "{\"status\":true,\"tokens\":[]}"⟩)
    else .call ⟨.analyze, t, req.input, apiMode req.mode⟩ fun o => .done (match o with
      | none => none
      | some r => (apiTokens none r.tokens).map (fun l => ⟨200, str "application/json", apiBody short l⟩))

/-- demo.go:82-110, with the call of `AnalyzeGraph` at line 97 as a call; `fmt` is `%p`. -/
def graphClient (t : Tokenizer) (viz : Graphviz) (fmt : Addr → Bytes) (sen : Bytes) (mode : Int) : Client (Option (Except (Bytes × Bool) (List Record × Bytes))) :=
  if viz.installed = false then .done (some (.error (str "circo/graphviz is not installed in your $PATH", false)))
  else .call ⟨.analyzeGraph, t, sen, mode⟩ fun o => .done (match o with
    | none => none
    | some r =>
      match r.graph with
      | none => none
      | some g =>
        match viz.run (dotText fmt g) with
        | .error (e, deadline) => some (.error (str "process done with error, " ++ e, deadline))
        | .ok svg => (toRecords r.tokens).map (fun rs => .ok (rs, cropSvg svg)))

/-- demo.go:113-158. -/
def pageClient (t : Tokenizer) (viz : Graphviz) (fmt : Addr → Bytes) (sen mode lattice : Bytes) : Client (Option Bytes) :=
  if lattice = [] then .done (some (renderPage (.form sen mode)))
  else (graphClient t viz fmt sen (demoMode mode)).then fun r => .done (r.map fun r => renderPage (match r with
    | .error (e, deadline) => .graph sen [] (if deadline then str "Error: graphviz time out" else str "Error: " ++ e) [] mode
    | .ok (rs, svg) => .graph sen rs [] svg mode))

/-- cmd.go:105-107: one request. -/
def requestClient (t : Tokenizer) (short : Bool) (viz : Graphviz) (fmt : Addr → Bytes) (q : WebRequest) : Client (Option WebAnswer) :=
  match route q.path with
  | .api => (apiClient t short q.http.body).then fun r => .done (r.map .api)
  | .demo => (pageClient t viz fmt (formValue q.http (str "s")) (formValue q.http (str "r")) (formValue q.http (str "lattice"))).then fun r =>
      .done (r.map .page)

/-- A connection: its requests, one after the other, and the answers so far. A handler that panics ends it. `net/http` around the handlers of
cmd/server/cmd.go:105-118. -/
def connectionClient (t : Tokenizer) (short : Bool) (viz : Graphviz) (fmt : Addr → Bytes) : List WebRequest → List WebAnswer → Client (List WebAnswer)
  | [], as => .done as
  | q :: qs, as => (requestClient t short viz fmt q).then fun o => match o with
    | none => .done as
    | some a => connectionClient t short viz fmt qs (as ++ [a])

end Kagome
