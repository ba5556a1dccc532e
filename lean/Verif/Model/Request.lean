import Verif.Go.JsonDecode
import Verif.Model.Server

/-!
The decoding of a request of the API, `/repo/cmd/server/api.go`: what `json.NewDecoder(r.Body).Decode(&req)` stores in a `TokenizerRequestBody`.
-/

namespace Kagome

/-- The error of a value of another type in a field of the request. `UnmarshalTypeError` with the names of cmd/server/api.go:16-19. -/
def fieldError (name : Bytes) (v : JTree) : Bytes :=
  str "json: cannot unmarshal " ++ v.kind ++ str " into Go struct field TokenizerRequestBody." ++ name ++ str " of type string"

/-- A value stored in a field of type string that holds `cur`: what it holds then, and the error. cmd/server/api.go:17-18, 31. -/
def storeString (name cur : Bytes) : JTree → Bytes × Option Bytes
  | .null => (cur, none)
  | .str s => (s, none)
  | v => (cur, some (fieldError name v))

/-- The members of an object stored in a request, one after the other; the first error is kept. cmd/server/api.go:16-19, 31. -/
def storeMembers (req : ApiRequest) (err : Option Bytes) : List (Bytes × JTree) → ApiRequest × Option Bytes
  | [] => (req, err)
  | (k, v) :: l =>
    if equalFoldRight (str "sentence") k then
      let r := storeString (str "sentence") req.input v
      storeMembers { req with input := r.1 } (err.or r.2) l
    else if equalFoldRight (str "mode") k then
      let r := storeString (str "mode") req.mode v
      storeMembers { req with mode := r.1 } (err.or r.2) l
    else storeMembers req err l

/-- A value stored in an empty request. cmd/server/api.go:30-31. -/
def storeRequest : JTree → Except Bytes ApiRequest
  | .null => .ok ⟨[], []⟩
  | .obj l =>
    match storeMembers ⟨[], []⟩ none l with
    | (req, none) => .ok req
    | (_, some e) => .error e
  | v => .error (str "json: cannot unmarshal " ++ v.kind ++ str " into Go value of type server.TokenizerRequestBody")

/-- api.go:30-31: the request in a body, or the error. None: a panic, or no end. -/
def decodeRequest (body : Bytes) : Option (Except Bytes ApiRequest) :=
  match readFirst body with
  | none => none
  | some (.error e) => some (.error e)
  | some (.ok v) => some (storeRequest v)

/-- api.go:28-64 `ServeHTTP` of the handler of `/tokenize`, from the bytes of the body to the bytes of the answer. -/
def serveApi (t : Tokenizer) (ideo : Nat → Bool) (short : Bool) (body : Bytes) : Option Response :=
  match decodeRequest body with
  | none => none
  | some r => serveTokenize t ideo short (fun _ => r) body

end Kagome
