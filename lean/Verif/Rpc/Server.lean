import Verif.Rpc.Errors
/-!
# Model of a generated server and client

Models `/repo/tests/server/server.gen.go` (`ServeHTTP`, `serve*JSON`, `sendErrorJSON`, `RespondWithError`) and
`/repo/tests/client/client.gen.go` (`doHTTPRequest`, `doHTTPRequestRaw`).  The eleven `serve*JSON` functions differ
only in the method's name, its argument and result structs, and whether there are any; the model has one function
with these as parameters.  Arguments and results are JSON values: `readArgs` and `readResult` stand for the
conversion to and from Go structs by `encoding/json`.

What a handler does is the list of its effects, in order; what the client sees follows from them by the rules of
`net/http` (`Response.of`).  Hooks and the implementation may set headers of the response but not write to it.
-/

namespace Verif.Rpc
open Verif.Schema hiding Json
open Verif.Json Verif.Gen
open Verif.Compile (mapSet)

/-- Effects of serving a request. -/
inductive Eff
  /-- `w.Header().Set` -/
  | setHeader (key value : Str)
  /-- `w.Header().Add` -/
  | addHeader (key value : Str)
  /-- `w.WriteHeader` -/
  | writeHeader (status : Int)
  /-- `w.Write` -/
  | write (body : Str)
  /-- The service method implementation is called. -/
  | call (method : Str) (args : Json)
  /-- `OnRequest` is called. -/
  | onRequest
  /-- `OnError` is called. -/
  | onError (e : RpcError)

/-- What a Go function call can end with: a value, or a panic (given as text). -/
inductive Ends (α : Type)
  | ok (a : α)
  | panic (v : Str)

/-- An `error`: a webrpc error or another one, given by its text. -/
inductive GoError
  | rpc (e : RpcError)
  | other (text : Str)

/-- What a service method implementation does: a result (`none`: one that cannot be encoded), an error or a panic. -/
inductive Outcome
  | result (j : Option Json)
  | error (e : GoError)
  | panic (v : Str)

/-- A method of the service. -/
structure Method where
  name : Str
  /-- Does it have arguments? -/
  hasArgs : Bool
  /-- Does it have results? -/
  hasResult : Bool
  /-- Decoding the arguments. -/
  readArgs : Json → Option Json
  /-- The implementation. -/
  impl : Json → Outcome

/-- The server with its options. -/
structure Server where
  /-- The cases of the `switch` over paths. -/
  routes : List (Str × Method)
  /-- `OnRequest`: may return an error or panic. -/
  onRequest : Option (Ends (Option GoError))
  /-- `OnError`: may change the error. -/
  onError : Option (RpcError → RpcError)
  /-- `WebrpcHeaderValue`. -/
  header : Str

/-- A request as the server sees it. -/
structure Request where
  method : Str
  path : Str
  contentType : Str
  /-- `none`: reading the body fails. -/
  body : Option Str

/-- The text of a Go error value that is used as cause. -/
def GoError.toRpc : GoError → RpcError
  | .rpc e => e
  | .other text => errEndpoint.withCause text

/-- Effects so far, and how it ended. -/
abbrev Run := List Eff × Ends Unit

/-- `sendErrorJSON`, server.gen.go:633-643.  `WriteHeader` panics for a status that has not three digits. -/
def sendErrorJSON (s : Server) (e : RpcError) : Run :=
  let hook := match s.onError with
    | none => []
    | some _ => [Eff.onError e]
  let e := match s.onError with
    | none => e
    | some f => f e
  let effs := hook ++ [.setHeader (S "Content-Type") (S "application/json")]
  if e.httpStatus < 100 ∨ 999 < e.httpStatus then (effs, .panic (S "invalid WriteHeader code"))
  else (effs ++ [.writeHeader e.httpStatus, .write (print ⟨false, true⟩ 0 e.toJson)], .ok ())

/-- Do the second after the first. -/
def Run.andThen (a : Run) (b : Run) : Run :=
  match a.2 with
  | .ok () => (a.1 ++ b.1, b.2)
  | .panic v => (a.1, .panic v)

/-- The part of `serve*JSON` after the arguments are read, e.g. server.gen.go:356-375. -/
def callImpl (s : Server) (m : Method) (args : Json) : Run :=
  Run.andThen ([.call m.name args], .ok ()) <|
    match m.impl args with
    | .panic v => ([], .panic v)
    | .error e => sendErrorJSON s e.toRpc
    | .result j =>
      if m.hasResult then
        match j with
        | none => sendErrorJSON s (errBadResponse.withCause (S "failed to marshal json response"))
        | some j => ([.setHeader (S "Content-Type") (S "application/json"), .writeHeader 200,
            .write (print ⟨false, true⟩ 0 j)], .ok ())
      else ([.setHeader (S "Content-Type") (S "application/json"), .writeHeader 200, .write (S "{}")], .ok ())

/-- `serve*JSON`, e.g. server.gen.go:358-392. -/
def serveMethod (s : Server) (m : Method) (r : Request) : Run :=
  if m.hasArgs then
    match r.body with
    | none => sendErrorJSON s (errBadRequest.withCause (S "failed to read request data"))
    | some body => match (parse body).bind m.readArgs with
      | none => sendErrorJSON s (errBadRequest.withCause (S "failed to unmarshal request data"))
      | some args => callImpl s m args
  else callImpl s m .null

/-- The content type without parameters, server.gen.go:286-290. -/
def mediaType [GoUnicode] (contentType : Str) : Str :=
  trimSpace (toLower (match cut (S ";") contentType with
    | some (a, _) => a
    | none => contentType))

/-- The body of `ServeHTTP` after the header is set, server.gen.go:253-313. -/
def dispatch [GoUnicode] (s : Server) (r : Request) : Run :=
  match s.routes.lookup r.path with
  | none => sendErrorJSON s (errBadRoute.withCause (S "no webrpc method defined for path " ++ r.path))
  | some m =>
    if r.method ≠ S "POST" then
      Run.andThen ([.addHeader (S "Allow") (S "POST")], .ok ())
        (sendErrorJSON s (errBadMethod.withCause (S "unsupported HTTP method " ++ r.method)))
    else if mediaType r.contentType = S "application/json" then
      match s.onRequest with
      | none => serveMethod s m r
      | some hook =>
        Run.andThen ([.onRequest], .ok ()) <|
          match hook with
          | .panic v => ([], .panic v)
          | .ok (some e) => sendErrorJSON s e.toRpc
          | .ok none => serveMethod s m r
    else sendErrorJSON s (errBadRequest.withCause (S "unsupported Content-Type"))

/-- `ServeHTTP`, server.gen.go:234-313, with its `defer`: after a panic, send an error and panic again. -/
def serveHTTP [GoUnicode] (s : Server) (r : Request) : Run :=
  let a := Run.andThen ([.setHeader (S "Webrpc") s.header], .ok ()) (dispatch s r)
  match a.2 with
  | .ok () => a
  | .panic v =>
    let b := sendErrorJSON s (errServerPanic.withCause v)
    match b.2 with
    | .ok () => (a.1 ++ b.1, .panic v)
    | .panic w => (a.1 ++ b.1, .panic w)

/-! ### The response -/

/-- The response being built by `net/http`. -/
structure Response where
  /-- The final status, once it is fixed. -/
  status : Option Int
  headers : List (Str × List Str)
  /-- The headers when the status was fixed. -/
  sent : List (Str × List Str)
  body : Str

/-- Nothing written yet. -/
def Response.empty : Response := ⟨none, [], [], []⟩

/-- Statuses whose responses have no body. -/
def noBody (status : Int) : Bool := decide (status = 204 ∨ status = 304 ∨ (100 ≤ status ∧ status ≤ 199))

/-- One effect on an `http.ResponseWriter`: the first final status counts; statuses 1xx (except 101) are not final;
writing fixes the status to 200. -/
def Response.apply (p : Response) : Eff → Response
  | .setHeader k v => { p with headers := mapSet k [v] p.headers }
  | .addHeader k v => { p with headers := mapSet k ((p.headers.lookup k).getD [] ++ [v]) p.headers }
  | .writeHeader c =>
    if p.status.isSome ∨ (100 ≤ c ∧ c ≤ 199 ∧ c ≠ 101) then p else { p with status := some c, sent := p.headers }
  | .write b =>
    match p.status with
    | none => { p with status := some 200, sent := p.headers, body := p.body ++ b }
    | some c => if noBody c then p else { p with body := p.body ++ b }
  | .call _ _ => p
  | .onRequest => p
  | .onError _ => p

/-- All effects. -/
def Response.of (effs : List Eff) : Response := effs.foldl Response.apply .empty

/-- `RespondWithError`, server.gen.go:662-673. -/
def respondWithError (e : GoError) : Run := sendErrorJSON ⟨[], none, none, []⟩ e.toRpc

/-! ### The client -/

/-- What the transport delivers: an error, or a status and a body (`none`: reading it fails). -/
inductive Transport
  | failed (text : Str)
  | response (status : Int) (body : Option Str)

/-- A client method. -/
structure ClientMethod where
  hasResult : Bool
  readResult : Json → Option Json

/-- What a client call returns. -/
inductive Returned
  | ok (j : Json)
  | error (e : RpcError)

/-- The body the client sends, client.gen.go:390-395: the argument struct, or `null`. -/
def requestBody (args : Option Json) : Str := print ⟨false, true⟩ 0 (args.getD .null)

/-- `doHTTPRequestRaw` after the request is sent, client.gen.go:407-443. -/
def readResponse (m : ClientMethod) : Transport → Returned
  | .failed text => .error (errRequestFailed.withCause text)
  | .response status body =>
    if status ≠ 200 then
      match body with
      | none => .error (errBadResponse.withCause (S "failed to read server error response body"))
      | some b => match (parse b).bind RpcError.ofJson with
        | none => .error (errBadResponse.withCause (S "failed to unmarshal server error"))
        | some e => .error e
    else if m.hasResult then
      match body with
      | none => .error (errBadResponse.withCause (S "failed to read response body"))
      | some b => match (parse b).bind m.readResult with
        | none => .error (errBadResponse.withCause (S "failed to unmarshal JSON response body"))
        | some j => .ok j
    else .ok .null

/-- A call over a connection that delivers what the server wrote. -/
def callOver [GoUnicode] (s : Server) (path : Str) (cm : ClientMethod) (args : Option Json) : Returned :=
  let run := serveHTTP s { method := S "POST", path := path, contentType := S "application/json", body := some (requestBody args) }
  let p := Response.of run.1
  readResponse cm (.response (p.status.getD 200) (some p.body))

end Verif.Rpc
