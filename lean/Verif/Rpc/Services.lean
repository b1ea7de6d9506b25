import Verif.Rpc.TestTypes
/-!
# Model of generated services in general: any path, succinct methods, hooks that look at the request, published methods

The pattern of `/repo/_examples/golang-basics/example.gen.go` (and of `admin/admin.gen.go`, `internal/internal.gen.go`,
`/repo/tests/server/server.gen.go`, ...): `ServeHTTP` 449-522, `serve*JSON` 524-712, `succinctHandler` 758-795, the table
`methods` 797-850, `MethodCtx` 852-860, `WebrpcMethods` 870-881, `methodsFor` 905-911, `Server.Methods` 727-741, and the
methods of the client 328-402.
-/

namespace Verif.Rpc
open Verif.Schema hiding Json Method
open Verif.Json Verif.Gen

/-- What a method takes or gives. -/
inductive Shape
  /-- A list of arguments or results: a struct made for the method holds them, e.g. example.gen.go:592-597; nothing is
  read or written when there are none. -/
  | list (fs : List FieldDecl)
  /-- A succinct method: a declared struct, sent by itself (example.gen.go:758-795). -/
  | whole (struct : Str)

/-- The arguments and results of a method. -/
structure Sig where
  args : Shape
  results : Shape

/-- Is there a body to read or to write? -/
def Shape.some : Shape → Bool
  | .list fs => !fs.isEmpty
  | .whole _ => true

/-- `json.Marshal` of the arguments, example.gen.go:368-378 and 352-356 (a succinct method takes the struct itself, not a
pointer). -/
def Shape.writeArgs [GoFloat] (d : Decls) : Shape → List GoVal → Option Json
  | .list fs, vals => encodePayload d fs vals
  | .whole n, [.struct l] => encodePayload d (d.fields n) l
  | .whole _, _ => none

/-- `json.Unmarshal` of the arguments, example.gen.go:592-599 and 769-773. -/
def Shape.readArgs [GoFloat] (d : Decls) : Shape → Json → Option (List GoVal)
  | .list fs, j => decodePayload d fs j
  | .whole n, j => (decodePayload d (d.fields n) j).map fun l => [.struct l]

/-- `json.Marshal` of the results, example.gen.go:612-620 and 785-789 (a succinct method gives a pointer to the struct). -/
def Shape.writeResults [GoFloat] (d : Decls) : Shape → List GoVal → Option Json
  | .list fs, vals => encodePayload d fs vals
  | .whole n, [v] => encode d (.ref n) v
  | .whole _, _ => none

/-- `json.Unmarshal` of the results, example.gen.go:368-378 and 352-356 (`var out *GetUserResponse`). -/
def Shape.readResults [GoFloat] (d : Decls) : Shape → Json → Option (List GoVal)
  | .list fs, j => decodePayload d fs j
  | .whole n, j => (decode d (.ref n) .nil j).map fun v => [v]

/-- A method of a service: its arguments, results and annotations. -/
structure MethodCode where
  name : Str
  sig : Sig
  annotations : List (Str × Str)

/-- A generated service: `path` is the prefix of its paths, e.g. `/v1/Example/` (example.gen.go:301). -/
structure ServiceCode where
  name : Str
  path : Str
  methods : List MethodCode

/-- A generated Go package. -/
structure Package where
  decls : Decls
  services : List ServiceCode
  /-- `WebrpcHeaderValue` -/
  header : Str

/-- A user's implementation of a service, by method name. -/
abbrev Impl := Str → List GoVal → TypedOutcome

/-- `Options`, example.gen.go:425-428; hooks see the request. -/
structure Hooks where
  onRequest : Option (Request → Ends (Option GoError)) := none
  onError : Option (Request → RpcError → RpcError) := none

/-- The implementation as `serve*JSON` and `succinctHandler` see it. -/
def Sig.untyped [GoFloat] (d : Decls) (sig : Sig) (impl : List GoVal → TypedOutcome) (args : Json) : Outcome :=
  match impl ((sig.args.readArgs d args).getD []) with
  | .results vals => .result (sig.results.writeResults d vals)
  | .error e => .error e
  | .panic v => .panic v

/-- Whether a decoder accepts. -/
def accepted (read : Json → Option (List GoVal)) (j : Json) : Option Json :=
  match read j with
  | none => none
  | some _ => some j

/-- A generated server as it treats the request `r`, example.gen.go:449-522. -/
def ServiceCode.server [GoFloat] (d : Decls) (header : Str) (v : ServiceCode) (impl : Impl) (hooks : Hooks) (r : Request) : Server :=
  { routes := v.methods.map fun m =>
      (v.path ++ m.name,
        { name := m.name, hasArgs := m.sig.args.some, hasResult := m.sig.results.some,
          readArgs := accepted (m.sig.args.readArgs d), impl := m.sig.untyped d (impl m.name) })
    onRequest := hooks.onRequest.map (· r), onError := hooks.onError.map (· r), header := header }

/-- A handler: what a request does. -/
abbrev HttpHandler := Request → Run

/-- `NewExampleServer(impl, hooks).ServeHTTP`. -/
def ServiceCode.handler [GoUnicode] [GoFloat] (d : Decls) (header : Str) (v : ServiceCode) (impl : Impl) (hooks : Hooks) : HttpHandler :=
  fun r => serveHTTP (v.server d header impl hooks r) r

/-- What a method of the generated client sends, example.gen.go:328-402 and 934-960: the body of a method without arguments is
`null`; `none`: `json.Marshal` fails. -/
def ServiceCode.request [GoFloat] (d : Decls) (v : ServiceCode) (m : MethodCode) (args : List GoVal) : Option Request :=
  (if m.sig.args.some then (m.sig.args.writeArgs d args).map some else some none).map fun body =>
    { method := S "POST", path := v.path ++ m.name, contentType := S "application/json", body := some (requestBody body) }

/-- A method of the generated client over a connection to a handler, example.gen.go:328-402: what the handler writes is
what the client reads. -/
def ServiceCode.call [GoFloat] (d : Decls) (v : ServiceCode) (m : MethodCode) (h : HttpHandler) (args : List GoVal) : TypedReturn :=
  match v.request d m args with
  | none => .error (errRequestFailed.withCause (S "failed to marshal JSON body"))
  | some r =>
    let p := Response.of (h r).1
    match readResponse { hasResult := m.sig.results.some, readResult := accepted (m.sig.results.readResults d) }
        (.response (p.status.getD 200) (some p.body)) with
    | .error e => .error e
    | .ok j => .ok (if m.sig.results.some then (m.sig.results.readResults d j).getD [] else [])

/-- `methods`, example.gen.go:809-850: paths and what is published about the methods of all services. -/
def Package.methods (g : Package) : List (Str × MethodInfo) :=
  g.services.flatMap fun v => v.methods.map fun m => (v.path ++ m.name, ⟨m.name, v.name, m.annotations⟩)

/-- `MethodCtx`, example.gen.go:852-860, in a hook or an implementation that serves the request. -/
def Package.methodCtx (g : Package) (r : Request) : Option MethodInfo := g.methods.lookup r.path

/-- `WebrpcMethods`, example.gen.go:870-881. -/
def Package.webrpcMethods (g : Package) (services : List Str) : List (Str × MethodInfo) :=
  if services = [] then g.methods else g.methods.filter fun p => services.contains p.2.service

/-- `Server.Methods`, example.gen.go:727-741 with `methodsFor` 905-911: the routes of the services that are given an
implementation.  (The order of the entries of a Go map is not fixed: the order here is one of many.) -/
def Package.serverMethods [GoUnicode] [GoFloat] (g : Package) (impls : Str → Option Impl) (hooks : Hooks) : List (Str × MethodInfo × HttpHandler) :=
  g.services.flatMap fun v => match impls v.name with
    | none => []
    | some impl => (g.webrpcMethods [v.name]).map fun p => (p.1, p.2, v.handler g.decls g.header impl hooks)

end Verif.Rpc
