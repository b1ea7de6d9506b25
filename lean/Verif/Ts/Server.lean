import Verif.Ts.Client
import Verif.Ts.Utf8
import Verif.Gen.Strings
/-!
# Model of generated TypeScript servers

Models `/repo/_examples/node-ts/server/server.gen.ts` (`/repo/_examples/node-ts/server-hono/server.gen.ts` is the same code) and
the HTTP handler of `/repo/_examples/node-ts/server/helpers.ts`, `middleware.ts` and `index.ts`.  Line numbers are those of
`server.gen.ts` unless another file is named.

What the generator writes for a schema are parameters (`TsServer`); `exampleServer` has those of the file.  The
implementation of the service is a function from the name of the method and the argument to the result or what it throws.
What the operator `in` finds on the prototypes of objects and arrays is left out: none of the generated names is there.  Objects
are trees without sharing; contexts and logging are left out.
-/

namespace Verif.Ts
open Verif.Schema hiding Json Method
open Verif.Json Verif.Gen
open Verif.Compile (mapSet)

/-! ### What is thrown -/

/-- What can be thrown in the server. -/
inductive SThrown
  /-- a `WebrpcError`; was a message given to its constructor? -/
  | webrpc (e : TsError) (given : Bool)
  /-- anything else, with its property `message`, if it has one -/
  | other (message : Option Str)

/-- What the generated code throws itself: no message is given. -/
def Thrown.served : Thrown → SThrown
  | .webrpc e => .webrpc e false
  | .other m => .other (some m)

/-- `new WebrpcBadRouteError({ cause })`, lines 420-430. -/
def badRoute (cause : Str) : SThrown :=
  .webrpc (ErrClass.construct ⟨S "WebrpcBadRoute", -2, S "bad route", 404⟩ .undefined .undefined .undefined (.str cause)) false

/-- `new WebrpcBadRequestError({ cause })`, lines 444-454. -/
def badRequest (cause : Str) : SThrown :=
  .webrpc (ErrClass.construct ⟨S "WebrpcBadRequest", -4, S "bad request", 400⟩ .undefined .undefined .undefined (.str cause)) false

/-- The enumerable own properties of an error object, which `JSON.stringify` writes, lines 376-393 with the target ES2022: the
fields `code` and `status` come first.  `super(error.message)` makes a property that is not enumerable if there is a message;
otherwise the assignment to `this.message` makes an enumerable one. -/
def TsError.own (e : TsError) (given : Bool) : Js :=
  .obj ([(S "code", e.code), (S "status", e.status), (S "name", .str e.name)] ++
    (if given then [] else [(S "message", e.message)]) ++
    match e.cause with
    | .undefined => []
    | c => [(S "cause", c)])

/-! ### Validators -/

/-- `JS_TYPES`, lines 170-179. -/
def jsTypes : List Str := [S "bigint", S "boolean", S "function", S "number", S "object", S "string", S "symbol", S "undefined"]

/-- A check of a member: `if (!("id" in value) || !validateType(value["id"], "number"))`, or for an optional member
`if ("createdAt" in value && !validateType(value["createdAt"], "string"))`. -/
structure Check where
  name : Str
  required : Bool
  type : Str
deriving DecidableEq

/-- `name in value`: an error unless the value is an object. -/
def inside [JsEngine] (name : Str) : Js → Except Thrown Bool
  | .obj l => .ok (l.lookup name).isSome
  | .arr _ => .ok false
  | _ => .error (.other (JsEngine.typeError name))

/-- The body of a validator, e.g. lines 191-217; `rec` is `validateType`. -/
def checkAll [JsEngine] (rec : Js → Str → Except Thrown Bool) (v : Js) : List Check → Except Thrown Bool
  | [] => .ok true
  | c :: cs => match inside c.name v with
    | .error t => .error t
    | .ok false => if c.required then .ok false else checkAll rec v cs
    | .ok true => match rec (member c.name v) c.type with
      | .error t => .error t
      | .ok false => .ok false
      | .ok true => checkAll rec v cs

/-- `validateType`, lines 271-280; the first argument bounds the recursion. -/
def validateN [JsEngine] (vs : List (Str × List Check)) : Nat → Js → Str → Except Thrown Bool
  | 0, _, _ => .ok false
  | n + 1, v, type =>
    if type ∈ jsTypes then .ok (decide (typeOf v = type))
    else match vs.lookup type with
      | none => .ok false
      | some cs => checkAll (validateN vs n) v cs

/-- `validateType` with a sufficient bound. -/
def validateType [JsEngine] (vs : List (Str × List Check)) (v : Js) (type : Str) : Except Thrown Bool :=
  validateN vs (depth v + 1) v type

/-! ### The server -/

/-- What is checked before the implementation is called. -/
inductive ArgChecks
  /-- one after the other, lines 134-136 and 141-147 -/
  | each (args : List Check)
  /-- the whole request of a succinct method, lines 152-154: its type, and its name in the message -/
  | whole (type label : Str)

/-- A method: its line of `SERVICE_METHOD_TYPES`, lines 285-291, and its case, lines 133-156. -/
structure TsServerMethod where
  name : Str
  req : Str
  resp : Str
  checks : ArgChecks

/-- A generated server of one service. -/
structure TsServer where
  /-- the literal in line 92 -/
  base : Str
  /-- the first literal in line 94 -/
  first : Str
  /-- the second -/
  service : Str
  methods : List TsServerMethod
  /-- `TYPE_VALIDATORS`, lines 262-269 -/
  validators : List (Str × List Check)
  table : BigTable
  /-- `encodeType`; `none`: there is no such function -/
  encode : Option (Str → Js → Except SThrown Js)

/-- The names that every object inherits. -/
def objectProto : List Str :=
  [S "constructor", S "toString", S "toLocaleString", S "valueOf", S "hasOwnProperty", S "isPrototypeOf", S "propertyIsEnumerable",
   S "__proto__", S "__defineGetter__", S "__defineSetter__", S "__lookupGetter__", S "__lookupSetter__"]

/-- `JsonDecode`, lines 359-367: the same function as in the client. -/
def TsServer.decode [JsEngine] (s : TsServer) (typ : Str) (data : Js) : Except Thrown Js :=
  TsClient.decode { hostname := [], path := [], errors := [], table := some s.table, header := [] } typ data

/-- The checks of the arguments one after the other, lines 134-136 and 141-147. -/
def checkArgs [JsEngine] (vs : List (Str × List Check)) (payload : Js) : List Check → Except SThrown Unit
  | [] => .ok ()
  | c :: cs => match inside c.name payload with
    | .error t => .error t.served
    | .ok false => if c.required then .error (badRequest (S "missing argument `" ++ c.name ++ S "`")) else checkArgs vs payload cs
    | .ok true => match validateType vs (member c.name payload) c.type with
      | .error t => .error t.served
      | .ok false => .error (badRequest (S "invalid argument: " ++ c.name))
      | .ok true => checkArgs vs payload cs

/-- All checks of a method. -/
def ArgChecks.run [JsEngine] (vs : List (Str × List Check)) (payload : Js) : ArgChecks → Except SThrown Unit
  | .each args => checkArgs vs payload args
  | .whole type label =>
    if truthy payload then match validateType vs payload type with
      | .error t => .error t.served
      | .ok false => .error (badRequest (S "invalid argument: " ++ label))
      | .ok true => .ok ()
    else .ok ()

/-- A call of the implementation. -/
abbrev TsCalls := List (Str × Js)

/-- `dispatchExampleRequest`, lines 124-162: the calls of the implementation, and what it ends with. -/
def TsServer.dispatch [JsEngine] (s : TsServer) (impl : Str → Js → Except SThrown Js) (method : Str) (body : Js) :
    TsCalls × Except SThrown Js :=
  match s.methods.find? fun m => m.name = method with
  | none =>
    if method ∈ objectProto then ([], .error (.other (some (JsEngine.typeError method))))
    else ([], .error (badRoute (S "method not found")))
  | some m =>
    match if m.req = [] then .ok body else s.decode m.req body with
    | .error t => ([], .error t.served)
    | .ok payload => match m.checks.run s.validators payload with
      | .error t => ([], .error t)
      | .ok () =>
        let arg := orElse payload (.obj [])
        ([(method, arg)], match impl method arg with
          | .error t => .error t
          | .ok result => if m.resp = [] then .ok result else match s.encode with
            | none => .error (.other (some (S "encodeType is not defined")))
            | some f => f m.resp result)

/-- What `serveExampleRpc` returns (the headers are always the same and left out). -/
structure TsReply where
  method : Str
  status : Js
  body : Js

/-- The answer to an error, lines 104-121. -/
def TsReply.ofThrown (method : Str) : SThrown → TsReply
  | .webrpc e given => { method := method, status := orElse e.status (.num (S "400")), body := e.own given }
  | .other message =>
    { method := method, status := .num (S "400")
      body := match message with
        | none => (baseClass.construct .undefined .undefined .undefined .undefined).own false
        | some m => (baseClass.construct (.str m) .undefined .undefined .undefined).own true }

/-- The answer to a request that was dispatched, lines 97-121. -/
def TsReply.of (method : Str) : Except SThrown Js → TsReply
  | .ok result => { method := method, status := .num (S "200"), body := if nullish result then .obj [] else result }
  | .error t => .ofThrown method t

/-- `serveExampleRpc`, lines 91-122; `none`: it returns null. -/
def TsServer.serve [JsEngine] (s : TsServer) (impl : Str → Js → Except SThrown Js) (path : Str) (body : Js) : TsCalls × Option TsReply :=
  if s.base.isPrefixOf path = false then ([], none)
  else match (Gen.split (S "/") path).filter fun p => !p.isEmpty with
    | [a, b, method] =>
      if a ≠ s.first ∨ b ≠ s.service then ([], none)
      else
        let p := s.dispatch impl method body
        (p.1, some (.of method p.2))
    | _ => ([], none)

/-! ### The file -/

/-- The validators, lines 181-260. -/
def exampleValidators : List (Str × List Check) :=
  [ (S "Kind", [⟨S "USER", true, S "number"⟩, ⟨S "ADMIN", true, S "number"⟩]),
    (S "User", [⟨S "id", true, S "number"⟩, ⟨S "USERNAME", true, S "string"⟩, ⟨S "role", true, S "Kind"⟩, ⟨S "meta", true, S "object"⟩,
      ⟨S "-", true, S "number"⟩, ⟨S "balance", true, S "bigint"⟩, ⟨S "createdAt", false, S "string"⟩, ⟨S "extra", true, S "Extra"⟩]),
    (S "Extra", [⟨S "info", true, S "string"⟩, ⟨S "amount", true, S "bigint"⟩, ⟨S "points", true, S "bigint[]"⟩]),
    (S "Page", [⟨S "num", true, S "number"⟩]),
    (S "GetArticleRequest", [⟨S "articleId", true, S "number"⟩, ⟨S "byBN", true, S "bigint"⟩]),
    (S "GetArticleResponse", [⟨S "title", true, S "string"⟩, ⟨S "content", false, S "string"⟩, ⟨S "largeNum", true, S "bigint"⟩]) ]

/-- The server in the file; the literals are those of lines 92, 94, 133-156, 285-300.  A function `encodeType` is called in line
161, but is nowhere defined. -/
def exampleServer : TsServer :=
  { base := S "/v1/", first := S "rpc", service := S "Example", validators := exampleValidators
    methods :=
      [ { name := S "Ping", req := S "PingRequest", resp := S "PingResponse", checks := .each [⟨S "counter", false, S "bigint"⟩] },
        { name := S "GetUser", req := S "GetUserRequest", resp := S "GetUserResponse", checks := .each [⟨S "userId", true, S "number"⟩] },
        { name := S "GetArticle", req := S "GetArticleRequest", resp := S "GetArticleResponse"
          checks := .whole (S "GetArticleRequest") (S "getArticleRequest") } ]
    table :=
      [ (S "Extra", [.name (S "amount"), .name (S "points[]")]), (S "GetArticleRequest", [.name (S "byBN")]),
        (S "GetArticleResponse", [.name (S "largeNum")]), (S "GetUserResponse", [.pair (S "user") (S "User")]),
        (S "PingRequest", [.name (S "counter")]), (S "User", [.name (S "balance"), .pair (S "extra") (S "Extra")]) ]
    encode := none }

/-! ### The HTTP handler in front of it -/

/-- `chunk.toString('utf8')`, helpers.ts:103: each chunk on its own; an unfinished character at its end is U+FFFD. -/
def bufferText (chunk : List UInt8) : Str :=
  let p := utf8Bytes .clean chunk
  p.2 ++ if p.1.left = 0 then [] else [replacement]

/-- A request as node gives it: the body comes in chunks; reading can fail. -/
structure NodeRequest where
  method : Str
  url : Str
  chunks : List (List UInt8)
  failure : Option Str := none

/-- What is sent. -/
structure NodeResponse where
  status : Js
  body : Str

/-- `createWebrpcServerHandler`, helpers.ts:92-151: the calls, and the response (`none`: nothing is sent) or the message of what
is thrown.  (`JSON.stringify` has no replacer here: it throws if there is a bigint.) -/
def rpcHandler [JsEngine] (s : TsServer) (impl : Str → Js → Except SThrown Js) (req : NodeRequest) : TsCalls × Except Str (Option NodeResponse) :=
  if (S "/rpc/").isPrefixOf req.url = false then ([], .ok none)
  else
    let raw : Except Str Str :=
      if req.method = S "POST" then match req.failure with
        | some m => .error m
        | none => .ok (req.chunks.flatMap bufferText)
      else .ok []
    match raw with
    | .error m => ([], .error m)
    | .ok raw =>
      match if raw = [] then some (.obj []) else jsonParse raw with
      | none => ([], .ok (some { status := .num (S "400"), body := S "{\"msg\":\"invalid JSON body\",\"status\":400,\"code\":\"\"}" }))
      | some parsed =>
        let p := s.serve impl req.url parsed
        (p.1, match p.2 with
          | none => .ok none
          | some r =>
            if hasBig r.body then .error (JsEngine.typeError (S "BigInt"))
            else .ok (some { status := r.status, body := (stringify r.body).getD (S "undefined") }))

/-- `routes`, index.ts:73-105 (the text of `/json` has the time and is a parameter). -/
def nodeRoutes [JsEngine] (s : TsServer) (impl : Str → Js → Except SThrown Js) (reqId json : Str) (req : NodeRequest) :
    TsCalls × Except Str (Option NodeResponse) :=
  if (S "/rpc/").isPrefixOf req.url then rpcHandler s impl req
  else if req.url = S "/" then ([], .ok (some { status := .num (S "200"), body := S "Hello world (req " ++ reqId ++ S ")\n" }))
  else if req.url = S "/json" then ([], .ok (some { status := .num (S "200"), body := json }))
  else ([], .ok (some { status := .num (S "404"), body := S "Not Found\n" }))

/-- `withCors`, middleware.ts:35-58: preflight requests are answered at once. -/
def withCors (next : NodeRequest → TsCalls × Except Str (Option NodeResponse)) (req : NodeRequest) :
    TsCalls × Except Str (Option NodeResponse) :=
  if req.method = S "OPTIONS" then ([], .ok (some { status := .num (S "204"), body := [] })) else next req

/-- `createHttpEntrypoint`, helpers.ts:64-90 (for a client that is still there): what is thrown is answered with 500. -/
def entrypoint (reqId : Str) (handler : NodeRequest → TsCalls × Except Str (Option NodeResponse)) (req : NodeRequest) :
    TsCalls × Option NodeResponse :=
  let p := handler req
  (p.1, match p.2 with
    | .ok r => r
    | .error _ => some { status := .num (S "500"), body := S "{\"msg\":\"internal error\",\"reqId\":\"" ++ reqId ++ S "\"}" })

/-- The whole server, index.ts:108-113 (tracing and logging only add headers and output). -/
def nodeServer [JsEngine] (s : TsServer) (impl : Str → Js → Except SThrown Js) (reqId json : Str) (req : NodeRequest) :
    TsCalls × Option NodeResponse :=
  entrypoint reqId (withCors (nodeRoutes s impl reqId json)) req

end Verif.Ts
