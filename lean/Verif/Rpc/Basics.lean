import Verif.Rpc.Services
/-!
# Model of the golang-basics example: `/repo/_examples/golang-basics/main.go` with `example.gen.go` and `admin/admin.gen.go`

The router is `go-chi/chi`: a path below a pattern that ends in `/*` goes to its handler, the longer pattern first, and the
path the handler sees is not changed.  Its middlewares `RequestID` and `Logger` do not change what is modelled here.
-/

namespace Verif.Rpc
open Verif.Schema hiding Json Method
open Verif.Json Verif.Gen

/-- The types of example.gen.go:70-295 that the methods use.  `Kind` is a `uint32` enum (73-115); the enums `Intent`,
`ProtocolVersion`, `Country` are strings that `MarshalText` and `UnmarshalText` leave as they are (117-230), so their
type here is `string`.  (`Empty` and `ComplexType` are not used by any method and left out.) -/
def basicsDecls : Decls where
  enums := [(S "Kind", [(S "USER", 0), (S "ADMIN", 1)])]
  structs := [
    (S "User", [fld (S "id") (.uint 64), fld (S "USERNAME") .string, fld (S "role") .string, fld (S "kind") (.enum (S "Kind")),
      fld (S "intent") .string]),
    (S "SearchFilter", [fld (S "q") .string]),
    (S "Version", [fld (S "webrpcVersion") .string, fld (S "schemaVersion") .string, fld (S "schemaHash") .string]),
    (S "GetUserRequest", [fld (S "userId") (.uint 64), fld (S "prefs") (.map .string .string)]),
    (S "GetUserResponse", [fld (S "code") (.uint 32), fld (S "user") (.ref (S "User")), fld (S "profile") .string])]

/-- The methods of `Example`: example.gen.go:524-712 and 471-486 (shapes), 809-850 (annotations). -/
def exampleMethods : List MethodCode := [
  ⟨S "Ping", ⟨.list [], .list []⟩, [(S "internal", [])]⟩,
  ⟨S "Status", ⟨.list [], .list [fld (S "status") .bool]⟩, [(S "internal", [])]⟩,
  ⟨S "Version", ⟨.list [], .list [fld (S "version") (.ref (S "Version"))]⟩, [(S "internal", [])]⟩,
  ⟨S "GetUser", ⟨.whole (S "GetUserRequest"), .whole (S "GetUserResponse")⟩,
    [(S "deprecated", S "Use GetUserV2 instead."), (S "internal", [])]⟩,
  ⟨S "GetUserV2", ⟨.whole (S "GetUserRequest"), .whole (S "GetUserResponse")⟩,
    [(S "auth", S "X-Access-Key,S2S,Cookies"), (S "public", [])]⟩,
  ⟨S "FindUser", ⟨.list [fld (S "s") (.ref (S "SearchFilter"))], .list [fld (S "name") .string, fld (S "user") (.ref (S "User"))]⟩,
    [(S "public", [])]⟩,
  ⟨S "GetIntents", ⟨.list [], .list [fld (S "intents") (.list .string)]⟩, [(S "public", [])]⟩,
  ⟨S "CountIntents", ⟨.list [fld (S "userId") (.uint 64)], .list [fld (S "count") (.map .string (.uint 32))]⟩, [(S "public", [])]⟩]

/-- `ExamplePathPrefix`, example.gen.go:301. -/
def exampleService : ServiceCode := ⟨S "Example", S "/v1/Example/", exampleMethods⟩

/-- example.gen.go. -/
def basicsPackage : Package := ⟨basicsDecls, [exampleService], S "webrpc;gen-golang;example@v1.0.0"⟩

/-- `AdminPathPrefix`, admin/admin.gen.go:289; the methods 395-420, 309-340 and 591-606. -/
def adminService : ServiceCode := ⟨S "Admin", S "/v1/Admin/", [
  ⟨S "Auth", ⟨.list [], .list [fld (S "jwt") .string, fld (S "role") .string]⟩, [(S "public", [])]⟩,
  ⟨S "Status", ⟨.list [], .list [fld (S "status") .bool]⟩, [(S "internal", [])]⟩,
  ⟨S "Version", ⟨.list [], .list [fld (S "version") (.ref (S "Version"))]⟩, [(S "internal", [])]⟩]⟩

/-- admin/admin.gen.go. -/
def adminPackage : Package := ⟨basicsDecls, [adminService], S "webrpc;gen-golang;example@v1.0.0"⟩

/-- internal/internal.gen.go: `ExamplePathPrefix` and `AdminPathPrefix` 299-300, the methods 451-456, 622-625 and 777-803. -/
def internalPackage : Package := ⟨basicsDecls, [
  ⟨S "Example", S "/v1/Example/", [
    ⟨S "Ping", ⟨.list [], .list []⟩, [(S "internal", [])]⟩,
    ⟨S "Status", ⟨.list [], .list [fld (S "status") .bool]⟩, [(S "internal", [])]⟩,
    ⟨S "Version", ⟨.list [], .list [fld (S "version") (.ref (S "Version"))]⟩, [(S "internal", [])]⟩]⟩,
  ⟨S "Admin", S "/v1/Admin/", [
    ⟨S "Status", ⟨.list [], .list [fld (S "status") .bool]⟩, [(S "internal", [])]⟩,
    ⟨S "Version", ⟨.list [], .list [fld (S "version") (.ref (S "Version"))]⟩, [(S "internal", [])]⟩]⟩],
  S "webrpc;gen-golang;example@v1.0.0"⟩

/-! ### The server -/

/-- The `OnRequest` hook, main.go:44-60, for any generated package. -/
def refuseDeprecated (g : Package) (r : Request) : Ends (Option GoError) :=
  match g.methodCtx r with
  | none => .ok (some (.other (S "could not find method context for request method: " ++ r.path)))
  | some i => match i.annotations.lookup (S "deprecated") with
    | some replacement => .ok (some (.other
        (S "endpoint " ++ r.path ++ S " has been deprecated in favor of endpoint " ++ replacement)))
    | none => .ok none

/-- The hooks, main.go:33-60: `OnError` prints a line to the terminal and leaves the error as it is. -/
def basicsHooks : Hooks := { onRequest := some (refuseDeprecated basicsPackage), onError := some fun _ e => e }

/-- `middleware.Recoverer` of chi: a panic ends here; it writes the status 500. -/
def recoverer (h : HttpHandler) : HttpHandler := fun r =>
  match h r with
  | (effs, .ok ()) => (effs, .ok ())
  | (effs, .panic _) => (effs ++ [.writeHeader 500], .ok ())

/-- `startServer`, main.go:22-63, around any implementation of the two services. -/
def basicsApp [GoUnicode] [GoFloat] (impl admin : Impl) : HttpHandler := recoverer fun r =>
  if r.method = S "GET" ∧ r.path = S "/" then ([.write (S ".")], .ok ())
  else if (S "/admin/").isPrefixOf r.path then adminService.handler basicsDecls adminPackage.header admin {} r
  else exampleService.handler basicsDecls basicsPackage.header impl basicsHooks r

/-! ### The implementations -/

/-- `ErrUserNotFound`, example.gen.go:1155. -/
def errUserNotFound : RpcError := ⟨S "UserNotFound", 1000, S "User not found", [], 404⟩

/-- The `Version` struct, main.go:92-98 and 76-82; the hash is that of example.gen.go:36. -/
def basicsVersion : GoVal :=
  .ptr (.struct [.str (S "v1"), .str (S "v1.0.0"), .str (S "7bfed0257958d00737ced09f9818372bfa89bc42")])

/-- `GetUser` and `GetUserV2`, main.go:100-146: they differ in the profile. -/
def getUser (profile : Str) : List GoVal → TypedOutcome
  | [.struct [.int id, _]] =>
    if id = 911 then .error (.rpc errUserNotFound)
    else if id = 31337 then .error (.rpc (errUserNotFound.withCause (S "unknown user id " ++ intText id)))
    else .results [.ptr (.struct [.int 200, .ptr (.struct [.int id, .str (S "hihi"), .str [], .enum 1, .str (S "openSession")]),
      .str profile])]
  | _ => .panic []

/-- `FindUser`, main.go:148-153: a nil filter panics. -/
def findUser : List GoVal → TypedOutcome
  | [.ptr (.struct [.str q])] => .results [.str q, .ptr (.struct [.int 123, .str q, .str [], .enum 0, .str []])]
  | _ => .panic (S "runtime error: invalid memory address or nil pointer dereference")

/-- `ExampleServiceRPC`, main.go:84-166. -/
def exampleImpl : Impl := fun name args =>
  if name = S "Ping" then .results []
  else if name = S "Status" then .results [.bool true]
  else if name = S "Version" then .results [basicsVersion]
  else if name = S "GetUser" then getUser [] args
  else if name = S "GetUserV2" then getUser (S "https://www.google.com/images/john-doe.jpg") args
  else if name = S "FindUser" then findUser args
  else if name = S "GetIntents" then
    .results [.list [.str (S "openSession"), .str (S "closeSession"), .str (S "validateSession")]]
  else if name = S "CountIntents" then
    .results [.map [(.str (S "openSession"), .int 1), (.str (S "closeSession"), .int 2), (.str (S "validateSession"), .int 3)]]
  else .panic []

/-- `AdminServiceRPC`, main.go:65-82. -/
def adminImpl : Impl := fun name _ =>
  if name = S "Auth" then .results [.str (S "jwt"), .str (S "admin")]
  else if name = S "Status" then .results [.bool true]
  else if name = S "Version" then .results [basicsVersion]
  else .panic []

end Verif.Rpc
