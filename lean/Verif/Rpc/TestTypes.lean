import Verif.Rpc.Values
/-!
# Model of the test service's types and of typed servers and clients

The types of `/repo/tests/server/server.gen.go:170-200` (`/repo/tests/client/client.gen.go` declares the same ones), the
argument and result structs of its methods, and the generated code around them: `serve*JSON` decodes the arguments,
calls the implementation with Go values and encodes the results (server.gen.go:315-631); the client's methods encode the
arguments, send them and decode the results (client.gen.go:234-338).
-/

namespace Verif.Rpc
open Verif.Schema hiding Json Method
open Verif.Json Verif.Gen

/-- A field with a JSON name. -/
def fld (tag : Str) (t : GoType) : FieldDecl := { tag := some tag, type := t }

/-- server.gen.go:58-79 (`Status`), 108-145 (`Access`), 170-200 (structs). -/
def testDecls : Decls where
  enums := [
    (S "Status", [(S "AVAILABLE", 0), (S "NOT_AVAILABLE", 1)]),
    (S "Access", [(S "NONE", 0), (S "READ", 1), (S "WRITE", 2), (S "ADMIN", 3), (S "OWNER", 4)])]
  structs := [
    (S "Simple", [fld (S "id") (.int 64), fld (S "name") .string]),
    (S "User", [fld (S "id") (.uint 64), fld (S "USERNAME") .string, fld (S "role") .string]),
    (S "Complex", [
      fld (S "meta") (.map .string .any),
      fld (S "metaNestedExample") (.map .string (.map .string (.uint 32))),
      fld (S "namesList") (.list .string),
      fld (S "numsList") (.list (.int 64)),
      fld (S "doubleArray") (.list (.list .string)),
      fld (S "listOfMaps") (.list (.map .string (.uint 32))),
      fld (S "listOfUsers") (.list (.ref (S "User"))),
      fld (S "mapOfUsers") (.map .string (.ref (S "User"))),
      fld (S "user") (.ref (S "User")),
      fld (S "status") (.enum (S "Status"))]),
    (S "EnumData", [fld (S "dict") (.map (.enum (S "Access")) (.uint 64)), fld (S "list") (.list (.enum (S "Status")))])]

/-- The struct of arguments and the struct of results of a method, as in the server (server.gen.go:315-631) and in the
client (client.gen.go:234-338); an empty list stands for no struct at all. -/
structure Signature where
  args : List FieldDecl
  results : List FieldDecl

/-- The methods of the test service, server.gen.go:315-631. -/
def testSignatures : List (Str × Signature) := [
  (S "GetEmpty", ⟨[], []⟩),
  (S "GetError", ⟨[], []⟩),
  (S "GetOne", ⟨[], [fld (S "one") (.ref (S "Simple"))]⟩),
  (S "SendOne", ⟨[fld (S "one") (.ref (S "Simple"))], []⟩),
  (S "GetMulti", ⟨[], [fld (S "one") (.ref (S "Simple")), fld (S "two") (.ref (S "Simple")), fld (S "three") (.ref (S "Simple"))]⟩),
  (S "SendMulti", ⟨[fld (S "one") (.ref (S "Simple")), fld (S "two") (.ref (S "Simple")), fld (S "three") (.ref (S "Simple"))], []⟩),
  (S "GetComplex", ⟨[], [fld (S "complex") (.ref (S "Complex"))]⟩),
  (S "SendComplex", ⟨[fld (S "complex") (.ref (S "Complex"))], []⟩),
  (S "GetEnumList", ⟨[], [fld (S "list") (.list (.enum (S "Status")))]⟩),
  (S "GetEnumMap", ⟨[], [fld (S "map") (.map (.enum (S "Access")) (.uint 64))]⟩),
  (S "GetSchemaError", ⟨[fld (S "code") (.int 64)], []⟩)]

/-- The structs of a method of the test service. -/
def testSignature (name : Str) : Signature := (testSignatures.lookup name).getD ⟨[], []⟩

/-- What a typed implementation of a method does with its arguments. -/
inductive TypedOutcome
  | results (vals : List GoVal)
  | error (e : GoError)
  | panic (v : Str)

/-- The implementation as the generated code around it sees it, e.g. server.gen.go:388-412 and 356-375: results that
`json.Marshal` refuses give `none`.  The arguments are given by the JSON value they are decoded from. -/
def untyped [GoFloat] (d : Decls) (sig : Signature) (impl : List GoVal → TypedOutcome) (args : Json) : Outcome :=
  match impl (((decodePayload d sig.args args)).getD []) with
  | .results vals => .result (encodePayload d sig.results vals)
  | .error e => .error e
  | .panic v => .panic v

/-- Unmarshalling the arguments, e.g. server.gen.go:388-394: succeeds or not. -/
def readTyped [GoFloat] (d : Decls) (fs : List FieldDecl) (j : Json) : Option Json :=
  match decodePayload d fs j with
  | none => none
  | some _ => some j

/-- A generated server for a service with these methods around a typed implementation: the pattern of
server.gen.go:234-631 (`typedApi` is the one for the test service, see `C80_test_service`). -/
def typedServer [GoFloat] (d : Decls) (service header : Str) (methods : List (Str × Signature))
    (impl : Str → List GoVal → TypedOutcome)
    (onRequest : Option (Ends (Option GoError))) (onError : Option (RpcError → RpcError)) : Server :=
  { routes := methods.map fun p =>
      (S "/rpc/" ++ service ++ S "/" ++ p.1,
        { name := p.1, hasArgs := !p.2.args.isEmpty, hasResult := !p.2.results.isEmpty,
          readArgs := readTyped d p.2.args, impl := untyped d p.2 (impl p.1) })
    onRequest := onRequest, onError := onError, header := header }

/-- The test server around a typed implementation. -/
def typedApi [GoFloat] (impl : Str → List GoVal → TypedOutcome)
    (onRequest : Option (Ends (Option GoError))) (onError : Option (RpcError → RpcError)) : Server :=
  testApi (fun name => readTyped testDecls (testSignature name).args)
    (fun name => untyped testDecls (testSignature name) (impl name)) onRequest onError

/-- What a method of the client returns: results and no error; or zero values (possibly some results decoded before
`json.Unmarshal` failed, left out here) and an error. -/
inductive TypedReturn
  | ok (vals : List GoVal)
  | error (e : RpcError)

/-- What the client's method sends, e.g. client.gen.go:256-262: the struct of its arguments, if there are any; `none`:
`json.Marshal` fails. -/
def typedBody [GoFloat] (d : Decls) (sig : Signature) (args : List GoVal) : Option (Option Json) :=
  if sig.args.isEmpty then some none else (encodePayload d sig.args args).map some

/-- A method of the generated client over a connection to a server, e.g. client.gen.go:256-265: encoding the arguments
may fail (client.gen.go:393-398, `ErrWebrpcRequestFailed`). -/
def typedCall [GoUnicode] [GoFloat] (d : Decls) (service : Str) (name : Str) (sig : Signature) (s : Server)
    (args : List GoVal) : TypedReturn :=
  match typedBody d sig args with
  | none => .error (errRequestFailed.withCause (S "failed to marshal JSON body"))
  | some body =>
    match callOver s (S "/rpc/" ++ service ++ S "/" ++ name)
        { hasResult := !sig.results.isEmpty, readResult := readTyped d sig.results } body with
    | .error e => .error e
    | .ok j => .ok ((decodePayload d sig.results j).getD [])

/-- A method of the test client, client.gen.go:234-338. -/
def testCall [GoUnicode] [GoFloat] (s : Server) (name : Str) (args : List GoVal) : TypedReturn :=
  typedCall testDecls (S "TestApi") name (testSignature name) s args

end Verif.Rpc
