import Verif.Rpc.Server
/-!
# Model of the tables and small helpers in generated Go code

Routes, the published method table, enums and request headers of `/repo/tests/server/server.gen.go` and
`/repo/tests/client/client.gen.go` (generated from `/repo/tests/schema/test.ridl`).
-/

namespace Verif.Rpc
open Verif.Schema hiding Json Method
open Verif.Json Verif.Gen
open Verif.Compile (mapSet)

/-! ### Routes -/

/-- The `switch` over paths in `ServeHTTP`, server.gen.go:253-280, with the name each `serve*JSON` function puts into the
context (`MethodNameCtxKey`). -/
def switchTable : List (Str × Str) :=
  [ (S "/rpc/TestApi/GetEmpty", S "GetEmpty"), (S "/rpc/TestApi/GetError", S "GetError"),
    (S "/rpc/TestApi/GetOne", S "GetOne"), (S "/rpc/TestApi/SendOne", S "SendOne"),
    (S "/rpc/TestApi/GetMulti", S "GetMulti"), (S "/rpc/TestApi/SendMulti", S "SendMulti"),
    (S "/rpc/TestApi/GetComplex", S "GetComplex"), (S "/rpc/TestApi/SendComplex", S "SendComplex"),
    (S "/rpc/TestApi/GetEnumList", S "GetEnumList"), (S "/rpc/TestApi/GetEnumMap", S "GetEnumMap"),
    (S "/rpc/TestApi/GetSchemaError", S "GetSchemaError") ]

/-- Does the generated `serve*JSON` read arguments, and does it write results?  server.gen.go:315-631. -/
def shapeTable : List (Str × Bool × Bool) :=
  [ (S "GetEmpty", false, false), (S "GetError", false, false), (S "GetOne", false, true), (S "SendOne", true, false),
    (S "GetMulti", false, true), (S "SendMulti", true, false), (S "GetComplex", false, true), (S "SendComplex", true, false),
    (S "GetEnumList", false, true), (S "GetEnumMap", false, true), (S "GetSchemaError", true, false) ]

/-- `method`, server.gen.go:675-679. -/
structure MethodInfo where
  name : Str
  service : Str
  annotations : List (Str × Str)
deriving DecidableEq

/-- `methods`, server.gen.go:687-743. -/
def methodsTable : List (Str × MethodInfo) :=
  [ (S "/rpc/TestApi/GetEmpty", ⟨S "GetEmpty", S "TestApi", []⟩), (S "/rpc/TestApi/GetError", ⟨S "GetError", S "TestApi", []⟩),
    (S "/rpc/TestApi/GetOne", ⟨S "GetOne", S "TestApi", []⟩), (S "/rpc/TestApi/SendOne", ⟨S "SendOne", S "TestApi", []⟩),
    (S "/rpc/TestApi/GetMulti", ⟨S "GetMulti", S "TestApi", []⟩), (S "/rpc/TestApi/SendMulti", ⟨S "SendMulti", S "TestApi", []⟩),
    (S "/rpc/TestApi/GetComplex", ⟨S "GetComplex", S "TestApi", []⟩),
    (S "/rpc/TestApi/SendComplex", ⟨S "SendComplex", S "TestApi", []⟩),
    (S "/rpc/TestApi/GetEnumList", ⟨S "GetEnumList", S "TestApi", []⟩),
    (S "/rpc/TestApi/GetEnumMap", ⟨S "GetEnumMap", S "TestApi", []⟩),
    (S "/rpc/TestApi/GetSchemaError", ⟨S "GetSchemaError", S "TestApi", []⟩) ]

/-- `MethodCtx`, server.gen.go:745-753, for a request. -/
def methodCtx (path : Str) : Option MethodInfo := methodsTable.lookup path

/-- `WebrpcMethods`, server.gen.go:763-774 (maps as lists of entries). -/
def webrpcMethods (services : List Str) : List (Str × MethodInfo) :=
  if services = [] then methodsTable
  else methodsTable.filter fun p => services.contains p.2.service

/-- `WebRPCServices`, server.gen.go:776-790. -/
def webrpcServices : List (Str × List Str) :=
  [(S "TestApi", [S "GetEmpty", S "GetError", S "GetOne", S "SendOne", S "GetMulti", S "SendMulti", S "GetComplex",
    S "SendComplex", S "GetEnumList", S "GetEnumMap", S "GetSchemaError"])]

/-- `methodsFor`, server.gen.go:801-807: the paths and methods; the handler is the server given. -/
def methodsFor {H : Type} (service : Str) (handler : H) : List (Str × MethodInfo × H) :=
  (webrpcMethods [service]).map fun p => (p.1, p.2, handler)

/-- `Server.Methods`, server.gen.go:650-660: nothing for a service that is not set. -/
def serverMethods {H : Type} (testApi : Option H) : List (Str × MethodInfo × H) :=
  match testApi with
  | none => []
  | some h => methodsFor (S "TestApi") h

/-- The server, given the implementation and the reading of arguments by method name. -/
def testApi (readArgs : Str → Json → Option Json) (impl : Str → Json → Outcome)
    (onRequest : Option (Ends (Option GoError))) (onError : Option (RpcError → RpcError)) : Server :=
  { routes := switchTable.map fun p =>
      (p.1, { name := p.2, hasArgs := ((shapeTable.lookup p.2).getD (false, false)).1,
              hasResult := ((shapeTable.lookup p.2).getD (false, false)).2, readArgs := readArgs p.2, impl := impl p.2 })
    onRequest := onRequest, onError := onError, header := S "webrpc;gen-golang;Test@v1.0.0" }

/-- The paths the client's methods post to, client.gen.go:206-232 and 234-338: `TestApiPathPrefix` and a name.
(The address of the server before it is left out.) -/
def clientPaths : List (Str × Str) :=
  [S "GetEmpty", S "GetError", S "GetOne", S "SendOne", S "GetMulti", S "SendMulti", S "GetComplex", S "SendComplex",
   S "GetEnumList", S "GetEnumMap", S "GetSchemaError"].map fun n => (n, S "/rpc/TestApi/" ++ n)

/-! ### Enums -/

/-- `Status_name`, server.gen.go:73-76. -/
def statusName : List (Nat × Str) := [(0, S "AVAILABLE"), (1, S "NOT_AVAILABLE")]
/-- `Status_value`, server.gen.go:78-81. -/
def statusValue : List (Str × Nat) := [(S "AVAILABLE", 0), (S "NOT_AVAILABLE", 1)]
/-- `Access_name`, server.gen.go:131-137. -/
def accessName : List (Nat × Str) := [(0, S "NONE"), (1, S "READ"), (2, S "WRITE"), (3, S "ADMIN"), (4, S "OWNER")]
/-- `Access_value`, server.gen.go:139-145. -/
def accessValue : List (Str × Nat) := [(S "NONE", 0), (S "READ", 1), (S "WRITE", 2), (S "ADMIN", 3), (S "OWNER", 4)]

/-- `MarshalText` and `String`, server.gen.go:83-89: a missing entry of a map is the empty string. -/
def enumText (names : List (Nat × Str)) (x : Nat) : Str := (names.lookup x).getD []

/-- `UnmarshalText`, server.gen.go:91-94: a missing entry of a map is 0; there is never an error. -/
def enumOf (values : List (Str × Nat)) (b : Str) : Nat := (values.lookup b).getD 0

/-- `Is`, server.gen.go:96-106; `none` is a nil pointer. -/
def enumIs (x : Option Nat) (values : List Nat) : Bool :=
  match x with
  | none => false
  | some x => values.any fun v => x == v

/-! ### Request headers -/

/-- The slices of strings in memory. -/
abbrev Heap := List (List Str)

/-- An `http.Header`: keys and slices (`none`: a nil slice). -/
abbrev Header := List (Str × Option Nat)

/-- The strings of a slice. -/
def Heap.read (heap : Heap) (r : Option Nat) : List Str :=
  match r with
  | none => []
  | some i => heap[i]?.getD []

/-- The copying loop of `WithHTTPRequestHeaders`, client.gen.go:452-460. -/
def copyLoop : Heap → Header → Header → Heap × Header
  | heap, [], copied => (heap, copied)
  | heap, (k, none) :: h, copied => copyLoop heap h (copied ++ [(k, none)])
  | heap, (k, some i) :: h, copied => copyLoop (heap ++ [heap.read (some i)]) h (copied ++ [(k, some heap.length)])

/-- `WithHTTPRequestHeaders`, client.gen.go:444-463: the memory after it and the headers stored in the context. -/
def withHTTPRequestHeaders (heap : Heap) (h : Header) : Option (Heap × Header) :=
  if (h.lookup (S "Accept")).isSome then none
  else if (h.lookup (S "Content-Type")).isSome then none
  else some (copyLoop heap h [])

/-- Characters allowed in a header name (RFC 9110 tokens). -/
def tokenChar (c : Char) : Bool :=
  ("!#$%&'*+-.^_`|~0123456789ABCDEFGHIJKLMNOPQRSTUVWXYZabcdefghijklmnopqrstuvwxyz".toList).contains c

/-- The loop of `textproto.CanonicalMIMEHeaderKey`. -/
def canonLoop : Bool → Str → Str
  | _, [] => []
  | upper, c :: r =>
    let c := if upper ∧ 'a' ≤ c ∧ c ≤ 'z' then Char.ofNat (c.toNat - 32)
      else if ¬ upper ∧ 'A' ≤ c ∧ c ≤ 'Z' then Char.ofNat (c.toNat + 32) else c
    c :: canonLoop (c == '-') r

/-- `textproto.CanonicalMIMEHeaderKey`: keys with other characters stay as they are. -/
def canonicalKey (k : Str) : Str := if k.all tokenChar then canonLoop true k else k

/-- `Header.Add` with the key already canonical. -/
def addTo (h : List (Str × List Str)) (k v : Str) : List (Str × List Str) := mapSet k ((h.lookup k).getD [] ++ [v]) h

/-- `newRequest`, client.gen.go:375-391: the headers of the request.  `order` is the order in which the loop visits the
entries of the map. -/
def newRequest (heap : Heap) (order : Header) (headerValue : Str) : List (Str × List Str) :=
  order.foldl (fun acc p => (heap.read p.2).foldl (fun acc v => addTo acc (canonicalKey p.1) v) acc)
    [(S "Accept", [S "application/json"]), (S "Content-Type", [S "application/json"]), (S "Webrpc", [headerValue])]

end Verif.Rpc
