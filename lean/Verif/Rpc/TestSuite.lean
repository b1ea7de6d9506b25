import Verif.Rpc.TestTypes
/-!
# Model of the interoperability test suite

The reference implementation of the test service (`/repo/tests/server/server.go`) and the checks that `webrpc-test -client`
makes against any server (`/repo/tests/client/client.go`).
-/

namespace Verif.Rpc
open Verif.Schema hiding Json Method
open Verif.Json Verif.Gen

/-! ### Errors of the test schema -/

/-- The errors of the test schema, server.gen.go:917-937 (client.gen.go:567-587 has the same ones). -/
def testErrors : List RpcError := [
  ⟨S "Unauthorized", 1, S "unauthorized", [], 401⟩,
  ⟨S "ExpiredToken", 2, S "expired token", [], 401⟩,
  ⟨S "InvalidToken", 3, S "invalid token", [], 401⟩,
  ⟨S "Deactivated", 4, S "account deactivated", [], 403⟩,
  ⟨S "ConfirmAccount", 5, S "confirm your email", [], 403⟩,
  ⟨S "AccessDenied", 6, S "access denied", [], 403⟩,
  ⟨S "MissingArgument", 7, S "missing argument", [], 400⟩,
  ⟨S "UnexpectedValue", 8, S "unexpected value", [], 400⟩,
  ⟨S "RateLimited", 100, S "too many requests", [], 429⟩,
  ⟨S "DatabaseDown", 101, S "service outage", [], 503⟩,
  ⟨S "ElasticDown", 102, S "search is degraded", [], 503⟩,
  ⟨S "NotImplemented", 103, S "not implemented", [], 501⟩,
  ⟨S "UserNotFound", 200, S "user not found", [], 400⟩,
  ⟨S "UserBusy", 201, S "user busy", [], 400⟩,
  ⟨S "InvalidUsername", 202, S "invalid username", [], 400⟩,
  ⟨S "FileTooBig", 300, S "file is too big (max 1GB)", [], 400⟩,
  ⟨S "FileInfected", 301, S "file is infected", [], 400⟩,
  ⟨S "FileType", 302, S "unsupported file type", [], 400⟩]

/-- The error value of that name. -/
def testError (name : Str) : RpcError := (testErrors.find? fun e => e.name == name).getD .zero

/-! ### The reference implementation -/

/-- A `*Simple`. -/
def simple (id : Int) (name : Str) : GoVal := .ptr (.struct [.int id, .str name])

/-- server.go:118-130. -/
def fixtureOne : GoVal := simple 1 (S "one")
@[inherit_doc fixtureOne]
def fixtureTwo : GoVal := simple 2 (S "two")
@[inherit_doc fixtureOne]
def fixtureThree : GoVal := simple 3 (S "three")

/-- server.go:167-171 (and 153-166). -/
def fixtureUser : GoVal := .ptr (.struct [.int 1, .str (S "John-Doe"), .str (S "admin")])

/-- server.go:132-184. -/
def fixtureComplex : GoVal := .ptr (.struct [
  .map [(.str (S "1"), .dyn .string (.str (S "23"))), (.str (S "2"), .dyn (.float 64) (.float (S "24")))],
  .map [(.str (S "1"), .map [(.str (S "2"), .int 1)])],
  .list [.str (S "John"), .str (S "Alice"), .str (S "Jakob")],
  .list [.int 1, .int 2, .int 3, .int 4534643543],
  .list [.list [.str (S "testing")], .list [.str (S "api")]],
  .list [.map [(.str (S "john"), .int 1), (.str (S "alice"), .int 2), (.str (S "Jakob"), .int 251)]],
  .list [fixtureUser],
  .map [(.str (S "admin"), fixtureUser)],
  fixtureUser,
  .enum 0])

/-- server.go:186-189. -/
def fixtureDict : GoVal := .map [(.enum 1, .int 1), (.enum 2, .int 2)]
@[inherit_doc fixtureDict]
def fixtureList : GoVal := .list [.enum 0, .enum 1]

/-- The comparison in `SendOne` and others, server.go:29-31.  `diff` is the text of `cmp.Diff`. -/
def expect (diff : GoVal → GoVal → Str) (what : Str) (want got : GoVal) : Option GoError :=
  if deepEqual want got then none
  else some (.rpc ((testError (S "UnexpectedValue")).withCause (S "\"" ++ what ++ S "\":\n" ++ diff want got)))

/-- No error and no results, or the first error. -/
def firstError : List (Option GoError) → TypedOutcome
  | [] => .results []
  | none :: l => firstError l
  | some e :: _ => .error e

/-- `GetSchemaError`, server.go:74-114. -/
def schemaErrorCases : List (Int × GoError) := [
  (0, .other (S "failed to read file: unexpected EOF")),
  (1, .rpc ((testError (S "Unauthorized")).withCause (S "failed to verify JWT token"))),
  (2, .rpc (testError (S "ExpiredToken"))),
  (3, .rpc (testError (S "InvalidToken"))),
  (4, .rpc (testError (S "Deactivated"))),
  (5, .rpc (testError (S "ConfirmAccount"))),
  (6, .rpc (testError (S "AccessDenied"))),
  (7, .rpc (testError (S "MissingArgument"))),
  (8, .rpc (testError (S "UnexpectedValue"))),
  (100, .rpc ((testError (S "RateLimited")).withCause (S "1000 req/min exceeded"))),
  (101, .rpc (testError (S "DatabaseDown"))),
  (102, .rpc (testError (S "ElasticDown"))),
  (103, .rpc (testError (S "NotImplemented"))),
  (200, .rpc (testError (S "UserNotFound"))),
  (201, .rpc (testError (S "UserBusy"))),
  (202, .rpc (testError (S "InvalidUsername"))),
  (300, .rpc (testError (S "FileTooBig"))),
  (301, .rpc (testError (S "FileInfected"))),
  (302, .rpc ((testError (S "FileType")).withCause (S ".wav is not supported")))]

/-- `TestServer`, server.go:14-114.  (Arguments of the wrong number do not occur: `.panic`.) -/
def testServer (diff : GoVal → GoVal → Str) (name : Str) (args : List GoVal) : TypedOutcome :=
  if name = S "GetEmpty" then .results []
  else if name = S "GetError" then .error (.other (S "internal error"))
  else if name = S "GetOne" then .results [fixtureOne]
  else if name = S "SendOne" then
    match args with
    | [one] => firstError [expect diff (S "one") fixtureOne one]
    | _ => .panic []
  else if name = S "GetMulti" then .results [fixtureOne, fixtureTwo, fixtureThree]
  else if name = S "SendMulti" then
    match args with
    | [one, two, three] => firstError [expect diff (S "one") fixtureOne one, expect diff (S "two") fixtureTwo two,
        expect diff (S "three") fixtureThree three]
    | _ => .panic []
  else if name = S "GetComplex" then .results [fixtureComplex]
  else if name = S "SendComplex" then
    match args with
    | [c] => firstError [expect diff (S "complex") fixtureComplex c]
    | _ => .panic []
  else if name = S "GetEnumList" then .results [fixtureList]
  else if name = S "GetEnumMap" then .results [fixtureDict]
  else if name = S "GetSchemaError" then
    match args with
    | [.int code] => firstError [schemaErrorCases.lookup code]
    | _ => .panic []
  else .panic []

/-! ### The checks -/

/-- What `RunTests` can complain about. -/
inductive Failure
  /-- a call that should succeed failed -/
  | failed (method : Str) (e : RpcError)
  /-- `GetError` did not fail -/
  | noError
  /-- not two items -/
  | items (method : Str) (n : Nat)
  /-- not the error with the code (`errors.Is`) -/
  | isNot (code : Int)
  | code (want got : Int)
  | name (want got : Str)
  | message (want got : Str)
  | status (want got : Int)
  | cause (want got : Str)
deriving DecidableEq

/-- A call that should succeed: what it complains about, and the results (the zero values after a failure; Go may have
decoded some results by then, which makes no difference because the failure is counted). -/
def checkCall (method : Str) : TypedReturn → List Failure × List GoVal
  | .ok vals => ([], vals)
  | .error e => ([.failed method e], zeros (testSignature method).results)

/-- The length of the only result, a slice or a map (0 if it is nil). -/
def listLen : List GoVal → Nat
  | [.list l] => l.length
  | _ => 0
@[inherit_doc listLen]
def mapLen : List GoVal → Nat
  | [.map l] => l.length
  | _ => 0

/-- A row of the table in `testSchemaErrors`, client.go:102-130: code, name, message, status and cause (none: the empty
string).  The error value `err` of a row has the code of the row. -/
def schemaErrorRows : List RpcError := [
  ⟨S "WebrpcEndpoint", 0, S "endpoint error", S "failed to read file: unexpected EOF", 400⟩,
  ⟨S "Unauthorized", 1, S "unauthorized", S "failed to verify JWT token", 401⟩,
  ⟨S "ExpiredToken", 2, S "expired token", [], 401⟩,
  ⟨S "InvalidToken", 3, S "invalid token", [], 401⟩,
  ⟨S "Deactivated", 4, S "account deactivated", [], 403⟩,
  ⟨S "ConfirmAccount", 5, S "confirm your email", [], 403⟩,
  ⟨S "AccessDenied", 6, S "access denied", [], 403⟩,
  ⟨S "MissingArgument", 7, S "missing argument", [], 400⟩,
  ⟨S "UnexpectedValue", 8, S "unexpected value", [], 400⟩,
  ⟨S "RateLimited", 100, S "too many requests", S "1000 req/min exceeded", 429⟩,
  ⟨S "DatabaseDown", 101, S "service outage", [], 503⟩,
  ⟨S "ElasticDown", 102, S "search is degraded", [], 503⟩,
  ⟨S "NotImplemented", 103, S "not implemented", [], 501⟩,
  ⟨S "UserNotFound", 200, S "user not found", [], 400⟩,
  ⟨S "UserBusy", 201, S "user busy", [], 400⟩,
  ⟨S "InvalidUsername", 202, S "invalid username", [], 400⟩,
  ⟨S "FileTooBig", 300, S "file is too big (max 1GB)", [], 400⟩,
  ⟨S "FileInfected", 301, S "file is infected", [], 400⟩,
  ⟨S "FileType", 302, S "unsupported file type", S ".wav is not supported", 400⟩]

/-- The body of the loop, client.go:134-156.  No error: `rpcErr` is the zero value, and `errors.Is(nil, _)` is false.
`Unwrap` gives the cause if there is one. -/
def checkError (row : RpcError) (r : TypedReturn) : List Failure :=
  let e := match r with
    | .ok _ => RpcError.zero
    | .error e => e
  let is := match r with
    | .ok _ => false
    | .error e => e.is row
  (if is then [] else [.isNot row.code]) ++
  (if e.code ≠ row.code then [.code row.code e.code] else []) ++
  (if e.name ≠ row.name then [.name row.name e.name] else []) ++
  (if e.message ≠ row.message then [.message row.message e.message] else []) ++
  (if e.httpStatus ≠ row.httpStatus then [.status row.httpStatus e.httpStatus] else []) ++
  (if e.cause ≠ [] ∧ e.cause ≠ row.cause then [.cause row.cause e.cause] else [])

/-- `RunTests`, client.go:34-99, and `testSchemaErrors`, 101-159: the complaints (none: it returns nil), given what the
methods of the client return.  (The server keeps no state: the same call always returns the same.) -/
def runTests (call : Str → List GoVal → TypedReturn) : List Failure :=
  let one := checkCall (S "GetOne") (call (S "GetOne") [])
  let multi := checkCall (S "GetMulti") (call (S "GetMulti") [])
  let complex := checkCall (S "GetComplex") (call (S "GetComplex") [])
  let list := checkCall (S "GetEnumList") (call (S "GetEnumList") [])
  let map := checkCall (S "GetEnumMap") (call (S "GetEnumMap") [])
  (checkCall (S "GetEmpty") (call (S "GetEmpty") [])).1 ++
  (match call (S "GetError") [] with | .ok _ => [.noError] | .error _ => []) ++
  one.1 ++ (checkCall (S "SendOne") (call (S "SendOne") one.2)).1 ++
  multi.1 ++ (checkCall (S "SendMulti") (call (S "SendMulti") multi.2)).1 ++
  complex.1 ++ (checkCall (S "SendComplex") (call (S "SendComplex") complex.2)).1 ++
  list.1 ++ (if listLen list.2 ≠ 2 then [.items (S "GetEnumList") (listLen list.2)] else []) ++
  map.1 ++ (if mapLen map.2 ≠ 2 then [.items (S "GetEnumMap") (mapLen map.2)] else []) ++
  schemaErrorRows.flatMap fun row => checkError row (call (S "GetSchemaError") [.int row.code])

end Verif.Rpc
