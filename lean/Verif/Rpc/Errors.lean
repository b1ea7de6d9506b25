import Verif.Json.Json
import Verif.Json.RoundTrip
import Verif.Gen.Generate
/-!
# Model of the errors in generated Go code

Models `WebRPCError` of `/repo/tests/server/server.gen.go` (the same code is in `/repo/tests/client/client.gen.go`) with
its JSON form.  The unexported `cause` field is left out: it is rebuilt from `Cause` and only matters for targets of
`errors.Is` that are no webrpc errors.
-/

namespace Verif.Rpc
open Verif.Schema hiding Json
open Verif.Json Verif.Gen
open Verif.Spec (numeral)

/-- `WebRPCError`, server.gen.go:855-862. -/
structure RpcError where
  name : Str
  code : Int
  message : Str
  cause : Str
  httpStatus : Int
deriving DecidableEq

/-- The zero value. -/
def RpcError.zero : RpcError := ⟨[], 0, [], [], 0⟩

/-- `WebRPCError.Is` with another webrpc error, server.gen.go:873-881. -/
def RpcError.is (e target : RpcError) : Bool := decide (target.code = e.code)

/-- `WithCause`, server.gen.go:887-892; the argument is the text of the cause. -/
def RpcError.withCause (e : RpcError) (cause : Str) : RpcError := { e with cause := cause }

/-- The JSON form of an error: the tags of server.gen.go:856-860. -/
def RpcError.toJson (e : RpcError) : Json :=
  .obj ([(S "error", .ofStr true e.name), (S "code", .num (intText e.code)), (S "msg", .ofStr true e.message)] ++
    (if e.cause = [] then [] else [(S "cause", .ofStr true e.cause)]) ++ [(S "status", .num (intText e.httpStatus))])

/-- How `encoding/json` folds the case of a key: ASCII letters, and the two other characters that fold to one. -/
def foldChar (c : Char) : Char :=
  if 'A' ≤ c ∧ c ≤ 'Z' then Char.ofNat (c.toNat + 32)
  else if c.toNat = 0x17F then 's' else if c.toNat = 0x212A then 'k' else c

/-- The struct field (given by its tag) for a key: an exact match, else one ignoring case. -/
def fieldFor (tags : List Str) (key : Str) : Option Str :=
  if tags.contains key then some key else tags.find? fun t => t.map foldChar == key.map foldChar

/-- A string field: `null` leaves it as it is. -/
def decStr (old : Str) : Json → Option Str
  | .str raw => cook raw
  | .null => some old
  | _ => none

/-- An `int` field. -/
def decInt (old : Int) : Json → Option Int
  | .num t => atoi t
  | .null => some old
  | _ => none

/-- One member of the object. -/
def RpcError.setMember (e : RpcError) (key : Str) (v : Json) : Option RpcError :=
  match fieldFor [S "error", S "code", S "msg", S "cause", S "status"] key with
  | none => some e
  | some f =>
    if f = S "error" then (decStr e.name v).map fun x => { e with name := x }
    else if f = S "code" then (decInt e.code v).map fun x => { e with code := x }
    else if f = S "msg" then (decStr e.message v).map fun x => { e with message := x }
    else if f = S "cause" then (decStr e.cause v).map fun x => { e with cause := x }
    else (decInt e.httpStatus v).map fun x => { e with httpStatus := x }

/-- The members one after the other. -/
def RpcError.setMembers : RpcError → List (Str × Json) → Option RpcError
  | e, [] => some e
  | e, (k, v) :: r => match e.setMember k v with
    | none => none
    | some e => e.setMembers r

/-- `json.Unmarshal` into an error. -/
def RpcError.ofJson : Json → Option RpcError
  | .obj l => RpcError.zero.setMembers l
  | .null => some .zero
  | _ => none

/-- A built-in error, server.gen.go:903-915, from the table in `/repo/gen/errors.go`. -/
def builtin (i : Nat) : RpcError :=
  match webrpcErrors[i]? with
  | some e => ⟨e.name, e.code, e.message, [], e.httpStatus⟩
  | none => .zero

/-- `ErrWebrpcEndpoint`. -/
def errEndpoint : RpcError := ⟨S "WebrpcEndpoint", 0, S "endpoint error", [], 400⟩
/-- `ErrWebrpcRequestFailed`. -/
def errRequestFailed : RpcError := ⟨S "WebrpcRequestFailed", -1, S "request failed", [], 400⟩
/-- `ErrWebrpcBadRoute`. -/
def errBadRoute : RpcError := ⟨S "WebrpcBadRoute", -2, S "bad route", [], 404⟩
/-- `ErrWebrpcBadMethod`. -/
def errBadMethod : RpcError := ⟨S "WebrpcBadMethod", -3, S "bad method", [], 405⟩
/-- `ErrWebrpcBadRequest`. -/
def errBadRequest : RpcError := ⟨S "WebrpcBadRequest", -4, S "bad request", [], 400⟩
/-- `ErrWebrpcBadResponse`. -/
def errBadResponse : RpcError := ⟨S "WebrpcBadResponse", -5, S "bad response", [], 500⟩
/-- `ErrWebrpcServerPanic`. -/
def errServerPanic : RpcError := ⟨S "WebrpcServerPanic", -6, S "server panic", [], 500⟩
/-- `ErrWebrpcInternalError`. -/
def errInternal : RpcError := ⟨S "WebrpcInternalError", -7, S "internal error", [], 500⟩
/-- `ErrWebrpcClientAborted`. -/
def errClientAborted : RpcError := ⟨S "WebrpcClientAborted", -8, S "request aborted by client", [], 400⟩
/-- `ErrWebrpcStreamLost`. -/
def errStreamLost : RpcError := ⟨S "WebrpcStreamLost", -9, S "stream lost", [], 400⟩
/-- `ErrWebrpcStreamFinished`. -/
def errStreamFinished : RpcError := ⟨S "WebrpcStreamFinished", -10, S "stream finished", [], 200⟩

/-- The generated error values, server.gen.go:903-915. -/
def generatedErrors : List RpcError :=
  [errEndpoint, errRequestFailed, errBadRoute, errBadMethod, errBadRequest, errBadResponse, errServerPanic, errInternal,
   errClientAborted, errStreamLost, errStreamFinished]

end Verif.Rpc
