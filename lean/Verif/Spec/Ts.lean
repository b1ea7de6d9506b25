import Verif.Ts.Interop
import Verif.Spec.Services
/-!
# What users of generated TypeScript rely on
-/

namespace Verif.TsSpec
open Verif.Schema hiding Json Method
open Verif.Json Verif.Gen Verif.Ts

/-- A JavaScript value whose numbers are numbers. -/
inductive JsOk : Js → Prop
  | undefined : JsOk .undefined
  | null : JsOk .null
  | bool (b) : JsOk (.bool b)
  | num {t} : (NumText t ∨ t = S "NaN" ∨ t = S "Infinity" ∨ t = S "-Infinity") → JsOk (.num t)
  | str (s) : JsOk (.str s)
  | big (n) : JsOk (.big n)
  | arr {l} : (∀ v ∈ l, JsOk v) → JsOk (.arr l)
  | obj {l} : (∀ p ∈ l, JsOk p.2) → JsOk (.obj l)

/-- No two classes of errors have the same code. -/
def DistinctCodes (cs : List ErrClass) : Prop := (cs.map (·.code)).Pairwise (· ≠ ·)

/-- The class for an error code: the one with the code, `WebrpcError` if there is none. -/
inductive ClassOf (cs : List ErrClass) (code : Int) : ErrClass → Prop
  | known {c} : c ∈ cs → c.code = code → ClassOf cs code c
  | unknown : (∀ c ∈ cs, c.code ≠ code) → ClassOf cs code ⟨S "WebrpcEndpointError", 0, S "endpoint error", 400⟩

/-- A text as a property: undefined if there is none. -/
def textOrUndefined (s : Str) : Js := if s = [] then .undefined else .str s

/-- The error with which a TypeScript client should reject for the Go error `e`: the class for its code, the code, the
message, the status and the cause. -/
def Tells (cs : List ErrClass) (e : Rpc.RpcError) (t : TsError) : Prop :=
  ClassOf cs e.code t.cls ∧ t.code = .num (intText e.code) ∧ t.message = .str e.message ∧
  t.status = .num (intText e.httpStatus) ∧ t.cause = textOrUndefined e.cause

/-- The error that a TypeScript client makes of the JSON value of an error response: the class for its code (0 if it has
none), and its code, message, status and cause, with the defaults of the class for those that are missing. -/
structure Describes (cs : List ErrClass) (data : Js) (code : Int) (t : TsError) : Prop where
  cls : ClassOf cs code t.cls
  name : t.name = t.cls.name
  code : t.code = .num (intText code)
  message : t.message = if truthy (member (S "message") data) then member (S "message") data else .str t.cls.message
  status : (∃ x, member (S "status") data = .num x ∧ t.status = .num x) ∨
    ((∀ x, member (S "status") data ≠ .num x) ∧ t.status = .num (intText t.cls.status))
  cause : t.cause = member (S "cause") data

/-- The code in an error response: an integer, or none. -/
def CodeIn (data : Js) (code : Int) : Prop :=
  member (S "code") data = .num (intText code) ∨ ((∀ x, member (S "code") data ≠ .num x) ∧ code = 0)

/-- A TypeScript client for the Go service `v` at `origin`, and a method they both have; the headers that the caller adds
are an object (no two of the same name) without another spelling of `Content-Type`. -/
structure Wired (c : TsClient) (m : TsMethod) (headers : List (Str × Str)) (origin : Str) (v : Rpc.ServiceCode) (mc : Rpc.MethodCode) : Prop where
  host : ∃ slashes, c.hostname = origin ++ List.replicate slashes '/'
  origin : origin.getLast? ≠ some '/'
  path : c.path = v.path
  name : m.name = mc.name
  method : v.methods.find? (fun x => x.name = mc.name) = some mc
  keys : (headers.map (·.1)).Nodup
  plain : ∀ p ∈ headers, headerKey p.1 = S "content-type" → p.1 = S "Content-Type"

/-- The request is JSON that the Go method takes as the arguments `args` (a method without arguments does not look at it). -/
def TakenAs [Rpc.GoFloat] (d : Rpc.Decls) (mc : Rpc.MethodCode) (req : Option Js) (args : List Rpc.GoVal) : Prop :=
  if mc.sig.args.some then ∃ v j, req = some v ∧ JsOk v ∧ toJson v = some j ∧ mc.sig.args.readArgs d j = some args
  else args = (mc.sig.args.readArgs d .null).getD []

/-- What a TypeScript client makes of an error of the Go server. -/
def ToldByGo (cs : List ErrClass) (e : Rpc.RpcError) (t : TsError) : Prop :=
  ClassOf cs e.code t.cls ∧ t.code = .num (intText e.code) ∧ t.status = .num (intText e.httpStatus) ∧
  t.cause = textOrUndefined e.cause ∧ t.message = .str t.cls.message

/-- An error that reaches TypeScript clients as an error: it can be sent, and its status is not 2xx; its code is exact as a
JavaScript number. -/
def TellableTs (e : Rpc.RpcError) : Prop :=
  300 ≤ e.httpStatus ∧ e.httpStatus ≤ 999 ∧ e.httpStatus ≠ 304 ∧ e.code.natAbs ≤ 2 ^ 53

end Verif.TsSpec
