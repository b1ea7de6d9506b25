import Verif.Rpc.Server
import Verif.Spec.JsonText
/-!
# What a generated server and client are supposed to do
-/

namespace Verif.RpcSpec
open Verif.Schema hiding Json Method
open Verif.Json Verif.Gen Verif.Rpc

/-- White space, after lower-casing (which changes no ASCII white space). -/
def Blank [GoUnicode] (s : Str) : Prop := ∀ c ∈ s, isSpace (lowerChar c) = true

/-- A `Content-Type` that means JSON: `application/json` in any case, possibly with blanks around it and with
parameters after a semicolon. -/
def JsonType [GoUnicode] (contentType : Str) : Prop :=
  ∃ before name after params, contentType = before ++ name ++ after ++ params ∧
    ';' ∉ before ++ name ++ after ∧ (params = [] ∨ params.head? = some ';') ∧ Blank before ∧ Blank after ∧
    name.map lowerChar = S "application/json"

/-- The request is for method `m`: a known path, `POST`, JSON. -/
structure For [GoUnicode] (s : Server) (r : Request) (m : Method) : Prop where
  path : s.routes.lookup r.path = some m
  post : r.method = S "POST"
  json : JsonType r.contentType

/-- The request hook, if there is one, lets the request through. -/
def HookPasses (s : Server) : Prop := s.onRequest = none ∨ s.onRequest = some (.ok none)

/-- The arguments in the request, for a method that has some: the body is readable, it is JSON, and the JSON has the
right form. -/
def Arguments (m : Method) (r : Request) (args : Json) : Prop :=
  if m.hasArgs then ∃ body j, r.body = some body ∧ Verif.Spec.JsonText body j ∧ m.readArgs j = some args else args = .null

/-- The request leads to a call of method `m` with arguments `args`. -/
def Callable [GoUnicode] (s : Server) (r : Request) (m : Method) (args : Json) : Prop :=
  For s r m ∧ HookPasses s ∧ Arguments m r args

/-- The request is refused with an error like `e` (up to the text of the cause), without calling any method. -/
inductive Refused [GoUnicode] (s : Server) (r : Request) : RpcError → Prop
  | path : s.routes.lookup r.path = none → Refused s r errBadRoute
  | method (m : Method) : s.routes.lookup r.path = some m → r.method ≠ S "POST" → Refused s r errBadMethod
  | contentType (m : Method) : s.routes.lookup r.path = some m → r.method = S "POST" → ¬ JsonType r.contentType →
      Refused s r errBadRequest
  | arguments (m : Method) : For s r m → HookPasses s → (¬ ∃ args, Arguments m r args) → Refused s r errBadRequest

/-- The calls of the implementation among the effects. -/
def calls (effs : List Eff) : List (Str × Json) :=
  effs.filterMap fun
    | .call n a => some (n, a)
    | _ => none

/-- The error that is sent after the error hook has seen it. -/
def reported (s : Server) (e : RpcError) : RpcError :=
  match s.onError with
  | none => e
  | some f => f e

/-- A status that can be sent in a response with a body. -/
def Sendable (status : Int) : Prop := 200 ≤ status ∧ status ≤ 999 ∧ status ≠ 204 ∧ status ≠ 304

/-- How often a status is set explicitly and how often the body is written. -/
def writes (effs : List Eff) : Nat × Nat :=
  ((effs.filter fun | .writeHeader _ => true | _ => false).length,
   (effs.filter fun | .write _ => true | _ => false).length)

/-- Exactly one response was sent: a JSON document with this status. -/
structure Answer (header : Str) (effs : List Eff) (status : Int) (doc : Json) : Prop where
  once : writes effs = (1, 1)
  status : (Response.of effs).status = some status
  contentType : (Response.of effs).sent.lookup (S "Content-Type") = some [S "application/json"]
  webrpc : (Response.of effs).sent.lookup (S "Webrpc") = some [header]
  body : (Response.of effs).body = print ⟨false, true⟩ 0 doc

/-- The response is the error `e` and nothing else. -/
def AnswersError (s : Server) (effs : List Eff) (e : RpcError) : Prop :=
  Answer s.header effs (reported s e).httpStatus (reported s e).toJson ∧
  (s.onError ≠ none → effs.any (fun | .onError e' => decide (e' = e) | _ => false) = true)

/-- The numbers in an error fit into Go's `int`. -/
def Representable (e : RpcError) : Prop :=
  (-(2 ^ 63) ≤ e.code ∧ e.code < 2 ^ 63) ∧ (-(2 ^ 63) ≤ e.httpStatus ∧ e.httpStatus < 2 ^ 63)

end Verif.RpcSpec
