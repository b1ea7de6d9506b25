import Verif.Spec.Ts
import Verif.Ts.Server
/-!
# Paths and arguments for generated TypeScript servers
-/

namespace Verif.TsSpec
open Verif.Schema hiding Json Method
open Verif.Json Verif.Gen Verif.Ts

/-- The path consists of these segments: between slashes, any number of slashes counting as one. -/
inductive PathOf : Str → List Str → Prop
  | none {s} : (∀ c ∈ s, c = '/') → PathOf s []
  | some {slashes seg rest segs} : (∀ c ∈ slashes, c = '/') → seg ≠ [] → '/' ∉ seg → (rest = [] ∨ ∃ r, rest = '/' :: r) →
      PathOf rest segs → PathOf (slashes ++ seg ++ rest) (seg :: segs)

/-- Objects and arrays. -/
def IsObject : Js → Prop
  | .obj _ => True
  | .arr _ => True
  | _ => False

/-- The members of an object. -/
def membersOf : Js → List (Str × Js)
  | .obj l => l
  | _ => []

/-- The value is of the type: of a JavaScript type, or it has the members of a type of the schema, which are themselves of their
types; required ones must be there. -/
inductive Conforms (vs : List (Str × List Check)) : Str → Js → Prop
  | js {type v} : type ∈ jsTypes → typeOf v = type → Conforms vs type v
  | members {type cs v} : type ∉ jsTypes → vs.lookup type = some cs → (cs ≠ [] → IsObject v) →
      (∀ c ∈ cs, c.required = true → ∃ x, (membersOf v).lookup c.name = some x) →
      (∀ c ∈ cs, ∀ x, (membersOf v).lookup c.name = some x → Conforms vs c.type x) → Conforms vs type v

/-- The payload carries the arguments of a method. -/
def Carries (vs : List (Str × List Check)) (payload : Js) : ArgChecks → Prop
  | .each cs => (cs ≠ [] → IsObject payload) ∧ (∀ c ∈ cs, c.required = true → ∃ x, (membersOf payload).lookup c.name = some x) ∧
      ∀ c ∈ cs, ∀ x, (membersOf payload).lookup c.name = some x → Conforms vs c.type x
  | .whole type _ => truthy payload = true → Conforms vs type payload

/-- The payload in the body of a request. -/
def Payload [JsEngine] (s : TsServer) (m : TsServerMethod) (body payload : Js) : Prop :=
  (m.req = [] ∧ payload = body) ∨ (m.req ≠ [] ∧ s.decode m.req body = .ok payload)

end Verif.TsSpec
