import Verif.Spec.Ts
import Verif.Spec.BigInts
import Verif.Spec.SchemaValid
/-!
# Bigints in generated TypeScript: where a schema has them, and what values of a type are
-/

namespace Verif.TsSpec
open Verif.Schema hiding Json Method
open Verif.Json Verif.Gen Verif.Ts Verif.Spec

/-- Values of this type can contain a bigint. -/
inductive ContainsBig (ts : List TypeDecl) : VarType → Prop
  | here (e) : ContainsBig ts (.leaf e .bigint)
  | elem {e el} : ContainsBig ts el → ContainsBig ts (.list e el)
  | value {e k v} : ContainsBig ts v → ContainsBig ts (.map e k v)
  | field {e n p t f v} : Declares ts p t → t.kind = S "struct" → f ∈ t.fields → f.type = some v → ContainsBig ts v →
      ContainsBig ts (.struct e n p)
  | alias {e n p t v} : Declares ts p t → t.type = some v → ContainsBig ts v → ContainsBig ts (.alias e n p)

/-- The places where the generated decoder looks for bigints: `bigint`, a list of it, a struct, a list of a struct. -/
inductive Looked : VarType → Prop
  | big (e) : Looked (.leaf e .bigint)
  | bigs (e e') : Looked (.list e (.leaf e' .bigint))
  | struct (e n p) : Looked (.struct e n p)
  | structs (e e' n p) : Looked (.list e (.struct e' n p))

/-- A value that JSON keeps, except that bigints become strings: nothing is undefined, numbers are finite, the names of
members are distinct. -/
inductive Kept [JsEngine] : Js → Prop
  | null : Kept .null
  | bool (b) : Kept (.bool b)
  | num {t} : NumText t → JsEngine.canon t = t → Kept (.num t)
  | str (s) : Kept (.str s)
  | big (n) : Kept (.big n)
  | arr {l} : (∀ v ∈ l, Kept v) → Kept (.arr l)
  | obj {l} : (l.map Prod.fst).Nodup → (∀ p ∈ l, Kept p.2) → Kept (.obj l)

/-- A JavaScript value of a type of the schema, as the generated interfaces have it: null, a bigint for `bigint`, for the
other core types and for enums anything that JSON keeps and that has no bigint, arrays for lists, objects for maps and
structs (with the fields under their names in JSON; a field can be missing). -/
inductive OfType [JsEngine] (ts : List TypeDecl) : VarType → Js → Prop
  | null (v) : OfType ts v .null
  | bigint (e n) : OfType ts (.leaf e .bigint) (.big n)
  | core {e c v} : c ≠ .bigint → Kept v → hasBig v = false → OfType ts (.leaf e c) v
  | enum {e n p v} : Kept v → hasBig v = false → OfType ts (.enum e n p) v
  | list {e el l} : (∀ v ∈ l, OfType ts el v) → OfType ts (.list e el) (.arr l)
  | map {e k v l} : (l.map Prod.fst).Nodup → (∀ p ∈ l, OfType ts v p.2) → OfType ts (.map e k v) (.obj l)
  | struct {e n p t l} : Declares ts p t → t.kind = S "struct" → (l.map Prod.fst).Nodup →
      (∀ q ∈ l, ∃ f ∈ t.fields, jsonNameOf f = q.1 ∧ f.type ≠ none) →
      (∀ q ∈ l, ∀ f ∈ t.fields, ∀ v, jsonNameOf f = q.1 → f.type = some v → OfType ts v q.2) →
      OfType ts (.struct e n p) (.obj l)
  | alias {e n p t v x} : Declares ts p t → t.type = some v → OfType ts v x → OfType ts (.alias e n p) x

/-- The members, under their names in JSON, of the objects that the generated decoder is given with the name `k`: the fields
of a struct, and the inputs and outputs of a method that is not succinct. -/
inductive ObjectType (s : Schema) (compat : Bool) : Str → List (Str × VarType) → Prop
  | struct (t : TypeDecl) : t ∈ s.types → t.kind = S "struct" →
      ObjectType s compat t.name (t.fields.filterMap fun f => f.type.map (jsonNameOf f, ·))
  | request (v : Service) (m : Verif.Schema.Method) : v ∈ s.services → m ∈ v.methods → m.succinct = false →
      ObjectType s compat (m.name ++ if compat then S "Args" else S "Request") (m.inputs.filterMap fun a => a.type.map (a.name, ·))
  | response (v : Service) (m : Verif.Schema.Method) : v ∈ s.services → m ∈ v.methods → m.succinct = false →
      ObjectType s compat (m.name ++ if compat then S "Return" else S "Response") (m.outputs.filterMap fun a => a.type.map (a.name, ·))

/-- An object with (some of) these members. -/
structure HasMembers [JsEngine] (ts : List TypeDecl) (ms : List (Str × VarType)) (l : List (Str × Js)) : Prop where
  keys : (l.map Prod.fst).Nodup
  typed : ∀ q ∈ l, ∃ v, (q.1, v) ∈ ms ∧ OfType ts v q.2

/-- A name that the generated decoder does not take for a list. -/
def NotList (n : Str) : Prop := ¬ S "[]" <:+ n

/-- Schemas whose bigints the generated decoder can find. -/
structure Findable (s : Schema) (compat : Bool) : Prop where
  /-- no struct contains itself -/
  acyclic : ¬ Cyclic (SubStruct s.types)
  /-- a name stands for one type, request or response -/
  unambiguous : Unambiguous s compat
  /-- no type is called BigInt -/
  named : ∀ t ∈ s.types, ¬ ReadsBig t.name
  /-- bigints are only in places where the decoder looks (not in maps, lists of lists, aliases) -/
  looked : ∀ v ∈ usedTypes s, ContainsBig s.types v → Looked v
  /-- fields with bigints are not renamed in JSON -/
  kept : ∀ t ∈ s.types, t.kind = S "struct" → ∀ f ∈ t.fields, ∀ v, f.type = some v → ContainsBig s.types v → jsonNameOf f = f.name
  /-- the arguments of a method have distinct names, and the results too -/
  args : ∀ v ∈ s.services, ∀ m ∈ v.methods, (m.inputs.map (·.name)).Nodup ∧ (m.outputs.map (·.name)).Nodup ∧
    ∀ a ∈ m.inputs ++ m.outputs, NotList a.name
  /-- no type name ends with [] -/
  types : ∀ t ∈ s.types, NotList t.name

end Verif.TsSpec
