import Verif.Spec.SchemaValid
import Verif.Schema.ValidateLemmas
/-!
# Vocabulary for the JSON form of schemas
-/

namespace Verif.Spec
open Verif.Schema

/-- What a field says: comments, name, type expression, flags, value and metas (each a map from keys to values). -/
def fieldView (f : Field) : List Str × Str × Option Str × Bool × Str × List (Str → Option Json) :=
  (f.comments, f.name, f.type.map (·.expr), f.optional, f.value, f.metas.map fun m k => m.lookup k)

/-- What a type declaration says. -/
def typeView (t : TypeDecl) :=
  (t.kind, t.name, t.type.map (·.expr), t.fields.map fieldView, t.optional, t.value,
    t.metas.map (fun (m : Meta) k => m.lookup k), t.comments)

/-- What an error declaration says. -/
def errorView (e : ErrorDecl) : Int × Str × Str × Int := (e.code, e.name, e.message, e.httpStatus)

/-- What an argument says. -/
def argView (a : Argument) : Str × Option Str × Bool × Str × List (Str → Option Json) :=
  (a.name, a.type.map (·.expr), a.optional, a.value, a.metas.map fun m k => m.lookup k)

/-- What a method says; its annotations are a map. -/
def methodView (m : Method) :=
  (m.name, (fun k => m.annotations.lookup k), m.comments, m.succinct, m.streamInput, m.streamOutput,
    m.inputs.map argView, m.outputs.map argView, m.errors)

/-- What a service says. -/
def serviceView (v : Service) := (v.name, v.methods.map methodView, v.comments)

/-- What a schema says: everything but the identities of the objects in memory and the parsed form of types. -/
def schemaView (s : Schema) :=
  (s.webrpcVersion, s.schemaName, s.schemaVersion, s.basePath, s.types.map typeView, s.errors.map errorView,
    s.services.map serviceView)

/-- A parsed type without the identities of the declared types it refers to. -/
def shape : VarType → VarType
  | .leaf e c => .leaf e c
  | .list e t => .list e (shape t)
  | .map e k v => .map e (shape k) (shape v)
  | .struct e n _ => .struct e n ([], 0)
  | .enum e n _ => .enum e n ([], 0)
  | .alias e n _ => .alias e n ([], 0)

/-- A type as a text that means the same in Go and in JSON strings: printable ASCII without quotes and backslashes. -/
def PlainText (e : Str) : Prop := e ≠ [] ∧ ∀ c ∈ e, 0x20 ≤ c.toNat ∧ c.toNat < 0x7F ∧ c ≠ '"' ∧ c ≠ '\\'

/-- The keys of the maps in a type. -/
def mapKeys : VarType → List VarType
  | .list _ t => mapKeys t
  | .map _ k v => k :: mapKeys v
  | _ => []

/-- All types written in a schema. -/
def allTypes (s : Schema) : List VarType :=
  s.types.flatMap (fun t => t.type.toList ++ t.fields.filterMap (·.type)) ++
  s.services.flatMap fun v => v.methods.flatMap fun m => (m.inputs ++ m.outputs).filterMap (·.type)

/-- A Go map has no key twice. -/
def IsMap {α : Type} (l : List (Str × α)) : Prop := (l.map (·.1)).Nodup

/-- A meta with string values only, as RIDL makes them. -/
def StringMeta (m : Meta) : Prop := IsMap m ∧ ∀ p ∈ m, ∃ v, p.2 = .str v

/-- What a schema must meet to survive the trip through JSON. -/
structure Portable [GoUnicode] (s : Schema) : Prop where
  /-- no element type is left out -/
  resolved : ∀ vt ∈ usedTypes s, vt.Resolved
  /-- no type or service is listed twice -/
  types : DistinctObjects (s.types.map (·.ptr))
  services : DistinctObjects (s.services.map (·.ptr))
  /-- type expressions need no escapes -/
  plain : ∀ vt ∈ allTypes s, PlainText vt.expr
  /-- a declared type used as the key of a map is an enum, not an alias of one -/
  keys : ∀ vt ∈ usedTypes s, ∀ k ∈ mapKeys vt, ∀ t ∈ s.types, SameName t.name k.expr → t.kind = S "enum"
  metas : ∀ t ∈ s.types, (∀ m ∈ t.metas, StringMeta m) ∧ ∀ f ∈ t.fields, ∀ m ∈ f.metas, StringMeta m
  argMetas : ∀ v ∈ s.services, ∀ m ∈ v.methods, ∀ a ∈ m.inputs ++ m.outputs, ∀ x ∈ a.metas, StringMeta x
  annotations : ∀ v ∈ s.services, ∀ m ∈ v.methods, IsMap m.annotations
  /-- numbers are Go ints -/
  ints : ∀ e ∈ s.errors, -(2 ^ 63 : Int) ≤ e.code ∧ e.code < 2 ^ 63

end Verif.Spec
