import Verif.Schema.Types
import Verif.Spec.Graphs
/-!
# Which declared types a type expression needs
-/

namespace Verif.Spec
open Verif.Schema

/-- `Part t u`: `u` is `t` itself or occurs in it as an element, key or value type. -/
inductive Part : VarType → VarType → Prop
  | self (t : VarType) : Part t t
  | elem (e : Str) (el u : VarType) : Part el u → Part (.list e el) u
  | key (e : Str) (k v u : VarType) : Part k u → Part (.map e k v) u
  | value (e : Str) (k v u : VarType) : Part v u → Part (.map e k v) u

/-- The declaration in `ts` with a given identity. -/
def Declares (ts : List TypeDecl) (p : Ptr) (t : TypeDecl) : Prop :=
  ∃ before after, ts = before ++ t :: after ∧ t.ptr = p ∧ ∀ x ∈ before, x.ptr ≠ p

/-- The type expression mentions the struct `t`. -/
def MentionsStruct (ts : List TypeDecl) (v : VarType) (t : TypeDecl) : Prop :=
  ∃ e n p, Part v (.struct e n p) ∧ Declares ts p t

/-- The type expression mentions the struct or enum `t`. -/
def Mentions (ts : List TypeDecl) (v : VarType) (t : TypeDecl) : Prop :=
  MentionsStruct ts v t ∨ ∃ e n p, Part v (.enum e n p) ∧ Declares ts p t

/-- A field of the struct `t` mentions the struct `u`. -/
def Holds (ts : List TypeDecl) (t u : TypeDecl) : Prop :=
  ∃ f ∈ t.fields, ∃ v, f.type = some v ∧ MentionsStruct ts v u

/-- `Needs ts v t`: a value of type `v` may contain a value of the struct or enum type `t`. -/
inductive Needs (ts : List TypeDecl) : VarType → TypeDecl → Prop
  | here {v : VarType} {t : TypeDecl} : Mentions ts v t → Needs ts v t
  | field {v w : VarType} {t u : TypeDecl} (f : Field) : MentionsStruct ts v u → f ∈ u.fields →
      f.type = some w → Needs ts w t → Needs ts v t

/-- `v` is the type of an argument or result of a method of the service. -/
def ArgOf (v : Service) (t : VarType) : Prop :=
  ∃ m ∈ v.methods, ∃ a ∈ m.inputs ++ m.outputs, a.type = some t

end Verif.Spec

namespace Verif.Spec
open Verif.Schema

/-- The method carries the annotation `name`, with the given value unless that is blank. -/
def Carries (m : Method) (name value : Str) : Prop :=
  ∃ ann, m.annotations.lookup name = some ann ∧ ann.annotationType = name ∧
    ((∀ c ∈ value, c = ' ') ∨ ann.value = value)

/-- The method carries one of the requested annotations. -/
def CarriesOne (m : Method) (anns : List (Str × Str)) : Prop := ∃ a ∈ anns, Carries m a.1 a.2

/-- Some method of the schema has an argument or result that can hold a struct nested in itself. -/
def RecursiveArgs (s : Schema) : Prop :=
  ∃ v ∈ s.services, ∃ a, ArgOf v a ∧ ∃ t, MentionsStruct s.types a t ∧ 
    ∃ u, Reach (Holds s.types) t u ∧ Path (Holds s.types) u u

/-- The type is needed by a method of a selected service (types are told apart by name). -/
def NeededBy (s : Schema) (names : List Str) (t : TypeDecl) : Prop :=
  t.name ≠ [] ∧ ∃ v ∈ s.services, v.name ∈ names ∧ ∃ a, ArgOf v a ∧ ∃ u, Needs s.types a u ∧ u.name = t.name

end Verif.Spec

namespace Verif.Spec
open Verif.Schema

/-- `Inside ts v w`: `w` is the type `v` of an argument itself, or the type of a field of a struct that
a value of type `v` may contain. -/
inductive Inside (ts : List TypeDecl) : VarType → VarType → Prop
  | self (v : VarType) : Inside ts v v
  | field {v w x : VarType} {u : TypeDecl} (f : Field) : MentionsStruct ts v u → f ∈ u.fields →
      f.type = some w → Inside ts w x → Inside ts v x

/-- A selected service has an argument or result whose type names, itself or inside a struct it may
contain, the alias with identity `p`. -/
def AliasUsed (s : Schema) (names : List Str) (p : Ptr) : Prop :=
  ∃ v ∈ s.services, v.name ∈ names ∧ ∃ a, ArgOf v a ∧ ∃ w, Inside s.types a w ∧ ∃ e n, Part w (.alias e n p)

end Verif.Spec
