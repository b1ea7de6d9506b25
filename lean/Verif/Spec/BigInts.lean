import Verif.Spec.Usage
import Verif.Schema.BigInt
/-!
# Where big integers occur, as far as the helpers look
-/

namespace Verif.Spec
open Verif.Schema

/-- The text reads `bigint`, each letter in lower or upper case. -/
def ReadsBig (e : Str) : Prop :=
  e.length = 6 ∧ ∀ (i : Nat) (c : Char), e[i]? = some c → (S "bigint")[i]? = some c ∨ (S "BIGINT")[i]? = some c

/-- The type is `bigint` or a list of `bigint`. -/
def DirectBig (v : VarType) : Prop := ReadsBig v.expr ∨ ∃ e el, v = .list e el ∧ ReadsBig el.expr

/-- The type is the struct `t` or a list of it. -/
def IsStruct (ts : List TypeDecl) (v : VarType) (t : TypeDecl) : Prop :=
  ∃ e n p, (v = .struct e n p ∨ ∃ e', v = .list e' (.struct e n p)) ∧ Declares ts p t

/-- A field of the struct `t` is the struct `u` or a list of it. -/
def SubStruct (ts : List TypeDecl) (t u : TypeDecl) : Prop :=
  t.kind = S "struct" ∧ ∃ f ∈ t.fields, ∃ v, f.type = some v ∧ IsStruct ts v u

/-- The struct has a field that is `bigint`, a list of `bigint`, or a struct (or list of structs) that
contains one. -/
inductive HasBig (ts : List TypeDecl) : TypeDecl → Prop
  | direct {t : TypeDecl} (f : Field) (v : VarType) : t.kind = S "struct" → f ∈ t.fields → f.type = some v →
      DirectBig v → HasBig ts t
  | nested {t u : TypeDecl} : SubStruct ts t u → HasBig ts u → HasBig ts t

/-- The struct itself has a field that is `bigint` or a list of `bigint`. -/
def HasDirect (t : TypeDecl) : Prop :=
  t.kind = S "struct" ∧ ∃ f ∈ t.fields, ∃ v, f.type = some v ∧ DirectBig v

/-- `Reported ts name v e`: the entry a field or argument of that name and type gets. -/
inductive Reported (ts : List TypeDecl) (name : Str) : VarType → BigEntry → Prop
  | scalar (v : VarType) : ReadsBig v.expr → Reported ts name v (.name name)
  | list (e : Str) (el : VarType) : ¬ ReadsBig e → ReadsBig el.expr →
      Reported ts name (.list e el) (.name (name ++ S "[]"))
  | struct (e n : Str) (p : Ptr) (t : TypeDecl) : ¬ ReadsBig e → Declares ts p t → HasBig ts t →
      Reported ts name (.struct e n p) (.pair name n)
  | structs (e e' n : Str) (p : Ptr) (t : TypeDecl) : ¬ ReadsBig e' → ¬ ReadsBig e → Declares ts p t → HasBig ts t →
      Reported ts name (.list e' (.struct e n p)) (.pair name (n ++ S "[]"))

/-- The entries of a list of fields or arguments, in order. -/
inductive Entries (ts : List TypeDecl) : List (Str × VarType) → List BigEntry → Prop
  | nil : Entries ts [] []
  | hit (name : Str) (v : VarType) (r : List (Str × VarType)) (e : BigEntry) (es : List BigEntry) :
      Reported ts name v e → Entries ts r es → Entries ts ((name, v) :: r) (e :: es)
  | miss (name : Str) (v : VarType) (r : List (Str × VarType)) (es : List BigEntry) :
      (∀ e, ¬ Reported ts name v e) → Entries ts r es → Entries ts ((name, v) :: r) es

/-- The groups of named types that are looked at: the fields of a struct, and the inputs and outputs of a
method that is not succinct, under the names of the request and response types. -/
inductive Source (s : Schema) (compat : Bool) : Str → List (Str × VarType) → Prop
  | struct (t : TypeDecl) : t ∈ s.types → t.kind = S "struct" →
      Source s compat t.name (t.fields.filterMap fun f => f.type.map (f.name, ·))
  | request (v : Service) (m : Method) : v ∈ s.services → m ∈ v.methods → m.succinct = false →
      Source s compat (m.name ++ if compat then S "Args" else S "Request")
        (m.inputs.filterMap fun a => a.type.map (a.name, ·))
  | response (v : Service) (m : Method) : v ∈ s.services → m ∈ v.methods → m.succinct = false →
      Source s compat (m.name ++ if compat then S "Return" else S "Response")
        (m.outputs.filterMap fun a => a.type.map (a.name, ·))

/-- A name stands for one group only. -/
def Unambiguous (s : Schema) (compat : Bool) : Prop :=
  ∀ k vs vs', Source s compat k vs → Source s compat k vs' → vs = vs'

/-- Type names are distinct. -/
def OneTypePerName (ts : List TypeDecl) : Prop := ∀ t ∈ ts, ∀ u ∈ ts, t.name = u.name → t = u

end Verif.Spec
