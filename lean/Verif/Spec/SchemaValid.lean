import Verif.Schema.Validate
/-!
# Vocabulary for what a valid schema is
-/

namespace Verif.Spec
open Verif.Schema

/-- Equal ignoring case. -/
def SameName [GoUnicode] (a b : Str) : Prop := toLower a = toLower b

/-- The elements of the list have pairwise different names, ignoring case. -/
def DistinctNames [GoUnicode] (ns : List Str) : Prop := ns.Pairwise fun a b => ¬ SameName a b

/-- A letter followed by letters, digits and underscores. -/
def Identifier (n : Str) : Prop :=
  ∃ c cs, n = c :: cs ∧ (c.isAlpha = true) ∧ ∀ x ∈ cs, x.isAlphanum = true ∨ x = '_'

/-- The value of a `json` meta that renames the field: a string other than `-`. -/
def renames (m : Meta) : Option Str :=
  match m.lookup (S "json") with
  | some (.str v) => if v = S "-" then none else some v
  | _ => none

/-- The name of a field in JSON: the last renaming `json` meta, or the field name. -/
def jsonNameOf (f : Field) : Str := ((f.metas.filterMap renames).getLast?).getD f.name

/-- Integer core types. -/
def integerNames : List Str :=
  [S "uint", S "uint8", S "uint16", S "uint32", S "uint64",
   S "int", S "int8", S "int16", S "int32", S "int64"]

/-- No two entries of a list are the same object. -/
def DistinctObjects (ps : List Ptr) : Prop := ps.Nodup

/-- All types of struct fields and of method arguments. -/
def usedTypes (s : Schema) : List VarType :=
  (s.types.filter fun t => t.kind = S "struct").flatMap (fun t => t.fields.filterMap (·.type)) ++
  s.services.flatMap fun v => v.methods.flatMap fun m => (m.inputs ++ m.outputs).filterMap (·.type)

end Verif.Spec
