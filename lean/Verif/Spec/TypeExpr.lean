import Verif.Schema.Types
/-!
# What a type expression is

The grammar of type expressions as a user writes them, independently of the parser, and what it
means for a parsed tree to stand for such an expression.
-/

namespace Verif.Spec
open Verif.Schema (Str S CoreType VarType TypeDecl)

/-- Names of the scalar core types. -/
def scalarNames : List (Str × CoreType) :=
  [ (S "null", .null), (S "any", .any), (S "byte", .byte), (S "bool", .bool),
    (S "uint", .uint), (S "uint8", .uint8), (S "uint16", .uint16), (S "uint32", .uint32),
    (S "uint64", .uint64), (S "int", .int), (S "int8", .int8), (S "int16", .int16),
    (S "int32", .int32), (S "int64", .int64), (S "bigint", .bigint), (S "float32", .float32),
    (S "float64", .float64), (S "string", .string), (S "timestamp", .timestamp) ]

/-- Words with a meaning of their own: scalar names, `map` and `[]`. -/
def reserved : List Str := scalarNames.map Prod.fst ++ [S "map", S "[]"]

/-- Core types allowed as map keys: strings and the integer types (not `bigint`). -/
def keyNames : List Str :=
  [S "string", S "uint", S "uint8", S "uint16", S "uint32", S "uint64",
   S "int", S "int8", S "int16", S "int32", S "int64"]

/-- A type expression. -/
inductive Ty
  | omitted
  | scalar (name : Str)
  | list (elem : Ty)
  | map (key : Str) (value : Ty)
  | named (name : Str)
deriving DecidableEq, Repr

/-- How a type expression is written. -/
def Ty.text : Ty → Str
  | .omitted => []
  | .scalar n => n
  | .list t => S "[]" ++ t.text
  | .map k v => S "map<" ++ k ++ S "," ++ v.text ++ S ">"
  | .named n => n

/-- Nothing is left out. -/
def Ty.Complete : Ty → Prop
  | .omitted => False
  | .list t => t.Complete
  | .map _ v => v.Complete
  | _ => True

/-- `n` can be told apart from the other forms of expression. -/
def Plain (n : Str) : Prop :=
  n ≠ [] ∧ n ∉ reserved ∧ ¬ S "[]" <+: n ∧ ¬ S "map<" <+: n

/-- `d` is the first declaration in `ts` satisfying `p`. -/
def FirstDecl (ts : List TypeDecl) (p : TypeDecl → Prop) (d : TypeDecl) : Prop :=
  ∃ l r, ts = l ++ d :: r ∧ p d ∧ ∀ x ∈ l, ¬ p x

/-- `vt` is the tree for the reference `n` to the declaration `d`: same name, the declaration's
kind, and a pointer to it. -/
def RefersTo (n : Str) (d : TypeDecl) (vt : VarType) : Prop :=
  (d.kind = S "struct" ∧ vt = .struct n n d.ptr) ∨
  (d.kind = S "enum" ∧ vt = .enum n n d.ptr) ∨
  (d.kind = S "alias" ∧ vt = .alias n n d.ptr)

/-- The key `k` of a map, and its tree: an allowed core type, or a name that ignoring case is that
of an enum or of an alias for an enum. -/
def KeyTree [Verif.Schema.GoUnicode] (ts : List TypeDecl) (k : Str) (vt : VarType) : Prop :=
  (k ∈ keyNames ∧ ∃ c, (k, c) ∈ scalarNames ∧ vt = .leaf k c) ∨
  (k ∉ reserved ∧ ∃ d,
    FirstDecl ts (fun d => Verif.Schema.toLower d.name = Verif.Schema.toLower k) d ∧
    (d.kind = S "enum" ∨ ∃ u, d.type = some u ∧ u.type = CoreType.enum) ∧
    vt = .enum k k d.ptr)

/-- `vt` is the parsed tree of the expression `t` under the declarations `ts`.  Each node carries
its own text. -/
inductive Denotes [Verif.Schema.GoUnicode] (ts : List TypeDecl) : Ty → VarType → Prop
  | omitted : Denotes ts .omitted (.leaf [] .unknown)
  | scalar {n c} : (n, c) ∈ scalarNames → Denotes ts (.scalar n) (.leaf n c)
  | list {t vt} : Denotes ts t vt → Denotes ts (.list t) (.list (Ty.list t).text vt)
  | map {k v kt vt} : ',' ∉ k → KeyTree ts k kt → Denotes ts v vt →
      Denotes ts (.map k v) (.map (Ty.map k v).text kt vt)
  | named {n d vt} : Plain n → FirstDecl ts (fun d => d.name = n) d → RefersTo n d vt →
      Denotes ts (.named n) vt

/-- The expression is well formed under the declarations: it has a tree. -/
def WellFormed [Verif.Schema.GoUnicode] (ts : List TypeDecl) (t : Ty) : Prop :=
  ∃ vt, Denotes ts t vt

/-- The tree has no unresolved part. -/
def _root_.Verif.Schema.VarType.Resolved : VarType → Prop
  | .leaf _ c => c ≠ .unknown
  | .list _ t => t.Resolved
  | .map _ _ v => v.Resolved
  | _ => True

end Verif.Spec
