import Verif.Rpc.Versions
/-!
# What the `Webrpc` header says

A list of parts separated by semicolons; the first three are `webrpc@VERSION`, `GENERATOR@VERSION` and
`SCHEMA@VERSION`.
-/

namespace Verif.Spec
open Verif.Schema (Str S)
open Verif.Rpc (GenVersions)

/-- The parts of a header are separated by semicolons: one without semicolon, or a first one and the rest. -/
inductive Parts : Str → List Str → Prop
  | last {p : Str} : ';' ∉ p → Parts p [p]
  | more {p h : Str} {ps : List Str} : ';' ∉ p → Parts h ps → Parts (p ++ ';' :: h) (p :: ps)

/-- A part is a name, an `@` and a version (all that follows the first `@`). -/
def Named (part name version : Str) : Prop := '@' ∉ name ∧ part = name ++ '@' :: version

/-- The header says these versions. -/
def Says (h : Str) (v : GenVersions) : Prop :=
  ∃ a b c rest tool, Parts h (a :: b :: c :: rest) ∧ Named a tool v.webrpcGen ∧ Named b v.codeGenName v.codeGen ∧
    Named c v.schemaName v.schema

/-- The header that tells these versions. -/
def header (v : GenVersions) : Str :=
  S "webrpc@" ++ v.webrpcGen ++ S ";" ++ v.codeGenName ++ S "@" ++ v.codeGen ++ S ";" ++ v.schemaName ++ S "@" ++ v.schema

/-- A version up to its first `@`. -/
def upTo (c : Char) (s : Str) : Str := s.takeWhile (· ≠ c)

end Verif.Spec
