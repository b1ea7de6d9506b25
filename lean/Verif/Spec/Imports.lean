import Verif.Compile.Compile
import Verif.Spec.Graphs
/-!
# What a set of RIDL files means

A description of compilation without import cache, import graph or bounds: the schema of a file is
obtained from the schemas of the files it imports.
-/

namespace Verif.Spec
open Verif.Schema Verif.Compile
open Verif.Ridl (Node ImportNode)

/-- File `a` can be read and imports file `b`. -/
def Imports (fs : Files) (a b : Str) : Prop :=
  ∃ ns, readNodes fs a = .ok ns ∧ ∃ n ∈ imports ns, b = importPath a n

/-- Merge the schemas of the imports one after the other. -/
def mergeAll (s : Schema) (ps : List (ImportNode × Schema)) : Schema :=
  ps.foldl (fun s p => takeImport s p.2 (p.1.members.map (·.val))) s

/-- `Compiled fs path s`: the file `path` has the schema `s`: read the file, take its header, merge the
schemas of all imported files in order, add the declarations, validate. -/
inductive Compiled [GoUnicode] (fs : Files) : Str → Schema → Prop
  | intro {path : Str} {ns : List Node} {s0 s1 s : Schema} {ps : List (ImportNode × Schema)} :
      readNodes fs path = .ok ns →
      foldRes applyDef {} (definitions ns) = .ok s0 →
      ps.map Prod.fst = imports ns →
      (∀ p ∈ ps, Compiled fs (importPath path p.1) p.2) →
      declare path ns (mergeAll s0 ps) = .ok s1 →
      validate s1 = .ok s →
      Compiled fs path s

end Verif.Spec
