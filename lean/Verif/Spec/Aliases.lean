import Verif.Spec.TypeExpr
import Verif.Spec.Graphs

/-!
# Following aliases

What it means to follow the definitions of aliases, as a reader (or generated code) does.
-/

namespace Verif.Spec
open Verif.Schema

/-- The definition of `t` is nothing but the name of the declared type `u`. -/
def StandsFor (ts : List TypeDecl) (t u : TypeDecl) : Prop :=
  u ∈ ts ∧ ∃ e n, t.type = some (.alias e n u.ptr)

/-- Following definitions from `t` ends in the type `v`, which is not an alias. -/
inductive EndsIn (ts : List TypeDecl) : TypeDecl → VarType → Prop
  | here {t v} : t.type = some v → (∀ e n p, v ≠ .alias e n p) → EndsIn ts t v
  | step {t u v} : StandsFor ts t u → EndsIn ts u v → EndsIn ts t v

end Verif.Spec
