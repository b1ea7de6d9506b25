import Verif.Spec.JsonSchema
import Verif.Rpc.Errors
/-!
# What a JSON value says as an error

Independent of the decoder: what the members of the body of an answer say about an error.
-/

namespace Verif.JsonSpec
open Verif.Schema hiding Json
open Verif.Json Verif.RpcSpec Verif.Rpc

/-- The members for `k` are all readable, and the last one that is not null says `x`; without one, `x` is `zero`. -/
def LastSays {α : Type} (l : List (Str × Json)) (k : Str) (R : Json → α → Prop) (zero x : α) : Prop :=
  (∀ p ∈ l, SameKey p.1 k → p.2 = .null ∨ ∃ y, R p.2 y) ∧
  ((∃ before key j after, l = before ++ (key, j) :: after ∧ SameKey key k ∧ j ≠ .null ∧ R j x ∧
      ∀ p ∈ after, SameKey p.1 k → p.2 = .null) ∨
    (x = zero ∧ ∀ p ∈ l, SameKey p.1 k → p.2 = .null))

/-- An error as JSON: its name, number, message, cause and status. -/
inductive IsWireError : Json → RpcError → Prop
  | null : IsWireError .null ⟨[], 0, [], [], 0⟩
  | obj {l : List (Str × Json)} {name message cause : Str} {code status : Int} :
      LastSays l (S "error") IsText [] name → LastSays l (S "code") IsInt 0 code → LastSays l (S "msg") IsText [] message →
      LastSays l (S "cause") IsText [] cause → LastSays l (S "status") IsInt 0 status →
      IsWireError (.obj l) ⟨name, code, message, cause, status⟩

end Verif.JsonSpec
