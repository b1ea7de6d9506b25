import Verif.Spec.Rpc
import Verif.Spec.Values
import Verif.Rpc.Services
/-!
# What users of generated services rely on
-/

namespace Verif.RpcSpec
open Verif.Schema hiding Json Method
open Verif.Json Verif.Gen Verif.Rpc Verif.Spec

/-- Arguments that JSON can carry: each one; or, for a succinct method, the struct. -/
def CarriedArgs [GoFloat] (d : Decls) : Shape → List GoVal → Prop
  | .list fs, vals => CarriedFields d fs vals
  | .whole n, vals => ∃ l, vals = [.struct l] ∧ CarriedFields d (d.fields n) l

/-- Results that JSON can carry: each one; or, for a succinct method, the pointer to the struct. -/
def CarriedResults [GoFloat] (d : Decls) : Shape → List GoVal → Prop
  | .list fs, vals => CarriedFields d fs vals
  | .whole n, vals => ∃ v, vals = [v] ∧ Carried d (.ref n) v

/-- The names of the arguments or results differ. -/
def Shape.Distinct : Shape → Prop
  | .list fs => (fs.filterMap (·.tag)).Pairwise (· ≠ ·)
  | .whole _ => True

/-- The hook lets a request through. -/
def Lets (hooks : Hooks) (r : Request) : Prop := ∀ f, hooks.onRequest = some f → f r = .ok none

/-- What becomes of an error in the error hook. -/
def seen (hooks : Hooks) (r : Request) (e : RpcError) : RpcError :=
  match hooks.onError with
  | none => e
  | some f => f r e

/-- An error that a response can carry to a client: a status for a response with a body and not 200, numbers that fit. -/
def Tellable (e : RpcError) : Prop :=
  Sendable e.httpStatus ∧ e.httpStatus ≠ 200 ∧ -(2 ^ 63) ≤ e.code ∧ e.code < 2 ^ 63

/-- Every call of an implementation while a request is served, with its arguments. -/
def served [GoFloat] (d : Decls) (v : ServiceCode) (effs : List Eff) : List (Str × List GoVal) :=
  (calls effs).map fun p => (p.1,
    match v.methods.find? (fun m => m.name = p.1) with
    | some m => (m.sig.args.readArgs d p.2).getD []
    | none => [])

/-- The paths of all methods of a package. -/
def paths (g : Package) : List Str := g.services.flatMap fun v => v.methods.map fun m => v.path ++ m.name

/-- No two methods of a package have the same path, no two services the same name. -/
structure Unambiguous (g : Package) : Prop where
  paths : (paths g).Pairwise (· ≠ ·)
  services : (g.services.map (·.name)).Pairwise (· ≠ ·)

/-- `m` is a method of the service `v` of a package, with this path and this public description. -/
def Offers (g : Package) (v : ServiceCode) (m : MethodCode) (path : Str) (i : MethodInfo) : Prop :=
  v ∈ g.services ∧ m ∈ v.methods ∧ path = v.path ++ m.name ∧ i.name = m.name ∧ i.service = v.name ∧ i.annotations = m.annotations

end Verif.RpcSpec
