import Verif.Spec.Ts
/-!
# What `JsonDecode` may change
-/

namespace Verif.TsSpec
open Verif.Schema hiding Json Method
open Verif.Json Verif.Gen Verif.Ts

/-- The second value is the first one in which some texts were replaced by the bigints they denote. -/
inductive Revived : Js → Js → Prop
  | same (v) : Revived v v
  | big {s n} : bigInt s = some n → Revived (.str s) (.big n)
  | arr {l l' : List Js} : l.length = l'.length → (∀ (i : Nat) v v', l[i]? = some v → l'[i]? = some v' → Revived v v') → Revived (.arr l) (.arr l')
  | obj {l l' : List (Str × Js)} : l.map (·.1) = l'.map (·.1) →
      (∀ (i : Nat) p p', l[i]? = some p → l'[i]? = some p' → Revived p.2 p'.2) → Revived (.obj l) (.obj l')

/-- The text is somewhere in the value. -/
inductive Contains : Js → Str → Prop
  | here (s) : Contains (.str s) s
  | elem {l v s} : v ∈ l → Contains v s → Contains (.arr l) s
  | member {l p s} : p ∈ l → Contains p.2 s → Contains (.obj l) s

end Verif.TsSpec
