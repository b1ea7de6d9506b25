import Verif.Rpc.TestCommand
import Verif.Spec.Cli
import Verif.Spec.TestSuite
/-!
# What the command webrpc-test is asked to do
-/

namespace Verif.TestCmd
open Verif.Schema (Str S)
open Verif.Spec (Dashes BoolText)
open Verif.Spec (LastPair)

/-- `Written d n v a`: the argument `a` is `-n` or `-n=v`, also with two dashes. -/
def Written (n : Str) (v : Option Str) (a : Str) : Prop :=
  n ≠ [] ∧ n.head? ≠ some '-' ∧ '=' ∉ n ∧ ∃ d, Dashes d ∧ match v with
    | none => a = d ++ n
    | some v => a = d ++ n ++ S "=" ++ v

/-- An argument that is not a flag, after which no flags are looked for: `-`, `--`, or one without a dash. -/
def NotFlag (a : Str) : Prop := a = S "-" ∨ a = S "--" ∨ a.head? ≠ some '-'

/-- `Options fs args sets`: the arguments set these flags, in this order; what follows an argument that is not a flag is
ignored. -/
inductive Options (fs : List (Str × Kind)) : List Str → List (Str × Str) → Prop
  | nil : Options fs [] []
  | stop {a : Str} {r : List Str} : NotFlag a → Options fs (a :: r) []
  | on {a n : Str} {r : List Str} {s : List (Str × Str)} : Written n none a → fs.lookup n = some .switch →
      Options fs r s → Options fs (a :: r) ((n, S "true") :: s)
  | switch {a n v : Str} {b : Bool} {r : List Str} {s : List (Str × Str)} : Written n (some v) a →
      fs.lookup n = some .switch → BoolText v b → Options fs r s → Options fs (a :: r) ((n, v) :: s)
  | value {a n v : Str} {p : Str → Bool} {r : List Str} {s : List (Str × Str)} : Written n (some v) a →
      fs.lookup n = some (.value p) → p v = true → Options fs r s → Options fs (a :: r) ((n, v) :: s)
  | next {a n v : Str} {p : Str → Bool} {r : List Str} {s : List (Str × Str)} : Written n none a →
      fs.lookup n = some (.value p) → p v = true → Options fs r s → Options fs (a :: v :: r) ((n, v) :: s)

/-- `Helps fs args`: after flags that can be set comes `-h` or `-help`. -/
inductive Helps (fs : List (Str × Kind)) : List Str → Prop
  | here {a n : Str} {v : Option Str} {r : List Str} : Written n v a → fs.lookup n = none → n = S "h" ∨ n = S "help" →
      Helps fs (a :: r)
  | on {a n : Str} {r : List Str} : Written n none a → fs.lookup n = some .switch → Helps fs r → Helps fs (a :: r)
  | switch {a n v : Str} {b : Bool} {r : List Str} : Written n (some v) a → fs.lookup n = some .switch → BoolText v b →
      Helps fs r → Helps fs (a :: r)
  | value {a n v : Str} {p : Str → Bool} {r : List Str} : Written n (some v) a → fs.lookup n = some (.value p) →
      p v = true → Helps fs r → Helps fs (a :: r)
  | next {a n v : Str} {p : Str → Bool} {r : List Str} : Written n none a → fs.lookup n = some (.value p) → p v = true →
      Helps fs r → Helps fs (a :: v :: r)

/-- The value of a flag: the last one given, or its default. -/
def Value (sets : List (Str × Str)) (n dflt v : Str) : Prop :=
  LastPair sets n v ∨ ((∀ w, (n, w) ∉ sets) ∧ v = dflt)

/-- What the first argument asks for. -/
inductive Mode
  | version
  | ridl
  | json
  | client
  | server
  | wait
deriving DecidableEq

/-- The flags for it. -/
def Mode.flags : Mode → List Str
  | .version => [S "version"]
  | .ridl => [S "printRIDL", S "print-schema"]
  | .json => [S "printJSON"]
  | .client => [S "client"]
  | .server => [S "server"]
  | .wait => [S "waitForServer"]

/-- The first argument switches on a flag of this mode. -/
def Picks (args : List Str) (m : Mode) : Prop :=
  ∃ a r n, args = a :: r ∧ n ∈ m.flags ∧ (Written n none a ∨ ∃ v, Written n (some v) a ∧ BoolText v true)

/-! ### Waiting -/

/-- The calls made by `Wait`, at these times: each one fails or is cut off by the deadline, and the next one starts 100 ms
later. -/
inductive Failing (limit : Nat) (srv : Answers) : List Nat → Nat → Prop
  | first : Failing limit srv [] 0
  | next {l : List Nat} {t : Nat} : Failing limit srv l t → t < limit → t + (srv t).1 < limit → (srv t).2 = false →
      Failing limit srv (l ++ [t]) (t + (srv t).1 + 100)

end Verif.TestCmd
