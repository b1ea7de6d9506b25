import Verif.Gen.Lists
/-!
# Lists as values
-/

namespace Verif.Spec
open Verif.Gen.Lists

/-- The list a step makes, if lists are values. -/
def made {α : Type} (sorted : List α → List α) (ls : List (List α)) : Op α → Option (List α)
  | .array xs => some xs
  | .append i xs => ls[i]?.map (· ++ xs)
  | .sort i => ls[i]?.map sorted

/-- All lists the steps make. -/
def lists {α : Type} (sorted : List α → List α) : List (List α) → List (Op α) → Option (List (List α))
  | ls, [] => some ls
  | ls, op :: ops => match made sorted ls op with
    | none => none
    | some l => lists sorted (ls ++ [l]) ops

/-- The list a step appends to. -/
def appendedTo {α : Type} : Op α → Option Nat
  | .append i _ => some i
  | _ => none

/-- No list is appended to twice. -/
def AppendOnce {α : Type} (ops : List (Op α)) : Prop := (ops.filterMap appendedTo).Nodup

end Verif.Spec
