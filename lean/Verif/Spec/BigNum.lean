import Verif.Rpc.BigNum
/-!
# What texts mean as big integers
-/

namespace Verif.RpcSpec
open Verif.Schema hiding Json Method
open Verif.Rpc

/-- The value of a text of decimal digits. -/
def natOf (t : Str) : Nat := t.foldl (fun a c => 10 * a + (c.toNat - '0'.toNat)) 0

/-- `t` is the integer `i` in decimal: an optional sign, then one or more digits (leading zeros are allowed). -/
inductive IntegerText : Str → Int → Prop
  | plain {ds : Str} : ds ≠ [] → (∀ c ∈ ds, c ∈ "0123456789".toList) → IntegerText ds (natOf ds)
  | plus {ds : Str} : ds ≠ [] → (∀ c ∈ ds, c ∈ "0123456789".toList) → IntegerText ('+' :: ds) (natOf ds)
  | minus {ds : Str} : ds ≠ [] → (∀ c ∈ ds, c ∈ "0123456789".toList) → IntegerText ('-' :: ds) (-(natOf ds : Int))

/-- The JSON texts for `i`: a number without fraction and exponent, or a string holding an integer. -/
def BigJson (text : Str) (i : Int) : Prop :=
  (IntegerText text i ∧ text.head? ≠ some '+') ∨ ∃ d, text = '"' :: (d ++ ['"']) ∧ IntegerText d i

/-- The database texts for `i`: an integer, or an integer and a power of ten. -/
def BigColumn (text : Str) (i : Int) : Prop :=
  IntegerText text i ∨
    ∃ a x n, ∃ k : Nat, text = a ++ 'e' :: x ∧ IntegerText a n ∧ IntegerText x k ∧ i = n * 10 ^ k

end Verif.RpcSpec
