import Verif.Ridl.ParserCore
/-!
# Model of the template functions for first letters

Models `firstLetterToLower` and `firstLetterToUpper` of `/repo/gen/funcmap.go` and `replaceAll`'s standard function.
They slice bytes, so their results are given as bytes.
-/

namespace Verif.Gen
open Verif.Ridl (bytes utf8)

/-- `strings.ToLower` of a one-byte string: a byte that is not ASCII is malformed UTF-8, which `strings.Map` replaces by
U+FFFD. -/
def lowerByte (b : Nat) : List Nat :=
  if 128 ≤ b then utf8 '\uFFFD' else [if 65 ≤ b ∧ b ≤ 90 then b + 32 else b]

/-- `strings.ToUpper` of a one-byte string. -/
def upperByte (b : Nat) : List Nat :=
  if 128 ≤ b then utf8 '\uFFFD' else [if 97 ≤ b ∧ b ≤ 122 then b - 32 else b]

/-- `firstLetterToLower`, funcmap.go:67-72. -/
def firstLetterToLower (input : List Char) : List Nat :=
  match bytes input with
  | [] => []
  | b :: r => lowerByte b ++ r

/-- `firstLetterToUpper`, funcmap.go:73-78. -/
def firstLetterToUpper (input : List Char) : List Nat :=
  match bytes input with
  | [] => []
  | b :: r => upperByte b ++ r

end Verif.Gen
