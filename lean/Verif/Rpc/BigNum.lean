import Verif.Json.RoundTrip
import Verif.Gen.Funcs
/-!
# Model of big integers in generated Go code

Models the `BigInt` helpers of `/repo/_examples/node-ts/server-go/example.gen.go:681-821`.  A `big.Int` is an integer.
Texts are character sequences; the code looks at bytes, but only compares them with ASCII characters and tests lengths
against 0, 2 and 4 together with such comparisons.  What a failing function leaves in its receiver is the old value.
-/

namespace Verif.Rpc
open Verif.Schema hiding Json
open Verif.Json Verif.Gen
open Verif.Compile (decimal?)

/-- `(*big.Int).SetString(s, 10)`: an optional sign and at least one decimal digit, nothing else. -/
def setString10 (s : Str) : Option Int :=
  if unsigned s = [] then none
  else match decimal? 0 (unsigned s) with
    | none => none
    | some n => if s.head? = some '-' then some (-(n : Int)) else some (n : Int)

/-- `String`, example.gen.go:694: decimal. -/
def bigString (b : Int) : Str := intText b

/-- `MarshalText` and `MarshalJSON`, example.gen.go:697-699, 732-734: the quotes are part of the text. -/
def bigMarshal (b : Int) : Str := '"' :: (bigString b ++ ['"'])

/-- The characters that are refused anywhere, example.gen.go:709-713. -/
def bigSpace (c : Char) : Bool := c == ' ' || c == '\t' || c == '\n' || c == '\r'

/-- The part of the text that is to be a number, example.gen.go:714-722. -/
def bigDigits (text : Str) : Option Str :=
  match text with
  | [] => none
  | c :: r =>
    if c = '-' ∨ ('0' ≤ c ∧ c ≤ '9') then some text
    else if text.length < 2 ∨ c ≠ '"' ∨ r.getLast? ≠ some '"' then none
    else some r.dropLast

/-- `UnmarshalText`, example.gen.go:702-729, on a receiver with value `old`. -/
def bigUnmarshalText (old : Int) (text : Str) : Option Int :=
  if text = [] then some old
  else if text = S "null" then some old
  else if text.any bigSpace then none
  else match bigDigits text with
    | none => none
    | some digits => setString10 digits

/-- `UnmarshalJSON`, example.gen.go:737-742. -/
def bigUnmarshalJSON (old : Int) (text : Str) : Option Int :=
  if text = S "null" then some old else bigUnmarshalText old text

/-- `(*big.Int).Bytes`: the absolute value in base 256, most significant byte first, without leading zeros. -/
def bigBytes (n : Nat) : List Nat := if h : n = 0 then [] else bigBytes (n / 256) ++ [n % 256]
termination_by n
decreasing_by omega

/-- `(*big.Int).SetBytes`. -/
def ofBytes (l : List Nat) : Nat := l.foldl (fun n b => n * 256 + b) 0

/-- `MarshalBinary`, example.gen.go:746-758: a sign byte and the bytes. -/
def bigMarshalBinary (b : Int) : List Nat := (if b < 0 then 0xFF else 0x00) :: bigBytes b.natAbs

/-- `UnmarshalBinary`, example.gen.go:762-779. -/
def bigUnmarshalBinary (buff : List Nat) : Int :=
  match buff with
  | [] => 0
  | sign :: rest => if sign = 0xFF then -(ofBytes rest : Int) else (ofBytes rest : Int)

/-- `Value`, example.gen.go:781-783. -/
def bigValue (b : Int) : Str := bigString b

/-- What a database driver hands to `Scan`. -/
inductive ScanSrc
  | nil
  /-- a `string` or a `[]byte` -/
  | text (s : Str)
  | other

/-- `big.NewInt(1).Exp(big.NewInt(10), exp, nil)`: 1 for `exp ≤ 0` (math/big). -/
def bigExp10 (exp : Int) : Int := if exp ≤ 0 then 1 else 10 ^ exp.toNat

/-- `Scan`, example.gen.go:785-821, on a receiver with value `old`. -/
def bigScan (old : Int) : ScanSrc → Option Int
  | .nil => some old
  | .other => none
  | .text s =>
    match cut (S "e") s with
    | none => setString10 s
    | some (a, e) => match setString10 a with
      | none => none
      | some i => match setString10 e with
        | none => none
        | some exp => some (i * bigExp10 exp)

end Verif.Rpc
