import Verif.Rpc.Services
import Verif.Schema.BigInt
/-!
# Model of the JavaScript that generated TypeScript relies on

Values, property access, `JSON.parse`, `JSON.stringify` and `BigInt`, as the code in
`/repo/_examples/webrpc-streaming/webapp/src/rpc.gen.ts`, `/repo/_examples/node-ts/webapp/client.gen.ts` and
`/repo/_examples/node-ts/server/server.gen.ts` uses them.  The language is outside /repo; this is the part of ECMAScript
the models of these files stand on.

Simplifications: a string is a list of Unicode scalar values (JavaScript keeps lone surrogates, which are U+FFFD here); a
number is given by its text `String(n)`, so that 0 and -0 are the same; objects are trees without sharing, with the
members in the order of their insertion; of the prototypes nothing is visible (the generated code asks for no property
that `Object.prototype` has, except `hasOwnProperty`).
-/

namespace Verif.Ts
open Verif.Schema hiding Json Method
open Verif.Json Verif.Gen
open Verif.Compile (mapSet)

/-- A JavaScript value. -/
inductive Js
  | undefined
  | null
  | bool (b : Bool)
  /-- the number `n` with `String(n) = text` -/
  | num (text : Str)
  | str (s : Str)
  | big (n : Int)
  | arr (l : List Js)
  | obj (l : List (Str × Js))

/-- What depends on the engine: how numbers are rounded, and the messages of built-in errors. -/
class JsEngine where
  /-- `String(Number(t))` for a JSON number `t` -/
  canon : Str → Str
  /-- integers that a double holds exactly are written as they are -/
  canon_int : ∀ i : Int, i.natAbs ≤ 2 ^ 53 → canon (intText i) = intText i
  /-- the text of a number is a JSON number again, or Infinity -/
  canon_num : ∀ t, NumText t → NumText (canon t) ∨ canon t = S "Infinity" ∨ canon t = S "-Infinity"
  canon_idem : ∀ t, NumText t → canon (canon t) = canon t
  /-- the message of the error that `JSON.parse` throws -/
  syntaxError : Str → Str
  /-- the message of the error for a property of null or undefined -/
  typeError : Str → Str

/-! ### JSON -/

mutual
/-- The value of a JSON text.  (A string that comes from a text can always be unescaped.) -/
def ofJson [JsEngine] : Json → Js
  | .null => .null
  | .bool b => .bool b
  | .num t => .num (JsEngine.canon t)
  | .str raw => .str ((cook raw).getD [])
  | .arr l => .arr (ofElems l)
  | .obj l => .obj (ofMembers [] l)

/-- The elements of an array. -/
def ofElems [JsEngine] : List Json → List Js
  | [] => []
  | j :: l => ofJson j :: ofElems l

/-- The members of an object: the last value of a name counts. -/
def ofMembers [JsEngine] : List (Str × Js) → List (Str × Json) → List (Str × Js)
  | acc, [] => acc
  | acc, (k, j) :: l => ofMembers (mapSet k (ofJson j) acc) l
end

/-- `JSON.parse`; `none`: it throws a `SyntaxError`. -/
def jsonParse [JsEngine] (text : Str) : Option Js := (parse text).map ofJson

/-- Is it one of the numbers JSON does not have? -/
def notFinite (t : Str) : Bool := t == S "NaN" || t == S "Infinity" || t == S "-Infinity"

mutual
/-- Is there a bigint in it?  (`JSON.stringify` throws then.) -/
def hasBig : Js → Bool
  | .big _ => true
  | .arr l => hasBigElem l
  | .obj l => hasBigMember l
  | _ => false

/-- Among the elements. -/
def hasBigElem : List Js → Bool
  | [] => false
  | v :: l => hasBig v || hasBigElem l

/-- Among the members. -/
def hasBigMember : List (Str × Js) → Bool
  | [] => false
  | (_, v) :: l => hasBig v || hasBigMember l
end

mutual
/-- The JSON value of a value, with the replacer of client.gen.ts:252-256 for bigints; `none`: there is none. -/
def toJson : Js → Option Json
  | .undefined => none
  | .null => some .null
  | .bool b => some (.bool b)
  | .num t => some (if notFinite t then .null else .num t)
  | .str s => some (.ofStr false s)
  | .big n => some (.ofStr false (intText n))
  | .arr l => some (.arr (toElems l))
  | .obj l => some (.obj (toMembers l))

/-- The elements of an array: `null` for undefined. -/
def toElems : List Js → List Json
  | [] => []
  | v :: l => (toJson v).getD .null :: toElems l

/-- The members of an object: undefined ones are left out. -/
def toMembers : List (Str × Js) → List (Str × Json)
  | [] => []
  | (k, v) :: l => match toJson v with
    | none => toMembers l
    | some j => (k, j) :: toMembers l
end

/-- The text of a JSON value, as `JSON.stringify` writes it.  (It does not escape U+2028 and U+2029, which the printer
escapes: both denote the same string.) -/
def stringify (v : Js) : Option Str := (toJson v).map (print ⟨false, false⟩ 0)

/-! ### Operators -/

/-- Does the value count as true? -/
def truthy : Js → Bool
  | .undefined => false
  | .null => false
  | .bool b => b
  | .num t => !(t == S "0" || t == S "NaN")
  | .str s => !s.isEmpty
  | .big n => n != 0
  | .arr _ => true
  | .obj _ => true

/-- `a || b`. -/
def orElse (a b : Js) : Js := if truthy a then a else b

/-- `typeof v` -/
def typeOf : Js → Str
  | .undefined => S "undefined"
  | .null => S "object"
  | .bool _ => S "boolean"
  | .num _ => S "number"
  | .str _ => S "string"
  | .big _ => S "bigint"
  | .arr _ => S "object"
  | .obj _ => S "object"

/-- `v.key` for a value that is not null or undefined. -/
def member (key : Str) : Js → Js
  | .obj l => (l.lookup key).getD .undefined
  | _ => .undefined

/-- Is it null or undefined? -/
def nullish : Js → Bool
  | .undefined => true
  | .null => true
  | _ => false

/-! ### `BigInt(string)` -/

/-- JavaScript's white space and line terminators. -/
def jsSpace (c : Char) : Bool :=
  let n := c.toNat
  decide (9 ≤ n ∧ n ≤ 13) || n == 32 || n == 0xA0 || n == 0x1680 || decide (0x2000 ≤ n ∧ n ≤ 0x200A) || n == 0x2028 ||
    n == 0x2029 || n == 0x202F || n == 0x205F || n == 0x3000 || n == 0xFEFF

/-- Without the white space around it. -/
def jsTrim (s : Str) : Str := ((s.dropWhile jsSpace).reverse.dropWhile jsSpace).reverse

/-- The number written with the digits `s` in base `b`. -/
def digitsVal (b : Nat) : Nat → Str → Option Nat
  | n, [] => some n
  | n, c :: r => match hexVal c with
    | none => none
    | some d => if d < b then digitsVal b (n * b + d) r else none

/-- At least one digit. -/
def digits (b : Nat) (s : Str) : Option Nat := if s = [] then none else digitsVal b 0 s

/-- `BigInt(s)`; `none`: it throws a `SyntaxError`. -/
def bigInt (s : Str) : Option Int :=
  match jsTrim s with
  | [] => some 0
  | '0' :: 'x' :: r => (digits 16 r).map Int.ofNat
  | '0' :: 'X' :: r => (digits 16 r).map Int.ofNat
  | '0' :: 'o' :: r => (digits 8 r).map Int.ofNat
  | '0' :: 'O' :: r => (digits 8 r).map Int.ofNat
  | '0' :: 'b' :: r => (digits 2 r).map Int.ofNat
  | '0' :: 'B' :: r => (digits 2 r).map Int.ofNat
  | '+' :: r => (digits 10 r).map Int.ofNat
  | '-' :: r => (digits 10 r).map fun n => -Int.ofNat n
  | r => (digits 10 r).map Int.ofNat

end Verif.Ts
