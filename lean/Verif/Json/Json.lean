import Verif.Gen.Strings
/-!
# Model of Go's `encoding/json`

The Go library is outside /repo; what schema files and RPC messages need of it is modelled here: values, the encoder
(`Marshal`, and `Encoder` with `SetIndent("", " ")` and `SetEscapeHTML(false)`, /repo/schema/schema.go:107-119) and
the decoder's syntax.  Numbers are kept as their text, and string values as the text between the quotes (with its
escapes: `cook` undoes them), because `UnmarshalJSON` methods see that text.  Strings are sequences of Unicode scalar values (invalid
UTF-8, which Go replaces by U+FFFD, is outside the model).
-/

namespace Verif.Json
open Verif.Schema

/-- JSON values. -/
inductive Json
  | null
  | bool (b : Bool)
  | num (text : Str)
  | str (raw : Str)
  | arr (l : List Json)
  | obj (l : List (Str × Json))

/-- How to print: indented by one blank per level, or compact; with `<`, `>`, `&` escaped or not. -/
structure Style where
  indent : Bool
  html : Bool

/-- A hexadecimal digit, as the encoder writes it. -/
def hexDigit (n : Nat) : Char := "0123456789abcdef".toList.getD n '0'

/-- Four hexadecimal digits. -/
def hex4 (n : Nat) : Str := [hexDigit (n / 4096 % 16), hexDigit (n / 256 % 16), hexDigit (n / 16 % 16), hexDigit (n % 16)]

/-- One character of a string, `appendString` of encoding/json. -/
def escChar (html : Bool) (c : Char) : Str :=
  if c = '"' then ['\\', '"']
  else if c = '\\' then ['\\', '\\']
  else if c = '\x08' then ['\\', 'b']
  else if c = '\x0c' then ['\\', 'f']
  else if c = '\n' then ['\\', 'n']
  else if c = '\r' then ['\\', 'r']
  else if c = '\t' then ['\\', 't']
  else if c.toNat < 0x20 ∨ (html = true ∧ (c = '<' ∨ c = '>' ∨ c = '&')) ∨ c.toNat = 0x2028 ∨ c.toNat = 0x2029 then
    '\\' :: 'u' :: hex4 c.toNat
  else [c]

/-- A string as it is written between the quotes. -/
def escape (html : Bool) (s : Str) : Str := s.flatMap (escChar html)

/-- A string with its quotes. -/
def quote (html : Bool) (s : Str) : Str := '"' :: (s.flatMap (escChar html) ++ ['"'])

/-- The JSON value of a Go string. -/
def Json.ofStr (html : Bool) (s : Str) : Json := .str (escape html s)

/-- A new line at depth `d`. -/
def nl (st : Style) (d : Nat) : Str := if st.indent then '\n' :: List.replicate d ' ' else []

/-- The colon. -/
def colon (st : Style) : Str := if st.indent then [':', ' '] else [':']

mutual
/-- A value at depth `d`. -/
def print (st : Style) (d : Nat) : Json → Str
  | .null => S "null"
  | .bool true => S "true"
  | .bool false => S "false"
  | .num t => t
  | .str raw => '"' :: (raw ++ ['"'])
  | .arr [] => S "[]"
  | .arr (j :: l) => '[' :: (nl st (d + 1) ++ print st (d + 1) j ++ printElems st d l)
  | .obj [] => S "{}"
  | .obj ((k, j) :: l) =>
    '{' :: (nl st (d + 1) ++ quote st.html k ++ colon st ++ print st (d + 1) j ++ printMembers st d l)

/-- The remaining elements of an array. -/
def printElems (st : Style) (d : Nat) : List Json → Str
  | [] => nl st d ++ [']']
  | j :: l => ',' :: (nl st (d + 1) ++ print st (d + 1) j ++ printElems st d l)

/-- The remaining members of an object. -/
def printMembers (st : Style) (d : Nat) : List (Str × Json) → Str
  | [] => nl st d ++ ['}']
  | (k, j) :: l =>
    ',' :: (nl st (d + 1) ++ quote st.html k ++ colon st ++ print st (d + 1) j ++ printMembers st d l)
end

/-! ### The decoder -/

/-- White space between tokens. -/
def isWs (c : Char) : Bool := c == ' ' || c == '\n' || c == '\t' || c == '\r'

/-- Skip white space. -/
def skipWs (s : Str) : Str := s.dropWhile isWs

/-- The value of a hexadecimal digit. -/
def hexVal (c : Char) : Option Nat :=
  if '0' ≤ c ∧ c ≤ '9' then some (c.toNat - '0'.toNat)
  else if 'a' ≤ c ∧ c ≤ 'f' then some (c.toNat - 'a'.toNat + 10)
  else if 'A' ≤ c ∧ c ≤ 'F' then some (c.toNat - 'A'.toNat + 10)
  else none

/-- Four hexadecimal digits (`getu4`). -/
def hexVal4 (a b c d : Char) : Option Nat :=
  match hexVal a, hexVal b, hexVal c, hexVal d with
  | some a, some b, some c, some d => some (((a * 16 + b) * 16 + c) * 16 + d)
  | _, _, _, _ => none

/-- The second half of a surrogate pair, if one follows. -/
def lowSurrogate : Str → Option (Nat × Str)
  | '\\' :: 'u' :: a :: b :: c :: d :: r =>
    match hexVal4 a b c d with
    | some n => if 0xDC00 ≤ n ∧ n < 0xE000 then some (n, r) else none
    | none => none
  | _ => none

/-- The character escaped by one letter. -/
def simpleEsc (c : Char) : Option Char :=
  if c = '"' then some '"' else if c = '\\' then some '\\' else if c = '/' then some '/'
  else if c = 'b' then some '\x08' else if c = 'f' then some '\x0c' else if c = 'n' then some '\n'
  else if c = 'r' then some '\r' else if c = 't' then some '\t' else none

/-- After `\u`. -/
def uEsc : Str → Option (Char × Str)
  | a :: b :: c :: d :: r =>
    match hexVal4 a b c d with
    | none => none
    | some n =>
      if 0xD800 ≤ n ∧ n < 0xE000 then
        if n < 0xDC00 then
          match lowSurrogate r with
          | some (m, r') => some (Char.ofNat ((n - 0xD800) * 1024 + (m - 0xDC00) + 0x10000), r')
          | none => some ('\uFFFD', r)
        else some ('\uFFFD', r)
      else some (Char.ofNat n, r)
  | _ => none

/-- One character of a string, `unquoteBytes` of encoding/json (`s` is not empty and begins with `c`). -/
def unesc (c : Char) (r : Str) : Option (Char × Str) :=
  if c = '\\' then
    match r with
    | [] => none
    | e :: r => if e = 'u' then uEsc r else (simpleEsc e).map fun x => (x, r)
  else if c.toNat < 0x20 then none
  else some (c, r)

/-- A string after its opening quote. -/
def parseStr : Nat → Str → Option (Str × Str)
  | 0, _ => none
  | _ + 1, [] => none
  | n + 1, c :: r =>
    if c = '"' then some ([], r)
    else match unesc c r with
      | none => none
      | some (x, r') => match parseStr n r' with
        | none => none
        | some (s, r'') => some (x :: s, r'')

/-- The Go string denoted by the text between two quotes. -/
def cook (raw : Str) : Option Str :=
  match parseStr (raw.length + 2) (raw ++ ['"']) with
  | some (s, []) => some s
  | _ => none

/-- A decimal digit. -/
def isDigit (c : Char) : Bool := decide ('0' ≤ c ∧ c ≤ '9')

/-- The digits of the integer part: no leading zero. -/
def parseIntPart (s : Str) : Option (Str × Str) :=
  match s with
  | '0' :: r => some (['0'], r)
  | c :: _ => if isDigit c then some (s.takeWhile isDigit, s.dropWhile isDigit) else none
  | [] => none

/-- The fraction, if there is one. -/
def parseFrac (s : Str) : Option (Str × Str) :=
  match s with
  | '.' :: r => if r.takeWhile isDigit = [] then none else some ('.' :: r.takeWhile isDigit, r.dropWhile isDigit)
  | _ => some ([], s)

/-- The sign of the exponent. -/
def expSign (s : Str) : Str × Str :=
  match s with
  | '+' :: r => (['+'], r)
  | '-' :: r => (['-'], r)
  | _ => ([], s)

/-- The exponent, if there is one. -/
def parseExp (s : Str) : Option (Str × Str) :=
  match s with
  | e :: r =>
    if e = 'e' ∨ e = 'E' then
      if (expSign r).2.takeWhile isDigit = [] then none
      else some (e :: ((expSign r).1 ++ (expSign r).2.takeWhile isDigit), (expSign r).2.dropWhile isDigit)
    else some ([], s)
  | [] => some ([], s)

/-- A number without its sign. -/
def parseNat (s : Str) : Option (Str × Str) :=
  match parseIntPart s with
  | none => none
  | some (a, r) => match parseFrac r with
    | none => none
    | some (b, r) => match parseExp r with
      | none => none
      | some (c, r) => some (a ++ b ++ c, r)

/-- A number. -/
def parseNum (s : Str) : Option (Str × Str) :=
  match s with
  | '-' :: r => (parseNat r).map fun x => ('-' :: x.1, x.2)
  | _ => parseNat s

/-- A fixed word. -/
def parseWord (w : Str) (j : Json) (s : Str) : Option (Json × Str) :=
  if w.isPrefixOf s then some (j, s.drop w.length) else none

mutual
/-- A value; white space may precede it. -/
def parseVal : Nat → Str → Option (Json × Str)
  | 0, _ => none
  | n + 1, s =>
    match skipWs s with
    | [] => none
    | c :: r =>
      if c = '"' then (parseStr (r.length + 1) r).map fun x => (.str (r.take (r.length - x.2.length - 1)), x.2)
      else if c = '[' then
        match skipWs r with
        | ']' :: r => some (.arr [], r)
        | _ => (parseElems n r).map fun x => (.arr x.1, x.2)
      else if c = '{' then
        match skipWs r with
        | '}' :: r => some (.obj [], r)
        | _ => (parseMembers n r).map fun x => (.obj x.1, x.2)
      else if c = 'n' then parseWord (S "null") .null (c :: r)
      else if c = 't' then parseWord (S "true") (.bool true) (c :: r)
      else if c = 'f' then parseWord (S "false") (.bool false) (c :: r)
      else (parseNum (c :: r)).map fun x => (.num x.1, x.2)

/-- The elements of an array, up to its end. -/
def parseElems : Nat → Str → Option (List Json × Str)
  | 0, _ => none
  | n + 1, s => match parseVal n s with
    | none => none
    | some (j, r) => match skipWs r with
      | ',' :: r => (parseElems n r).map fun x => (j :: x.1, x.2)
      | ']' :: r => some ([j], r)
      | _ => none

/-- The members of an object, up to its end. -/
def parseMembers : Nat → Str → Option (List (Str × Json) × Str)
  | 0, _ => none
  | n + 1, s => match skipWs s with
    | '"' :: r => match parseStr (r.length + 1) r with
      | none => none
      | some (k, r) => match skipWs r with
        | ':' :: r => match parseVal n r with
          | none => none
          | some (j, r) => match skipWs r with
            | ',' :: r => (parseMembers n r).map fun x => ((k, j) :: x.1, x.2)
            | '}' :: r => some ([(k, j)], r)
            | _ => none
        | _ => none
    | _ => none
end

/-- A whole text: one value, with white space around it. -/
def parse (s : Str) : Option Json :=
  match parseVal (2 * s.length + 2) s with
  | some (j, r) => if skipWs r = [] then some j else none
  | none => none

end Verif.Json
