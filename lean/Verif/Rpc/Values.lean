import Verif.Json.SchemaJson
import Verif.Rpc.BigNum
import Verif.Rpc.Tables
/-!
# Model of Go values in generated code and their JSON form

Generated servers and clients move values of generated Go types through `json.Marshal` and `json.Unmarshal`
(`serve*JSON` in `/repo/tests/server/server.gen.go:315-631`, the client methods in
`/repo/tests/client/client.gen.go:234-338`).  This file models the types that occur in the generated files in /repo
(struct declarations in `tests/server/server.gen.go:170-200`, `_examples/**/*.gen.go`), their values, and
`encoding/json` on them.

Not modelled: `time.Time` and `[]byte`/`[]uint8` (which `encoding/json` writes as base64; `decode` refuses both, and
`Spec.Carried` excludes the type).  Struct types only occur behind one pointer, as in generated code.  Struct tags are
ASCII.
-/

namespace Verif.Rpc
open Verif.Schema hiding Json Method
open Verif.Json Verif.Gen
open Verif.Compile (decimal?)

/-- Types of map keys. -/
inductive KeyType
  | string
  | int (bits : Nat)
  | uint (bits : Nat)
  | enum (name : Str)
deriving DecidableEq

/-- Go types in generated code; `int` is `int 64`. -/
inductive GoType
  | bool
  | int (bits : Nat)
  | uint (bits : Nat)
  | float (bits : Nat)
  | string
  /-- `BigInt` -/
  | big
  /-- `any` -/
  | any
  /-- a generated enum -/
  | enum (name : Str)
  /-- a pointer to a generated struct -/
  | ref (name : Str)
  | ptr (t : GoType)
  | list (t : GoType)
  | map (k : KeyType) (t : GoType)
deriving DecidableEq

/-- A struct field: its JSON name (`none`: the tag is `json:"-"`), `omitempty`, its type. -/
structure FieldDecl where
  tag : Option Str
  omitEmpty : Bool := false
  type : GoType

/-- The generated declarations: enums with their members (name and value; the tables of an enum are those of its
members, see `C59_tables`) and structs. -/
structure Decls where
  enums : List (Str × List (Str × Nat))
  structs : List (Str × List FieldDecl)

/-- The members of an enum. -/
def Decls.members (d : Decls) (name : Str) : List (Str × Nat) := (d.enums.lookup name).getD []

/-- The fields of a struct. -/
def Decls.fields (d : Decls) (name : Str) : List FieldDecl := (d.structs.lookup name).getD []

/-- Map keys. -/
inductive Key
  | str (s : Str)
  | int (i : Int)
  | enum (n : Nat)
deriving DecidableEq

/-- Go values.  A floating point number is given by the text `encoding/json` writes for it.  A map is a list of its
entries, in any order. -/
inductive GoVal
  | bool (b : Bool)
  | int (i : Int)
  | float (text : Str)
  | str (s : Str)
  | big (i : Int)
  | enum (n : Nat)
  /-- a nil pointer, slice, map or interface -/
  | nil
  /-- an interface holding a value of the type -/
  | dyn (t : GoType) (v : GoVal)
  | ptr (v : GoVal)
  | list (l : List GoVal)
  | map (l : List (Key × GoVal))
  /-- the fields of a struct in the order of its declaration -/
  | struct (l : List GoVal)

/-- Floating point numbers, left arbitrary: `norm bits t` is the text that `encoding/json` writes for the number that
`strconv.ParseFloat(t, bits)` reads (`none`: out of range).  Formatting is exact: the text of a number is read as that
number. -/
class GoFloat where
  norm : Nat → Str → Option Str
  norm_idem : ∀ {b t u}, norm b t = some u → norm b u = some u
  norm_num : ∀ {b t u}, norm b t = some u → NumText u
  norm_zero : ∀ b, norm b (S "0") = some (S "0")

/-- The zero value of a type. -/
def zero : GoType → GoVal
  | .bool => .bool false
  | .int _ => .int 0
  | .uint _ => .int 0
  | .float _ => .float (S "0")
  | .string => .str []
  | .big => .big 0
  | .enum _ => .enum 0
  | .any | .ref _ | .ptr _ | .list _ | .map _ _ => .nil

/-- The zero values of fields. -/
def zeros (fs : List FieldDecl) : List GoVal := fs.map fun f => zero f.type

/-- `isEmptyValue` of encoding/json, for `omitempty`. -/
def isEmpty : GoVal → Bool
  | .bool b => !b
  | .int i => i == 0
  | .float t => t == S "0" || t == S "-0"
  | .str s => s.isEmpty
  | .enum n => n == 0
  | .nil => true
  | .list l => l.isEmpty
  | .map l => l.isEmpty
  | .big _ | .dyn _ _ | .ptr _ | .struct _ => false

/-! ### Encoding -/

/-- The text of a map key (`resolveKeyName`). -/
def keyText (d : Decls) : KeyType → Key → Option Str
  | .string, .str s => some s
  | .int _, .int i => some (intText i)
  | .uint _, .int i => some (intText i)
  | .enum n, .enum x => some (enumText ((d.members n).map fun m => (m.2, m.1)) x)
  | _, _ => none

mutual
/-- `json.Marshal`; `none`: an error (a number that is not finite), or the value does not have the type. -/
def encode [GoFloat] (d : Decls) (t : GoType) : GoVal → Option Json
  | .bool b => if t = .bool then some (.bool b) else none
  | .int i => match t with
    | .int _ | .uint _ => some (.num (intText i))
    | _ => none
  | .float x => match t with
    | .float bits => if GoFloat.norm bits x = some x then some (.num x) else none
    | _ => none
  | .str s => if t = .string then some (.ofStr true s) else none
  | .big i => if t = .big then some (.str (bigString i)) else none
  | .enum x => match t with
    | .enum n => some (.ofStr true (enumText ((d.members n).map fun m => (m.2, m.1)) x))
    | _ => none
  | .nil => match t with
    | .any | .ref _ | .ptr _ | .list _ | .map _ _ => some .null
    | _ => none
  | .dyn t' v => if t = .any then encode d t' v else none
  | .ptr v => match t with
    | .ptr t' => encode d t' v
    | .ref n => match v with
      | .struct l => (encodeFields d (d.fields n) l).map .obj
      | _ => none
    | _ => none
  | .list l => match t with
    | .list t' => (encodeElems d t' l).map .arr
    | _ => none
  | .map l => match t with
    | .map k t' => (encodeEntries d k t' l).map fun m => .obj (sortKeys m)
    | _ => none
  | .struct _ => none

/-- The elements of a slice. -/
def encodeElems [GoFloat] (d : Decls) (t : GoType) : List GoVal → Option (List Json)
  | [] => some []
  | v :: l => match encode d t v, encodeElems d t l with
    | some j, some js => some (j :: js)
    | _, _ => none

/-- The entries of a map. -/
def encodeEntries [GoFloat] (d : Decls) (k : KeyType) (t : GoType) : List (Key × GoVal) → Option (List (Str × Json))
  | [] => some []
  | (x, v) :: l => match keyText d k x, encode d t v, encodeEntries d k t l with
    | some s, some j, some js => some ((s, j) :: js)
    | _, _, _ => none

/-- The fields of a struct. -/
def encodeFields [GoFloat] (d : Decls) : List FieldDecl → List GoVal → Option (List (Str × Json))
  | _, [] => some []
  | [], _ :: _ => none
  | f :: fs, v :: l => match f.tag with
    | none => encodeFields d fs l
    | some tag =>
      if f.omitEmpty && isEmpty v then encodeFields d fs l
      else match encode d f.type v, encodeFields d fs l with
        | some j, some js => some ((tag, j) :: js)
        | _, _ => none
end

/-! ### Decoding -/

/-- The type behind pointers (`indirect`). -/
def base : GoType → GoType
  | .ptr t => base t
  | t => t

/-- The value behind pointers, new zero values where there is none. -/
def inside : GoType → GoVal → GoVal
  | .ptr t, .ptr v => inside t v
  | .ptr t, _ => zero (base t)
  | _, v => v

/-- The value with its pointers. -/
def wrap : GoType → GoVal → GoVal
  | .ptr t, v => .ptr (wrap t v)
  | _, v => v

/-- `null`: nil for pointers, slices, maps and interfaces; other values stay as they are. -/
def ofNull (t : GoType) (old : GoVal) : GoVal :=
  match t with
  | .any | .ref _ | .ptr _ | .list _ | .map _ _ => .nil
  | _ => old

/-- `strconv.ParseInt(s, 10, 64)` and the test for overflow. -/
def parseInt (bits : Nat) (s : Str) : Option Int :=
  match atoi s with
  | none => none
  | some i => if -(2 ^ (bits - 1)) ≤ i ∧ i < 2 ^ (bits - 1) then some i else none

/-- `strconv.ParseUint(s, 10, 64)` and the test for overflow (`bits ≤ 64`). -/
def parseUint (bits : Nat) (s : Str) : Option Int :=
  if s = [] then none
  else match decimal? 0 s with
    | none => none
    | some n => if n < 2 ^ bits then some n else none

/-- A literal `true` or `false`. -/
def decBool : GoType → Bool → Option GoVal
  | .bool, b => some (.bool b)
  | .any, b => some (.dyn .bool (.bool b))
  | _, _ => none

/-- A number. -/
def decNum [GoFloat] (old : GoVal) : GoType → Str → Option GoVal
  | .int bits, x => (parseInt bits x).map .int
  | .uint bits, x => (parseUint bits x).map .int
  | .float bits, x => (GoFloat.norm bits x).map .float
  | .any, x => (GoFloat.norm 64 x).map fun u => .dyn (.float 64) (.float u)
  | .big, x => (bigUnmarshalJSON (match old with | .big i => i | _ => 0) x).map .big
  | _, _ => none

/-- A string, given by the text between its quotes. -/
def decString (d : Decls) (old : GoVal) : GoType → Str → Option GoVal
  | .string, raw => (cook raw).map .str
  | .any, raw => (cook raw).map fun s => .dyn .string (.str s)
  | .enum n, raw => (cook raw).map fun s => .enum (enumOf (d.members n) s)
  | .big, raw => (bigUnmarshalJSON (match old with | .big i => i | _ => 0) ('"' :: (raw ++ ['"']))).map .big
  | _, _ => none

/-- A map key. -/
def decKey (d : Decls) : KeyType → Str → Option Key
  | .string, s => some (.str s)
  | .int bits, s => (parseInt bits s).map .int
  | .uint bits, s => (parseUint bits s).map .int
  | .enum n, s => some (.enum (enumOf (d.members n) s))

/-- Assignment to a map. -/
def putKey (k : Key) (v : GoVal) : List (Key × GoVal) → List (Key × GoVal)
  | [] => [(k, v)]
  | (k', v') :: r => if k' = k then (k, v) :: r else (k', v') :: putKey k v r

/-- The elements of a slice. -/
def elems : GoVal → List GoVal
  | .list l => l
  | _ => []

/-- The entries of a map. -/
def entries : GoVal → List (Key × GoVal)
  | .map l => l
  | _ => []

/-- The fields of the struct behind a pointer; a new struct if there is none. -/
def fieldsIn (fs : List FieldDecl) : GoVal → List GoVal
  | .ptr (.struct l) => l
  | _ => zeros fs

/-- Which field a member of an object is for: its place. -/
def fieldIndex (fs : List FieldDecl) (key : Str) : Option Nat :=
  match fieldFor (fs.filterMap (·.tag)) key with
  | none => none
  | some tag => fs.findIdx? fun f => f.tag == some tag

mutual
/-- Decoding into an `any`: bool, float64, string, []any or map[string]any. -/
def decodeAny [GoFloat] : Json → Option GoVal
  | .null => some .nil
  | .bool b => some (.dyn .bool (.bool b))
  | .num x => (GoFloat.norm 64 x).map fun u => .dyn (.float 64) (.float u)
  | .str raw => (cook raw).map fun s => .dyn .string (.str s)
  | .arr l => (decodeAnys l).map fun l => .dyn (.list .any) (.list l)
  | .obj l => (decodeAnyMembers [] l).map fun l => .dyn (.map .string .any) (.map l)

/-- Elements of a `[]any`. -/
def decodeAnys [GoFloat] : List Json → Option (List GoVal)
  | [] => some []
  | j :: l => match decodeAny j, decodeAnys l with
    | some v, some vs => some (v :: vs)
    | _, _ => none

/-- Entries of a `map[string]any`. -/
def decodeAnyMembers [GoFloat] (m : List (Key × GoVal)) : List (Str × Json) → Option (List (Key × GoVal))
  | [] => some m
  | (k, j) :: l => match decodeAny j with
    | none => none
    | some v => decodeAnyMembers (putKey (.str k) v m) l
end

mutual
/-- `json.Unmarshal` into a variable of type `t` that holds `old`; `none`: an error.
(An `any` is replaced; a slice element is decoded into the old element at its place, if the slice had one, which is
exact as long as a member is not repeated more than once.) -/
def decode [GoFloat] (d : Decls) (t : GoType) (old : GoVal) : Json → Option GoVal
  | .null => some (ofNull t old)
  | .bool b => (decBool (base t) b).map (wrap t)
  | .num x => (decNum (inside t old) (base t) x).map (wrap t)
  | .str raw => (decString d (inside t old) (base t) raw).map (wrap t)
  | .arr l =>
    match base t with
    | .list e => if e = .uint 8 then none else (decodeElems d e (elems (inside t old)) l).map fun l => wrap t (.list l)
    | .any => (decodeAnys l).map fun l => wrap t (.dyn (.list .any) (.list l))
    | _ => none
  | .obj l =>
    match base t with
    | .map k e => (decodeEntries d k e (entries (inside t old)) l).map fun l => wrap t (.map l)
    | .ref n => (decodeMembers d (d.fields n) (fieldsIn (d.fields n) (inside t old)) l).map fun l => wrap t (.ptr (.struct l))
    | .any => (decodeAnyMembers [] l).map fun l => wrap t (.dyn (.map .string .any) (.map l))
    | _ => none

/-- Elements of a slice. -/
def decodeElems [GoFloat] (d : Decls) (t : GoType) (olds : List GoVal) : List Json → Option (List GoVal)
  | [] => some []
  | j :: l => match decode d t (olds.head?.getD (zero t)) j, decodeElems d t olds.tail l with
    | some v, some vs => some (v :: vs)
    | _, _ => none

/-- Entries of a map; the elements are decoded into new variables. -/
def decodeEntries [GoFloat] (d : Decls) (k : KeyType) (t : GoType) (m : List (Key × GoVal)) :
    List (Str × Json) → Option (List (Key × GoVal))
  | [] => some m
  | (x, j) :: l => match decKey d k x, decode d t (zero t) j with
    | some x, some v => decodeEntries d k t (putKey x v m) l
    | _, _ => none

/-- Members of an object for a struct; unknown members are ignored. -/
def decodeMembers [GoFloat] (d : Decls) (fs : List FieldDecl) (vals : List GoVal) : List (Str × Json) → Option (List GoVal)
  | [] => some vals
  | (key, j) :: l =>
    match fieldIndex fs key with
    | none => decodeMembers d fs vals l
    | some i => match fs[i]? with
      | none => none
      | some f => match decode d f.type (vals[i]?.getD (zero f.type)) j with
        | none => none
        | some v => decodeMembers d fs (vals.set i v) l
end

/-- Marshalling the struct of arguments or results, e.g. server.gen.go:361-367, client.gen.go:256-260. -/
def encodePayload [GoFloat] (d : Decls) (fs : List FieldDecl) (vals : List GoVal) : Option Json :=
  (encodeFields d fs vals).map .obj

/-- Unmarshalling into a new struct of arguments or results, e.g. server.gen.go:388-394, client.gen.go:246-253. -/
def decodePayload [GoFloat] (d : Decls) (fs : List FieldDecl) : Json → Option (List GoVal)
  | .null => some (zeros fs)
  | .obj l => decodeMembers d fs (zeros fs) l
  | _ => none

/-! ### Equality -/

mutual
/-- `reflect.DeepEqual` (and `cmp.Equal`, which the test server uses) on values of the same type. -/
def deepEqual : GoVal → GoVal → Bool
  | .bool a, .bool b => a == b
  | .int a, .int b => a == b
  | .float a, .float b => a == b
  | .str a, .str b => a == b
  | .big a, .big b => a == b
  | .enum a, .enum b => a == b
  | .nil, .nil => true
  | .dyn t a, .dyn t' b => decide (t = t') && deepEqual a b
  | .ptr a, .ptr b => deepEqual a b
  | .list a, .list b => deepEqualList a b
  | .map a, .map b => a.length == b.length && deepEqualMap a b
  | .struct a, .struct b => deepEqualList a b
  | _, _ => false

/-- Elements in order. -/
def deepEqualList : List GoVal → List GoVal → Bool
  | [], [] => true
  | a :: l, b :: l' => deepEqual a b && deepEqualList l l'
  | _, _ => false

/-- Every entry has an equal one with the same key. -/
def deepEqualMap : List (Key × GoVal) → List (Key × GoVal) → Bool
  | [], _ => true
  | (k, a) :: l, l' => (match l'.lookup k with
    | none => false
    | some b => deepEqual a b) && deepEqualMap l l'
end

end Verif.Rpc
