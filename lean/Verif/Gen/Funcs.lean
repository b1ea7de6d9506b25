import Verif.Gen.Strings
import Verif.Schema.Filter
import Verif.Compile.Compile
/-!
# Model of the template functions

Models `/repo/gen/funcmap.go`, `funcmap_flow.go`, `funcmap_generic.go`, `funcmap_dict.go`,
`funcmap_string.go` and `funcmap_types.go`.  A panic in a template function is the outcome `none`; an
error returned to the template engine is `some (.error …)`.
-/

namespace Verif.Gen
open Verif.Schema
open Verif.Compile (mapSet decimal?)

/-- The values a template works with.  A `*schema.VarType` may be nil; a dictionary is the list of its
entries. -/
inductive Val
  | nil
  | bool (b : Bool)
  | int (i : Int)
  | str (s : Str)
  | strs (xs : List Str)
  | arr (xs : List Val)
  | dict (m : List (Str × Val))
  | type (t : TypeDecl)
  | varType (v : VarType)
  | nilVarType

/-- `toString`, funcmap_string.go:10-33.  Dictionaries print in the unspecified iteration order of Go maps
and are left out (they count as unknown types). -/
def toStr : Val → Option Str
  | .varType v => some v.expr
  | .type t => some t.kind
  | .str s => some s
  | _ => none

/-! ### Versions -/

/-- A number without its sign. -/
def unsigned : Str → Str
  | '-' :: r => r
  | '+' :: r => r
  | r => r

/-- `strconv.Atoi` on a 64-bit machine: optional sign, decimal digits, in range. -/
def atoi (s : Str) : Option Int :=
  if unsigned s = [] then none
  else match decimal? 0 (unsigned s) with
    | none => none
    | some n =>
      if s.head? = some '-' then
        if n ≤ 9223372036854775808 then some (-(n : Int)) else none
      else if n ≤ 9223372036854775807 then some (n : Int) else none

/-- `parseMajorMinorVersion`, funcmap_flow.go:56-73. -/
def parseMajorMinor (version : Str) : Option (Int × Int) :=
  match split (S ".") (trimPrefix version (S "v")) with
  | [] => none
  | [a] => (atoi a).map fun major => (major, 0)
  | a :: b :: _ =>
    match atoi a with
    | none => none
    | some major => (atoi b).map fun minor => (major, minor)

/-- `minVersion`, funcmap_flow.go:34-54. -/
def minVersion (version min : Str) : Option Bool :=
  match parseMajorMinor version with
  | none => none
  | some (major, minor) =>
    match parseMajorMinor min with
    | none => none
    | some (minMajor, minMinor) =>
      if minMajor > major then some false
      else if minMinor > minor then some false
      else some true

/-! ### Generic helpers -/

/-- `first`, funcmap_generic.go:20-35. -/
def first : Val → Option (Except Unit Val)
  | .strs v => match v with
    | [] => some (.error ())
    | a :: _ => some (.ok (.str a))
  | .arr v => match v with
    | [] => some (.error ())
    | a :: _ => some (.ok a)
  | _ => none

/-- `last`, funcmap_generic.go:38-53. -/
def last : Val → Option (Except Unit Val)
  | .strs v => match v.getLast? with
    | none => some (.error ())
    | some a => some (.ok (.str a))
  | .arr v => match v.getLast? with
    | none => some (.error ())
    | some a => some (.ok a)
  | _ => none

open Classical in
/-- `in`, funcmap_generic.go:56-63; `reflect.DeepEqual` is equality of these values. -/
noncomputable def inFn (x : Val) : List Val → Bool
  | [] => false
  | v :: vs => if x = v then true else inFn x vs

/-- `!val.IsValid() || val.IsZero()`, funcmap_generic.go:68, 79: nil, false, 0, the empty string and nil
pointers; slices and maps in a template are never nil. -/
def isEmpty : Val → Bool
  | .nil => true
  | .bool b => !b
  | .int i => i == 0
  | .str s => s == []
  | .nilVarType => true
  | _ => false

/-- `defaultFn`, funcmap_generic.go:66-73. -/
def defaultFn (value dflt : Val) : Val := if isEmpty value then dflt else value

/-- `coalesce`, funcmap_generic.go:76-85. -/
def coalesce : List Val → Val
  | [] => .str []
  | v :: vs => if isEmpty v then coalesce vs else v

/-- `toBool`, funcmap_generic.go:106-121. -/
def toBool : Val → Option Bool
  | .bool b => some b
  | .str s => if s = S "true" then some true else if s = S "false" then some false else none
  | _ => none

/-- `ternary`, funcmap_generic.go:98-103. -/
def ternary (b x y : Val) : Option Val :=
  match toBool b with
  | none => none
  | some true => some x
  | some false => some y

/-- `lastIndex`, funcmap_generic.go:125-134. -/
def lastIndex : Val → Option Int
  | .strs v => some (v.length - 1)
  | .arr v => some (v.length - 1)
  | _ => none

/-- Go's `<` on strings (bytewise, which on UTF-8 is the order of the code points). -/
def strLt : Str → Str → Bool
  | _, [] => false
  | [], _ :: _ => true
  | a :: as', b :: bs => a.toNat < b.toNat || (a == b && strLt as' bs)

/-- Insertion into a sorted list. -/
def insertBy (x : Str × Val) : List (Str × Val) → List (Str × Val)
  | [] => [x]
  | y :: ys => if strLt y.1 x.1 then y :: insertBy x ys else x :: y :: ys

/-- `sortFn`, funcmap_generic.go:88-95.  `sort.Slice` is modelled by insertion sort: on equal keys the
standard library's order may differ.  A value `toString` rejects panics (`sort.Slice` compares every element
when there are at least two). -/
def sortFn (xs : List Val) : Option (List Val) :=
  match xs with
  | [] => some []
  | [x] => some [x]
  | xs => (xs.mapM fun x => (toStr x).map (·, x)).map fun ks => (ks.foldr insertBy []).map (·.2)

/-! ### Dictionaries -/

/-- The loop of `dict`, funcmap_dict.go:14-20. -/
def dictLoop : List (Str × Val) → List Val → Option (List (Str × Val))
  | m, [] => some m
  | _, [_] => none
  | m, k :: v :: r => match k with
    | .str key => dictLoop (mapSet key v m) r
    | _ => none

/-- `dict`, funcmap_dict.go:8-23. -/
def dict (pairs : List Val) : Option (List (Str × Val)) :=
  if pairs.length % 2 = 1 then none else dictLoop [] pairs

/-- `get`, funcmap_dict.go:25-34. -/
def getFn (m : List (Str × Val)) (key : Val) : Option (Except Unit Val) :=
  match toStr key with
  | none => none
  | some k => match m.lookup k with
    | none => some (.error ())
    | some v => some (.ok v)

/-- `set`, funcmap_dict.go:36-39: the dictionary afterwards. -/
def setFn (m : List (Str × Val)) (key : Str) (v : Val) : List (Str × Val) := mapSet key v m

/-- `exists`, funcmap_dict.go:42-45. -/
def existsFn (m : List (Str × Val)) (key : Str) : Bool := (m.lookup key).isSome

/-! ### Strings -/

/-- `join`, funcmap_string.go:35-48. -/
def joinFn (elems : Val) (sep : Str) : Option Str :=
  match elems with
  | .strs v => some (join sep v)
  | .arr v => (v.mapM toStr).map (join sep)
  | _ => none

/-- `split`, funcmap_string.go:50-52. -/
def splitFn (sep str : Str) : Val := .strs (split sep str)

/-- The local functions of `firstWordToLower`, funcmap.go:91-93. -/
def isUpperAZ (c : Char) : Bool := 'A' ≤ c && c ≤ 'Z'
@[inherit_doc isUpperAZ] def isLowerAZ (c : Char) : Bool := 'a' ≤ c && c ≤ 'z'
@[inherit_doc isUpperAZ] def isDigit09 (c : Char) : Bool := '0' ≤ c && c ≤ '9'

/-- Number of characters of the first word, funcmap.go:95-111. -/
def firstWordLen (letters : Str) : Nat :=
  let lowDig := fun c => isLowerAZ c || isDigit09 c
  match letters with
  | [] => 0
  | c :: _ =>
    if isUpperAZ c then
      let j := (letters.takeWhile isUpperAZ).length
      let j := if j > 1 ∧ ((letters[j]?).any isLowerAZ) ∧ ((letters[j + 1]?).any isLowerAZ) then j - 1 else j
      j + ((letters.drop j).takeWhile lowDig).length
    else (letters.takeWhile lowDig).length

/-- `firstWordToLower`, funcmap.go:80-117. -/
def firstWordToLower [GoUnicode] (input : Str) : Str :=
  match input with
  | [] => []
  | c :: _ =>
    if isLowerAZ c then input
    else toLower (input.take (firstWordLen input)) ++ input.drop (firstWordLen input)

/-! ### Types -/

/-- `isCoreType`, funcmap_types.go:11-14. -/
def isCoreType (v : Val) : Option Bool := (toStr v).map fun s => (coreFromString s).isSome

/-- `isStructType`, funcmap_types.go:17-33. -/
def isStructType : Val → Bool
  | .type t => t.kind = S "struct"
  | .varType v => v.type = .struct
  | _ => false

/-- `isEnumType`, funcmap_types.go:36-56: a node for an enum looks at the kind of the declaration it points
to (a nil `*VarType` panics). -/
def isEnumType (ts : List TypeDecl) : Val → Option Bool
  | .type t => some (t.kind = S "enum")
  | .varType (.enum _ _ p) => (deref ts p).map fun d => d.kind = S "enum"
  | .varType v => some (v.type = .enum)
  | .nilVarType => none
  | _ => some false

/-- `isAliasType`, funcmap_types.go:59-75. -/
def isAliasType : Val → Bool
  | .type t => t.kind = S "alias"
  | .varType v => v.type = .alias
  | _ => false

/-- `isListType`, funcmap_types.go:78-80. -/
def isListType (v : Val) : Option Bool := (toStr v).map fun s => hasPrefix s (S "[]")

/-- The test of lines 84, 96 and 107, on the text. -/
def mapParts (s : Str) : Option (Str × Str) :=
  match cut (S ",") s with
  | none => none
  | some (key, value) => if hasPrefix key (S "map<") && hasSuffix value (S ">") then some (key, value) else none

/-- `isMapType`, funcmap_types.go:83-86. -/
def isMapType (v : Val) : Option Bool := (toStr v).map fun s => (mapParts s).isSome

/-- `mapKeyType`, funcmap_types.go:89-103 (line 92: `t.Map` is nil unless the node is a map). -/
def mapKeyType : Val → Option Str
  | .varType (.map _ k _) => some k.expr
  | .varType _ => none
  | v => match toStr v with
    | none => none
    | some s => (mapParts s).map fun x => trimPrefix x.1 (S "map<")

/-- `mapValueType`, funcmap_types.go:106-113. -/
def mapValueType (v : Val) : Option Str :=
  match toStr v with
  | none => none
  | some s => (mapParts s).map fun x => trimSuffix x.2 (S ">")

/-- `listElemType`, funcmap_types.go:116-128. -/
def listElemType : Val → Option Val
  | .varType (.list _ el) => some (.varType el)
  | .varType _ => none
  | v => match toStr v with
    | none => none
    | some s => if hasPrefix s (S "[]") then some (.str (trimPrefix s (S "[]"))) else none

end Verif.Gen
