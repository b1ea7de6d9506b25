import Verif.Ridl.Lexer
/-!
# Model of the schema data types and of type expressions

Models `/repo/schema/core_type.go`, `/repo/schema/var_type.go` and the struct declarations of
`/repo/schema/{type,error,service,schema}.go`.

Simplifications (see DESIGN.md):
* A Go pointer to a `Type`, `Error` or `Service` is modelled by an identity (`Ptr`): the file it
  was declared in and a running number.  Two pointers are equal iff these are equal.
* A `*VarType` is a tree (its pointers are never shared or cyclic); references to declared types
  inside it are `Ptr`s.
* `null` entries in JSON arrays (nil `*Type`, `*Error`, ... elements) are not represented.
-/

namespace Verif.Schema

/-- A Go string, as runes. -/
abbrev Str := List Char

/-- String literals of the Go source. -/
def S (s : String) : Str := s.toList

/-- Identity of a heap object: declaring file, running number. -/
abbrev Ptr := Str × Nat

/-- `CoreType`, core_type.go:8-44. -/
inductive CoreType
  | unknown
  | null | any | byte | bool
  | uint | uint8 | uint16 | uint32 | uint64
  | int | int8 | int16 | int32 | int64
  | bigint | float32 | float64 | string | timestamp
  | list | map
  | struct | enum | alias
deriving DecidableEq, Repr, Inhabited

/-- `CoreTypeToString`, core_type.go:46-76 (entries in source order); a type with no entry
prints as the empty string (core_type.go:117-119). -/
def CoreType.str : CoreType → Str
  | .null => S "null" | .any => S "any" | .byte => S "byte" | .bool => S "bool"
  | .uint => S "uint" | .uint8 => S "uint8" | .uint16 => S "uint16" | .uint32 => S "uint32"
  | .uint64 => S "uint64"
  | .int => S "int" | .int8 => S "int8" | .int16 => S "int16" | .int32 => S "int32"
  | .int64 => S "int64"
  | .bigint => S "bigint" | .float32 => S "float32" | .float64 => S "float64"
  | .string => S "string" | .timestamp => S "timestamp"
  | .map => S "map" | .list => S "[]"
  | .unknown => [] | .struct => [] | .enum => [] | .alias => []

/-- `CoreTypeFromString`, core_type.go:83-115: the entries, in source order. -/
def coreTable : List (Str × CoreType) :=
  [ (S "null", .null), (S "any", .any), (S "byte", .byte), (S "bool", .bool),
    (S "uint", .uint), (S "uint8", .uint8), (S "uint16", .uint16), (S "uint32", .uint32),
    (S "uint64", .uint64),
    (S "int", .int), (S "int8", .int8), (S "int16", .int16), (S "int32", .int32),
    (S "int64", .int64),
    (S "bigint", .bigint), (S "float32", .float32), (S "float64", .float64),
    (S "string", .string), (S "timestamp", .timestamp),
    (S "map", .map), (S "[]", .list) ]

/-- Lookup `CoreTypeFromString[s]` with the `ok` flag, core_type.go:83-115. -/
def coreFromString (s : Str) : Option CoreType := coreTable.lookup s

/-- `VarType`, var_type.go:8-18.  The constructor says which of the pointers `List`, `Map`,
`Struct`, `Enum`, `Alias` is set; `leaf` has none of them.  Every node carries its `Expr`.
(`Comments` is never set by any code and is left out.) -/
inductive VarType
  | leaf (expr : Str) (type : CoreType)
  | list (expr : Str) (elem : VarType)
  | map (expr : Str) (key value : VarType)
  | struct (expr name : Str) (ref : Ptr)
  | enum (expr name : Str) (ref : Ptr)
  | alias (expr name : Str) (ref : Ptr)
deriving DecidableEq, Repr, Inhabited

/-- Field `Expr`, var_type.go:9. -/
def VarType.expr : VarType → Str
  | .leaf e _ => e | .list e _ => e | .map e _ _ => e
  | .struct e _ _ => e | .enum e _ _ => e | .alias e _ _ => e

/-- Field `Type`, var_type.go:10. -/
def VarType.type : VarType → CoreType
  | .leaf _ c => c | .list _ _ => .list | .map _ _ _ => .map
  | .struct _ _ _ => .struct | .enum _ _ _ => .enum | .alias _ _ _ => .alias

/-- Assignment to field `Expr` (var_type.go:63). -/
def VarType.setExpr (e : Str) : VarType → VarType
  | .leaf _ c => .leaf e c | .list _ t => .list e t | .map _ k v => .map e k v
  | .struct _ n r => .struct e n r | .enum _ n r => .enum e n r | .alias _ n r => .alias e n r

/-- `(*VarType).String`, var_type.go:20-25. -/
def varTypeString : Option VarType → Str
  | none => []
  | some t => t.expr

/-- A JSON value, as stored in the `interface{}` of a field meta (type.go:40) after decoding
(`encoding/json`); numbers keep their text. -/
inductive Json
  | null
  | bool (b : Bool)
  | num (text : Str)
  | str (s : Str)
  | arr (xs : List Json)
  | obj (kvs : List (Str × Json))
deriving Repr, Inhabited

/-- `TypeFieldMeta`, type.go:40: a Go map, as its list of entries. -/
abbrev Meta := List (Str × Json)

/-- `TypeField` with its embedded `TypeExtra`, type.go:24-38. -/
structure Field where
  comments : List Str := []
  name : Str
  type : Option VarType := none
  optional : Bool := false
  value : Str := []
  metas : List Meta := []
deriving Inhabited

/-- `Type` with its embedded `TypeExtra` (`Optional`, `Value` are unused), type.go:15-22. -/
structure TypeDecl where
  ptr : Ptr
  kind : Str
  name : Str
  type : Option VarType := none
  fields : List Field := []
  optional : Bool := false
  value : Str := []
  metas : List Meta := []
  comments : List Str := []
deriving Inhabited

/-- `Error`, error.go:8-15. -/
structure ErrorDecl where
  ptr : Ptr
  code : Int
  name : Str
  message : Str
  httpStatus : Int
deriving DecidableEq, Repr, Inhabited

/-- `Annotation`, service.go:46-49. -/
structure Annotation where
  annotationType : Str
  value : Str
deriving DecidableEq, Repr, Inhabited

/-- `MethodArgument`, service.go:33-42 (the `InputArg`/`OutputArg` back references follow from
the list the argument is in and are left out; the value and metas of its `TypeExtra` come from JSON only). -/
structure Argument where
  name : Str
  type : Option VarType
  optional : Bool := false
  value : Str := []
  metas : List Meta := []
deriving Inhabited

/-- Which of the slices and of the map of a `Method` are nil when they are empty (a nil slice or map is written as
`null` in JSON, an empty one as `[]` or `{}`). -/
structure MethodNils where
  annotations : Bool := false
  comments : Bool := false
  inputs : Bool := false
  outputs : Bool := false
deriving DecidableEq, Repr, Inhabited

/-- `Method`, service.go:16-31; `Annotations` is a Go map, as its list of entries. -/
structure Method where
  name : Str
  annotations : List (Str × Annotation) := []
  comments : List Str := []
  succinct : Bool := false
  streamInput : Bool := false
  streamOutput : Bool := false
  inputs : List Argument := []
  outputs : List Argument := []
  errors : List Str := []
  nils : MethodNils := {}
deriving Inhabited

/-- Which of the slices of a `Service` are nil when they are empty. -/
structure ServiceNils where
  methods : Bool := false
  comments : Bool := false
deriving DecidableEq, Repr, Inhabited

/-- `Service`, service.go:8-14. -/
structure Service where
  ptr : Ptr
  name : Str
  methods : List Method := []
  comments : List Str := []
  nils : ServiceNils := {}
deriving Inhabited

/-- Which of the slices of a schema are nil when they are empty. -/
structure SchemaNils where
  types : Bool := false
  errors : Bool := false
  services : Bool := false
deriving DecidableEq, Repr, Inhabited

/-- `WebRPCSchema`, schema.go:18-27. -/
structure Schema where
  webrpcVersion : Str := []
  schemaName : Str := []
  schemaVersion : Str := []
  basePath : Str := []
  types : List TypeDecl := []
  errors : List ErrorDecl := []
  services : List Service := []
  nils : SchemaNils := {}
deriving Inhabited

/-- Why an operation on a schema failed.  The Go code has one formatted message per case. -/
inductive SErr
  | webrpcVersion | versionRequired
  | basepathSpace | basepathQuery | basepathURL | basepathInvalid
  | typeNameEmpty | typeNameCase | typeDup | typeKind | aliasNoType
  | fieldNameEmpty | fieldNameInvalid | fieldDup | jsonNotString | jsonInvalid | jsonDup
  | enumValueMissing | enumFieldType | enumType | structValue
  | exprEmpty | mapExpr | mapSyntax | mapKey | invalidType | unexpectedType
  | errNameEmpty | errCode | errNameCase | errNameReserved | errMessage | errStatus
  | errDupName | errDupCode
  | serviceNameEmpty | serviceDup | noMethods | methodNameEmpty | methodDup
  | succinctInputs | succinctOutputs | argNameEmpty | undefinedError
  | defDup | unknownDef | badPath | readFile | syntaxError | circularImport
  | aliasUnknown | enumUnknown | structUnknown | argUnknown | noDefinition
  | succinctUnknown | succinctKind | succinctMix
  | inImport (stack : List Str) (cause : SErr)
deriving DecidableEq, Repr, Inhabited

/-- The outcome of a Go function that returns a value or an error, or panics.
`fuel` is used by the model only: the recursion did not end within the given number of steps. -/
inductive Res (α : Type)
  | ok (a : α)
  | err (e : SErr)
  | panic
  | fuel
deriving Repr, DecidableEq

/-- `if err != nil { return err }`: errors and panics end the computation. -/
@[inline] def Res.bind {α β : Type} (r : Res α) (f : α → Res β) : Res β :=
  match r with
  | .ok a => f a
  | .err e => .err e
  | .panic => .panic
  | .fuel => .fuel

instance : Monad Res where
  pure := .ok
  bind := Res.bind

/-- `if bad { return err }` -/
def Res.failIf (b : Bool) (e : SErr) : Res Unit := if b then .err e else .ok ()

/-- `for _, x := range xs { if err := f(x); err != nil { return err } }`, where `f` may replace
the element. -/
def Res.each {α β : Type} (f : α → Res β) : List α → Res (List β)
  | [] => .ok []
  | x :: xs => (f x).bind fun y => (Res.each f xs).bind fun ys => .ok (y :: ys)

/-- Unicode case tables (`unicode.ToLower`, `unicode.ToUpper`) outside ASCII, left arbitrary. -/
class GoUnicode where
  lowerNA : Char → Char
  upperNA : Char → Char

/-- `unicode.ToLower` on a rune. -/
def lowerChar [GoUnicode] (c : Char) : Char :=
  if c.toNat < 128 then (if 'A' ≤ c ∧ c ≤ 'Z' then Char.ofNat (c.toNat + 32) else c)
  else GoUnicode.lowerNA c

/-- `unicode.ToUpper` on a rune. -/
def upperChar [GoUnicode] (c : Char) : Char :=
  if c.toNat < 128 then (if 'a' ≤ c ∧ c ≤ 'z' then Char.ofNat (c.toNat - 32) else c)
  else GoUnicode.upperNA c

/-- `strings.ToLower`: rune by rune. -/
def toLower [GoUnicode] (s : Str) : Str := s.map lowerChar

/-- `strings.HasPrefix`. -/
def hasPrefix (s p : Str) : Bool := p.isPrefixOf s

/-- `strings.HasSuffix`. -/
def hasSuffix (s p : Str) : Bool := p.isSuffixOf s

/-- `isListExpr`, var_type.go:248-251. -/
def isListExpr (e : Str) : Bool := hasPrefix e (CoreType.str .list)

/-- `isMapExpr`, var_type.go:253-256. -/
def isMapExpr (e : Str) : Bool := hasPrefix e (CoreType.str .map ++ S "<")

/-- `VarKeyCoreTypes`, var_type.go:267-269. -/
def varKeyCoreTypes : List CoreType :=
  [.string, .uint, .uint8, .uint16, .uint32, .uint64, .int, .int8, .int16, .int32, .int64]

/-- `VarIntegerCoreTypes`, var_type.go:271-273. -/
def varIntegerCoreTypes : List CoreType :=
  [.uint, .uint8, .uint16, .uint32, .uint64, .int, .int8, .int16, .int32, .int64]

/-- `isValidVarType`, var_type.go:279-290. -/
def isValidVarType (s : Str) (allowed : List CoreType) : Bool :=
  match coreFromString s with
  | none => false
  | some dt => allowed.contains dt

/-- `isValidVarKeyType`, var_type.go:275-277. -/
def isValidVarKeyType (s : Str) : Bool := isValidVarType s varKeyCoreTypes

/-- `(*WebRPCSchema).GetTypeByName`, schema.go:121-129. -/
def getTypeByName [GoUnicode] (ts : List TypeDecl) (name : Str) : Option TypeDecl :=
  ts.find? fun t => toLower t.name = toLower name

/-- `getType`, var_type.go:258-265. -/
def getType (ts : List TypeDecl) (e : Str) : Option TypeDecl := ts.find? fun t => e = t.name

/-- `(*WebRPCSchema).GetServiceByName`, schema.go:131-139. -/
def getServiceByName [GoUnicode] (ss : List Service) (name : Str) : Option Service :=
  ss.find? fun t => toLower t.name = toLower name

/-- `strings.Index(s, ",")` and the two slices around it, var_type.go:205-211. -/
def cutComma : Str → Option (Str × Str)
  | [] => none
  | c :: cs => if c = ',' then some ([], cs) else (cutComma cs).map fun p => (c :: p.1, p.2)

/-- `parseMapExpr`, var_type.go:189-214.  (`expr[0:1] != "<"` cannot fire after `isMapExpr`.) -/
def parseMapExpr (e : Str) : Res (Str × Str) := do
  Res.failIf (!isMapExpr e) .mapExpr
  let e := e.drop (CoreType.str .map).length
  Res.failIf (e.head? != some '<') .mapSyntax
  Res.failIf (e.getLast? != some '>') .mapSyntax
  let e := (e.drop 1).dropLast
  match cutComma e with
  | none => .err .mapSyntax
  | some kv => .ok kv

/-- The map-key part of `ParseVarTypeExpr`, var_type.go:129-151.  `t.Type.Type` dereferences a nil
pointer when the named type is a struct (structs have no `Type`). -/
def parseMapKey [GoUnicode] (ts : List TypeDecl) (key : Str) : Res VarType :=
  match coreFromString key with
  | some kt => do
    Res.failIf (!isValidVarKeyType key) .mapKey
    .ok (.leaf key kt)
  | none =>
    match getTypeByName ts key with
    | none => .err .mapKey
    | some t =>
      if t.kind ≠ S "enum" then
        match t.type with
        | none => .panic
        | some vt => if vt.type ≠ .enum then .err .mapKey else .ok (.enum key key t.ptr)
      else .ok (.enum key key t.ptr)

/-- `dataType` of an expression, var_type.go:97-106. -/
def exprType (e : Str) : CoreType :=
  match coreFromString e with
  | some c => c
  | none => if isListExpr e then .list else if isMapExpr e then .map else .unknown

/-- The reference part of `ParseVarTypeExpr`, var_type.go:162-183. -/
def parseRef (ts : List TypeDecl) (e : Str) : Res VarType :=
  match getType ts e with
  | none => .err .invalidType
  | some t =>
    if t.kind = S "struct" then .ok (.struct e e t.ptr)
    else if t.kind = S "enum" then .ok (.enum e e t.ptr)
    else if t.kind = S "alias" then .ok (.alias e e t.ptr)
    else .err .unexpectedType

/-- `ParseVarTypeExpr`, var_type.go:91-187, on a fresh `vt`.  The first argument bounds the
recursion depth (see `parseExpr`).  Simplification: when the Go code re-parses an existing node,
pointers of a previous parse to a node of another kind stay set; here the node is rebuilt. -/
def parseExprN [GoUnicode] (ts : List TypeDecl) : Nat → Str → Res VarType
  | 0, _ => .fuel
  | n + 1, e =>
    if e = [] then .ok (.leaf [] .unknown) else
    match exprType e with
    | .list => do
      -- strings.TrimPrefix(expr, "[]")
      let elem ← parseExprN ts n (if isListExpr e then e.drop 2 else e)
      .ok (.list e elem)
    | .map => do
      let kv ← parseMapExpr e
      let key ← parseMapKey ts kv.1
      let value ← parseExprN ts n kv.2
      .ok (.map e key value)
    | .enum => parseRef ts e
    | .unknown => parseRef ts e
    | c => .ok (.leaf e c)

/-- `ParseVarTypeExpr`, var_type.go:91-187: the recursion always ends within the length of the
expression (`parseExpr_total`). -/
def parseExpr [GoUnicode] (ts : List TypeDecl) (e : Str) : Res VarType :=
  parseExprN ts (e.length + 1) e

/-- `buildVarTypeExpr`, var_type.go:216-246. -/
def buildExpr : VarType → Str → Str
  | .leaf _ .unknown, _ => S "<unknown>"
  | .leaf _ c, acc => acc ++ c.str
  | .list _ el, acc => acc ++ (S "[]" ++ buildExpr el acc)
  | .map _ k v, acc => acc ++ (S "map<" ++ k.expr ++ S "," ++ buildExpr v [] ++ S ">")
  | .struct _ n _, acc => acc ++ n
  | .enum _ n _, acc => acc ++ n
  | .alias _ n _, acc => acc ++ n

/-- `(*VarType).Parse`, var_type.go:55-65, on a possibly nil receiver (reading `t.Expr` of nil
panics). -/
def varTypeParse [GoUnicode] (ts : List TypeDecl) : Option VarType → Res VarType
  | none => .panic
  | some t => do
    Res.failIf (t.expr = []) .exprEmpty
    let t' ← parseExpr ts t.expr
    .ok (t'.setExpr (buildExpr t' []))

end Verif.Schema
