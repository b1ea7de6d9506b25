import Verif.Json.RoundTrip
import Verif.Schema.Validate
import Verif.Gen.Funcs
import Verif.Rpc.Errors
/-!
# Model of the JSON form of a schema

Models the encoding `(*WebRPCSchema).ToJSON` and `(*VarType).MarshalJSON`, and the decoding `ParseSchemaJSON` and
`(*VarType).UnmarshalJSON` (`/repo/schema/schema.go:93-119`, `/repo/schema/parser.go:12-25`,
`/repo/schema/var_type.go:27-53`), with the struct tags of `/repo/schema/{schema,type,error,service}.go`.

Simplifications:
* Nil and empty slices are told apart where that can be seen in the JSON text (`MethodNils`, `ServiceNils`,
  `SchemaNils`): nil is written as `null`, empty as `[]` or `{}`.  (The others are left out of the text when empty.)
* Texts whose decoding the model of a schema cannot represent give `DErr.unmodelled`: `null` entries in lists of
  objects or maps, and an object with two members for the same struct field.
* Numbers in metas keep their text.
-/

namespace Verif.Json
open Verif.Schema hiding Json
open Verif.Gen (strLt)
open Verif.Rpc (fieldFor)

/-- `strconv.IsPrint` outside ASCII, left arbitrary. -/
class GoPrint where
  printNA : Char → Bool

/-- One character of `strconv.Quote`, which `%q` uses (var_type.go:28). -/
def goQuoteChar [GoPrint] (c : Char) : Str :=
  let n := c.toNat
  if c = '"' ∨ c = '\\' then ['\\', c]
  else if (if n < 128 then decide (0x20 ≤ n ∧ n < 0x7F) else GoPrint.printNA c) then [c]
  else if n = 7 then ['\\', 'a'] else if n = 8 then ['\\', 'b'] else if n = 12 then ['\\', 'f']
  else if n = 10 then ['\\', 'n'] else if n = 13 then ['\\', 'r'] else if n = 9 then ['\\', 't']
  else if n = 11 then ['\\', 'v']
  else if n < 0x20 ∨ n = 0x7F then ['\\', 'x', hexDigit (n / 16 % 16), hexDigit (n % 16)]
  else if n < 0x10000 then '\\' :: 'u' :: hex4 n
  else '\\' :: 'U' :: (hex4 (n / 65536) ++ hex4 n)

/-- `%q` without the quotes. -/
def goQuote [GoPrint] (s : Str) : Str := s.flatMap goQuoteChar

/-! ### Encoding -/

/-- The members of an object, some of them left out (`omitempty`). -/
def members (l : List (Str × Option Json)) : List (Str × Json) := l.filterMap fun p => p.2.map fun j => (p.1, j)

/-- A string member. -/
def encStr (s : Str) : Json := .ofStr false s

/-- A slice that is not nil. -/
def encList {α : Type} (f : α → Json) (l : List α) : Json := .arr (l.map f)

/-- A slice: `null` when it is nil. -/
def encSlice {α : Type} (isNil : Bool) (f : α → Json) (l : List α) : Json := if isNil ∧ l = [] then .null else encList f l

/-- With `omitempty`. -/
def omitIf (b : Bool) (j : Json) : Option Json := if b then none else some j

/-- `(*VarType).MarshalJSON`, var_type.go:27-29; a nil pointer is written as `null`. -/
def encType [GoPrint] : Option VarType → Json
  | none => .null
  | some t => .str (goQuote t.expr)

/-- Insertion by key. -/
def insertKey {α : Type} (x : Str × α) : List (Str × α) → List (Str × α)
  | [] => [x]
  | y :: ys => if strLt y.1 x.1 then y :: insertKey x ys else x :: y :: ys

/-- Maps are written in the order of their keys. -/
def sortKeys {α : Type} (l : List (Str × α)) : List (Str × α) := l.foldr insertKey []

mutual
/-- A value in a meta; the keys of nested maps are written in order. -/
def encMetaVal : Schema.Json → Json
  | .null => .null
  | .bool b => .bool b
  | .num t => .num t
  | .str s => encStr s
  | .arr l => .arr (encMetaVals l)
  | .obj l => .obj (sortKeys (encMetaMembers l))
/-- Values in a meta. -/
def encMetaVals : List Schema.Json → List Json
  | [] => []
  | j :: l => encMetaVal j :: encMetaVals l
/-- Entries of a map in a meta. -/
def encMetaMembers : List (Str × Schema.Json) → List (Str × Json)
  | [] => []
  | (k, j) :: l => (k, encMetaVal j) :: encMetaMembers l
end

/-- `TypeFieldMeta`, type.go:40. -/
def encMeta (m : Meta) : Json := .obj ((sortKeys m).map fun p => (p.1, encMetaVal p.2))

/-- `TypeField`, type.go:24-38. -/
def encField [GoPrint] (f : Field) : Json := .obj (members [
  (S "comments", omitIf (f.comments = []) (encList encStr f.comments)),
  (S "name", some (encStr f.name)),
  (S "type", omitIf f.type.isNone (encType f.type)),
  (S "optional", omitIf (!f.optional) (.bool f.optional)),
  (S "value", omitIf (f.value = []) (encStr f.value)),
  (S "meta", omitIf (f.metas = []) (encList encMeta f.metas))])

/-- `Type`, type.go:15-22. -/
def encTypeDecl [GoPrint] (t : TypeDecl) : Json := .obj (members [
  (S "kind", some (encStr t.kind)),
  (S "name", some (encStr t.name)),
  (S "type", omitIf t.type.isNone (encType t.type)),
  (S "fields", omitIf (t.fields.length = 0) (encList encField t.fields)),
  (S "optional", omitIf (!t.optional) (.bool t.optional)),
  (S "value", omitIf (t.value = []) (encStr t.value)),
  (S "meta", omitIf (t.metas = []) (encList encMeta t.metas)),
  (S "comments", omitIf (t.comments = []) (encList encStr t.comments))])

/-- `Error`, error.go:8-15. -/
def encError (e : ErrorDecl) : Json := .obj (members [
  (S "code", some (.num (intText e.code))),
  (S "name", some (encStr e.name)),
  (S "message", some (encStr e.message)),
  (S "httpStatus", some (.num (intText e.httpStatus)))])

/-- `Annotation`, service.go:46-49. -/
def encAnnotation (a : Annotation) : Json := .obj (members [
  (S "annotationType", some (encStr a.annotationType)),
  (S "value", some (encStr a.value))])

/-- `Annotations`, service.go:44. -/
def encAnnotations (isNil : Bool) (l : List (Str × Annotation)) : Json :=
  if isNil ∧ l = [] then .null else .obj ((sortKeys l).map fun p => (p.1, encAnnotation p.2))

/-- `MethodArgument`, service.go:33-42. -/
def encArgument [GoPrint] (a : Argument) : Json := .obj (members [
  (S "name", some (encStr a.name)),
  (S "type", some (encType a.type)),
  (S "optional", some (.bool a.optional)),
  (S "value", omitIf (a.value = []) (encStr a.value)),
  (S "meta", omitIf (a.metas = []) (encList encMeta a.metas))])

/-- `Method`, service.go:16-31. -/
def encMethod [GoPrint] (m : Method) : Json := .obj (members [
  (S "name", some (encStr m.name)),
  (S "annotations", some (encAnnotations m.nils.annotations m.annotations)),
  (S "comments", some (encSlice m.nils.comments encStr m.comments)),
  (S "succinct", omitIf (!m.succinct) (.bool m.succinct)),
  (S "streamInput", omitIf (!m.streamInput) (.bool m.streamInput)),
  (S "streamOutput", omitIf (!m.streamOutput) (.bool m.streamOutput)),
  (S "inputs", some (encSlice m.nils.inputs encArgument m.inputs)),
  (S "outputs", some (encSlice m.nils.outputs encArgument m.outputs)),
  (S "errors", omitIf (m.errors = []) (encList encStr m.errors))])

/-- `Service`, service.go:8-14. -/
def encService [GoPrint] (v : Service) : Json := .obj (members [
  (S "name", some (encStr v.name)),
  (S "methods", some (encSlice v.nils.methods encMethod v.methods)),
  (S "comments", some (encSlice v.nils.comments encStr v.comments))])

/-- `WebRPCSchema`, schema.go:18-27. -/
def encSchema [GoPrint] (s : Schema) : Json := .obj (members [
  (S "webrpc", some (encStr s.webrpcVersion)),
  (S "name", some (encStr s.schemaName)),
  (S "version", some (encStr s.schemaVersion)),
  (S "basepath", some (encStr s.basePath)),
  (S "types", some (encSlice s.nils.types encTypeDecl s.types)),
  (S "errors", some (encSlice s.nils.errors encError s.errors)),
  (S "services", some (encSlice s.nils.services encService s.services))])

/-- All types that are written. -/
def writtenTypes (s : Schema) : List VarType :=
  s.types.flatMap (fun t => t.type.toList ++ t.fields.filterMap (·.type)) ++
  s.services.flatMap fun v => v.methods.flatMap fun m => (m.inputs ++ m.outputs).filterMap (·.type)

/-- `ToJSON`, schema.go:107-119.  Encoding fails when the text made by a `MarshalJSON` method is not JSON. -/
def toJSON [GoPrint] (s : Schema) : Option Str :=
  if (writtenTypes s).all fun t => (cook (goQuote t.expr)).isSome then some (print ⟨true, false⟩ 0 (encSchema s) ++ ['\n'])
  else none

/-- `SchemaHash`, schema.go:93-105; `sha1` is a parameter. -/
def schemaHash [GoPrint] (sha1 : Str → Str) (s : Schema) : Option Str := (toJSON s).map sha1

/-! ### Decoding -/

/-- Why decoding fails. -/
inductive DErr
  | bad
  | unmodelled
deriving DecidableEq, Repr

/-- Two members with the same key. -/
def dupKeys : List (Str × Json) → Bool
  | [] => false
  | p :: l => l.any (fun q => q.1 == p.1) || dupKeys l

/-- The members of an object by the tag of the struct field they set; other members are ignored. -/
def resolve (tags : List Str) : Json → Except DErr (List (Str × Json))
  | .obj l =>
    let r := l.filterMap fun p => (fieldFor tags p.1).map fun t => (t, p.2)
    if dupKeys r then .error .unmodelled else .ok r
  | .null => .error .unmodelled
  | _ => .error .bad

/-- A member, `null` if it is not there (for all the types below `null` leaves the zero value). -/
def field (l : List (Str × Json)) (k : Str) : Json := (l.lookup k).getD .null

/-- A `string`. -/
def decStr : Json → Except DErr Str
  | .str raw => match cook raw with
    | some s => .ok s
    | none => .error .bad
  | .null => .ok []
  | _ => .error .bad

/-- A `bool`. -/
def decBool : Json → Except DErr Bool
  | .bool b => .ok b
  | .null => .ok false
  | _ => .error .bad

/-- An `int`. -/
def decInt (j : Json) : Except DErr Int :=
  match Verif.Rpc.decInt 0 j with
  | some i => .ok i
  | none => .error .bad

/-- The elements of a list, with their number. -/
def decElems {α : Type} (f : Nat → Json → Except DErr α) : Nat → List Json → Except DErr (List α)
  | _, [] => .ok []
  | i, j :: l => do
    let x ← f i j
    let xs ← decElems f (i + 1) l
    .ok (x :: xs)

/-- A slice. -/
def decList {α : Type} (f : Nat → Json → Except DErr α) : Json → Except DErr (List α)
  | .arr l => decElems f 0 l
  | .null => .ok []
  | _ => .error .bad

/-- A slice or a map read from this is nil. -/
def isNull : Json → Bool
  | .null => true
  | _ => false

/-- `(*VarType).UnmarshalJSON`, var_type.go:31-53: the text between the quotes is taken as it is. -/
def decType : Json → Except DErr (Option VarType)
  | .str raw => if raw = [] then .error .bad else .ok (some (.leaf raw .unknown))
  | .null => .ok none
  | _ => .error .bad

mutual
/-- A value of type `interface{}`. -/
def decMetaVal : Json → Except DErr Schema.Json
  | .null => .ok .null
  | .bool b => .ok (.bool b)
  | .num t => .ok (.num t)
  | .str raw => match cook raw with
    | some s => .ok (.str s)
    | none => .error .bad
  | .arr l => do
    let xs ← decMetaVals l
    .ok (.arr xs)
  | .obj l => do
    let xs ← decMetaMembers l
    if dupKeys l then .error .unmodelled else .ok (.obj xs)
/-- Values of type `interface{}`. -/
def decMetaVals : List Json → Except DErr (List Schema.Json)
  | [] => .ok []
  | j :: l => do
    let x ← decMetaVal j
    let xs ← decMetaVals l
    .ok (x :: xs)
/-- Entries of a map. -/
def decMetaMembers : List (Str × Json) → Except DErr (List (Str × Schema.Json))
  | [] => .ok []
  | (k, j) :: l => do
    let x ← decMetaVal j
    let xs ← decMetaMembers l
    .ok ((k, x) :: xs)
end

/-- `TypeFieldMeta`. -/
def decMeta : Json → Except DErr Meta
  | .obj l => if dupKeys l then .error .unmodelled else decMetaMembers l
  | .null => .error .unmodelled
  | _ => .error .bad

/-- `TypeField`. -/
def decField (j : Json) : Except DErr Field := do
  let l ← resolve [S "comments", S "name", S "type", S "optional", S "value", S "meta"] j
  let comments ← decList (fun _ => decStr) (field l (S "comments"))
  let name ← decStr (field l (S "name"))
  let type ← decType (field l (S "type"))
  let optional ← decBool (field l (S "optional"))
  let value ← decStr (field l (S "value"))
  let metas ← decList (fun _ => decMeta) (field l (S "meta"))
  .ok { comments, name, type, optional, value, metas }

/-- `Type`; the new object is the `i`-th one. -/
def decTypeDecl (i : Nat) (j : Json) : Except DErr TypeDecl := do
  let l ← resolve [S "kind", S "name", S "type", S "fields", S "optional", S "value", S "meta", S "comments"] j
  let kind ← decStr (field l (S "kind"))
  let name ← decStr (field l (S "name"))
  let type ← decType (field l (S "type"))
  let fields ← decList (fun _ => decField) (field l (S "fields"))
  let optional ← decBool (field l (S "optional"))
  let value ← decStr (field l (S "value"))
  let metas ← decList (fun _ => decMeta) (field l (S "meta"))
  let comments ← decList (fun _ => decStr) (field l (S "comments"))
  .ok { ptr := (S "json", i), kind, name, type, fields, optional, value, metas, comments }

/-- `Error`. -/
def decError (i : Nat) (j : Json) : Except DErr ErrorDecl := do
  let l ← resolve [S "code", S "name", S "message", S "httpStatus"] j
  let code ← decInt (field l (S "code"))
  let name ← decStr (field l (S "name"))
  let message ← decStr (field l (S "message"))
  let httpStatus ← decInt (field l (S "httpStatus"))
  .ok { ptr := (S "json", i), code, name, message, httpStatus }

/-- `Annotation`. -/
def decAnnotation (j : Json) : Except DErr Annotation := do
  let l ← resolve [S "annotationType", S "value"] j
  let annotationType ← decStr (field l (S "annotationType"))
  let value ← decStr (field l (S "value"))
  .ok { annotationType, value }

/-- Entries of `Annotations`. -/
def decEntries : List (Str × Json) → Except DErr (List (Str × Annotation))
  | [] => .ok []
  | (k, j) :: l => do
    let x ← decAnnotation j
    let xs ← decEntries l
    .ok ((k, x) :: xs)

/-- `Annotations`. -/
def decAnnotations : Json → Except DErr (List (Str × Annotation))
  | .obj l => if dupKeys l then .error .unmodelled else decEntries l
  | .null => .ok []
  | _ => .error .bad

/-- `MethodArgument`. -/
def decArgument (j : Json) : Except DErr Argument := do
  let l ← resolve [S "name", S "type", S "optional", S "value", S "meta"] j
  let name ← decStr (field l (S "name"))
  let type ← decType (field l (S "type"))
  let optional ← decBool (field l (S "optional"))
  let value ← decStr (field l (S "value"))
  let metas ← decList (fun _ => decMeta) (field l (S "meta"))
  .ok { name, type, optional, value, metas }

/-- `Method`. -/
def decMethod (j : Json) : Except DErr Method := do
  let l ← resolve [S "name", S "annotations", S "comments", S "succinct", S "streamInput", S "streamOutput",
    S "inputs", S "outputs", S "errors"] j
  let name ← decStr (field l (S "name"))
  let annotations ← decAnnotations (field l (S "annotations"))
  let comments ← decList (fun _ => decStr) (field l (S "comments"))
  let succinct ← decBool (field l (S "succinct"))
  let streamInput ← decBool (field l (S "streamInput"))
  let streamOutput ← decBool (field l (S "streamOutput"))
  let inputs ← decList (fun _ => decArgument) (field l (S "inputs"))
  let outputs ← decList (fun _ => decArgument) (field l (S "outputs"))
  let errors ← decList (fun _ => decStr) (field l (S "errors"))
  let nils := { annotations := isNull (field l (S "annotations")), comments := isNull (field l (S "comments")),
                inputs := isNull (field l (S "inputs")), outputs := isNull (field l (S "outputs")) }
  .ok { name, annotations, comments, succinct, streamInput, streamOutput, inputs, outputs, errors, nils }

/-- `Service`. -/
def decService (i : Nat) (j : Json) : Except DErr Service := do
  let l ← resolve [S "name", S "methods", S "comments"] j
  let name ← decStr (field l (S "name"))
  let methods ← decList (fun _ => decMethod) (field l (S "methods"))
  let comments ← decList (fun _ => decStr) (field l (S "comments"))
  let nils := { methods := isNull (field l (S "methods")), comments := isNull (field l (S "comments")) }
  .ok { ptr := (S "json", i), name, methods, comments, nils }

/-- `WebRPCSchema`. -/
def decSchema (j : Json) : Except DErr Schema := do
  let l ← resolve [S "webrpc", S "name", S "version", S "basepath", S "types", S "errors", S "services"] j
  let webrpcVersion ← decStr (field l (S "webrpc"))
  let schemaName ← decStr (field l (S "name"))
  let schemaVersion ← decStr (field l (S "version"))
  let basePath ← decStr (field l (S "basepath"))
  let types ← decList decTypeDecl (field l (S "types"))
  let errors ← decList decError (field l (S "errors"))
  let services ← decList decService (field l (S "services"))
  let nils := { types := isNull (field l (S "types")), errors := isNull (field l (S "errors")),
                services := isNull (field l (S "services")) }
  .ok { webrpcVersion, schemaName, schemaVersion, basePath, types, errors, services, nils }

/-- The outcome of loading a JSON schema. -/
inductive Loaded
  | ok (s : Schema)
  | invalid (e : SErr)
  | panic
  | badJson
  | unmodelled

/-- `ParseSchemaJSON`, parser.go:12-25.  A text `null` leaves a nil schema, whose `Validate` panics. -/
def parseSchemaJSON [GoUnicode] (text : Str) : Loaded :=
  match parse text with
  | none => .badJson
  | some .null => .panic
  | some j => match decSchema j with
    | .error .bad => .badJson
    | .error .unmodelled => .unmodelled
    | .ok s => match validate s with
      | .ok s' => .ok s'
      | .err e => .invalid e
      | .panic => .panic
      | .fuel => .unmodelled

end Verif.Json
