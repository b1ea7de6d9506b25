import Verif.Spec.SchemaValid
import Verif.Spec.TypeExpr
import Verif.Schema.ValidateLemmas
/-!
# Which schemas are valid, and what validation makes of them

Written from the documentation and the error messages of the validator, without its functions:
`ValidSchema` lists the conditions, `Validated` says what the validated schema is.
-/

namespace Verif.Spec
open Verif.Schema

/-- The first byte of the name, in UTF-8, is an upper-case letter of Latin-1. -/
def Capitalised (n : Str) : Prop :=
  ∃ c cs b bs, n = c :: cs ∧ String.utf8EncodeChar c = b :: bs ∧
    ((65 ≤ b.toNat ∧ b.toNat ≤ 90) ∨ (0xC0 ≤ b.toNat ∧ b.toNat ≤ 0xDE ∧ b.toNat ≠ 0xD7))

/-- A hexadecimal digit. -/
def HexDigit (c : Char) : Prop :=
  ('0' ≤ c ∧ c ≤ '9') ∨ ('a' ≤ c ∧ c ≤ 'f') ∨ ('A' ≤ c ∧ c ≤ 'F')

/-- A base path that may be given: no blanks, no query or fragment, no scheme, no control characters,
every `%` followed by two hexadecimal digits. -/
structure GivenPathOk (b : Str) : Prop where
  chars : ∀ c ∈ b, c ∉ [' ', '\t', '\r', '\n', '?', '#'] ∧ 0x20 ≤ c.toNat ∧ c.toNat ≠ 0x7f
  noScheme : ¬ S "://" <:+: b
  escapes : ∀ r, '%' :: r <:+ b → ∃ x y r', r = x :: y :: r' ∧ HexDigit x ∧ HexDigit y

/-- The path with the slashes it lacks at either end. -/
def slashed (b : Str) : Str :=
  let p := if b.head? = some '/' then b else '/' :: b
  if p.getLast? = some '/' then p else p ++ ['/']

/-- The type is written out, as an expression that means something under the declarations. -/
def WrittenType [GoUnicode] (ts : List TypeDecl) (o : Option VarType) : Prop :=
  ∃ v, o = some v ∧ v.expr ≠ [] ∧ ∃ t : Ty, t.text = v.expr ∧ WellFormed ts t

/-- The text of an expression, with omitted parts shown. -/
def Ty.shown : Ty → Str
  | .omitted => S "<unknown>"
  | .scalar n => n
  | .list t => S "[]" ++ t.shown
  | .map k v => S "map<" ++ k ++ S "," ++ v.shown ++ S ">"
  | .named n => n

/-- What a written type becomes: the tree of the expression. -/
def TypeBecomes [GoUnicode] (ts : List TypeDecl) (o o' : Option VarType) : Prop :=
  ∃ (v : VarType) (t : Ty) (w : VarType), o = some v ∧ v.expr ≠ [] ∧ t.text = v.expr ∧ Denotes ts t w ∧
    o' = some (w.setExpr t.shown)

/-- Every `json` meta of the field is `-` or an identifier. -/
def JsonMetasOk (f : Field) : Prop :=
  ∀ m ∈ f.metas, ∀ v, m.lookup (S "json") = some v → ∃ w, v = .str w ∧ (w = S "-" ∨ Identifier w)

/-- The fields of a struct or an enum. -/
structure ValidFields [GoUnicode] (fs : List Field) : Prop where
  ident : ∀ f ∈ fs, Identifier f.name
  distinct : DistinctNames (fs.map (·.name))
  json : ∀ f ∈ fs, JsonMetasOk f
  jsonDistinct : DistinctNames (fs.map jsonNameOf)

/-- One of the types `ts`. -/
structure ValidType [GoUnicode] (ts : List TypeDecl) (t : TypeDecl) : Prop where
  name : Capitalised t.name
  unique : ∀ m ∈ ts, m.ptr ≠ t.ptr → ¬ SameName t.name m.name
  kind : t.kind = S "alias" ∨ t.kind = S "enum" ∨ t.kind = S "struct"
  alias : t.kind = S "alias" → t.type ≠ none
  enum : t.kind = S "enum" → ValidFields t.fields ∧
    (∀ f ∈ t.fields, f.value ≠ [] ∧ f.type = none) ∧
    ∃ v, t.type = some v ∧ (v.expr ∈ integerNames ∨ v.expr = S "string")
  struct : t.kind = S "struct" → ValidFields t.fields ∧
    ∀ f ∈ t.fields, f.value = [] ∧ WrittenType ts f.type

/-- An error, by its trimmed name `n`. -/
structure ValidError [GoUnicode] (n : Str) (e : ErrorDecl) : Prop where
  name : Capitalised n
  notReserved : ¬ S "webrpc" <+: toLower n
  code : 0 < e.code
  message : e.message ≠ []
  status : 400 ≤ e.httpStatus ∧ e.httpStatus ≤ 599

/-- A method: argument names and types, the errors it lists, succinct form. -/
structure ValidMethod [GoUnicode] (ts : List TypeDecl) (errs : List Str) (m : Method) : Prop where
  name : m.name ≠ []
  args : ∀ a ∈ m.inputs ++ m.outputs, a.name ≠ [] ∧ WrittenType ts a.type
  errors : ∀ n ∈ m.errors, n ∈ errs
  succinct : m.succinct = true → m.inputs.length ≤ 1 ∧ m.outputs.length ≤ 1

/-- One of the services `ss`. -/
structure ValidService [GoUnicode] (ts : List TypeDecl) (errs : List Str) (ss : List Service) (v : Service) :
    Prop where
  name : v.name ≠ []
  unique : ∀ m ∈ ss, m.ptr ≠ v.ptr → ¬ SameName v.name m.name
  nonempty : v.methods ≠ []
  methods : ∀ m ∈ v.methods, ValidMethod ts errs m
  distinct : DistinctNames (v.methods.map (·.name))

/-- The schemas that are valid. -/
structure ValidSchema [GoUnicode] (s : Schema) : Prop where
  webrpc : s.webrpcVersion = S "v1"
  version : s.services ≠ [] → s.schemaVersion ≠ []
  path : s.basePath ≠ [] → GivenPathOk s.basePath
  types : ∀ t ∈ s.types, ValidType s.types t
  errors : ∀ e ∈ s.errors, ValidError (trimSpace e.name) e
  errorNames : DistinctNames (s.errors.map fun e => trimSpace e.name)
  errorCodes : (s.errors.map (·.code)).Nodup
  services : ∀ v ∈ s.services, ValidService s.types (s.errors.map fun e => trimSpace e.name) s.services v

/-- What becomes of a type: the types of the fields of a struct are replaced by their trees. -/
def TypeDeclBecomes [GoUnicode] (ts : List TypeDecl) (t t' : TypeDecl) : Prop :=
  (t.kind ≠ S "struct" ∧ t' = t) ∨
  (t.kind = S "struct" ∧ ∃ fs, t' = { t with fields := fs } ∧
    Pointwise (fun f f' => ∃ o, TypeBecomes ts f.type o ∧ f' = { f with type := o }) t.fields fs)

/-- What becomes of an argument. -/
def ArgBecomes [GoUnicode] (ts : List TypeDecl) (a a' : Argument) : Prop :=
  ∃ o, TypeBecomes ts a.type o ∧ a' = { a with type := o }

/-- What becomes of a method. -/
def MethodBecomes [GoUnicode] (ts : List TypeDecl) (m m' : Method) : Prop :=
  ∃ ins outs, Pointwise (ArgBecomes ts) m.inputs ins ∧ Pointwise (ArgBecomes ts) m.outputs outs ∧
    m' = { m with inputs := ins, outputs := outs }

/-- What becomes of a service. -/
def ServiceBecomes [GoUnicode] (ts : List TypeDecl) (v v' : Service) : Prop :=
  ∃ ms, Pointwise (MethodBecomes ts) v.methods ms ∧ v' = { v with methods := ms }

/-- The validated schema: the same, but with slashes around the base path, trimmed error names and
trees for the types of fields and arguments. -/
structure Validated [GoUnicode] (s s' : Schema) : Prop where
  header : s'.webrpcVersion = s.webrpcVersion ∧ s'.schemaName = s.schemaName ∧
    s'.schemaVersion = s.schemaVersion
  path : s'.basePath = if s.basePath = [] then [] else slashed s.basePath
  types : Pointwise (TypeDeclBecomes s.types) s.types s'.types
  errors : s'.errors = s.errors.map fun e => { e with name := trimSpace e.name }
  services : Pointwise (ServiceBecomes s.types) s.services s'.services
  lists : s'.nils = s.nils

/-- Case mapping turns no letter into a blank and no blank into a letter (true of Unicode). -/
def CaseKeepsBlanks [GoUnicode] : Prop := ∀ c : Char, isSpace (lowerChar c) = isSpace c

end Verif.Spec
