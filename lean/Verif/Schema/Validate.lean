import Verif.Schema.Types
/-!
# Model of schema validation

Models `(*WebRPCSchema).Validate` and what it calls: `/repo/schema/schema.go:29-91`,
`/repo/schema/type.go:42-186`, `/repo/schema/error.go:17-54`, `/repo/schema/service.go:51-154`,
`/repo/schema/parser.go:27-34`.

The Go code updates the schema in place; here each function returns the updated value.  When it
returns an error the half-updated schema is not represented.
-/

namespace Verif.Schema

/-- First byte of the UTF-8 encoding of a rune (`s[0]`). -/
def leadByte (c : Char) : Nat :=
  let n := c.toNat
  if n < 0x80 then n
  else if n < 0x800 then 0xC0 + n / 64
  else if n < 0x10000 then 0xE0 + n / 4096
  else 0xF0 + n / 262144

/-- `unicode.IsUpper(rune(b))` for a byte `b`: Latin-1 upper-case letters. -/
def latin1Upper (b : Nat) : Bool :=
  (65 ≤ b && b ≤ 90) || (0xC0 ≤ b && b ≤ 0xD6) || (0xD8 ≤ b && b ≤ 0xDE)

/-- `startsWithUpper`, type.go:178-186 (note that it looks at the first *byte*). -/
def startsWithUpper : Str → Bool
  | [] => false
  | c :: _ => latin1Upper (leadByte c)

/-- `[a-zA-Z]` of `NameWhitelistRexp`, parser.go:27. -/
def isAlpha (c : Char) : Bool := ('a' ≤ c && c ≤ 'z') || ('A' ≤ c && c ≤ 'Z')

/-- `[a-zA-Z0-9_]` of `NameWhitelistRexp`, parser.go:27. -/
def isAlnum (c : Char) : Bool := isAlpha c || ('0' ≤ c && c ≤ '9') || c == '_'

/-- `IsValidArgName`, parser.go:27-34: the regular expression `^[a-zA-Z]+[a-zA-Z0-9_]*$`. -/
def isValidArgName : Str → Bool
  | [] => false
  | c :: cs => isAlpha c && cs.all isAlnum

/-- `unicode.IsSpace`, used by `strings.TrimSpace`. -/
def isSpace (c : Char) : Bool :=
  let n := c.toNat
  (9 ≤ n && n ≤ 13) || n == 32 || n == 0x85 || n == 0xA0 || n == 0x1680 ||
    (0x2000 ≤ n && n ≤ 0x200A) || n == 0x2028 || n == 0x2029 || n == 0x202F || n == 0x205F ||
    n == 0x3000

/-- `strings.TrimSpace`. -/
def trimSpace (s : Str) : Str :=
  ((s.dropWhile isSpace).reverse.dropWhile isSpace).reverse

/-! ## Base path -/

/-- `strings.Contains`. -/
def containsSub (sub : Str) : Str → Bool
  | [] => sub.isEmpty
  | c :: cs => sub.isPrefixOf (c :: cs) || containsSub sub cs

/-- A hexadecimal digit (`net/url.ishex`). -/
def isHex (c : Char) : Bool :=
  ('0' ≤ c && c ≤ '9') || ('a' ≤ c && c ≤ 'f') || ('A' ≤ c && c ≤ 'F')

/-- Percent escapes are well formed (`net/url.unescape` in path mode). -/
def percentOk : Str → Bool
  | [] => true
  | c :: cs =>
    if c = '%' then
      match cs with
      | a :: b :: _ => isHex a && isHex b && percentOk cs
      | _ => false
    else percentOk cs

/-- `url.ParseRequestURI(p)` succeeds, for `p` starting with `/` and without `?`: no control
characters and well-formed percent escapes.  (Scheme, host and user are then always empty, so the
test at schema.go:58-60 never fires.)  From the Go standard library, not in /repo. -/
def requestURIOk (p : Str) : Bool :=
  p.all (fun c => !(c.toNat < 0x20 || c.toNat == 0x7f)) && percentOk p

/-- The base path part of `Validate`, schema.go:40-67. -/
def normBasePath (b : Str) : Res Str :=
  if b = [] then .ok b else do
    Res.failIf (b.any fun c => c == ' ' || c == '\t' || c == '\r' || c == '\n') .basepathSpace
    Res.failIf (b.any fun c => c == '?' || c == '#') .basepathQuery
    Res.failIf (containsSub (S "://") b) .basepathURL
    let p := if hasPrefix b (S "/") then b else S "/" ++ b
    Res.failIf (!requestURIOk p) .basepathInvalid
    let b := if hasPrefix b (S "/") then b else S "/" ++ b
    .ok (if hasSuffix b (S "/") then b else b ++ S "/")

/-! ## Types -/

/-- The loop over the metas of a field, type.go:95-114: the JSON name of the field. -/
def jsonFieldName (acc : Str) : List Meta → Res Str
  | [] => .ok acc
  | m :: ms =>
    match m.lookup (S "json") with
    | none => jsonFieldName acc ms
    | some (.str v) =>
      if v = S "-" then jsonFieldName acc ms
      else if !isValidArgName v then .err .jsonInvalid
      else jsonFieldName v ms
    | some _ => .err .jsonNotString

/-- The loop over the fields of a type, type.go:75-122; `seen` and `seenJson` are the keys of
`fieldList` and `jsonFieldList`. -/
def checkFields [GoUnicode] (seen seenJson : List Str) : List Field → Res Unit
  | [] => .ok ()
  | f :: fs => do
    Res.failIf (f.name = []) .fieldNameEmpty
    Res.failIf (!isValidArgName f.name) .fieldNameInvalid
    Res.failIf (seen.contains (toLower f.name)) .fieldDup
    let j ← jsonFieldName f.name f.metas
    Res.failIf (seenJson.contains (toLower j)) .jsonDup
    checkFields (toLower f.name :: seen) (toLower j :: seenJson) fs

/-- The enum part of `(*Type).Parse`, type.go:124-142. -/
def checkEnum (t : TypeDecl) : Res Unit := do
  let _ ← Res.each (fun f : Field => do
    Res.failIf (f.value = []) .enumValueMissing
    Res.failIf f.type.isSome .enumFieldType) t.fields
  Res.failIf (!isValidVarType (varTypeString t.type) (varIntegerCoreTypes ++ [.string])) .enumType

/-- One field of a struct, type.go:146-156. -/
def structField [GoUnicode] (ts : List TypeDecl) (f : Field) : Res Field := do
  let vt ← varTypeParse ts f.type
  Res.failIf (f.value ≠ []) .structValue
  .ok { f with type := some vt }

/-- `(*Type).Parse`, type.go:42-165. -/
def typeParse [GoUnicode] (ts : List TypeDecl) (t : TypeDecl) : Res TypeDecl := do
  Res.failIf (t.name = []) .typeNameEmpty
  Res.failIf (!startsWithUpper t.name) .typeNameCase
  Res.failIf (ts.any fun m => m.ptr ≠ t.ptr ∧ toLower t.name = toLower m.name) .typeDup
  Res.failIf (t.kind ≠ S "enum" ∧ t.kind ≠ S "struct" ∧ t.kind ≠ S "alias") .typeKind
  if t.kind = S "alias" then
    Res.failIf t.type.isNone .aliasNoType
    .ok t
  else do
    checkFields [] [] t.fields
    if t.kind = S "enum" then do
      checkEnum t
      .ok t
    else do
      let fs ← Res.each (structField ts) t.fields
      .ok { t with fields := fs }

/-! ## Errors -/

/-- The duplicate check of `(*Error).Parse`, error.go:38-51. -/
def errorDups [GoUnicode] (names : List Str) (codes : List Int) : List ErrorDecl → Res Unit
  | [] => .ok ()
  | e :: es => do
    Res.failIf (names.contains (toLower e.name)) .errDupName
    Res.failIf (codes.contains e.code) .errDupCode
    errorDups (toLower e.name :: names) (e.code :: codes) es

/-- `(*Error).Parse`, error.go:17-54, for the error `e` standing between `before` (already
trimmed) and `after`. -/
def errorParse [GoUnicode] (before after : List ErrorDecl) (e : ErrorDecl) : Res ErrorDecl := do
  let e := { e with name := trimSpace e.name }
  Res.failIf (e.name = []) .errNameEmpty
  Res.failIf (e.code ≤ 0) .errCode
  Res.failIf (!startsWithUpper e.name) .errNameCase
  Res.failIf (hasPrefix (toLower e.name) (S "webrpc")) .errNameReserved
  Res.failIf (e.message = []) .errMessage
  Res.failIf (e.httpStatus < 400 ∨ e.httpStatus > 599) .errStatus
  errorDups [] [] (before ++ e :: after)
  .ok e

/-- The loop over the errors in `Validate`, schema.go:76-81. -/
def errorsParse [GoUnicode] (before : List ErrorDecl) : List ErrorDecl → Res (List ErrorDecl)
  | [] => .ok before
  | e :: es => do
    let e' ← errorParse before es e
    errorsParse (before ++ [e']) es

/-! ## Services -/

/-- One argument of a method, service.go:112-121 and 127-136. -/
def argParse [GoUnicode] (ts : List TypeDecl) (a : Argument) : Res Argument := do
  Res.failIf (a.name = []) .argNameEmpty
  let vt ← varTypeParse ts a.type
  .ok { a with type := some vt }

/-- `(*Method).Parse`, service.go:100-154. -/
def methodParse [GoUnicode] (ts : List TypeDecl) (es : List ErrorDecl) (m : Method) : Res Method := do
  Res.failIf (m.inputs.length > 1 ∧ m.succinct) .succinctInputs
  let ins ← Res.each (argParse ts) m.inputs
  Res.failIf (m.outputs.length > 1 ∧ m.succinct) .succinctOutputs
  let outs ← Res.each (argParse ts) m.outputs
  let _ ← Res.each (fun n : Str => Res.failIf (!es.any fun e => e.name = n) .undefinedError) m.errors
  .ok { m with inputs := ins, outputs := outs }

/-- The loop over the method names, service.go:72-86. -/
def checkMethods [GoUnicode] (seen : List Str) : List Method → Res Unit
  | [] => .ok ()
  | m :: ms => do
    Res.failIf (m.name = []) .methodNameEmpty
    Res.failIf (seen.contains (toLower m.name)) .methodDup
    checkMethods (toLower m.name :: seen) ms

/-- `(*Service).Parse`, service.go:51-98. -/
def serviceParse [GoUnicode] (ts : List TypeDecl) (es : List ErrorDecl) (ss : List Service)
    (s : Service) : Res Service := do
  Res.failIf (s.name = []) .serviceNameEmpty
  Res.failIf (ss.any fun m => m.ptr ≠ s.ptr ∧ toLower s.name = toLower m.name) .serviceDup
  Res.failIf s.methods.isEmpty .noMethods
  checkMethods [] s.methods
  let ms ← Res.each (methodParse ts es) s.methods
  .ok { s with methods := ms }

/-- `(*WebRPCSchema).Validate`, schema.go:31-91. -/
def validate [GoUnicode] (s : Schema) : Res Schema := do
  Res.failIf (s.webrpcVersion ≠ S "v1") .webrpcVersion
  Res.failIf (!s.services.isEmpty ∧ s.schemaVersion = []) .versionRequired
  let b ← normBasePath s.basePath
  let types ← Res.each (typeParse s.types) s.types
  let errors ← errorsParse [] s.errors
  let services ← Res.each (serviceParse types errors s.services) s.services
  .ok { s with basePath := b, types := types, errors := errors, services := services }

end Verif.Schema
