import Verif.Ridl.ParserStates
import Verif.Spec.Lexing
import Verif.Spec.Parsing
import Verif.Spec.TypeExpr
/-!
# RIDL documents: what they say and how they are written

`Item` is the content of a document, `document` the text an author writes for it, `Item.entries` what a reader has to
understand, and `Node.entry` what a syntax tree of the parser says, without positions.
-/

namespace Verif.Spec
open Verif.Ridl (Str Token TT Node DefNode ArgNode AnnNode MethodNode join)

/-! ### Content -/

/-- A literal, written bare or between quotes. -/
inductive Lit
  | bare (s : Str)
  | quoted (s : Str)
deriving DecidableEq, Repr

/-- The text a literal stands for. -/
def Lit.value : Lit → Str
  | .bare s => s
  | .quoted s => s

structure Member where
  doc : List Str
  name : Str
  value : Option Lit

structure FieldDecl where
  doc : List Str
  name : Str
  optional : Bool
  type : Ty
  metas : List (Str × Lit)

structure Ann where
  name : Str
  value : Option Lit

structure Param where
  name : Str
  optional : Bool
  type : Ty

/-- Arguments: a list, or the name of a struct that holds them. -/
inductive Params
  | list (ps : List Param)
  | whole (name : Str)

structure Signature where
  streamIn : Bool
  inputs : Params
  output : Option (Bool × Params)
  errors : List Str

/-- A method; `anns` holds the annotations of each annotation line; `sig := none` is a proxied method. -/
structure MethodDecl where
  doc : List Str
  anns : List (List Ann)
  name : Str
  sig : Option Signature

inductive Item
  | define (doc : List Str) (key : Str) (value : Lit)
  | importFiles (paths : List Lit)
  | importFile (path : Lit) (members : List Lit)
  | error (code name : Str) (message : Lit) (status : Option Str)
  | enum (doc : List Str) (name type : Str) (members : List Member)
  | alias (doc : List Str) (name : Str) (type : Ty) (metas : List (Str × Lit))
  | struct (doc : List Str) (name : Str) (fields : List FieldDecl)
  | service (doc : List Str) (name : Str) (methods : List MethodDecl)

/-! ### Writing -/

def Lit.text : Lit → Str
  | .bare s => s
  | .quoted s => ['"'] ++ escape s ++ ['"']

/-- Comment lines above an item. -/
def docRows (indent : String) (doc : List Str) : List Str := doc.map fun l => indent.toList ++ "# ".toList ++ l

/-- `<indent>+ key = value`. -/
def metaRow (indent : String) (m : Str × Lit) : Str := indent.toList ++ "+ ".toList ++ m.1 ++ " = ".toList ++ m.2.text

def Member.rows (m : Member) : List Str :=
  docRows "  " m.doc ++ [match m.value with
    | none => "  - ".toList ++ m.name
    | some v => "  - ".toList ++ m.name ++ " = ".toList ++ v.text]

def optMark (b : Bool) : Str := if b then ['?'] else []

def FieldDecl.rows (f : FieldDecl) : List Str :=
  docRows "  " f.doc ++ ["  - ".toList ++ f.name ++ optMark f.optional ++ ": ".toList ++ f.type.text] ++ f.metas.map (metaRow "    ")

def Ann.text (a : Ann) : Str :=
  match a.value with
  | none => ['@'] ++ a.name
  | some v => ['@'] ++ a.name ++ [':'] ++ v.text

def Param.text (p : Param) : Str := p.name ++ optMark p.optional ++ ": ".toList ++ p.type.text

def Params.text : Params → Str
  | .list ps => ['('] ++ join ", ".toList (ps.map Param.text) ++ [')']
  | .whole n => ['('] ++ n ++ [')']

def outputText : Option (Bool × Params) → Str
  | none => []
  | some (stream, ps) => " => ".toList ++ (if stream then "stream ".toList else []) ++ ps.text

def errorsText (es : List Str) : Str := if es = [] then [] else " errors ".toList ++ join " | ".toList es

/-- `- Name(...) => (...) errors ...`, `- stream Name(...)` or `- proxy Name`. -/
def MethodDecl.signatureText (m : MethodDecl) : Str :=
  match m.sig with
  | none => "proxy ".toList ++ m.name
  | some s => (if s.streamIn then "stream ".toList else []) ++ m.name ++ s.inputs.text ++ outputText s.output ++ errorsText s.errors

def MethodDecl.rows (m : MethodDecl) : List Str :=
  docRows "  " m.doc ++ m.anns.map (fun l => "  ".toList ++ join [' '] (l.map Ann.text)) ++ ["  - ".toList ++ m.signatureText]

def statusText : Option Str → Str
  | none => []
  | some s => " HTTP ".toList ++ s

def Item.rows : Item → List Str
  | .define doc key v => docRows "" doc ++ [key ++ " = ".toList ++ v.text]
  | .importFiles paths => "import".toList :: paths.map fun p => "  - ".toList ++ p.text
  | .importFile path members => ("import ".toList ++ path.text) :: members.map fun m => "  - ".toList ++ m.text
  | .error code name msg status => ["error ".toList ++ code ++ [' '] ++ name ++ [' '] ++ msg.text ++ statusText status]
  | .enum doc name type members => docRows "" doc ++ ["enum ".toList ++ name ++ ": ".toList ++ type] ++ members.flatMap Member.rows
  | .alias doc name type metas => docRows "" doc ++ ["type ".toList ++ name ++ ": ".toList ++ type.text] ++ metas.map (metaRow "  ")
  | .struct doc name fields => docRows "" doc ++ ["struct ".toList ++ name] ++ fields.flatMap FieldDecl.rows
  | .service doc name methods => docRows "" doc ++ ["service ".toList ++ name] ++ methods.flatMap MethodDecl.rows

/-- The text of a document: its rows, with an empty row after each item. -/
def document (items : List Item) : Str := (items.flatMap fun i => i.rows ++ [[]]).flatMap (· ++ ['\n'])

/-! ### What may be written -/

/-- A word of RIDL. -/
def IsWord (w : Str) : Prop := ∃ c cs, w = c :: cs ∧ WordStart c ∧ ∀ x ∈ cs, ¬ WordEnd x

/-- Text that needs no escapes. -/
def Clear (s : Str) : Prop := Ascii s ∧ '\\' ∉ s

/-- Text that can be written between quotes. -/
def Quotable (s : Str) : Prop := s ≠ [] ∧ Clear s ∧ '"' ∉ s ∧ '#' ∉ s ∧ '\x00' ∉ s

/-- A line of a doc comment: single blanks between words, no `#`, not starting with `!`. -/
def DocLine (l : Str) : Prop := join [' '] (fields l) = l ∧ '#' ∉ l ∧ '\n' ∉ l ∧ '\x00' ∉ l ∧ l.head? ≠ some '!'

/-- Characters from `lead`, then possibly a word. -/
def Led (lead : List Char) (s : Str) : Prop := s ≠ [] ∧ Clear s ∧ ∃ p w, s = p ++ w ∧ (∀ c ∈ p, c ∈ lead) ∧ (w = [] ∨ IsWord w)

def Lit.Ok (bare : Str → Prop) : Lit → Prop
  | .bare s => bare s
  | .quoted s => Quotable s

/-- Values of definitions, enum members, imported names: slashes, then a word. -/
def Lit.Plain (v : Lit) : Prop := v.Ok (Led ['/'])

/-- Paths: dots and slashes, then a word. -/
def Lit.Path (v : Lit) : Prop := v.Ok (Led ['.', '/'])

/-- Values of `+` lines: no blanks. -/
def Lit.Meta (v : Lit) : Prop :=
  v.Ok fun s => s ≠ [] ∧ Clear s ∧ s.head? ≠ some '"' ∧ ∀ c ∈ s, ¬ Blank c ∧ c ≠ '\n' ∧ c ≠ '#' ∧ c ≠ '\x00'

/-- Error messages, annotation values: one word. -/
def Lit.Word (v : Lit) : Prop := v.Ok IsWord

/-- Words of type expressions. -/
def IsTypeWord (w : Str) : Prop := IsWord w ∧ Clear w ∧ w ∉ ["map".toList, "stream".toList, "struct".toList]

def Ty.Writable : Ty → Prop
  | .omitted => False
  | .scalar n => IsTypeWord n
  | .named n => IsTypeWord n
  | .list t => t.Writable
  | .map k v => IsTypeWord k ∧ v.Writable

def MetaOk (m : Str × Lit) : Prop := IsWord m.1 ∧ Clear m.1 ∧ m.2.Meta

def Digits (s : Str) : Prop := s ≠ [] ∧ ∀ c ∈ s, '0' ≤ c ∧ c ≤ '9'

def Member.Ok (m : Member) : Prop := (∀ l ∈ m.doc, DocLine l) ∧ IsWord m.name ∧ ∀ v, m.value = some v → v.Plain

def FieldDecl.Ok (f : FieldDecl) : Prop := (∀ l ∈ f.doc, DocLine l) ∧ IsWord f.name ∧ f.type.Writable ∧ ∀ m ∈ f.metas, MetaOk m

def Ann.Ok (a : Ann) : Prop := IsWord a.name ∧ ∀ v, a.value = some v → v.Word

def Params.Ok : Params → Prop
  | .list ps => ∀ p ∈ ps, IsWord p.name ∧ p.type.Writable
  | .whole n => IsWord n

def Signature.Ok (s : Signature) : Prop := s.inputs.Ok ∧ (∀ o, s.output = some o → o.2.Ok) ∧ ∀ e ∈ s.errors, IsWord e

def MethodDecl.Ok (m : MethodDecl) : Prop :=
  (∀ l ∈ m.doc, DocLine l) ∧ (∀ l ∈ m.anns, l ≠ [] ∧ ∀ a ∈ l, a.Ok) ∧ (m.anns.flatten.map Ann.name).Nodup ∧
  IsWord m.name ∧ m.name ≠ "stream".toList ∧ m.name ≠ "proxy".toList ∧ ∀ s, m.sig = some s → s.Ok

def Item.Ok : Item → Prop
  | .define doc key v => (∀ l ∈ doc, DocLine l) ∧ key ∈ ["webrpc".toList, "name".toList, "version".toList, "basepath".toList] ∧ v.Plain
  | .importFiles paths => ∀ p ∈ paths, p.Path
  | .importFile path members => path.Path ∧ ∀ m ∈ members, m.Plain
  | .error code name msg status => IsWord code ∧ Digits code ∧ IsWord name ∧ msg.Word ∧ ∀ s, status = some s → Digits s
  | .enum doc name type members => (∀ l ∈ doc, DocLine l) ∧ IsWord name ∧ IsWord type ∧ ∀ m ∈ members, m.Ok
  | .alias doc name type metas => (∀ l ∈ doc, DocLine l) ∧ IsWord name ∧ type.Writable ∧ ∀ m ∈ metas, MetaOk m
  | .struct doc name fields => (∀ l ∈ doc, DocLine l) ∧ IsWord name ∧ ∀ f ∈ fields, f.Ok
  | .service doc name methods => (∀ l ∈ doc, DocLine l) ∧ IsWord name ∧ Clear name ∧ ∀ m ∈ methods, m.Ok

/-! ### Understanding -/

/-- What is said about an argument: its name, type and whether it is optional, or the struct that holds all of them. -/
inductive ArgEntry
  | one (name type : Option Str) (optional : Bool)
  | whole (name : Str)
deriving DecidableEq, Repr

structure MethodEntry where
  doc : Str
  anns : List (Str × Option Str)
  name : Str
  proxy : Bool
  streamIn : Bool
  inputs : List ArgEntry
  streamOut : Bool
  outputs : List ArgEntry
  errors : List Str
deriving DecidableEq, Repr

structure FieldEntry where
  doc : Str
  name : Str
  value : Option Str
  optional : Bool
  metas : List (Str × Str)
deriving DecidableEq, Repr

inductive Entry
  | define (e : FieldEntry)
  | import_ (path : Str) (members : List Str)
  | error (code name : Str) (message status : Option Str)
  | enum (doc name type : Str) (members : List FieldEntry)
  | alias (doc name type : Str) (metas : List (Str × Str))
  | struct (doc name : Str) (fields : List FieldEntry)
  | service (doc name : Str) (methods : List MethodEntry)
deriving DecidableEq, Repr

/-- The lines of a doc comment as one text. -/
def docOf (doc : List Str) : Str := join ['\n'] doc

def metaEntry (m : Str × Lit) : Str × Str := (m.1, m.2.value)

def Params.entries : Params → List ArgEntry
  | .list ps => ps.map fun p => .one (some p.name) (some p.type.text) p.optional
  | .whole n => [.whole n]

/-- The doc comment of a method is lost when more than one annotation line follows it. -/
def MethodDecl.entry (m : MethodDecl) : MethodEntry where
  doc := if m.anns.length ≤ 1 then docOf m.doc else []
  anns := m.anns.flatten.map fun a => (a.name, a.value.map Lit.value)
  name := m.name
  proxy := m.sig.isNone
  streamIn := match m.sig with | none => false | some s => s.streamIn
  inputs := match m.sig with | none => [] | some s => s.inputs.entries
  streamOut := match m.sig with | none => false | some s => match s.output with | none => false | some o => o.1
  outputs := match m.sig with | none => [] | some s => match s.output with | none => [] | some o => o.2.entries
  errors := match m.sig with | none => [] | some s => s.errors

def FieldDecl.entry (f : FieldDecl) : FieldEntry where
  doc := docOf f.doc
  name := f.name
  value := some f.type.text
  optional := f.optional
  metas := f.metas.map metaEntry

def Member.entry (m : Member) : FieldEntry where
  doc := docOf m.doc
  name := m.name
  value := m.value.map Lit.value
  optional := false
  metas := []

/-- The doc comment of an enum is lost when one of its members has an explicit value. -/
def Item.entries : Item → List Entry
  | .define doc key v => [.define { doc := docOf doc, name := key, value := some v.value, optional := false, metas := [] }]
  | .importFiles paths => paths.map fun p => .import_ p.value []
  | .importFile path members => [.import_ path.value (members.map Lit.value)]
  | .error code name msg status => [.error code name (some msg.value) status]
  | .enum doc name type members =>
    [.enum (if members.any (·.value.isSome) then [] else docOf doc) name type (members.map Member.entry)]
  | .alias doc name type metas => [.alias (docOf doc) name type.text (metas.map metaEntry)]
  | .struct doc name fields => [.struct (docOf doc) name (fields.map FieldDecl.entry)]
  | .service doc name methods => [.service (docOf doc) name (methods.map MethodDecl.entry)]

/-! ### What a syntax tree says -/

def _root_.Verif.Ridl.DefNode.entry (d : DefNode) : FieldEntry where
  doc := d.comment
  name := d.left.val
  value := d.right.map Token.val
  optional := d.optional
  metas := d.metas.map fun m => (m.1.val, m.2.val)

def _root_.Verif.Ridl.ArgNode.entry (a : ArgNode) : ArgEntry :=
  match a.inlineStruct with
  | some t => .whole t.val
  | none => .one (a.name.map Token.val) (a.argType.map Token.val) a.optional

def _root_.Verif.Ridl.MethodNode.entry (m : MethodNode) : MethodEntry where
  doc := m.comment
  anns := m.annotations.map fun a => (a.annType.val, a.value.map Token.val)
  name := m.name.val
  proxy := m.proxy
  streamIn := m.streamInput
  inputs := m.inputs.map ArgNode.entry
  streamOut := m.streamOutput
  outputs := m.outputs.map ArgNode.entry
  errors := m.errors.map Token.val

def _root_.Verif.Ridl.Node.entry : Node → Entry
  | .defn d => .define d.entry
  | .import_ n => .import_ n.path.val (n.members.map Token.val)
  | .error n => .error n.code.val n.name.val (n.message.map Token.val) (n.httpStatus.map Token.val)
  | .enum n => .enum n.comment n.name.val n.enumType.val (n.values.map DefNode.entry)
  | .alias n => .alias n.comment n.name.val n.aliasType.val (n.metas.map fun m => (m.1.val, m.2.val))
  | .struct n => .struct n.comment n.name.val (n.fields.map DefNode.entry)
  | .service n => .service n.comment n.name.val (n.methods.map MethodNode.entry)

end Verif.Spec
