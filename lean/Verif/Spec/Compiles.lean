import Verif.Spec.Document
import Verif.Spec.WellFormed
import Verif.Compile.Paths
/-!
# The schema a RIDL file describes

`es` is what the file says (Spec/Document.lean), `ms` are the schemas of the files it imports, in order.  `FileMeans`
says which schema `s` the file describes; it does not mention the compiler's loops, its tables or the order in which it
looks at the declarations.
-/

namespace Verif.Spec
open Verif.Schema
open Verif.Ridl (join)

/-! ### Parts of a file -/

def Entry.isDefine : Entry → Bool | .define _ => true | _ => false
def Entry.isImport : Entry → Bool | .import_ _ _ => true | _ => false
def Entry.isError : Entry → Bool | .error _ _ _ _ => true | _ => false
def Entry.isEnum : Entry → Bool | .enum _ _ _ _ => true | _ => false
def Entry.isAlias : Entry → Bool | .alias _ _ _ _ => true | _ => false
def Entry.isStruct : Entry → Bool | .struct _ _ _ => true | _ => false
def Entry.isService : Entry → Bool | .service _ _ _ => true | _ => false

def definesOf (es : List Entry) : List Entry := es.filter Entry.isDefine
def importsOf (es : List Entry) : List Entry := es.filter Entry.isImport
def errorsOf (es : List Entry) : List Entry := es.filter Entry.isError
def enumsOf (es : List Entry) : List Entry := es.filter Entry.isEnum
def aliasesOf (es : List Entry) : List Entry := es.filter Entry.isAlias
def structsOf (es : List Entry) : List Entry := es.filter Entry.isStruct
def servicesOf (es : List Entry) : List Entry := es.filter Entry.isService

/-- The name an entry declares; of an import, the path. -/
def Entry.name : Entry → Str
  | .define e => e.name
  | .import_ p _ => p
  | .error _ n _ _ => n
  | .enum _ n _ _ => n
  | .alias _ n _ _ => n
  | .struct _ n _ => n
  | .service _ n _ => n

/-! ### Header and imports -/

/-- The entry defines the key. -/
def Entry.defines (key : Str) : Entry → Bool
  | .define e => e.name = key
  | _ => false

/-- The value a key is given; nothing if it is not defined. -/
def headerValue (es : List Entry) (key : Str) : Str :=
  match es.filter (Entry.defines key) with
  | .define e :: _ => e.value.getD []
  | _ => []

/-- The names an import asks for, `[]` meaning all. -/
def Entry.members : Entry → List Str
  | .import_ _ ms => ms
  | _ => []

/-- The name is asked for. -/
def Wanted (members : List Str) (name : Str) : Bool := members = [] ∨ name ∈ members

/-- Of objects that appear several times only the first appearance. -/
def firsts {α : Type} (ptr : α → Ptr) : List α → List α
  | [] => []
  | x :: xs => x :: (firsts ptr xs).filter fun y => ptr y ≠ ptr x

/-- The types taken from the imported files. -/
def importedTypes (is : List (Entry × Schema)) : List TypeDecl :=
  firsts TypeDecl.ptr (is.flatMap fun i => i.2.types.filter fun t => Wanted i.1.members t.name)

/-- The errors taken from the imported files. -/
def importedErrors (is : List (Entry × Schema)) : List ErrorDecl :=
  firsts ErrorDecl.ptr (is.flatMap fun i => i.2.errors.filter fun t => Wanted i.1.members t.name)

/-- The services taken from the imported files. -/
def importedServices (is : List (Entry × Schema)) : List Service :=
  is.flatMap fun i => i.2.services.filter fun t => Wanted i.1.members t.name

/-! ### Declarations -/

/-- The lines of a doc comment. -/
def DocLines (doc : Str) (ls : List Str) : Prop :=
  if doc = [] then ls = [] else ls ≠ [] ∧ join ['\n'] ls = doc ∧ ∀ l ∈ ls, '\n' ∉ l

/-- `o` is the tree of the type written `text`. -/
def TypeIs [GoUnicode] (ts : List TypeDecl) (text : Str) (o : Option VarType) : Prop :=
  ∃ (t : Ty) (vt : VarType), t.text = text ∧ Denotes ts t vt ∧ o = some vt

/-- Names used as map keys. -/
def Ty.keys : Ty → List Str
  | .omitted => []
  | .scalar _ => []
  | .list t => t.keys
  | .map k v => k :: v.keys
  | .named _ => []

/-- Each `+ key = value` line is a map of its own. -/
def metaList (ms : List (Str × Str)) : List Meta := ms.map fun m => [(m.1, .str m.2)]

/-- An alias. The aliases `later` cannot be used in it as map keys. -/
def IsAlias [GoUnicode] (ts : List TypeDecl) (p : Ptr) (later : List Str) : Entry → TypeDecl → Prop
  | .alias doc name type metas, d => ∃ (cs : List Str) (t : Ty) (vt : VarType), DocLines doc cs ∧ t.text = type ∧
      Denotes ts t vt ∧ (∀ k ∈ t.keys, k ∉ reserved → ∀ n ∈ later, ¬ SameName k n) ∧
      d = { ptr := p, kind := S "alias", name := name, comments := cs, type := some vt, metas := metaList metas }
  | _, _ => False

/-- The aliases of a file, numbered from `i`. -/
def AliasesAre [GoUnicode] (ts : List TypeDecl) (path : Str) : Nat → List Entry → List TypeDecl → Prop
  | _, [], [] => True
  | i, a :: as, d :: ds => IsAlias ts (path, i) ((a :: as).map Entry.name) a d ∧ AliasesAre ts path (i + 1) as ds
  | _, _, _ => False

/-- The value of the `i`-th member of an enum: the given one, or the name if the values are strings, or the position. -/
def memberValue (type : Str) (i : Nat) (m : FieldEntry) : Str :=
  match m.value with
  | some v => v
  | none => if type = S "string" then m.name else (Nat.repr i).toList

def IsMember (type : Str) (m : FieldEntry × Nat) (f : Field) : Prop :=
  ∃ cs, DocLines m.1.doc cs ∧ f = { name := m.1.name, value := memberValue type m.2 m.1, comments := cs }

/-- An enum.  (Its doc comment is not kept.) -/
def IsEnum [GoUnicode] (ts : List TypeDecl) (p : Ptr) : Entry → TypeDecl → Prop
  | .enum _ name type members, d => ∃ o fs, TypeIs ts type o ∧ Pointwise (IsMember type) members.zipIdx fs ∧
      d = { ptr := p, kind := S "enum", name := name, type := o, fields := fs }
  | _, _ => False

def IsField [GoUnicode] (ts : List TypeDecl) (e : FieldEntry) (f : Field) : Prop :=
  ∃ o cs, TypeIs ts (e.value.getD []) o ∧ DocLines e.doc cs ∧
    f = { name := e.name, type := o, optional := e.optional, comments := cs, metas := metaList e.metas }

def StructIs [GoUnicode] (ts : List TypeDecl) (p : Ptr) : Entry → TypeDecl → Prop
  | .struct doc name fields, d => ∃ cs fs, DocLines doc cs ∧ Pointwise (IsField ts) fields fs ∧
      d = { ptr := p, kind := S "struct", name := name, comments := cs, fields := fs }
  | _, _ => False

/-- The value of a text of decimal digits. -/
def numberOf (t : Str) : Nat := t.foldl (fun a c => 10 * a + (c.toNat - '0'.toNat)) 0

/-- Numbers that do not fit into 32 bits are replaced by the largest one that does. -/
def int32 (t : Str) : Int := ((min (numberOf t) 2147483647 : Nat) : Int)

def IsError (p : Ptr) : Entry → ErrorDecl → Prop
  | .error code name message status, d => ∃ m, message = some m ∧
      d = { ptr := p, code := int32 code, name := name, message := m, httpStatus := match status with | none => 400 | some s => int32 s }
  | _, _ => False

/-- An argument. -/
def IsArg [GoUnicode] (ts : List TypeDecl) : ArgEntry → Argument → Prop
  | .one name type optional, a => ∃ o, TypeIs ts (type.getD []) o ∧ a = { name := name.getD [], type := o, optional := optional }
  | .whole _, _ => False

/-- The name with a small first letter. -/
def smallFirst [GoUnicode] : Str → Str
  | [] => []
  | c :: cs => lowerChar c :: cs

/-- The struct holding all arguments, named ignoring case. -/
def IsWhole [GoUnicode] (ts : List TypeDecl) (n : Str) (a : Argument) : Prop :=
  ∃ d o, FirstDecl ts (fun d => SameName d.name n) d ∧ d.kind = S "struct" ∧ TypeIs ts d.name o ∧
    a = { name := smallFirst d.name, type := o, optional := false }

/-- One side of a method, as a list or (`succinct`) as a struct. -/
def ArgsAre [GoUnicode] (ts : List TypeDecl) (succinct : Bool) (l : List ArgEntry) (xs : List Argument) : Prop :=
  if succinct then ∃ n a, l = [.whole n] ∧ IsWhole ts n a ∧ xs = [a] else Pointwise (IsArg ts) l xs

/-- A method: both sides are succinct or none is.  (That it is proxied is not kept.) -/
def IsMethod [GoUnicode] (ts : List TypeDecl) (e : MethodEntry) (m : Method) : Prop :=
  ∃ cs b ins outs, DocLines e.doc cs ∧ ArgsAre ts b e.inputs ins ∧ ArgsAre ts b e.outputs outs ∧
    m = { name := e.name, annotations := e.anns.map fun a => (a.1, { annotationType := a.1, value := a.2.getD [] }),
          comments := cs, succinct := b, streamInput := e.streamIn, streamOutput := e.streamOut, inputs := ins,
          outputs := outs, errors := e.errors }

def IsService [GoUnicode] (ts : List TypeDecl) (p : Ptr) : Entry → Service → Prop
  | .service doc name methods, v => ∃ cs ms, DocLines doc cs ∧ Pointwise (IsMethod ts) methods ms ∧
      v = { ptr := p, name := name, methods := ms, comments := cs }
  | _, _ => False

/-! ### The file -/

/-- The schema a file describes, before validation: its header, then what it imports, then what it declares: aliases,
enums, structs, in this order. Types are resolved among all of them. -/
structure FileMeans [GoUnicode] (path : Str) (es : List Entry) (ms : List Schema) (s : Schema) : Prop where
  keys : ∀ e ∈ definesOf es, e.name ∈ [S "webrpc", S "name", S "version", S "basepath"]
  once : ((definesOf es).map Entry.name).Nodup
  webrpc : s.webrpcVersion = headerValue es (S "webrpc")
  name : s.schemaName = headerValue es (S "name")
  version : s.schemaVersion = headerValue es (S "version")
  basepath : s.basePath = headerValue es (S "basepath")
  /-- empty lists are not nil -/
  lists : s.nils = {}
  types : ∃ A E T, s.types = importedTypes ((importsOf es).zip ms) ++ A ++ E ++ T ∧
    AliasesAre s.types path 0 (aliasesOf es) A ∧
    Pointwise (fun e d => IsEnum s.types (path, e.2) e.1 d) ((enumsOf es).zipIdx A.length) E ∧
    Pointwise (fun e d => StructIs s.types (path, e.2) e.1 d) ((structsOf es).zipIdx (A.length + E.length)) T
  errors : ∃ X, s.errors = importedErrors ((importsOf es).zip ms) ++ X ∧
    Pointwise (fun e d => IsError (path, e.2) e.1 d) (errorsOf es).zipIdx X
  services : ∃ V, s.services = importedServices ((importsOf es).zip ms) ++ V ∧
    Pointwise (fun e v => IsService s.types (path, e.2) e.1 v) (servicesOf es).zipIdx V

/-! ### What a reader may take for granted about entries -/

def ArgsShaped (l : List ArgEntry) : Prop := (∃ n, l = [.whole n]) ∨ ∀ a ∈ l, ∃ n t o, a = .one n t o

/-- Values are not empty, numbers are numbers, annotations of a method differ, arguments are a list or one struct. -/
def Entry.Shaped : Entry → Prop
  | .define e => ∃ v, e.value = some v ∧ v ≠ []
  | .error code _ message status => Digits code ∧ message ≠ none ∧ ∀ s, status = some s → Digits s
  | .enum _ _ _ members => ∀ m ∈ members, ∀ v, m.value = some v → v ≠ []
  | .service _ _ methods => ∀ m ∈ methods, (m.anns.map Prod.fst).Nodup ∧ ArgsShaped m.inputs ∧ ArgsShaped m.outputs
  | _ => True

end Verif.Spec
