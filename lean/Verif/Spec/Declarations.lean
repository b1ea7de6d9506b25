import Verif.Compile.Compile
import Verif.Spec.TypeExpr
import Verif.Schema.ValidateLemmas
/-!
# What the declarations of a RIDL file stand for

`ts` are all types of the resulting schema: those of the file, in whatever order it declares them,
and the imported ones.
-/

namespace Verif.Spec
open Verif.Schema Verif.Compile
open Verif.Ridl (Token DefNode ArgNode AnnNode EnumNode StructNode MethodNode ServiceNode AliasNode)

/-- `o` is the tree of the type expression written as `text`.  (An expression with an element or
value type left out, like `[]`, gets a tree of its own.) -/
def TreeOf [GoUnicode] (ts : List TypeDecl) (text : Str) (o : Option VarType) : Prop :=
  ∃ t vt vt', t.text = text ∧ Denotes ts t vt ∧ o = some vt' ∧ (t.Complete → vt' = vt)

/-- The metas of a line: each a map with one entry. -/
def metasOf (ms : List (Token × Token)) : List Meta := ms.map fun m => [(m.1.val, Json.str m.2.val)]

/-- `d` is what the alias declaration `n` stands for. -/
structure AliasMeans [GoUnicode] (ts : List TypeDecl) (n : AliasNode) (d : TypeDecl) : Prop where
  kind : d.kind = S "alias"
  name : d.name = n.name.val
  comments : d.comments = parseComment n.comment
  metas : d.metas = metasOf n.metas
  fields : d.fields = []
  type : ∃ t vt, t.text = n.aliasType.val ∧ Denotes ts t vt ∧ d.type = some vt

/-- `f` is the member `v`, the `i`-th of an enum of type `type`. -/
structure MemberMeans (type : Str) (i : Nat) (v : DefNode) (f : Field) : Prop where
  name : f.name = v.left.val
  noType : f.type = none
  comments : f.comments = parseComment v.comment
  explicit : textOf v.right ≠ [] → f.value = textOf v.right
  byName : textOf v.right = [] → type = S "string" → f.value = f.name
  byPosition : textOf v.right = [] → type ≠ S "string" → f.value = (Nat.repr i).toList

/-- `d` is what the enum declaration `n` stands for.  (Its comment is lost.) -/
structure EnumMeans [GoUnicode] (ts : List TypeDecl) (n : EnumNode) (d : TypeDecl) : Prop where
  kind : d.kind = S "enum"
  name : d.name = n.name.val
  type : ∃ t vt, t.text = n.enumType.val ∧ Denotes ts t vt ∧ d.type = some vt
  members : Pointwise (fun (v : DefNode × Nat) f => MemberMeans n.enumType.val v.2 v.1 f) n.values.zipIdx d.fields

/-- `f` is what the field line `v` of a struct stands for. -/
structure FieldMeans [GoUnicode] (ts : List TypeDecl) (v : DefNode) (f : Field) : Prop where
  name : f.name = v.left.val
  optional : f.optional = v.optional
  comments : f.comments = parseComment v.comment
  metas : f.metas = metasOf v.metas
  value : f.value = []
  type : TreeOf ts (textOf v.right) f.type

/-- `d` is what the struct declaration `n` stands for. -/
structure StructMeans [GoUnicode] (ts : List TypeDecl) (n : StructNode) (d : TypeDecl) : Prop where
  kind : d.kind = S "struct"
  name : d.name = n.name.val
  comments : d.comments = parseComment n.comment
  noType : d.type = none
  fields : Pointwise (FieldMeans ts) n.fields d.fields

/-- `a` is what a normal argument `v` stands for. -/
structure ArgMeans [GoUnicode] (ts : List TypeDecl) (v : ArgNode) (a : Argument) : Prop where
  name : a.name = textOf v.name
  optional : a.optional = v.optional
  type : TreeOf ts (textOf v.argType) a.type

/-- `a` is what the succinct argument `(n)` stands for: the struct `n` (ignoring case) under its own
name with a small first letter. -/
structure SuccinctMeans [GoUnicode] (ts : List TypeDecl) (n : Str) (a : Argument) : Prop where
  optional : a.optional = false
  type : ∃ d, FirstDecl ts (fun d => toLower d.name = toLower n) d ∧ d.kind = S "struct" ∧
    a.name = toLowerFirst d.name ∧ TreeOf ts d.name a.type

/-- `xs` is what an argument list stands for; `succinct`: it is a single succinct argument. -/
def ArgsMean [GoUnicode] (ts : List TypeDecl) (succinct : Bool) (vs : List ArgNode) (xs : List Argument) : Prop :=
  if succinct then ∃ v n a, vs = [v] ∧ v.inlineStruct = some n ∧ xs = [a] ∧ SuccinctMeans ts n.val a
  else (∀ v n, vs = [v] → v.inlineStruct ≠ some n) ∧ Pointwise (ArgMeans ts) vs xs

/-- `m` is what the method `n` stands for. -/
structure MethodMeans [GoUnicode] (ts : List TypeDecl) (n : MethodNode) (m : Method) : Prop where
  name : m.name = n.name.val
  comments : m.comments = parseComment n.comment
  streamInput : m.streamInput = n.streamInput
  streamOutput : m.streamOutput = n.streamOutput
  errors : m.errors = n.errors.map (·.val)
  annotations : ∀ k, m.annotations.lookup k = ((n.annotations.filter fun a => a.annType.val = k).getLast?).map
    fun a => { annotationType := k, value := textOf a.value }
  inputs : ArgsMean ts m.succinct n.inputs m.inputs
  outputs : ArgsMean ts m.succinct n.outputs m.outputs

/-- `v` is what the service declaration `n` stands for. -/
structure ServiceMeans [GoUnicode] (ts : List TypeDecl) (n : ServiceNode) (v : Service) : Prop where
  name : v.name = n.name.val
  comments : v.comments = parseComment n.comment
  methods : Pointwise (MethodMeans ts) n.methods v.methods

end Verif.Spec
