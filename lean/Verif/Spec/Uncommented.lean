import Verif.Ridl.ParserStates
import Verif.Schema.ValidateLemmas

/-! # Specification of C110: the same declarations, apart from documentation comments and positions -/

namespace Verif.Spec.Uncommented
open Verif.Ridl
open Verif.Schema hiding Str

/-- The same token, wherever it stands. -/
structure TokS (t t' : Token) : Prop where
  tt : t'.tt = t.tt
  val : t'.val = t.val

/-- Both absent, or both present and related. -/
inductive Both {α : Type} (T : α → α → Prop) : Option α → Option α → Prop
  | none : Both T none none
  | some {a b : α} : T a b → Both T (some a) (some b)

/-- The same key and value. -/
def PairRel (a b : Token × Token) : Prop := TokS a.1 b.1 ∧ TokS a.2 b.2

/-- The same definition, field or enum value. -/
structure DefRel (n n' : DefNode) : Prop where
  left : TokS n.left n'.left
  right : Both TokS n.right n'.right
  optional : n'.optional = n.optional
  metas : Pointwise PairRel n.metas n'.metas

/-- The same import. -/
structure ImportRel (n n' : ImportNode) : Prop where
  path : TokS n.path n'.path
  members : Pointwise TokS n.members n'.members

/-- The same enum. -/
structure EnumRel (n n' : EnumNode) : Prop where
  name : TokS n.name n'.name
  enumType : TokS n.enumType n'.enumType
  values : Pointwise DefRel n.values n'.values

/-- The same struct. -/
structure StructRel (n n' : StructNode) : Prop where
  name : TokS n.name n'.name
  fields : Pointwise DefRel n.fields n'.fields

/-- The same error. -/
structure ErrorRel (n n' : ErrorNode) : Prop where
  code : TokS n.code n'.code
  name : TokS n.name n'.name
  message : Both TokS n.message n'.message
  httpStatus : Both TokS n.httpStatus n'.httpStatus

/-- The same argument. -/
structure ArgRel (n n' : ArgNode) : Prop where
  name : Both TokS n.name n'.name
  argType : Both TokS n.argType n'.argType
  optional : n'.optional = n.optional
  inlineStruct : Both TokS n.inlineStruct n'.inlineStruct

/-- The same annotation. -/
structure AnnRel (n n' : AnnNode) : Prop where
  annType : TokS n.annType n'.annType
  value : Both TokS n.value n'.value

/-- The same method. -/
structure MethodRel (n n' : MethodNode) : Prop where
  name : TokS n.name n'.name
  proxy : n'.proxy = n.proxy
  annotations : Pointwise AnnRel n.annotations n'.annotations
  streamInput : n'.streamInput = n.streamInput
  inputs : Pointwise ArgRel n.inputs n'.inputs
  streamOutput : n'.streamOutput = n.streamOutput
  outputs : Pointwise ArgRel n.outputs n'.outputs
  errors : Pointwise TokS n.errors n'.errors

/-- The same service. -/
structure ServiceRel (n n' : ServiceNode) : Prop where
  name : TokS n.name n'.name
  methods : Pointwise MethodRel n.methods n'.methods
  methodAnnotations : Pointwise AnnRel n.methodAnnotations n'.methodAnnotations

/-- The same alias. -/
structure AliasRel (n n' : AliasNode) : Prop where
  name : TokS n.name n'.name
  aliasType : TokS n.aliasType n'.aliasType
  metas : Pointwise PairRel n.metas n'.metas

/-- The same declaration. -/
inductive NodeRel : Node → Node → Prop
  | defn {n n'} : DefRel n n' → NodeRel (.defn n) (.defn n')
  | import_ {n n'} : ImportRel n n' → NodeRel (.import_ n) (.import_ n')
  | enum {n n'} : EnumRel n n' → NodeRel (.enum n) (.enum n')
  | struct {n n'} : StructRel n n' → NodeRel (.struct n) (.struct n')
  | error {n n'} : ErrorRel n n' → NodeRel (.error n) (.error n')
  | alias {n n'} : AliasRel n n' → NodeRel (.alias n) (.alias n')
  | service {n n'} : ServiceRel n n' → NodeRel (.service n) (.service n')

/-- The same declarations, in the same order, apart from their documentation comments and the places where they stand. -/
def SameDecls (ds ds' : List Node) : Prop := Pointwise NodeRel ds ds'

/-- The two documents are both accepted, with the same declarations, or both not accepted. -/
def SameMeaning (src src' : Str) : Prop :=
  (∀ ds, parseDoc src = .ok ds → ∃ ds', parseDoc src' = .ok ds' ∧ SameDecls ds ds') ∧
  (∀ ds', parseDoc src' = .ok ds' → ∃ ds, parseDoc src = .ok ds ∧ SameDecls ds ds')

/-- Blanks. -/
def Blanks (s : Str) : Prop := ∀ c ∈ s, c = ' ' ∨ c = '\t' ∨ c = '\r'

/-- A comment may follow `row` on its line: the row is blank, or it ends in a blank, has no quotes and no other comment, and its
last character that is not blank is not `=`. -/
def BeforeComment (row : Str) : Prop :=
  '\n' ∉ row ∧ '\x00' ∉ row ∧ '"' ∉ row ∧ '#' ∉ row ∧
    (Blanks row ∨ ∃ text last b blanks, row = text ++ [last] ++ (b :: blanks) ∧ Blanks (b :: blanks) ∧ ¬ Blanks [last] ∧ last ≠ '=')

/-- The text before a comment's row: whole lines, the last of which does not end in a backslash. -/
def LinesBefore (above : Str) : Prop :=
  '\x00' ∉ above ∧ (above = [] ∨ ∃ text, above = text ++ ['\n'] ∧ text.getLast? ≠ some '\\')

/-- The text after a comment: nothing, or further lines. -/
def LinesAfter (below : Str) : Prop := '\x00' ∉ below ∧ (below = [] ∨ below.head? = some '\n')

/-- The text of a comment. -/
def CommentText (s : Str) : Prop := '\n' ∉ s ∧ '\x00' ∉ s

end Verif.Spec.Uncommented
