import Verif.Ridl.ParserStates
import Verif.Spec.Lexing
import Verif.Schema.ValidateLemmas

/-! # Specification of C98: the same syntax at another place of a document

`Rel T d` relates declarations that are the same but for their tokens, which are related by `T`, and for the lines noted in them,
which are `d` further down. -/

namespace Verif.Spec
open Verif.Ridl
open Verif.Schema hiding Str

/-- The same token, in the same column, `d` lines further down. -/
structure MovedBy (d : Nat) (t t' : Token) : Prop where
  tt : t'.tt = t.tt
  val : t'.val = t.val
  line : t'.line = t.line + d
  col : t'.col = t.col

/-- Both absent, or both present and related. -/
inductive Both {α : Type} (T : α → α → Prop) : Option α → Option α → Prop
  | none : Both T none none
  | some {a b : α} : T a b → Both T (some a) (some b)

/-- Related keys and related values. -/
def PairRel (T : Token → Token → Prop) (a b : Token × Token) : Prop := T a.1 b.1 ∧ T a.2 b.2

structure DefRel (T : Token → Token → Prop) (n n' : DefNode) : Prop where
  left : T n.left n'.left
  right : Both T n.right n'.right
  optional : n'.optional = n.optional
  metas : Pointwise (PairRel T) n.metas n'.metas
  comment : n'.comment = n.comment

structure ImportRel (T : Token → Token → Prop) (n n' : ImportNode) : Prop where
  path : T n.path n'.path
  members : Pointwise T n.members n'.members

structure EnumRel (T : Token → Token → Prop) (d : Nat) (n n' : EnumNode) : Prop where
  name : T n.name n'.name
  enumType : T n.enumType n'.enumType
  values : Pointwise (DefRel T) n.values n'.values
  comment : n'.comment = n.comment
  line : n'.line = n.line + d

structure StructRel (T : Token → Token → Prop) (d : Nat) (n n' : StructNode) : Prop where
  name : T n.name n'.name
  fields : Pointwise (DefRel T) n.fields n'.fields
  comment : n'.comment = n.comment
  line : n'.line = n.line + d

structure ErrorRel (T : Token → Token → Prop) (n n' : ErrorNode) : Prop where
  code : T n.code n'.code
  name : T n.name n'.name
  message : Both T n.message n'.message
  httpStatus : Both T n.httpStatus n'.httpStatus

structure ArgRel (T : Token → Token → Prop) (n n' : ArgNode) : Prop where
  name : Both T n.name n'.name
  argType : Both T n.argType n'.argType
  optional : n'.optional = n.optional
  inlineStruct : Both T n.inlineStruct n'.inlineStruct

structure AnnRel (T : Token → Token → Prop) (n n' : AnnNode) : Prop where
  annType : T n.annType n'.annType
  value : Both T n.value n'.value

structure MethodRel (T : Token → Token → Prop) (n n' : MethodNode) : Prop where
  name : T n.name n'.name
  proxy : n'.proxy = n.proxy
  comment : n'.comment = n.comment
  annotations : Pointwise (AnnRel T) n.annotations n'.annotations
  streamInput : n'.streamInput = n.streamInput
  inputs : Pointwise (ArgRel T) n.inputs n'.inputs
  streamOutput : n'.streamOutput = n.streamOutput
  outputs : Pointwise (ArgRel T) n.outputs n'.outputs
  errors : Pointwise T n.errors n'.errors

structure ServiceRel (T : Token → Token → Prop) (n n' : ServiceNode) : Prop where
  name : T n.name n'.name
  methods : Pointwise (MethodRel T) n.methods n'.methods
  methodAnnotations : Pointwise (AnnRel T) n.methodAnnotations n'.methodAnnotations
  comment : n'.comment = n.comment

structure AliasRel (T : Token → Token → Prop) (d : Nat) (n n' : AliasNode) : Prop where
  name : T n.name n'.name
  aliasType : T n.aliasType n'.aliasType
  metas : Pointwise (PairRel T) n.metas n'.metas
  comment : n'.comment = n.comment
  line : n'.line = n.line + d

/-- The same declaration. -/
inductive NodeRel (T : Token → Token → Prop) (d : Nat) : Node → Node → Prop
  | defn {n n'} : DefRel T n n' → NodeRel T d (.defn n) (.defn n')
  | import_ {n n'} : ImportRel T n n' → NodeRel T d (.import_ n) (.import_ n')
  | enum {n n'} : EnumRel T d n n' → NodeRel T d (.enum n) (.enum n')
  | struct {n n'} : StructRel T d n n' → NodeRel T d (.struct n) (.struct n')
  | error {n n'} : ErrorRel T n n' → NodeRel T d (.error n) (.error n')
  | alias {n n'} : AliasRel T d n n' → NodeRel T d (.alias n) (.alias n')
  | service {n n'} : ServiceRel T n n' → NodeRel T d (.service n) (.service n')

/-- The same complaint: `expecting %v, got %v` prints only the kind and the text of the token it got. -/
inductive SameError : PErr → PErr → Prop
  | same (e : PErr) : SameError e e
  | expecting (want : TT) {got got' : Token} : got'.tt = got.tt → got'.val = got.val →
      SameError (.expecting want got) (.expecting want got')

/-- `ds'` are the declarations `ds`, `d` lines further down. -/
def LowerBy (d : Nat) (ds ds' : List Node) : Prop := Pointwise (NodeRel (MovedBy d) d) ds ds'

/-- Where a syntax error is reported when the text is moved down by `d` lines: the end of the text is always `0:0`. -/
def movedLine (d line : Nat) : Nat := if line = 0 then 0 else line + d

/-- A text that starts with a word in its first column, possibly after whole lines of comments and blank lines. -/
inductive Opening : Str → Prop
  | nothing : Opening []
  | word {c : Char} {r : Str} : WordStart c → Opening (c :: r)
  | blank {r : Str} : Opening r → Opening ('\n' :: r)
  | comment {row r : Str} : '\n' ∉ row → '\x00' ∉ row → Opening r → Opening ('#' :: (row ++ '\n' :: r))

/-- Documents, each followed by an empty line. -/
def blocks (bs : List Str) : Str := bs.flatMap fun b => b ++ ['\n', '\n']

/-- The declarations of the documents, each further down by the lines of those before it. -/
inductive Stacked : Nat → List (Str × List Node) → List Node → Prop
  | nil {d : Nat} : Stacked d [] []
  | cons {d : Nat} {b : Str} {ns ns' ms : List Node} {r : List (Str × List Node)} : LowerBy d ns ns' → Stacked (d + (b ++ ['\n', '\n']).count '\n') r ms →
      Stacked d ((b, ns) :: r) (ns' ++ ms)

end Verif.Spec
