import Verif.Spec.JsonText
import Verif.Spec.BigNum
import Verif.Spec.Values
import Verif.Spec.SchemaJson
import Verif.Json.SchemaJson
/-!
# What a JSON value says as a schema

Independent of the decoder: which members of which objects say what about a schema.
-/

namespace Verif.JsonSpec
open Verif.Schema hiding Json
open Verif.Json Verif.RpcSpec Verif.Spec
open Verif.Rpc (foldChar)

/-! ### Members -/

/-- Names of members are the same regardless of case. -/
def SameKey (a b : Str) : Prop := a.map foldChar = b.map foldChar

/-- What an object says about `k`: the value of its member of this name, or null if it has none. -/
inductive About (l : List (Str × Json)) (k : Str) : Json → Prop
  | said {key : Str} {j : Json} : (key, j) ∈ l → SameKey key k → About l k j
  | silent : (∀ p ∈ l, ¬ SameKey p.1 k) → About l k .null

/-- It says `x`, in the sense of `R`. -/
def Says {α : Type} (l : List (Str × Json)) (k : Str) (R : Json → α → Prop) (x : α) : Prop := ∃ j, About l k j ∧ R j x

/-- It says nothing about `k`, or null. -/
def Null (l : List (Str × Json)) (k : Str) : Prop := About l k .null

/-- It does not say two things about any of these. -/
def Once (tags : List Str) (l : List (Str × Json)) : Prop :=
  ∀ k ∈ tags, l.Pairwise fun p q => ¬ (SameKey p.1 k ∧ SameKey q.1 k)

/-! ### Values; null is the zero value -/

/-- A text. -/
inductive IsText : Json → Str → Prop
  | null : IsText .null []
  | str {raw s : Str} : Chars raw s → IsText (.str raw) s

/-- A flag. -/
inductive IsFlag : Json → Bool → Prop
  | null : IsFlag .null false
  | bool (b : Bool) : IsFlag (.bool b) b

/-- A Go int, written without fraction and exponent. -/
inductive IsInt : Json → Int → Prop
  | null : IsInt .null 0
  | num {t : Str} {i : Int} : IntegerText t i → FitsSigned 64 i → IsInt (.num t) i

/-- A type, given by its expression as it stands between the quotes (escapes are not replaced); `none`: no type. -/
inductive IsTypeExpr : Json → Option VarType → Prop
  | null : IsTypeExpr .null none
  | str {raw : Str} : raw ≠ [] → IsTypeExpr (.str raw) (some (.leaf raw .unknown))

/-- A list. -/
inductive IsList {α : Type} (R : Json → α → Prop) : Json → List α → Prop
  | null : IsList R .null []
  | arr {l : List Json} {xs : List α} : Pointwise R l xs → IsList R (.arr l) xs

/-- A list, with the number of each element. -/
inductive Numbers {α : Type} (R : Nat → Json → α → Prop) : Nat → List Json → List α → Prop
  | nil {i : Nat} : Numbers R i [] []
  | cons {i : Nat} {j : Json} {l : List Json} {x : α} {xs : List α} : R i j x → Numbers R (i + 1) l xs → Numbers R i (j :: l) (x :: xs)

@[inherit_doc Numbers]
inductive IsNumbered {α : Type} (R : Nat → Json → α → Prop) : Json → List α → Prop
  | null : IsNumbered R .null []
  | arr {l : List Json} {xs : List α} : Numbers R 0 l xs → IsNumbered R (.arr l) xs

/-- Any value, in a meta. -/
inductive IsAny : Json → Schema.Json → Prop
  | null : IsAny .null .null
  | bool (b : Bool) : IsAny (.bool b) (.bool b)
  | num (t : Str) : IsAny (.num t) (.num t)
  | str {raw s : Str} : Chars raw s → IsAny (.str raw) (.str s)
  | arr (es : List (Json × Schema.Json)) : (∀ e ∈ es, IsAny e.1 e.2) → IsAny (.arr (es.map (·.1))) (.arr (es.map (·.2)))
  | obj (es : List (Str × Json × Schema.Json)) : IsMap es → (∀ e ∈ es, IsAny e.2.1 e.2.2) →
      IsAny (.obj (es.map fun e => (e.1, e.2.1))) (.obj (es.map fun e => (e.1, e.2.2)))

/-- A meta. -/
inductive IsMeta : Json → Meta → Prop
  | obj (es : List (Str × Json × Schema.Json)) : IsMap es → (∀ e ∈ es, IsAny e.2.1 e.2.2) →
      IsMeta (.obj (es.map fun e => (e.1, e.2.1))) (es.map fun e => (e.1, e.2.2))

/-! ### The parts of a schema -/

/-- A field of a struct or a member of an enum. -/
inductive IsFieldOf : Json → Field → Prop
  | obj {l : List (Str × Json)} {f : Field} : Once [S "comments", S "name", S "type", S "optional", S "value", S "meta"] l →
      Says l (S "comments") (IsList IsText) f.comments → Says l (S "name") IsText f.name → Says l (S "type") IsTypeExpr f.type →
      Says l (S "optional") IsFlag f.optional → Says l (S "value") IsText f.value → Says l (S "meta") (IsList IsMeta) f.metas →
      IsFieldOf (.obj l) f

/-- A type; it is the object number `i`. -/
inductive IsTypeDecl (i : Nat) : Json → TypeDecl → Prop
  | obj {l : List (Str × Json)} {t : TypeDecl} :
      Once [S "kind", S "name", S "type", S "fields", S "optional", S "value", S "meta", S "comments"] l →
      t.ptr = (S "json", i) →
      Says l (S "kind") IsText t.kind → Says l (S "name") IsText t.name → Says l (S "type") IsTypeExpr t.type →
      Says l (S "fields") (IsList IsFieldOf) t.fields → Says l (S "optional") IsFlag t.optional → Says l (S "value") IsText t.value →
      Says l (S "meta") (IsList IsMeta) t.metas → Says l (S "comments") (IsList IsText) t.comments → IsTypeDecl i (.obj l) t

/-- An error. -/
inductive IsErrorDecl (i : Nat) : Json → ErrorDecl → Prop
  | obj {l : List (Str × Json)} {e : ErrorDecl} : Once [S "code", S "name", S "message", S "httpStatus"] l →
      e.ptr = (S "json", i) →
      Says l (S "code") IsInt e.code → Says l (S "name") IsText e.name → Says l (S "message") IsText e.message →
      Says l (S "httpStatus") IsInt e.httpStatus → IsErrorDecl i (.obj l) e

/-- An annotation. -/
inductive IsAnnotation : Json → Annotation → Prop
  | obj {l : List (Str × Json)} {a : Annotation} : Once [S "annotationType", S "value"] l →
      Says l (S "annotationType") IsText a.annotationType → Says l (S "value") IsText a.value → IsAnnotation (.obj l) a

/-- The annotations of a method, by their names. -/
inductive IsAnnotations : Json → List (Str × Annotation) → Prop
  | null : IsAnnotations .null []
  | obj (es : List (Str × Json × Annotation)) : IsMap es → (∀ e ∈ es, IsAnnotation e.2.1 e.2.2) →
      IsAnnotations (.obj (es.map fun e => (e.1, e.2.1))) (es.map fun e => (e.1, e.2.2))

/-- An argument or a result. -/
inductive IsArgument : Json → Argument → Prop
  | obj {l : List (Str × Json)} {a : Argument} : Once [S "name", S "type", S "optional", S "value", S "meta"] l →
      Says l (S "name") IsText a.name → Says l (S "type") IsTypeExpr a.type → Says l (S "optional") IsFlag a.optional →
      Says l (S "value") IsText a.value → Says l (S "meta") (IsList IsMeta) a.metas → IsArgument (.obj l) a

/-- A method. -/
inductive IsMethod : Json → Method → Prop
  | obj {l : List (Str × Json)} {m : Method} :
      Once [S "name", S "annotations", S "comments", S "succinct", S "streamInput", S "streamOutput", S "inputs", S "outputs", S "errors"] l →
      Says l (S "name") IsText m.name → Says l (S "annotations") IsAnnotations m.annotations →
      Says l (S "comments") (IsList IsText) m.comments → Says l (S "succinct") IsFlag m.succinct →
      Says l (S "streamInput") IsFlag m.streamInput → Says l (S "streamOutput") IsFlag m.streamOutput →
      Says l (S "inputs") (IsList IsArgument) m.inputs → Says l (S "outputs") (IsList IsArgument) m.outputs →
      Says l (S "errors") (IsList IsText) m.errors →
      (m.nils.annotations = true ↔ Null l (S "annotations")) → (m.nils.comments = true ↔ Null l (S "comments")) →
      (m.nils.inputs = true ↔ Null l (S "inputs")) → (m.nils.outputs = true ↔ Null l (S "outputs")) → IsMethod (.obj l) m

/-- A service. -/
inductive IsService (i : Nat) : Json → Service → Prop
  | obj {l : List (Str × Json)} {v : Service} : Once [S "name", S "methods", S "comments"] l → v.ptr = (S "json", i) →
      Says l (S "name") IsText v.name → Says l (S "methods") (IsList IsMethod) v.methods →
      Says l (S "comments") (IsList IsText) v.comments →
      (v.nils.methods = true ↔ Null l (S "methods")) → (v.nils.comments = true ↔ Null l (S "comments")) → IsService i (.obj l) v

/-- A schema. -/
inductive IsSchema : Json → Schema → Prop
  | obj {l : List (Str × Json)} {s : Schema} :
      Once [S "webrpc", S "name", S "version", S "basepath", S "types", S "errors", S "services"] l →
      Says l (S "webrpc") IsText s.webrpcVersion → Says l (S "name") IsText s.schemaName → Says l (S "version") IsText s.schemaVersion →
      Says l (S "basepath") IsText s.basePath → Says l (S "types") (IsNumbered IsTypeDecl) s.types →
      Says l (S "errors") (IsNumbered IsErrorDecl) s.errors → Says l (S "services") (IsNumbered IsService) s.services →
      (s.nils.types = true ↔ Null l (S "types")) → (s.nils.errors = true ↔ Null l (S "errors")) →
      (s.nils.services = true ↔ Null l (S "services")) → IsSchema (.obj l) s

end Verif.JsonSpec
