import Verif.Spec.Accepts
import Verif.Spec.TsBig
/-!
# The same value in Go and in JavaScript, and the types of both for a type of the schema
-/

namespace Verif.TsSpec
open Verif.Schema hiding Json Method
open Verif.Json Verif.Gen Verif.Rpc Verif.RpcSpec Verif.Ts Verif.Spec

/-! ### Types -/

/-- The Go type of a core type (times are not modelled). -/
def goCore : CoreType → Option GoType
  | .any => some .any
  | .bool => some .bool
  | .byte => some (.uint 8)
  | .uint => some (.uint 64)
  | .uint8 => some (.uint 8)
  | .uint16 => some (.uint 16)
  | .uint32 => some (.uint 32)
  | .uint64 => some (.uint 64)
  | .int => some (.int 64)
  | .int8 => some (.int 8)
  | .int16 => some (.int 16)
  | .int32 => some (.int 32)
  | .int64 => some (.int 64)
  | .float32 => some (.float 32)
  | .float64 => some (.float 64)
  | .string => some .string
  | .bigint => some .big
  | _ => none

/-- The Go type that is generated for a type of the schema; for an optional field or argument it is behind a pointer. -/
inductive GoFor (ts : List TypeDecl) : VarType → GoType → Prop
  | core {e : Str} {c : CoreType} {t : GoType} : goCore c = some t → GoFor ts (.leaf e c) t
  | optional {v : VarType} {t : GoType} : GoFor ts v t → GoFor ts v (.ptr t)
  | list {e : Str} {v : VarType} {t : GoType} : GoFor ts v t → GoFor ts (.list e v) (.list t)
  | map {e : Str} {k v : VarType} {kt : KeyType} {t : GoType} : GoFor ts v t → GoFor ts (.map e k v) (.map kt t)
  | enum (e n : Str) (p : Ptr) : GoFor ts (.enum e n p) (.enum n)
  | struct {e n : Str} {p : Ptr} {t : TypeDecl} : Declares ts p t → t.kind = S "struct" → GoFor ts (.struct e n p) (.ref t.name)
  | alias {e n : Str} {p : Ptr} {t : TypeDecl} {v : VarType} {g : GoType} : Declares ts p t → t.type = some v → GoFor ts v g →
      GoFor ts (.alias e n p) g

/-- The Go structs are those of the schema: a field that is sent has the JSON name and the type of a field of the schema. -/
def StructsFor (ts : List TypeDecl) (d : Decls) : Prop :=
  ∀ t ∈ ts, t.kind = S "struct" → ∀ g ∈ d.fields t.name, ∀ tag, g.tag = some tag →
    (∃ f ∈ t.fields, jsonNameOf f = tag ∧ f.type ≠ none) ∧
    ∀ f ∈ t.fields, ∀ v, jsonNameOf f = tag → f.type = some v → GoFor ts v g.type

/-- The Go struct of arguments or results has fields for these members. -/
def MembersFor (ts : List TypeDecl) (ms : List (Str × VarType)) (fs : List FieldDecl) : Prop :=
  ∀ f ∈ fs, ∀ tag, f.tag = some tag → ∃ v, (tag, v) ∈ ms ∧ GoFor ts v f.type

/-! ### Values -/

/-- The name of a member of a JavaScript object for a key of a Go map. -/
inductive KeyName (d : Decls) : KeyType → Key → Str → Prop
  | str (s : Str) : KeyName d .string (.str s) s
  | int {bits : Nat} {i : Int} : FitsSigned bits i → KeyName d (.int bits) (.int i) (intText i)
  | uint {bits : Nat} {i : Int} : FitsUnsigned bits i → KeyName d (.uint bits) (.int i) (intText i)
  | enum {n name : Str} {x : Nat} : (name, x) ∈ d.members n → KeyName d (.enum n) (.enum x) name

/-- A field that may be missing in JSON: an optional one, or one with `omitempty`. -/
def MayMiss (f : FieldDecl) : Prop := f.omitEmpty = true ∨ ∃ t, f.type = .ptr t

mutual
/-- The JavaScript value `x` is the same as the Go value `v` of type `t`: booleans, strings, and integers and numbers that
both languages write the same; a bigint for a `BigInt`; the name of the member for an enum; null for nil; what is behind a
pointer or in an `any`; arrays for slices; objects for maps and structs (with the members in any order). -/
inductive Mirrors [JsEngine] [GoFloat] (d : Decls) : GoType → GoVal → Js → Prop
  | bool (b : Bool) : Mirrors d .bool (.bool b) (.bool b)
  | int {bits : Nat} {i : Int} : FitsSigned bits i → i.natAbs ≤ 2 ^ 53 → Mirrors d (.int bits) (.int i) (.num (intText i))
  | uint {bits : Nat} {i : Int} : FitsUnsigned bits i → i.natAbs ≤ 2 ^ 53 → Mirrors d (.uint bits) (.int i) (.num (intText i))
  | float {bits : Nat} {x : Str} : GoFloat.norm bits x = some x → JsEngine.canon x = x → Mirrors d (.float bits) (.float x) (.num x)
  | str (s : Str) : Mirrors d .string (.str s) (.str s)
  | big (i : Int) : Mirrors d .big (.big i) (.big i)
  | enum {n name : Str} {x : Nat} : (name, x) ∈ d.members n → Mirrors d (.enum n) (.enum x) (.str name)
  | nil {t : GoType} : Nullable t → Mirrors d t .nil .null
  | dyn {t : GoType} {v : GoVal} {x : Js} : Natural t → v ≠ .nil → Mirrors d t v x → Mirrors d .any (.dyn t v) x
  | ptr {t : GoType} {v : GoVal} {x : Js} : v ≠ .nil → Mirrors d t v x → Mirrors d (.ptr t) (.ptr v) x
  | ref {n : Str} {l : List GoVal} {ms ms' : List (Str × Js)} : MirrorsFields d (d.fields n) l ms → ms'.Perm ms →
      Mirrors d (.ref n) (.ptr (.struct l)) (.obj ms')
  | list {t : GoType} (es : List (GoVal × Js)) : t ≠ .uint 8 → (∀ e ∈ es, Mirrors d t e.1 e.2) →
      Mirrors d (.list t) (.list (es.map (·.1))) (.arr (es.map (·.2)))
  | map {k : KeyType} {t : GoType} (es : List ((Key × GoVal) × (Str × Js))) {ms : List (Str × Js)} :
      ((es.map (·.1)).map (·.1)).Pairwise (· ≠ ·) → (∀ e ∈ es, KeyName d k e.1.1 e.2.1) → (∀ e ∈ es, Mirrors d t e.1.2 e.2.2) →
      ms.Perm (es.map (·.2)) → Mirrors d (.map k t) (.map (es.map (·.1))) (.obj ms)

/-- The members of a JavaScript object for the fields of a Go struct, in their order: a field that is not sent, is missing
or is undefined has the zero value in Go. -/
inductive MirrorsFields [JsEngine] [GoFloat] (d : Decls) : List FieldDecl → List GoVal → List (Str × Js) → Prop
  | nil : MirrorsFields d [] [] []
  | hidden {f : FieldDecl} {fs : List FieldDecl} {v : GoVal} {l : List GoVal} {ms : List (Str × Js)} : f.tag = none →
      v = zero f.type → MirrorsFields d fs l ms → MirrorsFields d (f :: fs) (v :: l) ms
  | missing {f : FieldDecl} {fs : List FieldDecl} {v : GoVal} {l : List GoVal} {ms : List (Str × Js)} : MayMiss f →
      v = zero f.type → MirrorsFields d fs l ms → MirrorsFields d (f :: fs) (v :: l) ms
  | undefined {f : FieldDecl} {fs : List FieldDecl} {v : GoVal} {l : List GoVal} {ms : List (Str × Js)} {tag : Str} :
      f.tag = some tag → MayMiss f → v = zero f.type → MirrorsFields d fs l ms →
      MirrorsFields d (f :: fs) (v :: l) ((tag, .undefined) :: ms)
  | present {f : FieldDecl} {fs : List FieldDecl} {v : GoVal} {l : List GoVal} {ms : List (Str × Js)} {tag : Str} {x : Js} :
      f.tag = some tag → (f.omitEmpty = true → v ≠ .nil) → Mirrors d f.type v x → MirrorsFields d fs l ms →
      MirrorsFields d (f :: fs) (v :: l) ((tag, x) :: ms)
end

/-- The numbers in a Go value are such that JavaScript has them too: integers up to 2⁵³, and floating point numbers that
JavaScript writes as Go does. -/
inductive Exact [JsEngine] : GoVal → Prop
  | bool (b : Bool) : Exact (.bool b)
  | int {i : Int} : i.natAbs ≤ 2 ^ 53 → Exact (.int i)
  | float {x : Str} : JsEngine.canon x = x → Exact (.float x)
  | str (s : Str) : Exact (.str s)
  | big (i : Int) : Exact (.big i)
  | enum (n : Nat) : Exact (.enum n)
  | nil : Exact .nil
  | dyn {t : GoType} {v : GoVal} : Exact v → Exact (.dyn t v)
  | ptr {v : GoVal} : Exact v → Exact (.ptr v)
  | list {l : List GoVal} : (∀ v ∈ l, Exact v) → Exact (.list l)
  | map {l : List (Key × GoVal)} : (∀ p ∈ l, Exact p.2) → Exact (.map l)
  | struct {l : List GoVal} : (∀ v ∈ l, Exact v) → Exact (.struct l)

/-! ### Methods -/

/-- The arguments of a Go method and the values of the fields that they are sent as: one for each argument, or the fields
of the struct of a succinct method. -/
inductive Takes (d : Decls) : Shape → List GoVal → List FieldDecl → List GoVal → Prop
  | list (fs : List FieldDecl) (vals : List GoVal) : Takes d (.list fs) vals fs vals
  | whole (n : Str) (vals : List GoVal) : Takes d (.whole n) [.struct vals] (d.fields n) vals

/-- The same for results; a succinct method returns a pointer to its struct. -/
inductive Gives (d : Decls) : Shape → List GoVal → List FieldDecl → List GoVal → Prop
  | list (fs : List FieldDecl) (vals : List GoVal) : Gives d (.list fs) vals fs vals
  | whole (n : Str) (vals : List GoVal) : Gives d (.whole n) [.ptr (.struct vals)] (d.fields n) vals

/-! ### TypeScript types -/

mutual
/-- The value has the TypeScript type that is generated for the same type of the schema as the Go type: `boolean`, `number`,
`string`, `bigint`, `any`, an `enum`, `Array<…>`, `{[key: …]: …}`, or an `interface`.  Null has none of these but `any`. -/
inductive TsTyped (d : Decls) : GoType → Js → Prop
  | bool (b : Bool) : TsTyped d .bool (.bool b)
  | int (bits : Nat) (t : Str) : TsTyped d (.int bits) (.num t)
  | uint (bits : Nat) (t : Str) : TsTyped d (.uint bits) (.num t)
  | float (bits : Nat) (t : Str) : TsTyped d (.float bits) (.num t)
  | str (s : Str) : TsTyped d .string (.str s)
  | big (i : Int) : TsTyped d .big (.big i)
  | enum {n name : Str} {x : Nat} : (name, x) ∈ d.members n → TsTyped d (.enum n) (.str name)
  | any (x : Js) : TsTyped d .any x
  | optional {t : GoType} {x : Js} : TsTyped d t x → TsTyped d (.ptr t) x
  | list {t : GoType} {l : List Js} : (∀ x ∈ l, TsTyped d t x) → TsTyped d (.list t) (.arr l)
  | map {k : KeyType} {t : GoType} {l : List (Str × Js)} : (∀ p ∈ l, TsTyped d t p.2) → TsTyped d (.map k t) (.obj l)
  | interface {n : Str} {ms ms' : List (Str × Js)} : TsMembers d (d.fields n) ms → ms'.Perm ms → TsTyped d (.ref n) (.obj ms')

/-- The members of an interface: optional ones may be missing or undefined. -/
inductive TsMembers (d : Decls) : List FieldDecl → List (Str × Js) → Prop
  | nil : TsMembers d [] []
  | hidden {f : FieldDecl} {fs : List FieldDecl} {ms : List (Str × Js)} : f.tag = none → TsMembers d fs ms → TsMembers d (f :: fs) ms
  | missing {f : FieldDecl} {fs : List FieldDecl} {ms : List (Str × Js)} : MayMiss f → TsMembers d fs ms → TsMembers d (f :: fs) ms
  | undefined {f : FieldDecl} {fs : List FieldDecl} {ms : List (Str × Js)} {tag : Str} : f.tag = some tag → MayMiss f →
      TsMembers d fs ms → TsMembers d (f :: fs) ((tag, .undefined) :: ms)
  | present {f : FieldDecl} {fs : List FieldDecl} {ms : List (Str × Js)} {tag : Str} {x : Js} : f.tag = some tag →
      TsTyped d f.type x → TsMembers d fs ms → TsMembers d (f :: fs) ((tag, x) :: ms)
end

mutual
/-- No nil in the Go value, except in an `any`, in fields that are not sent and in empty fields with `omitempty`. -/
inductive Filled (d : Decls) : GoType → GoVal → Prop
  | any (v : GoVal) : Filled d .any v
  | bool (v : GoVal) : Filled d .bool v
  | int (bits : Nat) (v : GoVal) : Filled d (.int bits) v
  | uint (bits : Nat) (v : GoVal) : Filled d (.uint bits) v
  | float (bits : Nat) (v : GoVal) : Filled d (.float bits) v
  | str (v : GoVal) : Filled d .string v
  | big (v : GoVal) : Filled d .big v
  | enum (n : Str) (v : GoVal) : Filled d (.enum n) v
  | ptr {t : GoType} {v : GoVal} : Filled d t v → Filled d (.ptr t) (.ptr v)
  | list {t : GoType} {l : List GoVal} : (∀ v ∈ l, Filled d t v) → Filled d (.list t) (.list l)
  | map {k : KeyType} {t : GoType} {l : List (Key × GoVal)} : (∀ p ∈ l, Filled d t p.2) → Filled d (.map k t) (.map l)
  | ref {n : Str} {l : List GoVal} : FilledFields d (d.fields n) l → Filled d (.ref n) (.ptr (.struct l))

/-- The same for the fields of a struct. -/
inductive FilledFields (d : Decls) : List FieldDecl → List GoVal → Prop
  | nil : FilledFields d [] []
  | unsent {f : FieldDecl} {fs : List FieldDecl} {v : GoVal} {l : List GoVal} :
      (f.tag = none ∨ (f.omitEmpty = true ∧ LeftOut v)) → FilledFields d fs l → FilledFields d (f :: fs) (v :: l)
  | cons {f : FieldDecl} {fs : List FieldDecl} {v : GoVal} {l : List GoVal} : Filled d f.type v → FilledFields d fs l →
      FilledFields d (f :: fs) (v :: l)
end

end Verif.TsSpec
