import Verif.Rpc.Values
/-!
# Which Go values JSON can carry
-/

namespace Verif.RpcSpec
open Verif.Schema hiding Json Method
open Verif.Json Verif.Rpc

/-- Generated declarations: the members of an enum have distinct names and values, the fields of a struct have
distinct JSON names. -/
structure WellDeclared (d : Decls) : Prop where
  names : ∀ e, ((d.members e).map (·.1)).Pairwise (· ≠ ·)
  values : ∀ e, ((d.members e).map (·.2)).Pairwise (· ≠ ·)
  tags : ∀ n, ((d.fields n).filterMap (·.tag)).Pairwise (· ≠ ·)

/-- An integer that fits a signed or an unsigned type of at most 64 bits. -/
def FitsSigned (bits : Nat) (i : Int) : Prop := 1 ≤ bits ∧ bits ≤ 64 ∧ -(2 ^ (bits - 1)) ≤ i ∧ i < 2 ^ (bits - 1)
@[inherit_doc FitsSigned]
def FitsUnsigned (bits : Nat) (i : Int) : Prop := bits ≤ 64 ∧ 0 ≤ i ∧ i < 2 ^ bits

/-- A key of the type: enum keys are members. -/
inductive KeyOf (d : Decls) : KeyType → Key → Prop
  | str (s : Str) : KeyOf d .string (.str s)
  | int {bits : Nat} {i : Int} : FitsSigned bits i → KeyOf d (.int bits) (.int i)
  | uint {bits : Nat} {i : Int} : FitsUnsigned bits i → KeyOf d (.uint bits) (.int i)
  | enum {n name : Str} {x : Nat} : (name, x) ∈ d.members n → KeyOf d (.enum n) (.enum x)

/-- Types that can be nil. -/
inductive Nullable : GoType → Prop
  | any : Nullable .any
  | ref (n : Str) : Nullable (.ref n)
  | ptr (t : GoType) : Nullable (.ptr t)
  | list (t : GoType) : Nullable (.list t)
  | map (k : KeyType) (t : GoType) : Nullable (.map k t)

/-- The types of values that JSON gives an `any`. -/
inductive Natural : GoType → Prop
  | bool : Natural .bool
  | float : Natural (.float 64)
  | string : Natural .string
  | list : Natural (.list .any)
  | map : Natural (.map .string .any)

/-- Values left out when the tag says `omitempty`: false, zero, the empty text, nil and empty slices and maps. -/
inductive LeftOut : GoVal → Prop
  | bool : LeftOut (.bool false)
  | int : LeftOut (.int 0)
  | float : LeftOut (.float (S "0"))
  | negative : LeftOut (.float (S "-0"))
  | str : LeftOut (.str [])
  | enum : LeftOut (.enum 0)
  | nil : LeftOut .nil
  | list : LeftOut (.list [])
  | map : LeftOut (.map [])

/-- The members of the JSON object of a struct: one for each field that has a name in JSON and is not left out, in the
order of the declaration. -/
inductive Members [GoFloat] (d : Decls) : List FieldDecl → List GoVal → List (Str × Json) → Prop
  | nil : Members d [] [] []
  | unsent {f : FieldDecl} {fs : List FieldDecl} {v : GoVal} {l : List GoVal} {ms : List (Str × Json)} : f.tag = none →
      Members d fs l ms → Members d (f :: fs) (v :: l) ms
  | omitted {f : FieldDecl} {fs : List FieldDecl} {v : GoVal} {l : List GoVal} {ms : List (Str × Json)} {tag : Str} :
      f.tag = some tag → f.omitEmpty = true → LeftOut v → Members d fs l ms → Members d (f :: fs) (v :: l) ms
  | sent {f : FieldDecl} {fs : List FieldDecl} {v : GoVal} {l : List GoVal} {ms : List (Str × Json)} {tag : Str} {j : Json} :
      f.tag = some tag → (f.omitEmpty = true → ¬ LeftOut v) → encode d f.type v = some j → Members d fs l ms →
      Members d (f :: fs) (v :: l) ((tag, j) :: ms)

mutual
/-- `v` is a value of type `t` that JSON can carry: enums hold one of their members, numbers are finite, an `any` holds
nothing or a bool, float64, string, []any or map[string]any, and a pointer that is not nil points to something that is
not nil.  Struct fields that are not sent (`json:"-"`), or left out when empty (`omitempty`), have the zero value. -/
inductive Carried [GoFloat] (d : Decls) : GoType → GoVal → Prop
  | bool (b : Bool) : Carried d .bool (.bool b)
  | int {bits : Nat} {i : Int} : FitsSigned bits i → Carried d (.int bits) (.int i)
  | uint {bits : Nat} {i : Int} : FitsUnsigned bits i → Carried d (.uint bits) (.int i)
  | float {bits : Nat} {x : Str} : GoFloat.norm bits x = some x → Carried d (.float bits) (.float x)
  | str (s : Str) : Carried d .string (.str s)
  | big (i : Int) : Carried d .big (.big i)
  | enum {n name : Str} {x : Nat} : (name, x) ∈ d.members n → Carried d (.enum n) (.enum x)
  | nil {t : GoType} : Nullable t → Carried d t .nil
  | dyn {t : GoType} {v : GoVal} : Natural t → v ≠ .nil → Carried d t v → Carried d .any (.dyn t v)
  | ptr {t : GoType} {v : GoVal} : v ≠ .nil → Carried d t v → Carried d (.ptr t) (.ptr v)
  | ref {n : Str} {l : List GoVal} : CarriedFields d (d.fields n) l → Carried d (.ref n) (.ptr (.struct l))
  | list {t : GoType} {l : List GoVal} : t ≠ .uint 8 → (∀ v ∈ l, Carried d t v) → Carried d (.list t) (.list l)
  | map {k : KeyType} {t : GoType} {l : List (Key × GoVal)} : (l.map (·.1)).Pairwise (· ≠ ·) →
      (∀ p ∈ l, KeyOf d k p.1) → (∀ p ∈ l, Carried d t p.2) → Carried d (.map k t) (.map l)

/-- The same for the fields of a struct. -/
inductive CarriedFields [GoFloat] (d : Decls) : List FieldDecl → List GoVal → Prop
  | nil : CarriedFields d [] []
  | cons {f : FieldDecl} {fs : List FieldDecl} {v : GoVal} {l : List GoVal} : Carried d f.type v →
      (f.tag = none ∨ (f.omitEmpty = true ∧ isEmpty v = true) → v = zero f.type) →
      CarriedFields d fs l → CarriedFields d (f :: fs) (v :: l)
end

end Verif.RpcSpec
