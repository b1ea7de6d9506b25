import Verif.Spec.Values
import Verif.Spec.BigNum
import Verif.Spec.JsonText
/-!
# Which JSON a generated type accepts, and what can come out of it
-/

namespace Verif.RpcSpec
open Verif.Schema hiding Json Method
open Verif.Json Verif.Rpc Verif.Spec

/-- The same name up to the case of letters (as `encoding/json` compares them). -/
def SameFold (a b : Str) : Prop := a.map foldChar = b.map foldChar

/-- The field that a member of an object is for: the one of that name, else the first one of that name up to case. -/
inductive FieldOf (fs : List FieldDecl) (key : Str) : FieldDecl → Prop
  | exact {f : FieldDecl} : f ∈ fs → f.tag = some key → FieldOf fs key f
  | folded {f : FieldDecl} {pre post : List FieldDecl} {tag : Str} : (∀ g ∈ fs, g.tag ≠ some key) → fs = pre ++ f :: post →
      f.tag = some tag → SameFold tag key → (∀ g ∈ pre, ∀ t, g.tag = some t → ¬ SameFold t key) → FieldOf fs key f

/-- The texts of the map keys of a type. -/
inductive KeyText (d : Decls) : KeyType → Str → Prop
  | str (s : Str) : KeyText d .string s
  | int {bits : Nat} {s : Str} {i : Int} : IntegerText s i → FitsSigned 64 i → -(2 ^ (bits - 1)) ≤ i → i < 2 ^ (bits - 1) →
      KeyText d (.int bits) s
  | uint {bits : Nat} {s : Str} {i : Int} : IntegerText s i → s.head? ≠ some '-' → s.head? ≠ some '+' → i < 2 ^ bits →
      KeyText d (.uint bits) s
  | enum (n s : Str) : KeyText d (.enum n) s

/-- JSON for an `any`: everything, except numbers that no float64 can hold. -/
inductive AnyJson [GoFloat] : Json → Prop
  | null : AnyJson .null
  | bool (b : Bool) : AnyJson (.bool b)
  | num {x : Str} : GoFloat.norm 64 x ≠ none → AnyJson (.num x)
  | str (raw : Str) : AnyJson (.str raw)
  | arr {l : List Json} : (∀ j ∈ l, AnyJson j) → AnyJson (.arr l)
  | obj {l : List (Str × Json)} : (∀ p ∈ l, AnyJson p.2) → AnyJson (.obj l)

/-- JSON that a variable of the type accepts: `null` always; numbers that are integers in range (for unsigned types
without a sign); any string for an enum; members of objects that are no field of the struct may be anything. -/
inductive Accepts [GoFloat] (d : Decls) : GoType → Json → Prop
  | null (t : GoType) : Accepts d t .null
  | ptr {t : GoType} {j : Json} : Accepts d t j → Accepts d (.ptr t) j
  | any {j : Json} : AnyJson j → Accepts d .any j
  | bool (b : Bool) : Accepts d .bool (.bool b)
  | int {bits : Nat} {x : Str} {i : Int} : IntegerText x i → FitsSigned 64 i → -(2 ^ (bits - 1)) ≤ i → i < 2 ^ (bits - 1) →
      Accepts d (.int bits) (.num x)
  | uint {bits : Nat} {x : Str} {i : Int} : IntegerText x i → x.head? ≠ some '-' → i < 2 ^ bits → Accepts d (.uint bits) (.num x)
  | float {bits : Nat} {x : Str} : GoFloat.norm bits x ≠ none → Accepts d (.float bits) (.num x)
  | str (raw : Str) : Accepts d .string (.str raw)
  | enum (n raw : Str) : Accepts d (.enum n) (.str raw)
  | bigNum {x : Str} {i : Int} : IntegerText x i → Accepts d .big (.num x)
  | bigStr {raw : Str} {i : Int} : IntegerText raw i → Accepts d .big (.str raw)
  | list {t : GoType} {l : List Json} : t ≠ .uint 8 → (∀ j ∈ l, Accepts d t j) → Accepts d (.list t) (.arr l)
  | map {k : KeyType} {t : GoType} {l : List (Str × Json)} : (∀ p ∈ l, KeyText d k p.1) → (∀ p ∈ l, Accepts d t p.2) →
      Accepts d (.map k t) (.obj l)
  | ref {n : Str} {l : List (Str × Json)} : (∀ p ∈ l, ∀ f, FieldOf (d.fields n) p.1 f → Accepts d f.type p.2) →
      Accepts d (.ref n) (.obj l)

/-- JSON that the struct of arguments or results of a method accepts. -/
inductive AcceptsPayload [GoFloat] (d : Decls) (fs : List FieldDecl) : Json → Prop
  | null : AcceptsPayload d fs .null
  | obj {l : List (Str × Json)} : (∀ p ∈ l, ∀ f, FieldOf fs p.1 f → Accepts d f.type p.2) → AcceptsPayload d fs (.obj l)

/-- A key of the type; an enum key may be 0 without being a member. -/
inductive KeyIn (d : Decls) : KeyType → Key → Prop
  | str (s : Str) : KeyIn d .string (.str s)
  | int {bits : Nat} {i : Int} : -(2 ^ (bits - 1)) ≤ i → i < 2 ^ (bits - 1) → KeyIn d (.int bits) (.int i)
  | uint {bits : Nat} {i : Int} : 0 ≤ i → i < 2 ^ bits → KeyIn d (.uint bits) (.int i)
  | enum {n : Str} {x : Nat} : (x = 0 ∨ ∃ name, (name, x) ∈ d.members n) → KeyIn d (.enum n) (.enum x)

mutual
/-- `v` is a proper value of type `t`: numbers are in range, enums are 0 or a member, an `any` holds nothing or a bool,
float64, string, []any or map[string]any, the keys of maps are distinct, and structs have all their fields. -/
inductive Typed [GoFloat] (d : Decls) : GoType → GoVal → Prop
  | bool (b : Bool) : Typed d .bool (.bool b)
  | int {bits : Nat} {i : Int} : (-(2 ^ (bits - 1)) ≤ i) → (i < 2 ^ (bits - 1)) → Typed d (.int bits) (.int i)
  | uint {bits : Nat} {i : Int} : 0 ≤ i → i < 2 ^ bits → Typed d (.uint bits) (.int i)
  | float {bits : Nat} {x : Str} : GoFloat.norm bits x = some x → Typed d (.float bits) (.float x)
  | str (s : Str) : Typed d .string (.str s)
  | big (i : Int) : Typed d .big (.big i)
  | enum {n : Str} {x : Nat} : (x = 0 ∨ ∃ name, (name, x) ∈ d.members n) → Typed d (.enum n) (.enum x)
  | nil {t : GoType} : Nullable t → Typed d t .nil
  | dyn {t : GoType} {v : GoVal} : Natural t → v ≠ .nil → Typed d t v → Typed d .any (.dyn t v)
  | ptr {t : GoType} {v : GoVal} : Typed d t v → Typed d (.ptr t) (.ptr v)
  | ref {n : Str} {l : List GoVal} : TypedFields d (d.fields n) l → Typed d (.ref n) (.ptr (.struct l))
  | list {t : GoType} {l : List GoVal} : (∀ v ∈ l, Typed d t v) → Typed d (.list t) (.list l)
  | map {k : KeyType} {t : GoType} {l : List (Key × GoVal)} : (l.map (·.1)).Pairwise (· ≠ ·) →
      (∀ p ∈ l, KeyIn d k p.1) → (∀ p ∈ l, Typed d t p.2) → Typed d (.map k t) (.map l)

/-- The same for the fields of a struct. -/
inductive TypedFields [GoFloat] (d : Decls) : List FieldDecl → List GoVal → Prop
  | nil : TypedFields d [] []
  | cons {f : FieldDecl} {fs : List FieldDecl} {v : GoVal} {l : List GoVal} : Typed d f.type v → TypedFields d fs l →
      TypedFields d (f :: fs) (v :: l)
end

end Verif.RpcSpec
