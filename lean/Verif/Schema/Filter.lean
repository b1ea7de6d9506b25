import Verif.Schema.Types
/-!
# Model of the schema filters

Models `MatchServices`, `MethodTreeShake`, `MatchMethodsWithAnnotations` and
`IgnoreMethodsWithAnnotations` of `/repo/schema/schema.go` (lines 141-336).  The functions modify the
schema in place and return it; here they return the new schema.  The nil schema is left out.

A pointer to a type (`vt.Struct.Type`, `vt.Enum.Type`) is an identity looked up in the types of the
schema; an identity that is not there stands for a nil pointer.

The filters build their results by appending to nil slices, so that what becomes empty is nil.
-/

namespace Verif.Schema

/-- `MatchServices`, schema.go:141-165. -/
def matchServices (s : Schema) (names : List Str) : Schema :=
  if names.isEmpty then s
  else { s with services := s.services.filter (fun v => names.contains v.name), nils := { s.nils with services := true } }

/-- Follow a pointer to a type. -/
def deref (ts : List TypeDecl) (p : Ptr) : Option TypeDecl := ts.find? fun t => t.ptr = p

/-- `for _, x := range xs { ... }` where each round adds marks or does not return (`none`). -/
def markAll {α : Type} (f : α → Option (List Str)) : List α → Option (List Str)
  | [] => some []
  | x :: xs =>
    match f x, markAll f xs with
    | some a, some b => some (a ++ b)
    | _, _ => none

/-- `if t.Name != "" { mark[t.Name] = true }`, schema.go:203-205, 215-217. -/
def nameMark (t : TypeDecl) : List Str := if t.name = [] then [] else [t.name]

/-- `walkVarType`, schema.go:185-221: the names marked by a walk over a type; `rec` walks over the
fields of a struct. -/
def markVar (ts : List TypeDecl) (rec : TypeDecl → Option (List Str)) : VarType → Option (List Str)
  | .leaf _ _ => some []
  | .list _ el => markVar ts rec el
  | .map _ k v =>
    match markVar ts rec k, markVar ts rec v with
    | some a, some b => some (a ++ b)
    | _, _ => none
  | .struct _ _ p =>
    match deref ts p with
    | none => some []
    | some t =>
      match rec t with
      | some a => some (nameMark t ++ a)
      | none => none
  | .enum _ _ p =>
    match deref ts p with
    | none => some []
    | some t => some (nameMark t)
  | .alias _ _ _ => some []

/-- `for _, f := range t.Fields { walkVarType(f.Type, mark) }`, schema.go:206-209; the first argument
bounds the nesting of structs, `none` says that the bound was reached (the Go code has no bound). -/
def markFields (ts : List TypeDecl) : Nat → TypeDecl → Option (List Str)
  | 0, _ => none
  | n + 1, t => markAll (markVar ts (markFields ts n)) (t.fields.filterMap (·.type))

/-- The types of the inputs and outputs of the methods of a service, schema.go:230-238. -/
def serviceVars (v : Service) : List VarType :=
  v.methods.flatMap fun m => (m.inputs ++ m.outputs).filterMap (·.type)

/-- `MethodTreeShake`, schema.go:171-252, with structs nested at most `n` deep. -/
def treeShakeN (n : Nat) (s : Schema) (names : List Str) : Option Schema :=
  let walk := fun v => markAll (markVar s.types (markFields s.types n)) (serviceVars v)
  -- the walks over the other services only matter for ending at all
  match markAll walk (s.services.filter fun v => names.contains v.name),
      markAll walk (s.services.filter fun v => !names.contains v.name) with
  | some used, some _ =>
    some { s with types := s.types.filter (fun t => used.contains t.name), nils := { s.nils with types := true } }
  | _, _ => none

/-- `strings.Trim(value, " ") == ""`. -/
def onlySpaces (v : Str) : Bool := v.all (· == ' ')

/-- The loop over the annotations of a filter, schema.go:263-284 and 305-326: the map is given by its
entries in the order of the iteration. -/
def annotated (m : Method) : List (Str × Str) → Bool
  | [] => false
  | (name, value) :: r =>
    match m.annotations.lookup name with
    | none => annotated m r
    | some ann =>
      if onlySpaces value then
        if name = ann.annotationType then true else annotated m r
      else if name = ann.annotationType ∧ value = ann.value then true
      else annotated m r

/-- `MatchMethodsWithAnnotations`, schema.go:254-294. -/
def matchMethods (s : Schema) (anns : List (Str × Str)) : Schema :=
  { s with services := s.services.map fun v => { v with methods := v.methods.filter (annotated · anns), nils := { v.nils with methods := true } } }

/-- `IgnoreMethodsWithAnnotations`, schema.go:296-336. -/
def ignoreMethods (s : Schema) (anns : List (Str × Str)) : Schema :=
  { s with services := s.services.map fun v =>
    { v with methods := v.methods.filter (fun m => !annotated m anns), nils := { v.nils with methods := true } } }

end Verif.Schema
