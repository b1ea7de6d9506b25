import Verif.Schema.Filter
import Verif.Compile.Compile
/-!
# Model of the big-integer helpers

Models `/repo/schema/helpers.go`.  The two local functions `structHasBigIntRecursive` (lines 20-41 and
115-156) test the same four conditions on every field, so one definition models both.  The maps `memo`
and `visited` are threaded through as a state.
-/

namespace Verif.Schema
open Verif.Compile (mapSet)

/-- `strings.EqualFold(e, "bigint")`: none of the letters has other simple case foldings than the
ASCII ones. -/
def isBig (e : Str) : Bool :=
  e.map (fun c => if 'A' ≤ c ∧ c ≤ 'Z' then Char.ofNat (c.toNat + 32) else c) == S "bigint"

/-- The two maps, helpers.go:17-18 and 112-113: `visited` holds the names mapped to true. -/
structure BigMemo where
  memo : List (Str × Bool) := []
  visited : List Str := []
deriving DecidableEq, Repr, Inhabited

/-- `structHasBigIntRecursive(vt.Struct.Type)` on a possibly nil pointer, helpers.go:24-26. -/
def ptrHas (ts : List TypeDecl) (rec : TypeDecl → BigMemo → Option (Bool × BigMemo)) (p : Ptr)
    (st : BigMemo) : Option (Bool × BigMemo) :=
  match deref ts p with
  | none => some (false, st)
  | some t => rec t st

/-- `varTypeHasBigInt`, helpers.go:44-70, and the four tests at lines 137-152. -/
def varHas (ts : List TypeDecl) (rec : TypeDecl → BigMemo → Option (Bool × BigMemo)) (v : VarType)
    (st : BigMemo) : Option (Bool × BigMemo) :=
  if isBig v.expr then some (true, st)
  else match v with
  | .list _ el =>
    if isBig el.expr then some (true, st)
    else match el with
      | .struct _ _ p => ptrHas ts rec p st
      | _ => some (false, st)
  | .struct _ _ p => ptrHas ts rec p st
  | _ => some (false, st)

/-- The loop over fields, arguments or types that stops at the first hit, helpers.go:33-41, 73-96,
132-154. -/
def anyHas {α : Type} (f : α → BigMemo → Option (Bool × BigMemo)) : List α → BigMemo →
    Option (Bool × BigMemo)
  | [], st => some (false, st)
  | x :: xs, st =>
    match f x st with
    | none => none
    | some (true, st') => some (true, st')
    | some (false, st') => anyHas f xs st'

/-- `structHasBigIntRecursive`, helpers.go:23-42 and 116-156; the first argument bounds the recursion
(`has_total`: the number of types is enough). -/
def structHasN (ts : List TypeDecl) : Nat → TypeDecl → BigMemo → Option (Bool × BigMemo)
  | 0, _, _ => none
  | n + 1, t, st =>
    if t.kind ≠ S "struct" then some (false, st)
    else match st.memo.lookup t.name with
      | some b => some (b, st)
      | none =>
        if st.visited.contains t.name then some (false, st)
        else
          match anyHas (varHas ts (structHasN ts n)) (t.fields.filterMap (·.type))
              { st with visited := t.name :: st.visited } with
          | none => none
          | some (b, st') =>
            some (b, { memo := (t.name, b) :: st'.memo, visited := st'.visited.filter (· ≠ t.name) })

/-- `structHasBigIntRecursive` with a sufficient bound. -/
def structHas (ts : List TypeDecl) (t : TypeDecl) (st : BigMemo) : Option (Bool × BigMemo) :=
  structHasN ts (ts.length + 1) t st

/-- `SchemaUsesBigInts`, helpers.go:9-100. -/
def usesBigInts (s : Schema) : Option Bool :=
  match anyHas (structHas s.types) (s.types.filter fun t => t.kind = S "struct") {} with
  | none => none
  | some (true, _) => some true
  | some (false, st) =>
    (anyHas (varHas s.types (structHas s.types)) (s.services.flatMap serviceVars) st).map (·.1)

/-- An entry of the result: a string or a pair of strings. -/
inductive BigEntry
  | name (s : Str)
  | pair (a b : Str)
deriving DecidableEq, Repr, Inhabited

/-- What is reported for one field or argument, helpers.go:159-186, 226-243, 262-283. -/
def bigEntry (ts : List TypeDecl) (name : Str) (v : VarType) (st : BigMemo) :
    Option (Option BigEntry × BigMemo) :=
  if isBig v.expr then some (some (.name name), st)
  else match v with
  | .list _ el =>
    if isBig el.expr then some (some (.name (name ++ S "[]")), st)
    else match el with
      | .struct _ n p =>
        (ptrHas ts (structHas ts) p st).map fun r =>
          (if r.1 then some (.pair name (n ++ S "[]")) else none, r.2)
      | _ => some (none, st)
  | .struct _ n p =>
    (ptrHas ts (structHas ts) p st).map fun r => (if r.1 then some (.pair name n) else none, r.2)
  | _ => some (none, st)

/-- `collectStruct` and the loops over the arguments, helpers.go:159-186, 221-245, 257-284. -/
def bigEntries (ts : List TypeDecl) : List (Str × VarType) → BigMemo → Option (List BigEntry × BigMemo)
  | [], st => some ([], st)
  | (name, v) :: r, st =>
    match bigEntry ts name v st with
    | none => none
    | some (e, st) =>
      match bigEntries ts r st with
      | none => none
      | some (es, st) => some (e.toList ++ es, st)

/-- The structs, requests and responses that are looked at, in order, helpers.go:188-284. -/
def bigSources (s : Schema) (compat : Bool) : List (Str × List (Str × VarType)) :=
  ((s.types.filter fun t => t.kind = S "struct").map fun t =>
    (t.name, t.fields.filterMap fun f => f.type.map (f.name, ·))) ++
  s.services.flatMap fun v => (v.methods.filter fun m => !m.succinct).flatMap fun m =>
    [(m.name ++ (if compat then S "Args" else S "Request"), m.inputs.filterMap fun a => a.type.map (a.name, ·)),
     (m.name ++ (if compat then S "Return" else S "Response"), m.outputs.filterMap fun a => a.type.map (a.name, ·))]

/-- The loops filling `out`, helpers.go:188-197 and 205-284. -/
def bigLoop (ts : List TypeDecl) : List (Str × List (Str × VarType)) → BigMemo →
    List (Str × List BigEntry) → Option (List (Str × List BigEntry))
  | [], _, out => some out
  | (k, vs) :: r, st, out =>
    match bigEntries ts vs st with
    | none => none
    | some ([], st) => bigLoop ts r st out
    | some (es, st) => bigLoop ts r st (mapSet k es out)

/-- `SchemaBigIntFieldsByType`, helpers.go:109-285. -/
def bigFields (s : Schema) (compat : Bool) : Option (List (Str × List BigEntry)) :=
  bigLoop s.types (bigSources s compat) {} []

end Verif.Schema
