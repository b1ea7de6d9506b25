/-!
# Model of lists in templates

Models `array`, `appendFn` and `sortFn` of `/repo/gen/funcmap_generic.go` on the memory behind Go slices.  How much
`append` allocates (`growslice`, not in /repo) is a parameter.
-/

namespace Verif.Gen.Lists

/-- The arrays in memory; cells that were never written hold nothing. -/
abbrev Heap (α : Type) := List (List (Option α))

/-- A slice starts at the first cell of an array (no template function makes another one). -/
structure Slice where
  arr : Nat
  len : Nat
deriving DecidableEq, Repr

/-- The cells of an array. -/
def cells {α : Type} (h : Heap α) (a : Nat) : List (Option α) := h[a]?.getD []

/-- The elements of a slice. -/
def read {α : Type} (h : Heap α) (s : Slice) : List (Option α) := (cells h s.arr).take s.len

/-- Go's `append`: in place if the array has room, else into a new array of capacity `grow old needed`. -/
def goAppend {α : Type} (grow : Nat → Nat → Nat) (h : Heap α) (s : Slice) (xs : List α) : Heap α × Slice :=
  let c := cells h s.arr
  let needed := s.len + xs.length
  if needed ≤ c.length then
    (h.set s.arr (c.take s.len ++ xs.map some ++ c.drop needed), { s with len := needed })
  else
    (h ++ [c.take s.len ++ xs.map some ++ List.replicate (grow c.length needed - needed) none], { arr := h.length, len := needed })

/-- One step of a template that makes a list, from lists made before (by number). -/
inductive Op (α : Type)
  | array (xs : List α)
  | append (i : Nat) (xs : List α)
  | sort (i : Nat)

/-- The memory and the lists made so far. -/
structure State (α : Type) where
  heap : Heap α := []
  slices : List Slice := []

/-- `array`, funcmap_generic.go:10-12, `appendFn`, 15-17, `sortFn`, 88-95; `none`: there is no such list. -/
def step {α : Type} (grow : Nat → Nat → Nat) (sorted : List (Option α) → List (Option α)) (st : State α) : Op α → Option (State α)
  | .array xs =>
    let r := goAppend grow (st.heap ++ [[]]) { arr := st.heap.length, len := 0 } xs
    some { heap := r.1, slices := st.slices ++ [r.2] }
  | .append i xs =>
    match st.slices[i]? with
    | none => none
    | some s =>
      let r := goAppend grow st.heap s xs
      some { heap := r.1, slices := st.slices ++ [r.2] }
  | .sort i =>
    match st.slices[i]? with
    | none => none
    | some s =>
      let l := sorted (read st.heap s)
      some { heap := st.heap ++ [l], slices := st.slices ++ [{ arr := st.heap.length, len := l.length }] }

/-- The steps of a template, one after the other. -/
def run {α : Type} (grow : Nat → Nat → Nat) (sorted : List (Option α) → List (Option α)) : State α → List (Op α) → Option (State α)
  | st, [] => some st
  | st, op :: ops => match step grow sorted st op with
    | none => none
    | some st => run grow sorted st ops

end Verif.Gen.Lists
