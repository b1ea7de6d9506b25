import Verif.Ridl.Graph
/-!
# Paths and cycles in a directed graph
-/

namespace Verif.Spec
open Verif.Ridl

/-- `y` can be reached from `x` by following one or more edges. -/
inductive Path {α : Type} (E : α → α → Prop) : α → α → Prop
  | edge {x y : α} : E x y → Path E x y
  | step {x y z : α} : E x y → Path E y z → Path E x z

/-- `y` is `x` or can be reached from it. -/
def Reach {α : Type} (E : α → α → Prop) (x y : α) : Prop := x = y ∨ Path E x y

/-- The edges of a graph. -/
def Edge {α : Type} (g : Graph α) (x y : α) : Prop := y ∈ g.adj x

/-- Some node can reach itself. -/
def Cyclic {α : Type} (E : α → α → Prop) : Prop := ∃ x, Path E x x

/-- Both ends of every edge are nodes of the graph. -/
def EndsAreNodes {α : Type} (g : Graph α) : Prop := ∀ x y, Edge g x y → x ∈ g.nodes ∧ y ∈ g.nodes

end Verif.Spec
