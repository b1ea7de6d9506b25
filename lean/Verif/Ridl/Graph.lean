import Verif.Schema.Types
/-!
# Model of the import graph

Models `/repo/schema/ridl/internal/graph/graph.go`.  The Go map `adjacency` is a function (a missing
key gives the nil slice); the two `map[T]bool` of the search are the lists of keys mapped to true.
The recursion of `isCircular` is bounded by `fuel`; `isCircular_total` shows that the bound used in
`isCircular?` is never reached.
-/

namespace Verif.Ridl

/-- `Graph`, graph.go:7-10. -/
structure Graph (α : Type) where
  nodes : List α
  adj : α → List α

variable {α : Type} [DecidableEq α]

/-- `New`, graph.go:12-17. -/
def Graph.new (nodes : List α) : Graph α := { nodes := nodes, adj := fun _ => [] }

/-- `AddNode`, graph.go:19-25. -/
def Graph.addNode (g : Graph α) (x : α) : Graph α :=
  if g.nodes.contains x then g else { g with nodes := g.nodes ++ [x] }

/-- `AddEdge`, graph.go:27-33. -/
def Graph.addEdge (g : Graph α) (u v : α) : Graph α :=
  if (g.adj u).contains v then g
  else { g with adj := fun x => if x = u then g.adj u ++ [v] else g.adj x }

/-- The maps `visited` and `recursionStack` of the search: the keys mapped to true. -/
structure Dfs (α : Type) where
  visited : List α
  stack : List α

/-- The loop over the neighbours, graph.go:39-47; `rec` is the recursive call.  `none`: out of
fuel. -/
def scan (rec : α → Dfs α → Option (Bool × Dfs α)) : List α → Dfs α → Option (Bool × Dfs α)
  | [], s => some (false, s)
  | y :: ys, s =>
    if !s.visited.contains y then
      match rec y s with
      | none => none
      | some (true, s') => some (true, s')
      | some (false, s') => scan rec ys s'
    else if s.stack.contains y then some (true, s)
    else scan rec ys s

/-- `isCircular`, graph.go:35-51. -/
def dfs (g : Graph α) : Nat → α → Dfs α → Option (Bool × Dfs α)
  | 0, _, _ => none
  | n + 1, x, s =>
    match scan (dfs g n) (g.adj x) { visited := x :: s.visited, stack := x :: s.stack } with
    | some (false, s') => some (false, { s' with stack := s'.stack.filter (· ≠ x) })
    | r => r

/-- The loop of `IsCircular`, graph.go:57-63. -/
def circularFrom (g : Graph α) (fuel : Nat) : List α → Dfs α → Option Bool
  | [], _ => some false
  | x :: xs, s =>
    if !s.visited.contains x then
      match dfs g fuel x s with
      | none => none
      | some (true, _) => some true
      | some (false, s') => circularFrom g fuel xs s'
    else circularFrom g fuel xs s

/-- `IsCircular`, graph.go:53-65. -/
def Graph.isCircular? (g : Graph α) : Option Bool :=
  circularFrom g (g.nodes.length + 1) g.nodes { visited := [], stack := [] }

end Verif.Ridl
