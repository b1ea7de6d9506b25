import Verif.Spec.Graphs
/-! The search of the import graph is exact. -/

namespace Verif.Ridl
open Verif.Spec

variable {α : Type}

theorem _root_.Verif.Spec.Path.trans {E : α → α → Prop} {x y z : α} (h : Path E x y) (h' : Path E y z) :
    Path E x z := by
  induction h with
  | edge e => exact .step e h'
  | step e _ ih => exact .step e (ih h')

theorem _root_.Verif.Spec.Path.snoc {E : α → α → Prop} {x y z : α} (h : Path E x y) (h' : E y z) :
    Path E x z := h.trans (.edge h')

theorem _root_.Verif.Spec.Reach.snoc {E : α → α → Prop} {x y z : α} (h : Reach E x y) (h' : E y z) :
    Path E x z := by
  rcases h with rfl | h
  · exact .edge h'
  · exact h.snoc h'

theorem _root_.Verif.Spec.Reach.trans {E : α → α → Prop} {x y z : α} (h : Reach E x y) (h' : Reach E y z) :
    Reach E x z := by
  rcases h with rfl | h
  · exact h'
  · rcases h' with rfl | h'
    · exact .inr h
    · exact .inr (h.trans h')

theorem _root_.Verif.Spec.Path.mono {E F : α → α → Prop} (hEF : ∀ x y, E x y → F x y) {x y : α}
    (h : Path E x y) : Path F x y := by
  induction h with
  | edge e => exact .edge (hEF _ _ e)
  | step e _ ih => exact .step (hEF _ _ e) ih

/-- A node from which every walk ends does not lie on a cycle. -/
theorem acc_no_cycle {E : α → α → Prop} {x : α} (h : Acc (fun y x => E x y) x) : ¬ Path E x x := by
  have key : ∀ x, Acc (fun y x => E x y) x → ∀ y, Path E x y → y = x → False := by
    intro x h
    induction h with
    | intro x _ ih =>
      intro y hp hy
      subst hy
      cases hp with
      | edge e => exact ih _ e _ (.edge e) rfl
      | step e p => exact ih _ e _ (p.snoc e) rfl
  exact fun hp => key x h x hp rfl

theorem acc_of_path {E : α → α → Prop} {x y : α} (h : Acc (fun y x => E x y) x) (hp : Path E x y) :
    Acc (fun y x => E x y) y := by
  induction hp with
  | edge e => exact h.inv e
  | step e _ ih => exact ih (h.inv e)

variable [DecidableEq α]

/-- State of the search: the stack is part of the visited nodes; walks from nodes that are done
end. -/
structure Inv (g : Graph α) (s : Dfs α) : Prop where
  stack : ∀ y ∈ s.stack, y ∈ s.visited
  done : ∀ y ∈ s.visited, y ∉ s.stack → Acc (fun y x => Edge g x y) y

/-- What a call of `isCircular` on an unvisited node gives. -/
def DfsSpec (g : Graph α) (x : α) (s : Dfs α) (r : Option (Bool × Dfs α)) : Prop :=
  match r with
  | none => True
  | some (true, _) => Cyclic (Edge g)
  | some (false, s') => s'.stack = s.stack ∧ (∀ y ∈ s.visited, y ∈ s'.visited) ∧ x ∈ s'.visited ∧ Inv g s'

theorem scan_spec {g : Graph α} {rec : α → Dfs α → Option (Bool × Dfs α)} {x : α}
    (hrec : ∀ y s, y ∉ s.visited → Inv g s → (∀ r ∈ s.stack, Reach (Edge g) r y) → DfsSpec g y s (rec y s))
    (ys : List α) (hys : ∀ y ∈ ys, Edge g x y) (s : Dfs α) (hi : Inv g s)
    (hr : ∀ r ∈ s.stack, Reach (Edge g) r x) :
    match scan rec ys s with
    | none => True
    | some (true, _) => Cyclic (Edge g)
    | some (false, s') => s'.stack = s.stack ∧ (∀ y ∈ s.visited, y ∈ s'.visited) ∧ Inv g s' ∧
        ∀ y ∈ ys, y ∈ s'.visited ∧ y ∉ s'.stack := by
  induction ys generalizing s with
  | nil => simp only [scan]; exact ⟨trivial, fun _ h => h, hi, by simp⟩
  | cons y ys ih =>
    have hy := hys y (by simp)
    have hys' : ∀ z ∈ ys, Edge g x z := fun z hz => hys z (by simp [hz])
    simp only [scan]
    by_cases hv : y ∈ s.visited
    · have hb : (!s.visited.contains y) = false := by simp [hv]
      rw [if_neg (by simp [hv])]
      by_cases hst : y ∈ s.stack
      · rw [if_pos (by simp [hst])]
        exact ⟨y, (hr y hst).snoc hy⟩
      · rw [if_neg (by simp [hst])]
        have := ih hys' s hi hr
        split at this
        · trivial
        · exact this
        · next s' _ =>
          obtain ⟨h1, h2, h3, h4⟩ := this
          refine ⟨h1, h2, h3, fun z hz => ?_⟩
          rcases List.mem_cons.mp hz with rfl | hz
          · exact ⟨h2 _ hv, by rw [h1]; exact hst⟩
          · exact h4 z hz
    · rw [if_pos (by simp [hv])]
      have hs := hrec y s hv hi (fun r hr' => .inr ((hr r hr').snoc hy))
      revert hs
      rcases hm : rec y s with _ | ⟨b, s1⟩
      · intro _; simp
      · cases b with
        | true => intro h; exact h
        | false =>
          rintro ⟨h1, h2, h3, h4⟩
          simp only
          have := ih hys' s1 h4 (by rw [h1]; exact hr)
          split at this
          · trivial
          · exact this
          · next s' _ =>
            obtain ⟨g1, g2, g3, g4⟩ := this
            refine ⟨g1.trans h1, fun z hz => g2 z (h2 z hz), g3, fun z hz => ?_⟩
            rcases List.mem_cons.mp hz with rfl | hz
            · refine ⟨g2 _ h3, ?_⟩
              rw [g1, h1]
              exact fun h => hv (hi.stack _ h)
            · exact g4 z hz

theorem dfs_spec {g : Graph α} (n : Nat) (x : α) (s : Dfs α) (hx : x ∉ s.visited) (hi : Inv g s)
    (hr : ∀ r ∈ s.stack, Reach (Edge g) r x) : DfsSpec g x s (dfs g n x s) := by
  induction n generalizing x s with
  | zero => simp [dfs, DfsSpec]
  | succ n ih =>
    have hxs : x ∉ s.stack := fun h => hx (hi.stack _ h)
    have hi' : Inv g { visited := x :: s.visited, stack := x :: s.stack } := by
      constructor
      · intro y hy
        rcases List.mem_cons.mp hy with rfl | hy
        · simp
        · exact List.mem_cons_of_mem _ (hi.stack y hy)
      · intro y hy hn
        simp only [List.mem_cons, not_or] at hy hn
        rcases hy with rfl | hy
        · exact absurd rfl hn.1
        · exact hi.done y hy hn.2
    have hsc := scan_spec (g := g) (rec := dfs g n) (x := x) ih (g.adj x) (fun y h => h)
      { visited := x :: s.visited, stack := x :: s.stack } hi' (by
        intro r hr'
        rcases List.mem_cons.mp hr' with rfl | hr'
        · exact .inl rfl
        · exact hr r hr')
    simp only [dfs]
    rcases hm : scan (dfs g n) (g.adj x) { visited := x :: s.visited, stack := x :: s.stack } with _ | ⟨b, s1⟩
    · simp [DfsSpec]
    · rw [hm] at hsc
      cases b with
      | true => exact hsc
      | false =>
        obtain ⟨h1, h2, h3, h4⟩ := hsc
        have hst : s1.stack.filter (· ≠ x) = s.stack := by
          rw [h1]
          simp only [ne_eq, decide_not, List.filter_cons, decide_true, Bool.not_true, Bool.false_eq_true,
            if_false]
          rw [List.filter_eq_self]
          intro y hy
          have : y ≠ x := fun h => hxs (h ▸ hy)
          simp [this]
        have hxacc : Acc (fun y x => Edge g x y) x := by
          constructor
          intro y hy
          obtain ⟨a, b⟩ := h4 y hy
          exact h3.done y a b
        simp only [DfsSpec, hst]
        refine ⟨trivial, fun y hy => h2 y (List.mem_cons_of_mem _ hy), h2 x (by simp), ?_, ?_⟩
        · intro y hy
          exact h2 y (List.mem_cons_of_mem _ (hi.stack y hy))
        · intro y hy hn
          by_cases hyx : y = x
          · exact hyx ▸ hxacc
          · exact h3.done y hy (by rw [h1]; simp [hyx]; exact hn)

theorem circularFrom_spec {g : Graph α} (n : Nat) (xs : List α) (s : Dfs α) (hi : Inv g s) (hs : s.stack = []) :
    match circularFrom g n xs s with
    | none => True
    | some true => Cyclic (Edge g)
    | some false => ∀ x ∈ xs, Acc (fun y x => Edge g x y) x := by
  induction xs generalizing s with
  | nil => simp [circularFrom]
  | cons x xs ih =>
    simp only [circularFrom]
    by_cases hv : x ∈ s.visited
    · rw [if_neg (by simp [hv])]
      have := ih s hi hs
      split at this
      · trivial
      · exact this
      · intro y hy
        rcases List.mem_cons.mp hy with rfl | hy
        · exact hi.done _ hv (by simp [hs])
        · exact this y hy
    · rw [if_pos (by simp [hv])]
      have hd := dfs_spec (g := g) n x s hv hi (by simp [hs])
      revert hd
      rcases hm : dfs g n x s with _ | ⟨b, s1⟩
      · intro _; trivial
      · cases b with
        | true => intro h; exact h
        | false =>
          rintro ⟨h1, h2, h3, h4⟩
          have := ih s1 h4 (by rw [h1, hs])
          simp only
          split at this
          · trivial
          · exact this
          · intro y hy
            rcases List.mem_cons.mp hy with rfl | hy
            · exact h4.done _ h3 (by simp [h1, hs])
            · exact this y hy

/-! ### The bound on the recursion -/

/-- Nodes not yet visited. -/
def unseen (g : Graph α) (s : Dfs α) : Nat := (g.nodes.filter fun x => !s.visited.contains x).length

omit [DecidableEq α] in
theorem filter_length_le {p q : α → Bool} (l : List α) (h : ∀ x ∈ l, p x = true → q x = true) :
    (l.filter p).length ≤ (l.filter q).length := by
  induction l with
  | nil => simp
  | cons a l ih =>
    have := ih (fun x hx => h x (List.mem_cons_of_mem _ hx))
    have ha := h a (by simp)
    simp only [List.filter_cons]
    cases hp : p a <;> cases hq : q a <;> simp <;> first | omega | simp_all

omit [DecidableEq α] in
theorem filter_length_lt {p q : α → Bool} (l : List α) (h : ∀ x ∈ l, p x = true → q x = true) (a : α)
    (ha : a ∈ l) (hp : p a = false) (hq : q a = true) : (l.filter p).length < (l.filter q).length := by
  induction l with
  | nil => simp at ha
  | cons b l ih =>
    have hl := filter_length_le l (fun x hx => h x (List.mem_cons_of_mem _ hx))
    simp only [List.filter_cons]
    rcases List.mem_cons.mp ha with rfl | ha
    · simp [hp, hq]; omega
    · have := ih (fun x hx => h x (List.mem_cons_of_mem _ hx)) ha
      have hb := h b (by simp)
      cases hpb : p b <;> cases hqb : q b <;> simp <;> first | omega | simp_all

theorem unseen_mono {g : Graph α} {s s' : Dfs α} (h : ∀ y ∈ s.visited, y ∈ s'.visited) :
    unseen g s' ≤ unseen g s := by
  apply filter_length_le
  intro x _ hx
  simp only [Bool.not_eq_true', List.contains_eq_mem, decide_eq_false_iff_not] at hx ⊢
  exact fun h' => hx (h x h')

theorem scan_total {g : Graph α} {rec : α → Dfs α → Option (Bool × Dfs α)} {N : Nat}
    (hrec : ∀ y s, y ∈ g.nodes → y ∉ s.visited → unseen g s ≤ N →
      ∃ b s', rec y s = some (b, s') ∧ ∀ z ∈ s.visited, z ∈ s'.visited)
    (ys : List α) (hys : ∀ y ∈ ys, y ∈ g.nodes) (s : Dfs α) (hN : unseen g s ≤ N) :
    ∃ b s', scan rec ys s = some (b, s') ∧ ∀ z ∈ s.visited, z ∈ s'.visited := by
  induction ys generalizing s with
  | nil => exact ⟨false, s, rfl, fun _ h => h⟩
  | cons y ys ih =>
    have hys' : ∀ z ∈ ys, z ∈ g.nodes := fun z hz => hys z (by simp [hz])
    simp only [scan]
    by_cases hv : y ∈ s.visited
    · rw [if_neg (by simp [hv])]
      by_cases hst : y ∈ s.stack
      · rw [if_pos (by simp [hst])]; exact ⟨_, _, rfl, fun _ h => h⟩
      · rw [if_neg (by simp [hst])]; exact ih hys' s hN
    · rw [if_pos (by simp [hv])]
      obtain ⟨b, s1, h1, h2⟩ := hrec y s (hys y (by simp)) hv hN
      rw [h1]
      cases b with
      | true => exact ⟨_, _, rfl, h2⟩
      | false =>
        obtain ⟨b, s2, g1, g2⟩ := ih hys' s1 (Nat.le_trans (unseen_mono h2) hN)
        exact ⟨b, s2, g1, fun z hz => g2 z (h2 z hz)⟩

theorem dfs_total {g : Graph α} (hg : EndsAreNodes g) (n : Nat) (x : α) (s : Dfs α) (hx : x ∈ g.nodes)
    (hv : x ∉ s.visited) (hn : unseen g s ≤ n) :
    ∃ b s', dfs g n x s = some (b, s') ∧ ∀ z ∈ s.visited, z ∈ s'.visited := by
  induction n generalizing x s with
  | zero =>
    exfalso
    have : 0 < unseen g s := by
      unfold unseen
      exact List.length_pos_of_mem (a := x) (by simp [hx, hv])
    omega
  | succ n ih =>
    simp only [dfs]
    have hlt : unseen g { visited := x :: s.visited, stack := x :: s.stack } < unseen g s := by
      refine filter_length_lt _ ?_ x hx (by simp) (by simp [hv])
      intro y _ hy
      simp only [Bool.not_eq_true', List.contains_eq_mem, decide_eq_false_iff_not, List.mem_cons,
        not_or] at hy ⊢
      exact hy.2
    obtain ⟨b, s1, h1, h2⟩ := scan_total (g := g) (rec := dfs g n) (N := n)
      (fun y s hy hv hN => ih y s hy hv hN) (g.adj x) (fun y hy => (hg x y hy).2)
      { visited := x :: s.visited, stack := x :: s.stack } (by omega)
    rw [h1]
    cases b with
    | true => exact ⟨_, _, rfl, fun z hz => h2 z (List.mem_cons_of_mem _ hz)⟩
    | false => exact ⟨_, _, rfl, fun z hz => h2 z (List.mem_cons_of_mem _ hz)⟩

theorem circularFrom_total {g : Graph α} (hg : EndsAreNodes g) (n : Nat) (xs : List α) (s : Dfs α)
    (hxs : ∀ x ∈ xs, x ∈ g.nodes) (hn : unseen g s ≤ n) : circularFrom g n xs s ≠ none := by
  induction xs generalizing s with
  | nil => simp [circularFrom]
  | cons x xs ih =>
    have hxs' : ∀ z ∈ xs, z ∈ g.nodes := fun z hz => hxs z (by simp [hz])
    simp only [circularFrom]
    by_cases hv : x ∈ s.visited
    · rw [if_neg (by simp [hv])]; exact ih s hxs' hn
    · rw [if_pos (by simp [hv])]
      obtain ⟨b, s1, h1, h2⟩ := dfs_total hg n x s (hxs x (by simp)) hv hn
      rw [h1]
      cases b with
      | true => simp
      | false => exact ih s1 hxs' (Nat.le_trans (unseen_mono h2) hn)

theorem isCircular_total {g : Graph α} (hg : EndsAreNodes g) : g.isCircular? ≠ none :=
  circularFrom_total hg _ _ _ (fun _ h => h) (by
    unfold unseen
    exact Nat.le_succ_of_le (List.length_filter_le _ _))

theorem isCircular_exact {g : Graph α} (hg : EndsAreNodes g) :
    (g.isCircular? = some true ↔ Cyclic (Edge g)) ∧ (g.isCircular? = some false ↔ ¬ Cyclic (Edge g)) := by
  have ht := isCircular_total hg
  have hs := circularFrom_spec (g := g) (g.nodes.length + 1) g.nodes { visited := [], stack := [] }
    ⟨by simp, by simp⟩ rfl
  have : circularFrom g (g.nodes.length + 1) g.nodes { visited := [], stack := [] } = g.isCircular? := rfl
  rw [this] at hs
  rcases hm : g.isCircular? with _ | b
  · exact absurd hm ht
  · rw [hm] at hs
    cases b with
    | true =>
      simp only at hs
      simp [hs]
    | false =>
      simp only at hs
      have hn : ¬ Cyclic (Edge g) := by
        rintro ⟨x, hx⟩
        have hxn : x ∈ g.nodes := by
          cases hx with
          | edge e => exact (hg _ _ e).1
          | step e _ => exact (hg _ _ e).1
        exact acc_no_cycle (hs x hxn) hx
      simp [hn]

omit [DecidableEq α] in
theorem endsAreNodes_new (ns : List α) : EndsAreNodes (Graph.new ns) := by
  intro x y h; simp [Edge, Graph.new] at h

theorem mem_addNode {g : Graph α} {x y : α} : y ∈ (g.addNode x).nodes ↔ y ∈ g.nodes ∨ y = x := by
  unfold Graph.addNode
  split
  · next h =>
    simp at h
    constructor
    · exact Or.inl
    · rintro (h' | rfl)
      · exact h'
      · exact h
  · simp

theorem edge_addNode {g : Graph α} {x u v : α} : Edge (g.addNode x) u v ↔ Edge g u v := by
  unfold Graph.addNode Edge
  split <;> rfl

theorem edge_addEdge {g : Graph α} {u v x y : α} :
    Edge (g.addEdge u v) x y ↔ Edge g x y ∨ (x = u ∧ y = v) := by
  unfold Graph.addEdge Edge
  split
  · next h =>
    simp at h
    constructor
    · exact Or.inl
    · rintro (h' | ⟨rfl, rfl⟩)
      · exact h'
      · exact h
  · simp only
    by_cases hx : x = u
    · subst hx; simp
    · simp [hx]

theorem nodes_addEdge {g : Graph α} {u v : α} : (g.addEdge u v).nodes = g.nodes := by
  unfold Graph.addEdge
  split <;> rfl

/-- Adding a node and an edge to it keeps all edge ends in the graph. -/
theorem endsAreNodes_import {g : Graph α} (hg : EndsAreNodes g) {u v : α} (hu : u ∈ g.nodes) :
    EndsAreNodes ((g.addNode v).addEdge u v) := by
  intro x y h
  rw [nodes_addEdge, mem_addNode, mem_addNode]
  rw [edge_addEdge, edge_addNode] at h
  rcases h with h | ⟨rfl, rfl⟩
  · exact ⟨.inl (hg _ _ h).1, .inl (hg _ _ h).2⟩
  · exact ⟨.inl hu, .inr rfl⟩

end Verif.Ridl
