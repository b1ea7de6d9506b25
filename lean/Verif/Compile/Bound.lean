import Verif.Compile.Fuel
/-!
# A compilation that runs out of bounds does so with every bound

The depth of imports is bounded by the number of files, so only the syntax parser can make a compilation run out of bounds, and
it does so whatever the bound on the depth is.
-/

namespace Verif.Compile
open Verif.Schema Verif.Spec
open Verif.Ridl hiding Str

/-- The situation before an imported file is parsed. -/
theorem ready_import {fs : Files} {root path ip : Str} {parents : List Str} {g : Graph Str}
    (hready : Ready fs root (path :: parents) g) (hfile : (fs.lookup path).isSome) (himp : Imports fs path ip)
    (hcirc : ((g.addNode ip).addEdge path ip).isCircular? = some false) :
    Ready fs root (ip :: path :: parents) ((g.addNode ip).addEdge path ip) := by
  have hpm : path ∈ g.nodes := hready.walk.head_mem hready.ends
  have hends := endsAreNodes_import hready.ends (v := ip) hpm
  have hedges : EdgesOk fs root ((g.addNode ip).addEdge path ip) := by
    intro x y e
    rw [edge_addEdge, edge_addNode] at e
    rcases e with e | ⟨rfl, rfl⟩
    · exact hready.edges x y e
    · exact ⟨himp, hready.reach _ (by simp)⟩
  have hle : GraphLe g ((g.addNode ip).addEdge path ip) := by
    refine ⟨fun x hx => ?_, fun x y e => ?_⟩
    · rw [nodes_addEdge, mem_addNode]; exact .inl hx
    · rw [edge_addEdge, edge_addNode]; exact .inl e
  have hac := (isCircular_exact hends).2.1 hcirc
  have hchain : Chain ((g.addNode ip).addEdge path ip) (ip :: path :: parents) :=
    ⟨by rw [edge_addEdge]; exact .inr ⟨rfl, rfl⟩, hready.walk.mono hle⟩
  have hnotin : ip ∉ path :: parents := by
    intro hin
    have hr := Chain.reach hchain.2 ip hin
    exact hac ⟨ip, hr.snoc hchain.1⟩
  exact {
    ends := hends, edges := hedges, walk := hchain
    nodup := List.nodup_cons.2 ⟨hnotin, hready.nodup⟩
    files := by
      intro x hx
      simp only [List.tail_cons] at hx
      rcases List.mem_cons.1 hx with rfl | hx
      · exact hfile
      · exact hready.files x (by simpa using hx)
    reach := by
      intro x hx
      rcases List.mem_cons.1 hx with rfl | hx
      · exact .inr ((hready.reach _ (by simp)).snoc himp)
      · exact hready.reach x hx }

theorem importOne_stays {fs : Files} {root : Str} {rec rec' : List Str → Str → Shared → Res (Schema × Shared)}
    {path : Str} {parents : List Str} {a : Schema × Shared} {n : ImportNode}
    (hready : Ready fs root (path :: parents) a.2.graph) (hfile : (fs.lookup path).isSome)
    (himp : Imports fs path (importPath path n))
    (hrec : ∀ st, Ready fs root (importPath path n :: path :: parents) st.graph →
      rec (path :: parents) (importPath path n) st = .fuel → rec' (path :: parents) (importPath path n) st = .fuel)
    (h : importOne rec (path :: parents) path a n = .fuel) : importOne rec' (path :: parents) path a n = .fuel := by
  simp only [importOne, importSchema] at h ⊢
  cases hl : a.2.cache.lookup (importPath path n) with
  | some m => rw [hl] at h; exact absurd h (by change Res.ok _ ≠ _; simp)
  | none =>
    rw [hl] at h
    have hi : importFile rec (path :: parents) path (importPath path n) a.2 = .fuel := by
      rcases Verif.Props.bind_fuel.1 h with h | ⟨_, _, h⟩
      · exact h
      · simp at h
    have : importFile rec' (path :: parents) path (importPath path n) a.2 = .fuel := by
      unfold importFile at hi ⊢
      simp only at hi ⊢
      cases hc : ((a.2.graph.addNode (importPath path n)).addEdge path (importPath path n)).isCircular? with
      | none => rfl
      | some b =>
        rw [hc] at hi
        cases b with
        | true => simp at hi
        | false =>
          simp only at hi ⊢
          have hr := ready_import hready hfile himp hc
          have := hrec { a.2 with graph := (a.2.graph.addNode (importPath path n)).addEdge path (importPath path n) } hr (by
            revert hi
            generalize rec (path :: parents) (importPath path n) _ = r
            intro hi
            cases r with
            | fuel => rfl
            | ok _ => simp at hi
            | err _ => simp at hi
            | panic => simp at hi)
          rw [this]
    simp only [this]
    rfl

theorem imports_stays {fs : Files} {root : Str} {rec rec' : List Str → Str → Shared → Res (Schema × Shared)}
    {path : Str} {parents : List Str} {a : Schema × Shared} {ns : List ImportNode}
    (hready : Ready fs root (path :: parents) a.2.graph) (hfile : (fs.lookup path).isSome)
    (himp : ∀ n ∈ ns, Imports fs path (importPath path n))
    (hout : ∀ n ∈ ns, ∀ st, Ready fs root (importPath path n :: path :: parents) st.graph →
      Outcome fs root st.graph (rec (path :: parents) (importPath path n) st))
    (hbelow : ∀ c p st, Below (rec c p st) (rec' c p st))
    (hrec : ∀ n ∈ ns, ∀ st, Ready fs root (importPath path n :: path :: parents) st.graph →
      rec (path :: parents) (importPath path n) st = .fuel → rec' (path :: parents) (importPath path n) st = .fuel)
    (h : foldRes (importOne rec (path :: parents) path) a ns = .fuel) :
    foldRes (importOne rec' (path :: parents) path) a ns = .fuel := by
  induction ns generalizing a with
  | nil => simp [foldRes] at h
  | cons n ns ih =>
    have h1 := importOne_outcome hready hfile (himp n (by simp)) (hout n (by simp))
    have h2 := importOne_stays hready hfile (himp n (by simp)) (hrec n (by simp))
    have h3 := importOne_below hbelow (path :: parents) path a n
    simp only [foldRes] at h ⊢
    revert h h1 h2 h3
    generalize importOne rec (path :: parents) path a n = r
    intro h h1 h2 h3
    cases r with
    | ok b =>
      rcases h3 with h3 | h3
      · simp at h3
      rw [← h3]
      exact ih (hready.grow h1.1 h1.2.1 h1.2.2) (fun n hn => himp n (by simp [hn]))
        (fun n hn => hout n (by simp [hn])) (fun n hn => hrec n (by simp [hn])) h
    | err e => exact absurd h (by change Res.err _ ≠ _; simp)
    | panic => exact absurd h (by change Res.panic ≠ _; simp)
    | fuel => rw [h2 rfl]; rfl

variable [GoUnicode]

theorem compileN_stays {fs : Files} {root : Str} (n k : Nat) (parents : List Str) (path : Str) (st : Shared)
    (hready : Ready fs root (path :: parents) st.graph) (hn : fs.length + 1 ≤ n + parents.length) (hk : n ≤ k)
    (h : compileN fs n parents path st = .fuel) : compileN fs k parents path st = .fuel := by
  induction n generalizing parents path st k with
  | zero =>
    exfalso
    have h1 : parents.Nodup := (List.nodup_cons.1 hready.nodup).2
    have h2 : ∀ x ∈ parents, x ∈ fs.map Prod.fst := by
      intro x hx
      have := hready.files x (by simpa using hx)
      rw [Option.isSome_iff_exists] at this
      obtain ⟨src, hs⟩ := this
      exact List.mem_map.2 ⟨(x, src), lookup_mem hs, rfl⟩
    have := nodup_length_le h1 h2
    simp at this
    omega
  | succ n ih =>
    obtain ⟨k, rfl⟩ : ∃ j, k = j + 1 := ⟨k - 1, by omega⟩
    rw [compileN] at h ⊢
    cases h1 : readNodes fs path with
    | err e => rw [h1] at h; exact absurd h (by change Res.err _ ≠ _; simp)
    | panic => rw [h1] at h; exact absurd h (by change Res.panic ≠ _; simp)
    | fuel => rfl
    | ok ns =>
      obtain ⟨src, hsrc, -, -⟩ := readNodes_file h1
      rw [h1] at h
      change Res.bind _ _ = _ at h
      change Res.bind _ _ = _
      dsimp only [Res.bind] at h ⊢
      cases h2 : foldRes applyDef {} (definitions ns) with
      | err e => rw [h2] at h; exact absurd h (by change Res.err _ ≠ _; simp)
      | panic => rw [h2] at h; exact absurd h (by change Res.panic ≠ _; simp)
      | fuel => rfl
      | ok s0 =>
        rw [h2] at h
        change Res.bind _ _ = _ at h
        change Res.bind _ _ = _
        dsimp only [Res.bind] at h ⊢
        have h3 := imports_stays (a := (s0, st)) (ns := imports ns) (rec := compileN fs n) (rec' := compileN fs k) hready
          (by simp [hsrc]) (fun x hx => ⟨ns, h1, x, hx, rfl⟩)
          (fun x hx st' hr => compileN_outcome n (path :: parents) (importPath path x) st' hr (by simp; omega))
          (fun c p st => compileN_le fs (by omega) c p st)
          (fun x hx st' hr => ih k (path :: parents) (importPath path x) st' hr (by simp; omega) (by omega))
        revert h h3
        generalize foldRes (importOne (compileN fs n) (path :: parents) path) (s0, st) (imports ns) = r
        intro h h3
        cases r with
        | fuel => rw [h3 rfl]; rfl
        | err e => exact absurd h (by change Res.err _ ≠ _; simp)
        | panic => exact absurd h (by change Res.panic ≠ _; simp)
        | ok r =>
          exfalso
          replace h := (Verif.Props.bind_fuel.1 h).resolve_left (by simp)
          obtain ⟨_, he, h⟩ := h
          cases he
          rcases Verif.Props.bind_fuel.1 h with h | ⟨s1, -, h⟩
          · have := @clean_declare _ path ns r.1
            rw [h] at this; exact this
          · rcases Verif.Props.bind_fuel.1 h with h | ⟨_, -, h⟩
            · have := @clean_validate _ s1
              rw [h] at this; exact this
            · simp at h

/-- If the bound in `compile` is too small, every bound is. -/
theorem compile_stays (fs : Files) (path : Str) (h : compile fs path = .fuel) (n : Nat) :
    compileN fs n [] path { graph := Graph.new [path], cache := [] } = .fuel := by
  have h' : compileN fs (fs.length + 2) [] path { graph := Graph.new [path], cache := [] } = .fuel := by
    unfold compile at h
    rcases Verif.Props.bind_fuel.1 h with h | ⟨_, _, h⟩
    · exact h
    · simp at h
  rcases Nat.le_total (fs.length + 2) n with hn | hn
  · exact compileN_stays _ n [] path _ (ready_root fs path) (by omega) hn h'
  · rcases compileN_le fs hn [] path { graph := Graph.new [path], cache := [] } with h1 | h1
    · exact h1
    · rw [h1, h']

end Verif.Compile
