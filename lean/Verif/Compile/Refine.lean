import Verif.Spec.Imports
import Verif.Ridl.GraphLemmas
import Verif.Props.Validation
/-! The compiler with its cache, import graph and bound gives exactly the meaning of the files. -/

namespace Verif.Compile
open Verif.Schema Verif.Spec
open Verif.Ridl hiding Str

variable [GoUnicode]

omit [GoUnicode] in
theorem foldRes_append {α σ : Type} {f : σ → α → Res σ} {s : σ} {xs ys : List α} :
    foldRes f s (xs ++ ys) = (foldRes f s xs).bind fun s' => foldRes f s' ys := by
  induction xs generalizing s with
  | nil => rfl
  | cons x xs ih =>
    simp only [List.cons_append, foldRes]
    cases h : f s x <;> simp only [Res.bind, ih]

/-! ### Soundness -/

/-- The cache holds schemas of the files. -/
def CacheOk (fs : Files) (st : Shared) : Prop := ∀ p m, st.cache.lookup p = some m → Compiled fs p m

/-- What `Parse` may be assumed to do. -/
def RecOk (fs : Files) (rec : List Str → Str → Shared → Res (Schema × Shared)) : Prop :=
  ∀ chain path st s st', CacheOk fs st → rec chain path st = .ok (s, st') →
    Compiled fs path s ∧ CacheOk fs st'

theorem importOne_sound {fs : Files} {rec : List Str → Str → Shared → Res (Schema × Shared)}
    (hrec : RecOk fs rec) {chain : List Str} {path : Str} {a b : Schema × Shared} {n : ImportNode}
    (hc : CacheOk fs a.2) (h : importOne rec chain path a n = .ok b) :
    ∃ m, Compiled fs (importPath path n) m ∧ b.1 = takeImport a.1 m (n.members.map (·.val)) ∧ CacheOk fs b.2 := by
  simp only [importOne, Res.bind_ok] at h
  obtain ⟨r, h1, h2⟩ := h
  simp only [Res.ok.injEq] at h2
  subst h2
  simp only [importSchema] at h1
  cases hl : a.2.cache.lookup (importPath path n) with
  | some m =>
    rw [hl] at h1
    simp only [Res.ok.injEq] at h1
    subst h1
    exact ⟨m, hc _ _ hl, rfl, hc⟩
  | none =>
    rw [hl] at h1
    simp only [importFile] at h1
    split at h1
    · simp at h1
    · simp at h1
    · split at h1
      · next m st' hr =>
        simp only [Res.ok.injEq] at h1
        subst h1
        obtain ⟨g1, g2⟩ := hrec _ _ _ _ _ (by exact hc) hr
        refine ⟨m, g1, rfl, ?_⟩
        intro p m' hm
        simp only [List.lookup_cons] at hm
        split at hm
        · next he => simp only [beq_iff_eq] at he; simp only [Option.some.injEq] at hm; subst hm; rw [he]; exact g1
        · exact g2 p m' hm
      all_goals simp at h1

theorem imports_sound {fs : Files} {rec : List Str → Str → Shared → Res (Schema × Shared)}
    (hrec : RecOk fs rec) {chain : List Str} {path : Str} {ns : List ImportNode} {a b : Schema × Shared}
    (hc : CacheOk fs a.2) (h : foldRes (importOne rec chain path) a ns = .ok b) :
    ∃ ps : List (ImportNode × Schema), ps.map Prod.fst = ns ∧
      (∀ p ∈ ps, Compiled fs (importPath path p.1) p.2) ∧ b.1 = mergeAll a.1 ps ∧ CacheOk fs b.2 := by
  induction ns generalizing a with
  | nil =>
    simp only [foldRes, Res.ok.injEq] at h
    subst h
    exact ⟨[], rfl, by simp, rfl, hc⟩
  | cons n ns ih =>
    simp only [foldRes] at h
    cases h1 : importOne rec chain path a n with
    | ok c =>
      rw [h1] at h
      obtain ⟨m, g1, g2, g3⟩ := importOne_sound hrec hc h1
      obtain ⟨ps, k1, k2, k3, k4⟩ := ih g3 h
      refine ⟨(n, m) :: ps, by simp [k1], ?_, ?_, k4⟩
      · intro p hp
        rcases List.mem_cons.1 hp with rfl | hp
        · exact g1
        · exact k2 p hp
      · rw [k3, g2]; rfl
    | err e => rw [h1] at h; simp [Res.bind] at h
    | panic => rw [h1] at h; simp [Res.bind] at h
    | fuel => rw [h1] at h; simp [Res.bind] at h

theorem compileN_sound (fs : Files) (n : Nat) : RecOk fs (compileN fs n) := by
  induction n with
  | zero => intro chain path st s st' _ h; simp [compileN] at h
  | succ n ih =>
    intro chain path st s st' hc h
    simp only [compileN, Res.bind_ok] at h
    obtain ⟨ns, h1, s0, h2, r, h3, s1, h4, s2, h5, h6⟩ := h
    simp only [Res.ok.injEq, Prod.mk.injEq] at h6
    obtain ⟨rfl, rfl⟩ := h6
    obtain ⟨ps, k1, k2, k3, k4⟩ := imports_sound ih hc h3
    exact ⟨.intro h1 h2 k1 k2 (by rw [← k3]; exact h4) h5, k4⟩

/-! ### The meaning is unique, and there are no import cycles below a file that has one -/

theorem compiled_det {fs : Files} {path : Str} {s s' : Schema} (h : Compiled fs path s)
    (h' : Compiled fs path s') : s = s' := by
  induction h generalizing s' with
  | @intro path ns s0 s1 s ps h1 h2 h3 _ h5 h6 ih =>
    cases h' with
    | @intro _ ns' s0' s1' _ ps' g1 g2 g3 g4 g5 g6 =>
      have e1 : ns = ns' := by rw [h1] at g1; simpa using g1
      subst e1
      have e2 : s0 = s0' := by rw [h2] at g2; simpa using g2
      subst e2
      have e3 : ps = ps' := by
        have hlen : ps.map Prod.fst = ps'.map Prod.fst := h3.trans g3.symm
        clear h3 g3 h5 g5
        induction ps generalizing ps' with
        | nil => cases ps' with
          | nil => rfl
          | cons _ _ => simp at hlen
        | cons p ps ihl =>
          cases ps' with
          | nil => simp at hlen
          | cons q qs =>
            simp only [List.map_cons, List.cons.injEq] at hlen
            have hp := g4 q (by simp)
            rw [← hlen.1] at hp
            have := ih p (by simp) hp
            have hpq : p = q := Prod.ext hlen.1 this
            rw [hpq, ihl (fun x hx => ‹∀ p_1 ∈ p :: ps, Compiled fs (importPath path p_1.1) p_1.2› x (by simp [hx]))
              (fun x hx => ih x (by simp [hx])) (fun x hx => g4 x (by simp [hx])) hlen.2]
      subst e3
      have e4 : s1 = s1' := by rw [h5] at g5; simpa using g5
      subst e4
      rw [h6] at g6; simpa using g6

theorem compiled_import {fs : Files} {a b : Str} {s : Schema} (h : Compiled fs a s) (hi : Imports fs a b) :
    ∃ m, Compiled fs b m := by
  cases h with
  | @intro _ ns s0 s1 _ ps h1 h2 h3 h4 h5 h6 =>
    obtain ⟨ns', g1, n, hn, rfl⟩ := hi
    rw [h1] at g1
    simp only [Res.ok.injEq] at g1
    subst g1
    rw [← h3, List.mem_map] at hn
    obtain ⟨p, hp, rfl⟩ := hn
    exact ⟨p.2, h4 p hp⟩

theorem compiled_acc {fs : Files} {path : Str} {s : Schema} (h : Compiled fs path s) :
    Acc (fun b a => Imports fs a b) path := by
  induction h with
  | @intro path ns s0 s1 s ps h1 h2 h3 _ h5 h6 ih =>
    constructor
    rintro b ⟨ns', g1, n, hn, rfl⟩
    rw [h1] at g1
    simp only [Res.ok.injEq] at g1
    subst g1
    rw [← h3, List.mem_map] at hn
    obtain ⟨p, hp, rfl⟩ := hn
    exact ih p hp

theorem compiled_reach {fs : Files} {a b : Str} {s : Schema} (h : Compiled fs a s) (hr : Reach (Imports fs) a b) :
    ∃ m, Compiled fs b m := by
  rcases hr with rfl | hp
  · exact ⟨s, h⟩
  · induction hp generalizing s with
    | edge e => exact compiled_import h e
    | step e _ ih => obtain ⟨m, hm⟩ := compiled_import h e; exact ih hm

/-! ### The bound on the depth of imports -/

/-- Graph `g'` has all edges of `g`. -/
def GraphLe (g g' : Graph Str) : Prop := (∀ x ∈ g.nodes, x ∈ g'.nodes) ∧ ∀ x y, Edge g x y → Edge g' x y

omit [GoUnicode] in
theorem GraphLe.refl (g : Graph Str) : GraphLe g g := ⟨fun _ h => h, fun _ _ h => h⟩
omit [GoUnicode] in
theorem GraphLe.trans {a b c : Graph Str} (h : GraphLe a b) (h' : GraphLe b c) : GraphLe a c :=
  ⟨fun x hx => h'.1 x (h.1 x hx), fun x y e => h'.2 x y (h.2 x y e)⟩

/-- Each file of the chain is imported by the next one. -/
def Chain (g : Graph Str) : List Str → Prop
  | [] => True
  | [x] => x ∈ g.nodes
  | x :: y :: r => Edge g y x ∧ Chain g (y :: r)

omit [GoUnicode] in
theorem Chain.mono {g g' : Graph Str} (h : GraphLe g g') {c : List Str} (hc : Chain g c) : Chain g' c := by
  induction c with
  | nil => trivial
  | cons x r ih =>
    cases r with
    | nil => exact h.1 x hc
    | cons y r => exact ⟨h.2 _ _ hc.1, ih hc.2⟩

omit [GoUnicode] in
theorem Chain.reach {g : Graph Str} {x : Str} {r : List Str} (hc : Chain g (x :: r)) :
    ∀ y ∈ x :: r, Reach (Edge g) y x := by
  induction r generalizing x with
  | nil => intro y hy; simp at hy; exact .inl hy
  | cons z r ih =>
    intro y hy
    rcases List.mem_cons.1 hy with rfl | hy
    · exact .inl rfl
    · exact .inr ((ih hc.2 y hy).snoc hc.1)

omit [GoUnicode] in
theorem Chain.head_mem {g : Graph Str} (hg : EndsAreNodes g) {x : Str} {r : List Str} (hc : Chain g (x :: r)) :
    x ∈ g.nodes := by
  cases r with
  | nil => exact hc
  | cons y r => exact (hg _ _ hc.1).2

/-- Every edge of the graph is an import in a file reachable from `root`. -/
def EdgesOk (fs : Files) (root : Str) (g : Graph Str) : Prop :=
  ∀ x y, Edge g x y → Imports fs x y ∧ Reach (Imports fs) root x

/-- The situation when a file is about to be parsed. -/
structure Ready (fs : Files) (root : Str) (chain : List Str) (g : Graph Str) : Prop where
  ends : EndsAreNodes g
  edges : EdgesOk fs root g
  walk : Chain g chain
  nodup : chain.Nodup
  files : ∀ x ∈ chain.tail, (fs.lookup x).isSome
  reach : ∀ x ∈ chain, Reach (Imports fs) root x

/-- Some file that is read never gets through the syntax parser. -/
def Hangs (fs : Files) (root : Str) : Prop :=
  ∃ p src, Reach (Imports fs) root p ∧ fs.lookup p = some src ∧ parseDoc src = .outOfFuel

/-- An import cycle is reported. -/
def IsCircularErr : SErr → Prop
  | .circularImport => True
  | .inImport _ e => e = .circularImport
  | _ => False

/-- The outcome of parsing a file: it does not run out of bounds, unless the syntax parser does; a
reported cycle is one; the graph only grows. -/
def Outcome (fs : Files) (root : Str) (g : Graph Str) (r : Res (Schema × Shared)) : Prop :=
  match r with
  | .ok (_, st') => GraphLe g st'.graph ∧ EndsAreNodes st'.graph ∧ EdgesOk fs root st'.graph
  | .err e => IsCircularErr e → ∃ f, Reach (Imports fs) root f ∧ Path (Imports fs) f f
  | .panic => True
  | .fuel => Hangs fs root

omit [GoUnicode] in
theorem Path.edge_src {E : Str → Str → Prop} {P : Str → Prop} (h : ∀ x y, E x y → P x) {x y : Str}
    (hp : Path E x y) : P x := by
  cases hp with
  | edge e => exact h _ _ e
  | step e _ => exact h _ _ e

omit [GoUnicode] in
theorem isCircularErr_wrap {st : List Str} {e : SErr} (h : IsCircularErr (importError st e)) : IsCircularErr e := by
  cases e <;> simp_all [importError, IsCircularErr]

omit [GoUnicode] in
theorem importFile_outcome {fs : Files} {root : Str} {rec : List Str → Str → Shared → Res (Schema × Shared)}
    {path ip : Str} {parents : List Str} {st : Shared}
    (hready : Ready fs root (path :: parents) st.graph)
    (hfile : (fs.lookup path).isSome)
    (himp : Imports fs path ip)
    (hrec : ∀ g, Ready fs root (ip :: path :: parents) g →
      Outcome fs root g (rec (path :: parents) ip { st with graph := g })) :
    Outcome fs root st.graph (importFile rec (path :: parents) path ip st) := by
  have hpm : path ∈ st.graph.nodes := hready.walk.head_mem hready.ends
  have hends := endsAreNodes_import hready.ends (v := ip) hpm
  have hedges : EdgesOk fs root ((st.graph.addNode ip).addEdge path ip) := by
    intro x y e
    rw [edge_addEdge, edge_addNode] at e
    rcases e with e | ⟨rfl, rfl⟩
    · exact hready.edges x y e
    · exact ⟨himp, hready.reach _ (by simp)⟩
  have hle : GraphLe st.graph ((st.graph.addNode ip).addEdge path ip) := by
    refine ⟨fun x hx => ?_, fun x y e => ?_⟩
    · rw [nodes_addEdge, mem_addNode]; exact .inl hx
    · rw [edge_addEdge, edge_addNode]; exact .inl e
  unfold importFile
  simp only
  cases hcirc : ((st.graph.addNode ip).addEdge path ip).isCircular? with
  | none => exact absurd hcirc (isCircular_total hends)
  | some b =>
    cases b with
    | true =>
      simp only [Outcome]
      intro _
      obtain ⟨x, hx⟩ := (isCircular_exact hends).1.1 hcirc
      exact ⟨x, Path.edge_src (fun a b e => (hedges a b e).2) hx, hx.mono fun a b e => (hedges a b e).1⟩
    | false =>
      have hac := (isCircular_exact hends).2.1 hcirc
      have hchain : Chain ((st.graph.addNode ip).addEdge path ip) (ip :: path :: parents) :=
        ⟨by rw [edge_addEdge]; exact .inr ⟨rfl, rfl⟩, hready.walk.mono hle⟩
      have hnotin : ip ∉ path :: parents := by
        intro hin
        have hr := Chain.reach hchain.2 ip hin
        exact hac ⟨ip, hr.snoc hchain.1⟩
      have := hrec _ {
        ends := hends, edges := hedges, walk := hchain
        nodup := List.nodup_cons.2 ⟨hnotin, hready.nodup⟩
        files := by
          intro x hx
          simp only [List.tail_cons] at hx
          rcases List.mem_cons.1 hx with rfl | hx
          · exact hfile
          · exact hready.files x (by simpa using hx)
        reach := by
          intro x hx
          rcases List.mem_cons.1 hx with rfl | hx
          · exact .inr ((hready.reach _ (by simp)).snoc himp)
          · exact hready.reach x hx }
      revert this
      simp only
      generalize rec (path :: parents) ip { st with graph := (st.graph.addNode ip).addEdge path ip } = r
      intro this
      cases r with
      | ok a =>
        obtain ⟨m, st'⟩ := a
        exact ⟨hle.trans this.1, this.2.1, this.2.2⟩
      | err e => exact fun h => this (isCircularErr_wrap h)
      | panic => trivial
      | fuel => exact this

omit [GoUnicode] in
theorem importOne_outcome {fs : Files} {root : Str} {rec : List Str → Str → Shared → Res (Schema × Shared)}
    {path : Str} {parents : List Str} {a : Schema × Shared} {n : ImportNode}
    (hready : Ready fs root (path :: parents) a.2.graph)
    (hfile : (fs.lookup path).isSome)
    (himp : Imports fs path (importPath path n))
    (hrec : ∀ st, Ready fs root (importPath path n :: path :: parents) st.graph →
      Outcome fs root st.graph (rec (path :: parents) (importPath path n) st)) :
    Outcome fs root a.2.graph (importOne rec (path :: parents) path a n) := by
  simp only [importOne, importSchema]
  cases hl : a.2.cache.lookup (importPath path n) with
  | some m => exact ⟨.refl _, hready.ends, hready.edges⟩
  | none =>
    have := importFile_outcome hready hfile himp (fun g hg => hrec { a.2 with graph := g } hg)
    revert this
    simp only
    generalize importFile rec (path :: parents) path (importPath path n) a.2 = r
    intro h
    cases r with
    | ok b => exact h
    | err e => exact h
    | panic => trivial
    | fuel => exact h

omit [GoUnicode] in
theorem Ready.grow {fs : Files} {root : Str} {chain : List Str} {g g' : Graph Str} (h : Ready fs root chain g)
    (hle : GraphLe g g') (he : EndsAreNodes g') (hed : EdgesOk fs root g') : Ready fs root chain g' :=
  { ends := he, edges := hed, walk := h.walk.mono hle, nodup := h.nodup, files := h.files, reach := h.reach }

omit [GoUnicode] in
theorem imports_outcome {fs : Files} {root : Str} {rec : List Str → Str → Shared → Res (Schema × Shared)}
    {path : Str} {parents : List Str} {a : Schema × Shared} {ns : List ImportNode}
    (hready : Ready fs root (path :: parents) a.2.graph)
    (hfile : (fs.lookup path).isSome)
    (himp : ∀ n ∈ ns, Imports fs path (importPath path n))
    (hrec : ∀ n ∈ ns, ∀ st, Ready fs root (importPath path n :: path :: parents) st.graph →
      Outcome fs root st.graph (rec (path :: parents) (importPath path n) st)) :
    Outcome fs root a.2.graph (foldRes (importOne rec (path :: parents) path) a ns) := by
  induction ns generalizing a with
  | nil => exact ⟨.refl _, hready.ends, hready.edges⟩
  | cons n ns ih =>
    simp only [foldRes]
    have h1 := importOne_outcome hready hfile (himp n (by simp)) (hrec n (by simp))
    revert h1
    generalize importOne rec (path :: parents) path a n = r
    intro h1
    cases r with
    | ok b =>
      simp only [Res.bind]
      have h2 := ih (hready.grow h1.1 h1.2.1 h1.2.2) (fun n hn => himp n (by simp [hn]))
        (fun n hn => hrec n (by simp [hn]))
      revert h2
      generalize foldRes (importOne rec (path :: parents) path) b ns = r'
      intro h2
      cases r' with
      | ok c => exact ⟨h1.1.trans h2.1, h2.2.1, h2.2.2⟩
      | err e => exact h2
      | panic => trivial
      | fuel => exact h2
    | err e => exact h1
    | panic => trivial
    | fuel => exact h1

omit [GoUnicode] in
theorem nodup_length_le {l k : List Str} (hn : l.Nodup) (h : ∀ x ∈ l, x ∈ k) : l.length ≤ k.length := by
  induction l generalizing k with
  | nil => simp
  | cons a l ih =>
    rw [List.nodup_cons] at hn
    have ha := h a (by simp)
    have := ih (k := k.erase a) hn.2 (fun x hx => by
      rw [List.mem_erase_of_ne]
      · exact h x (by simp [hx])
      · rintro rfl; exact hn.1 hx)
    rw [List.length_erase_of_mem ha] at this
    have := List.length_pos_of_mem ha
    simp only [List.length_cons]
    omega

end Verif.Compile
