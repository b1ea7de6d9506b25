import Verif.Compile.Members
import Verif.Compile.Bound
import Verif.Compile.Stack
import Verif.Compile.PathLemmas
import Verif.Props.Parser
/-!
# Imports (C28 to C31, C35, C62, C63)

`compile fs path` models `NewParser(fsys, root, path).Parse()` on the files `fs`; `.fuel` means that the
call does not return.
-/

namespace Verif.Props
open Verif.Schema Verif.Compile Verif.Spec
open Verif.Ridl (Token Node ImportNode Graph ParseResult parseDoc parseN)

/-- The error of a result. -/
def errOf {α : Type} : Res α → Option SErr
  | .err e => some e
  | _ => none

/-- A part of the schema of an accepted result. -/
def partOf {β : Type} (f : Schema → β) : Res Schema → Option β
  | .ok s => some (f s)
  | _ => none

/-- How many types, errors and services an accepted schema has. -/
def sizes : Res Schema → Option (Nat × Nat × Nat) :=
  partOf fun s => (s.types.length, s.errors.length, s.services.length)

/-! ### C28 -/

/-- C28. Compilation fails to return only if the syntax parser never returns on one of the files reached
by imports. -/
theorem C28_only_hang [GoUnicode] (fs : Files) (path : Str) (h : compile fs path = .fuel) :
    ∃ p src, Reach (Imports fs) path p ∧ fs.lookup p = some src ∧ ∀ fuel, parseN fuel src = .outOfFuel := by
  obtain ⟨p, src, h1, h2, h3⟩ := (compile_outcome fs path).1 h
  exact ⟨p, src, h1, h2, parseDoc_hangs h3⟩

/-- C28. If every `@` in the files is followed by a name, compilation returns, whatever the imports.  (The
excluded documents are those of `C08`.) -/
theorem C28_ends [GoUnicode] (fs : Files) (path : Str)
    (hfs : ∀ p src, fs.lookup p = some src → AtsAreNamed src) : compile fs path ≠ .fuel := by
  intro h
  obtain ⟨p, src, -, h2, h3⟩ := (compile_outcome fs path).1 h
  exact parseDoc_ends (hfs p src h2) h3

/-- C28. The bound on the depth of imports built into `compile` is no restriction: any larger bound gives
the same result (also if there is none because the syntax parser hangs). -/
theorem C28_bound_is_enough [GoUnicode] (fs : Files) (path : Str) (n : Nat) (hn : fs.length + 2 ≤ n) :
    (compileN fs n [] path { graph := Graph.new [path], cache := [] } >>= fun r => .ok r.1) = compile fs path := by
  by_cases h : compile fs path = .fuel
  · rw [compile_stays fs path h n, h]; rfl
  unfold compile at *
  rcases compileN_le fs hn [] path { graph := Graph.new [path], cache := [] } with h1 | h1
  · rw [h1] at h; exact absurd rfl h
  · rw [h1]

/-- C28. A file from which a file importing itself (directly or not) can be reached is not accepted. -/
theorem C28_cycle_rejected [GoUnicode] (fs : Files) (path f : Str) (hr : Reach (Imports fs) path f)
    (hf : Path (Imports fs) f f) (s : Schema) : compile fs path ≠ .ok s := by
  intro h
  exact compiled_noCycle (compile_sound h) f hr hf

/-- C28. If the files are fine otherwise, the error is a circular import. -/
theorem C28_cycle_reported [GoUnicode] (fs : Files) (path f : Str)
    (hs : ∀ f, Reach (Imports fs) path f → Sane fs f) (hr : Reach (Imports fs) path f)
    (hf : Path (Imports fs) f f) : ∃ e, compile fs path = .err e ∧ IsCircularErr e :=
  cycle_reported hs hr hf

/-- C28. A circular import is reported only if there is one. -/
theorem C28_reported_cycle_exists [GoUnicode] (fs : Files) (path : Str) (e : SErr)
    (h : compile fs path = .err e) (hc : IsCircularErr e) :
    ∃ f, Reach (Imports fs) path f ∧ Path (Imports fs) f f :=
  (compile_outcome fs path).2 e h hc

/-- Two files importing each other. -/
def exCycle : Files :=
  [(S "a.ridl", S "webrpc = v1\nimport b.ridl\n"), (S "b.ridl", S "webrpc = v1\nimport\n  - ./a.ridl\n")]

theorem exCycle_err : let _ := asciiOnly
    errOf (compile exCycle (S "a.ridl")) = some (.inImport [S "b.ridl", S "a.ridl"] .circularImport) := by
  decide +kernel

/-- The paths a file imports. -/
def importsOf (fs : Files) (a : Str) : List Str :=
  match readNodes fs a with
  | .ok ns => (imports ns).map (importPath a)
  | _ => []

theorem imports_iff {fs : Files} {a b : Str} : Imports fs a b ↔ b ∈ importsOf fs a := by
  unfold Imports importsOf
  constructor
  · rintro ⟨ns, h1, n, hn, rfl⟩
    rw [h1]
    exact List.mem_map_of_mem hn
  · intro h
    split at h
    · next ns hns =>
      rw [List.mem_map] at h
      obtain ⟨n, hn, rfl⟩ := h
      exact ⟨ns, hns, n, hn, rfl⟩
    · simp at h

/-- The hypotheses of `C28_cycle_reported` can be met. -/
example : let _ := asciiOnly
    (∀ f, Reach (Imports exCycle) (S "a.ridl") f → Sane exCycle f) ∧
    Path (Imports exCycle) (S "a.ridl") (S "a.ridl") := by
  intro _
  have hab : Imports exCycle (S "a.ridl") (S "b.ridl") := by rw [imports_iff]; decide +kernel
  have hba : Imports exCycle (S "b.ridl") (S "a.ridl") := by rw [imports_iff]; decide +kernel
  have ha : ∀ f, Imports exCycle (S "a.ridl") f → f = S "b.ridl" := by
    intro f hf; rw [imports_iff] at hf
    have : importsOf exCycle (S "a.ridl") = [S "b.ridl"] := by decide +kernel
    rw [this] at hf; simpa using hf
  have hb : ∀ f, Imports exCycle (S "b.ridl") f → f = S "a.ridl" := by
    intro f hf; rw [imports_iff] at hf
    have : importsOf exCycle (S "b.ridl") = [S "a.ridl"] := by decide +kernel
    rw [this] at hf; simpa using hf
  have hp : ∀ x y, Path (Imports exCycle) x y → x = S "a.ridl" ∨ x = S "b.ridl" → y = S "a.ridl" ∨ y = S "b.ridl" := by
    intro x y h
    induction h with
    | edge h => rintro (rfl | rfl); exact .inr (ha _ h); exact .inl (hb _ h)
    | step h _ ih => rintro (rfl | rfl); exact ih (.inr (ha _ h)); exact ih (.inl (hb _ h))
  have haa : Path (Imports exCycle) (S "a.ridl") (S "a.ridl") := .step hab (.edge hba)
  have hbb : Path (Imports exCycle) (S "b.ridl") (S "b.ridl") := .step hba (.edge hab)
  have ok : ∀ f, f = S "a.ridl" ∨ f = S "b.ridl" →
      ∃ ns s0, readNodes exCycle f = .ok ns ∧ foldRes applyDef {} (definitions ns) = .ok s0 := by
    have key : ∀ f, (match readNodes exCycle f with
        | .ok ns => match foldRes applyDef {} (definitions ns) with | .ok _ => true | _ => false
        | _ => false) = true →
        ∃ ns s0, readNodes exCycle f = .ok ns ∧ foldRes applyDef {} (definitions ns) = .ok s0 := by
      intro f h
      split at h
      · next ns hns =>
        split at h
        · next s0 hs => exact ⟨ns, s0, hns, hs⟩
        · simp at h
      · simp at h
    rintro f (rfl | rfl)
    · exact key _ (by decide +kernel)
    · exact key _ (by decide +kernel)
  refine ⟨?_, haa⟩
  intro f hf
  have hf' : f = S "a.ridl" ∨ f = S "b.ridl" := by
    rcases hf with rfl | hf
    · exact .inl rfl
    · exact hp _ _ hf (.inl rfl)
  refine ⟨ok f hf', fun hn => ?_⟩
  exfalso
  rcases hf' with rfl | rfl
  · exact hn _ (.inl rfl) haa
  · exact hn _ (.inl rfl) hbb

/-! ### C29 -/

/-- C29. The search of the import graph always ends, and reports a cycle exactly when some node can reach
itself. -/
theorem C29_exact {α : Type} [DecidableEq α] (g : Graph α) (hg : EndsAreNodes g) :
    (g.isCircular? = some true ↔ ∃ x, Path (Edge g) x x) ∧
    (g.isCircular? = some false ↔ ¬ ∃ x, Path (Edge g) x x) :=
  Verif.Ridl.isCircular_exact hg

/-- C29. Graphs built by adding nodes and edges between nodes satisfy the hypothesis. -/
theorem C29_built {α : Type} [DecidableEq α] (nodes : List α) (edges : List (α × α))
    (h : ∀ e ∈ edges, e.1 ∈ nodes ∧ e.2 ∈ nodes) :
    EndsAreNodes (edges.foldl (fun g e => g.addEdge e.1 e.2) (Graph.new nodes)) := by
  have key : ∀ (es : List (α × α)) (g : Graph α), g.nodes = nodes → EndsAreNodes g →
      (∀ e ∈ es, e.1 ∈ nodes ∧ e.2 ∈ nodes) → EndsAreNodes (es.foldl (fun g e => g.addEdge e.1 e.2) g) := by
    intro es
    induction es with
    | nil => intro g _ hg _; exact hg
    | cons e es ih =>
      intro g hn hg he
      apply ih
      · dsimp only; unfold Graph.addEdge; split <;> exact hn
      · intro x y hxy
        dsimp only at hxy ⊢
        unfold Graph.addEdge at hxy ⊢
        have he := he e (by simp)
        split at hxy
        · rw [if_pos (by assumption)]; exact hg x y hxy
        · rw [if_neg (by assumption)]
          simp only [Edge] at hxy
          split at hxy
          · next hx =>
            rcases List.mem_append.1 hxy with h1 | h1
            · exact hg x y (by rw [hx]; exact h1)
            · simp only [List.mem_singleton] at h1
              rw [hx, h1, hn]; exact he
          · exact hg x y hxy
      · exact fun a ha => he a (by simp [ha])
  exact key edges _ rfl (Verif.Ridl.endsAreNodes_new _) h

/-- A graph of three nodes with a cycle not through the first node, and one without a cycle. -/
example : ((Graph.new [1, 2, 3]).addEdge 1 2 |>.addEdge 2 3 |>.addEdge 3 2).isCircular? = some true ∧
    ((Graph.new [1, 2, 3]).addEdge 1 2 |>.addEdge 1 3 |>.addEdge 2 3).isCircular? = some false := by decide

/-! ### C30 -/

/-- Import of everything: there is no member list. -/
def WholeImport (fs : Files) (a b : Str) : Prop :=
  ∃ ns, readNodes fs a = .ok ns ∧ ∃ n ∈ imports ns, b = importPath a n ∧ n.members = []

/-- C30. No type and no error is listed twice. -/
theorem C30_listed_once [GoUnicode] (fs : Files) (path : Str) (s : Schema) (h : compile fs path = .ok s) :
    (s.types.map (·.ptr)).Nodup ∧ (s.errors.map (·.ptr)).Nodup :=
  ⟨(compiled_owned (compile_sound h)).types, (compiled_owned (compile_sound h)).errors⟩

theorem selected_nil {n : Str} : isImportAllowed n [] = true := rfl

theorem whole_step [GoUnicode] {fs : Files} {a b : Str} {s m : Schema} (hs : Compiled fs a s) (hm : Compiled fs b m)
    (hi : WholeImport fs a b) :
    (∀ t ∈ m.types, ∃ u ∈ s.types, u.bare = t.bare) ∧ (∀ e ∈ m.errors, e ∈ s.errors) := by
  have hs' := hs
  cases hs with
  | @intro _ ns s0 s1 _ ps h1 h2 h3 h4 h5 h6 =>
    obtain ⟨ns', k1, n, hn, rfl, hmem⟩ := hi
    rw [h1] at k1
    simp only [Res.ok.injEq] at k1
    subst k1
    rw [← h3, List.mem_map] at hn
    obtain ⟨p, hp, rfl⟩ := hn
    have hpm : p.2 = m := compiled_det (h4 p hp) hm
    obtain ⟨⟨I, D, e1, e2, e3⟩, -, es, g1, g2⟩ := compiled_imported h1 h2 h3 h4 h5 h6
    constructor
    · intro t ht
      obtain ⟨u, hu, he⟩ := merge_types_has (s := s0) hp (by rw [hpm]; exact ht) (by rw [hmem]; rfl)
      have : u.bare ∈ I.map TypeDecl.bare := by rw [e2]; exact List.mem_map_of_mem hu
      rw [List.mem_map] at this
      obtain ⟨w, hw, hb⟩ := this
      have hw' : w ∈ s.types := by rw [e1]; simp [hw]
      refine ⟨w, hw', types_agree hs' hm hw' ht ?_⟩
      have : w.ptr = u.ptr := congrArg Prod.fst (bare_ptr hb)
      rw [this, he]
    · intro e he
      obtain ⟨u, hu, hp'⟩ := merge_errors_has (s := s0) hp (by rw [hpm]; exact he) (by rw [hmem]; rfl)
      have hx : ({ u with name := trimSpace u.name } : ErrorDecl) ∈ s.errors := by
        rw [g2]; exact List.mem_map_of_mem (List.mem_append_left _ hu)
      have := errors_agree hs' hm hx he (by exact hp')
      rw [← this]; exact hx

theorem whole_reach [GoUnicode] {fs : Files} {a b : Str} {s m : Schema} (hs : Compiled fs a s) (hm : Compiled fs b m)
    (hr : Reach (WholeImport fs) a b) :
    (∀ t ∈ m.types, ∃ u ∈ s.types, u.bare = t.bare) ∧ (∀ e ∈ m.errors, e ∈ s.errors) := by
  rcases hr with rfl | hp
  · cases compiled_det hs hm
    exact ⟨fun t ht => ⟨t, ht, rfl⟩, fun e he => he⟩
  · induction hp generalizing s with
    | edge h => exact whole_step hs hm h
    | @step x y z h _ ih =>
      have hi : Imports fs x y := by
        obtain ⟨ns, k1, n, hn, rfl, -⟩ := h
        exact ⟨ns, k1, n, hn, rfl⟩
      obtain ⟨o, ho⟩ := compiled_import hs hi
      have h1 := whole_step hs ho h
      have h2 := ih ho hm
      refine ⟨fun t ht => ?_, fun e he => h1.2 e (h2.2 e he)⟩
      obtain ⟨u, hu, e1⟩ := h2.1 t ht
      obtain ⟨w, hw, e2⟩ := h1.1 u hu
      exact ⟨w, hw, e2.trans e1⟩

/-- C30. If a file is reached by imports without member lists, on one way or on many, each of its types and
errors is in the result, once, as it is in the schema of that file. -/
theorem C30_exactly_once_partial [GoUnicode] (fs : Files) (path f : Str) (s m : Schema) (h : compile fs path = .ok s)
    (hm : compile fs f = .ok m) (hr : Reach (WholeImport fs) path f) :
    (∀ t ∈ m.types, ∃ u, s.types.filter (fun u => u.ptr = t.ptr) = [u] ∧ u.bare = t.bare) ∧
    (∀ e ∈ m.errors, s.errors.filter (fun u => u.ptr = e.ptr) = [e]) := by
  have hs := compile_sound h
  have hm := compile_sound hm
  obtain ⟨h1, h2⟩ := whole_reach hs hm hr
  have one : ∀ {α : Type} (ptr : α → Ptr) (l : List α) (x : α), (l.map ptr).Nodup → x ∈ l →
      l.filter (fun u => ptr u = ptr x) = [x] := by
    intro α ptr l x hn hx
    induction l with
    | nil => simp at hx
    | cons a l ih =>
      rw [List.map_cons, List.nodup_cons] at hn
      rcases List.mem_cons.1 hx with rfl | hx'
      · rw [List.filter_cons_of_pos (by simp), List.filter_eq_nil_iff.2]
        intro y hy hyx
        simp only [decide_eq_true_eq] at hyx
        exact hn.1 (by rw [← hyx]; exact List.mem_map_of_mem hy)
      · rw [List.filter_cons_of_neg, ih hn.2 hx']
        simp only [decide_eq_true_eq]
        intro he
        exact hn.1 (by rw [he]; exact List.mem_map_of_mem hx')
  refine ⟨fun t ht => ?_, fun e he => one (·.ptr) _ e (compiled_owned hs).errors (h2 e he)⟩
  obtain ⟨u, hu, hb⟩ := h1 t ht
  have : u.ptr = t.ptr := congrArg Prod.fst (bare_ptr hb)
  refine ⟨u, ?_, hb⟩
  have h3 := one (·.ptr) _ u (compiled_owned hs).types hu
  simpa only [this] using h3

/-- A diamond: `a` imports `b` and `c`, both import `d`. -/
def exDiamond : Files := [
  (S "a.ridl", S "webrpc = v1\nname = a\nversion = v1\nimport\n - b.ridl\n - c.ridl\n"),
  (S "b.ridl", S "webrpc = v1\nname = b\nversion = v1\nimport d.ridl\n"),
  (S "c.ridl", S "webrpc = v1\nname = c\nversion = v1\nimport d.ridl\n"),
  (S "d.ridl", S "webrpc = v1\nname = d\nversion = v1\nstruct T\n - x: int32\nerror 1 E \"m\"\nservice V\n - M()\n")]

/-- C30 is false of the code for services: in a diamond the service of the file at the bottom is listed
twice, its type and its error once. -/
theorem C30_services_twice : let _ := asciiOnly
    sizes (compile exDiamond (S "a.ridl")) = some (1, 1, 2) ∧
    partOf (fun s => s.services.map Service.ident) (compile exDiamond (S "a.ridl")) =
      some [((S "d.ridl", 0), S "V"), ((S "d.ridl", 0), S "V")] := by decide +kernel

/-! ### C31 -/

/-- The import statement `n` asks for members called `name`: it has no list of members or the list has the
name. -/
def Selected (n : ImportNode) (name : Str) : Prop := n.members = [] ∨ ∃ t ∈ n.members, t.val = name

theorem selected_iff {n : ImportNode} {name : Str} :
    isImportAllowed name (n.members.map (·.val)) = true ↔ Selected n name := by
  unfold isImportAllowed Selected
  simp [List.isEmpty_iff]

/-- C31. The types of the result that are not declared in the file itself are exactly the selected types of
the imported files. -/
theorem C31_types [GoUnicode] (fs : Files) (path : Str) (s : Schema) (ns : List Node)
    (h : compile fs path = .ok s) (hr : readNodes fs path = .ok ns) (u : TypeDecl) :
    (∃ t ∈ s.types, t.ptr.1 ≠ path ∧ t.bare = u.bare) ↔
    ∃ n ∈ imports ns, ∃ m, compile fs (importPath path n) = .ok m ∧ Selected n u.name ∧
      ∃ t ∈ m.types, t.bare = u.bare := by
  have hs := compile_sound h
  have hs' := hs
  cases hs with
  | @intro _ ns' s0 s1 _ ps h1 h2 h3 h4 h5 h6 =>
    rw [hr] at h1
    simp only [Res.ok.injEq] at h1
    subst h1
    obtain ⟨⟨I, D, e1, e2, e3⟩, -⟩ := compiled_imported hr h2 h3 h4 h5 h6
    obtain ⟨z1, -⟩ := defs_empty h2
    have hown := merged_owned hr h2 h3 h4
    constructor
    · rintro ⟨t, ht, hne, hb⟩
      rw [e1, List.mem_append] at ht
      rcases ht with hi | hd
      · have : t.bare ∈ (mergeAll s0 ps).types.map TypeDecl.bare := by rw [← e2]; exact List.mem_map_of_mem hi
        rw [List.mem_map] at this
        obtain ⟨w, hw, hwb⟩ := this
        rcases merge_types hw with hw | ⟨p, hp, hw, ha⟩
        · simp [z1] at hw
        · have hname : w.name = u.name := congrArg (fun i => i.2.2) (bare_ptr (hwb.trans hb))
          refine ⟨p.1, by rw [← h3]; exact List.mem_map_of_mem hp, p.2, compile_iff.2 (h4 p hp), ?_,
            w, hw, hwb.trans hb⟩
          rw [← hname]; exact selected_iff.1 ha
      · exfalso
        have : t.ident ∈ (declaredTypes path ns).map TypeDecl.ident := by rw [← e3]; exact List.mem_map_of_mem hd
        rw [List.mem_map] at this
        obtain ⟨w, hw, hwb⟩ := this
        have hp : t.ptr = w.ptr := congrArg Prod.fst hwb.symm
        exact hne (by rw [hp, (declaredTypes_ptr path ns).2 w hw])
    · rintro ⟨n, hn, m, hm, hsel, t, ht, hb⟩
      rw [← h3, List.mem_map] at hn
      obtain ⟨p, hp, rfl⟩ := hn
      have hpm : p.2 = m := compiled_det (h4 p hp) (compile_sound hm)
      have hname : t.name = u.name := congrArg (fun i => i.2.2) (bare_ptr hb)
      obtain ⟨w, hw, he⟩ := merge_types_has (s := s0) hp (by rw [hpm]; exact ht)
        (by rw [hname]; exact selected_iff.2 hsel)
      have : w.bare ∈ I.map TypeDecl.bare := by rw [e2]; exact List.mem_map_of_mem hw
      rw [List.mem_map] at this
      obtain ⟨v, hv, hvb⟩ := this
      have hvp : v.ptr = w.ptr := congrArg Prod.fst (bare_ptr hvb)
      have hv' : v ∈ s.types := by rw [e1]; simp [hv]
      refine ⟨v, hv', ?_, ?_⟩
      · rw [hvp]; exact hown.typesFrom w hw
      · exact (types_agree hs' (compile_sound hm) hv' ht (by rw [hvp, he])).trans hb

/-- C31. The same for errors. -/
theorem C31_errors [GoUnicode] (fs : Files) (path : Str) (s : Schema) (ns : List Node)
    (h : compile fs path = .ok s) (hr : readNodes fs path = .ok ns) (e : ErrorDecl) :
    (e ∈ s.errors ∧ e.ptr.1 ≠ path) ↔
    ∃ n ∈ imports ns, ∃ m, compile fs (importPath path n) = .ok m ∧ Selected n e.name ∧ e ∈ m.errors := by
  have hs := compile_sound h
  have hs' := hs
  cases hs with
  | @intro _ ns' s0 s1 _ ps h1 h2 h3 h4 h5 h6 =>
    rw [hr] at h1
    simp only [Res.ok.injEq] at h1
    subst h1
    obtain ⟨-, -, es, g1, g2⟩ := compiled_imported hr h2 h3 h4 h5 h6
    obtain ⟨-, z1, -⟩ := defs_empty h2
    have hown := merged_owned hr h2 h3 h4
    constructor
    · rintro ⟨he, hne⟩
      have he' := he
      rw [g2, List.mem_map] at he
      obtain ⟨w, hw, rfl⟩ := he
      rcases List.mem_append.1 hw with hw | hw
      · rcases merge_errors hw with hw | ⟨p, hp, hw, ha⟩
        · simp [z1] at hw
        · have := errors_agree hs' (h4 p hp) he' hw rfl
          refine ⟨p.1, by rw [← h3]; exact List.mem_map_of_mem hp, p.2, compile_iff.2 (h4 p hp), ?_, ?_⟩
          · rw [this]; exact selected_iff.1 ha
          · rw [this]; exact hw
      · exfalso
        have hx : w.ptr ∈ es.map (·.ptr) := List.mem_map_of_mem hw
        rw [makeErrors_ptr g1, List.mem_mapIdx] at hx
        obtain ⟨i, _, hx⟩ := hx
        exact hne (by dsimp only; rw [← hx])
    · rintro ⟨n, hn, m, hm, hsel, he⟩
      rw [← h3, List.mem_map] at hn
      obtain ⟨p, hp, rfl⟩ := hn
      have hpm : p.2 = m := compiled_det (h4 p hp) (compile_sound hm)
      obtain ⟨w, hw, hwe⟩ := merge_errors_has (s := s0) hp (by rw [hpm]; exact he) (selected_iff.2 hsel)
      have hx : ({ w with name := trimSpace w.name } : ErrorDecl) ∈ s.errors := by
        rw [g2]; exact List.mem_map_of_mem (List.mem_append_left _ hw)
      have heq := errors_agree hs' (compile_sound hm) hx he hwe
      refine ⟨by rw [← heq]; exact hx, ?_⟩
      rw [← hwe]; exact hown.errorsFrom w hw

/-- C31. The same for services. -/
theorem C31_services [GoUnicode] (fs : Files) (path : Str) (s : Schema) (ns : List Node)
    (h : compile fs path = .ok s) (hr : readNodes fs path = .ok ns) (u : Service) :
    (∃ t ∈ s.services, t.ptr.1 ≠ path ∧ t.bare = u.bare) ↔
    ∃ n ∈ imports ns, ∃ m, compile fs (importPath path n) = .ok m ∧ Selected n u.name ∧
      ∃ t ∈ m.services, t.bare = u.bare := by
  have hs := compile_sound h
  cases hs with
  | @intro _ ns' s0 s1 _ ps h1 h2 h3 h4 h5 h6 =>
    rw [hr] at h1
    simp only [Res.ok.injEq] at h1
    subst h1
    obtain ⟨-, ⟨I, D, e1, e2, e3⟩, -⟩ := compiled_imported hr h2 h3 h4 h5 h6
    obtain ⟨-, -, z1⟩ := defs_empty h2
    have hown := merged_owned hr h2 h3 h4
    constructor
    · rintro ⟨t, ht, hne, hb⟩
      rw [e1, List.mem_append] at ht
      rcases ht with hi | hd
      · have : t.bare ∈ (mergeAll s0 ps).services.map Service.bare := by rw [← e2]; exact List.mem_map_of_mem hi
        rw [List.mem_map] at this
        obtain ⟨w, hw, hwb⟩ := this
        rcases merge_services.1 hw with hw | ⟨p, hp, hw, ha⟩
        · simp [z1] at hw
        · have hname : w.name = u.name := congrArg (fun i => i.2) (bare_ptr_service (hwb.trans hb))
          refine ⟨p.1, by rw [← h3]; exact List.mem_map_of_mem hp, p.2, compile_iff.2 (h4 p hp), ?_,
            w, hw, hwb.trans hb⟩
          rw [← hname]; exact selected_iff.1 ha
      · exfalso
        have : t.ident ∈ (declaredServices path ns).map Service.ident := by
          rw [← e3]; exact List.mem_map_of_mem hd
        rw [List.mem_map] at this
        obtain ⟨w, hw, hwb⟩ := this
        have hp : t.ptr = w.ptr := congrArg Prod.fst hwb.symm
        exact hne (by rw [hp, (declaredServices_ptr path ns).2 w hw])
    · rintro ⟨n, hn, m, hm, hsel, t, ht, hb⟩
      rw [← h3, List.mem_map] at hn
      obtain ⟨p, hp, rfl⟩ := hn
      have hpm : p.2 = m := compiled_det (h4 p hp) (compile_sound hm)
      have hname : t.name = u.name := congrArg (fun i => i.2) (bare_ptr_service hb)
      have hw : t ∈ (mergeAll s0 ps).services :=
        merge_services.2 (.inr ⟨p, hp, by rw [hpm]; exact ht, by rw [hname]; exact selected_iff.2 hsel⟩)
      have : t.bare ∈ I.map Service.bare := by rw [e2]; exact List.mem_map_of_mem hw
      rw [List.mem_map] at this
      obtain ⟨v, hv, hvb⟩ := this
      have hvp : v.ptr = t.ptr := congrArg Prod.fst (bare_ptr_service hvb)
      refine ⟨v, by rw [e1]; simp [hv], ?_, hvb.trans hb⟩
      rw [hvp]; exact hown.servicesFrom t hw

/-- C31. What the result has from the file itself is what the file declares, in order: identity, kind and
name of types, identity and name of services. -/
theorem C31_own [GoUnicode] (fs : Files) (path : Str) (s : Schema) (ns : List Node)
    (h : compile fs path = .ok s) (hr : readNodes fs path = .ok ns) :
    (s.types.filter (fun t => t.ptr.1 = path)).map TypeDecl.ident = (declaredTypes path ns).map TypeDecl.ident ∧
    (s.services.filter (fun t => t.ptr.1 = path)).map Service.ident =
      (declaredServices path ns).map Service.ident ∧
    (s.errors.filter (fun t => t.ptr.1 = path)).length = (Compile.errors ns).length := by
  have hs := compile_sound h
  cases hs with
  | @intro _ ns' s0 s1 _ ps h1 h2 h3 h4 h5 h6 =>
    rw [hr] at h1
    simp only [Res.ok.injEq] at h1
    subst h1
    obtain ⟨⟨I, D, e1, e2, e3⟩, ⟨I', D', f1, f2, f3⟩, es, g1, g2⟩ := compiled_imported hr h2 h3 h4 h5 h6
    have hown := merged_owned hr h2 h3 h4
    refine ⟨?_, ?_, ?_⟩
    · rw [e1, List.filter_append, List.filter_eq_nil_iff.2, List.nil_append, List.filter_eq_self.2, e3]
      · intro t ht
        have : t.ident ∈ (declaredTypes path ns).map TypeDecl.ident := by rw [← e3]; exact List.mem_map_of_mem ht
        rw [List.mem_map] at this
        obtain ⟨w, hw, hwb⟩ := this
        have hp : t.ptr = w.ptr := congrArg Prod.fst hwb.symm
        simp [hp, (declaredTypes_ptr path ns).2 w hw]
      · intro t ht
        have : t.bare ∈ (mergeAll s0 ps).types.map TypeDecl.bare := by rw [← e2]; exact List.mem_map_of_mem ht
        rw [List.mem_map] at this
        obtain ⟨w, hw, hwb⟩ := this
        have hp : w.ptr = t.ptr := congrArg Prod.fst (bare_ptr hwb)
        have := hown.typesFrom w hw
        rw [hp] at this
        simpa using this
    · rw [f1, List.filter_append, List.filter_eq_nil_iff.2, List.nil_append, List.filter_eq_self.2, f3]
      · intro t ht
        have : t.ident ∈ (declaredServices path ns).map Service.ident := by
          rw [← f3]; exact List.mem_map_of_mem ht
        rw [List.mem_map] at this
        obtain ⟨w, hw, hwb⟩ := this
        have hp : t.ptr = w.ptr := congrArg Prod.fst hwb.symm
        simp [hp, (declaredServices_ptr path ns).2 w hw]
      · intro t ht
        have : t.bare ∈ (mergeAll s0 ps).services.map Service.bare := by rw [← f2]; exact List.mem_map_of_mem ht
        rw [List.mem_map] at this
        obtain ⟨w, hw, hwb⟩ := this
        have hp : w.ptr = t.ptr := congrArg Prod.fst (bare_ptr_service hwb)
        have := hown.servicesFrom w hw
        rw [hp] at this
        simpa using this
    · rw [g2, List.map_append, List.filter_append, List.filter_eq_nil_iff.2, List.nil_append,
        List.filter_eq_self.2, List.length_map, ← (eachIdx_ok.1 g1).length, List.length_zipIdx]
      · intro t ht
        rw [List.mem_map] at ht
        obtain ⟨w, hw, rfl⟩ := ht
        have hx : w.ptr ∈ es.map (·.ptr) := List.mem_map_of_mem hw
        rw [makeErrors_ptr g1, List.mem_mapIdx] at hx
        obtain ⟨i, _, hx⟩ := hx
        simp [← hx]
      · intro t ht
        rw [List.mem_map] at ht
        obtain ⟨w, hw, rfl⟩ := ht
        have := hown.errorsFrom w hw
        simpa using this

/-- One file with two types, an error and a service; another importing one of the types. -/
def exSelect : Files := [
  (S "a.ridl", S "webrpc = v1\nname = a\nversion = v1\nimport lib/b.ridl\n  - T\n"),
  (S "lib/b.ridl", S "webrpc = v1\nname = b\nversion = v1\nstruct T\n - x: U\nstruct U\n - y: int32\nerror 1 E \"m\"\nservice V\n - M()\n"),
  (S "c.ridl", S "webrpc = v1\nname = c\nversion = v1\nimport lib/b.ridl\n  - T\n  - U\n  - V\n")]

/-- A selective import brings in the members of the list. -/
example : let _ := asciiOnly
    sizes (compile exSelect (S "c.ridl")) = some (2, 0, 1) ∧ sizes (compile exSelect (S "lib/b.ridl")) = some (2, 1, 1)
    := by decide +kernel

/-- A member that needs a type not in the list makes the import fail: members are not brought in with what
they refer to. -/
example : let _ := asciiOnly; errOf (compile exSelect (S "a.ridl")) ≠ none := by decide +kernel

/-- A file importing a struct `T` whose field has type `U`, and declaring a type `U` of its own. -/
def exCapture : Files := [
  (S "a.ridl", S "webrpc = v1\nname = a\nversion = v1\nimport b.ridl\n  - T\nstruct U\n - z: string\n"),
  (S "b.ridl", S "webrpc = v1\nname = b\nversion = v1\nstruct T\n - x: U\nstruct U\n - y: int32\n")]

/-- Types of fields are looked up by name in the importing file: the field `x` of the imported `T`, of type
`U` of `b.ridl`, silently becomes one of type `U` of `a.ridl`. -/
theorem C31_capture : let _ := asciiOnly
    partOf (fun s => s.types.map fun t => (t.name, t.fields.map (·.type))) (compile exCapture (S "b.ridl")) =
      some [(S "T", [some (.struct (S "U") (S "U") (S "b.ridl", 1))]), (S "U", [some (.leaf (S "int32") .int32)])] ∧
    partOf (fun s => s.types.map fun t => (t.name, t.fields.map (·.type))) (compile exCapture (S "a.ridl")) =
      some [(S "T", [some (.struct (S "U") (S "U") (S "a.ridl", 0))]), (S "U", [some (.leaf (S "string") .string)])] := by decide +kernel

/-! ### C35 -/

/-- C35. Files whose path is not a list of proper names between slashes have no influence on the result. -/
theorem C35_only_valid_paths [GoUnicode] (fs fs' : Files) (path : Str)
    (hfs : ∀ d : List Str, (∀ e ∈ d, Proper e) → fs.lookup (pathText d) = fs'.lookup (pathText d))
    (h1 : compile fs path ≠ .fuel) (h2 : compile fs' path ≠ .fuel) : compile fs path = compile fs' path := by
  refine compile_agree (fun p hp => ?_) path h1 h2
  obtain ⟨d, hd, rfl⟩ := (validPath_iff p).1 hp
  exact hfs d hd

/-- C35. The file compiled and all files reached by imports have such paths. -/
theorem C35_reached_files [GoUnicode] (fs : Files) (path : Str) (s : Schema) (h : compile fs path = .ok s) (f : Str)
    (hf : Reach (Imports fs) path f) : ∃ d : List Str, (∀ e ∈ d, Proper e) ∧ f = pathText d := by
  obtain ⟨m, hm⟩ := compiled_reach (compile_sound h) hf
  cases hm with
  | intro h1 =>
    apply (validPath_iff f).1
    cases hv : validPath f with
    | true => rfl
    | false =>
      simp only [readNodes, hv] at h1
      exact absurd h1 (by change Res.err _ ≠ _; simp)

/-- C35. An import refers to the file one gets to by walking from the directory of the importing file; an
import leaving the root has no valid path. -/
theorem C35_import_target (d : List Str) (f : Str) (hd : ∀ e ∈ d, Proper e) (hf : Proper f) (n : ImportNode) :
    match walk d (splitSlash n.path.val) with
    | some d' => importPath (pathText (f :: d)) n = pathText d' ∧ ∀ e ∈ d', Proper e
    | none => validPath (importPath (pathText (f :: d)) n) = false := by
  have := join_walk hd n.path.val
  unfold importPath
  rw [dir_path hd hf]
  split <;> split at this <;> simp_all

/-- `../x/../../y.ridl` from `a/b/c.ridl` is `y.ridl`, one more step up is outside. -/
example : importPath (S "a/b/c.ridl") { path := { tt := .word, val := S "../x/../../y.ridl", pos := 0, line := 1, col := 1 }, members := [] } = S "y.ridl" ∧
    validPath (joinPath (dir (S "a/b/c.ridl")) (S "../../../y.ridl")) = false := by decide

/-! ### C62, C63 -/

/-- C62. The import cache and the import graph have no influence on accepted results: a file has the schema
`s` exactly if `s` is obtained by reading the file, taking its header, merging the schemas of the imported
files (computed separately) in order, adding the declarations and validating. -/
theorem C62_cache_transparent [GoUnicode] (fs : Files) (path : Str) (s : Schema) :
    compile fs path = .ok s ↔
    ∃ ns s0 s1 ms, readNodes fs path = .ok ns ∧ foldRes applyDef {} (definitions ns) = .ok s0 ∧
      Pointwise (fun n m => compile fs (importPath path n) = .ok m) (imports ns) ms ∧
      declare path ns (mergeAll s0 ((imports ns).zip ms)) = .ok s1 ∧ validate s1 = .ok s := by
  constructor
  · intro h
    cases compile_sound h with
    | @intro _ ns s0 s1 _ ps h1 h2 h3 h4 h5 h6 =>
      have hz : (imports ns).zip (ps.map Prod.snd) = ps := by
        rw [← h3]
        clear h3 h4 h5 h
        induction ps with
        | nil => rfl
        | cons p ps ih => simp [ih]
      refine ⟨ns, s0, s1, ps.map Prod.snd, h1, h2, ?_, by rw [hz]; exact h5, h6⟩
      rw [← h3]
      clear h3 h5 hz h
      induction ps with
      | nil => exact .nil
      | cons p ps ih =>
        exact .cons (compile_iff.2 (h4 p (by simp))) (ih fun q hq => h4 q (by simp [hq]))
  · rintro ⟨ns, s0, s1, ms, h1, h2, h3, h4, h5⟩
    apply compile_iff.2
    refine .intro (ps := (imports ns).zip ms) h1 h2 ?_ ?_ h4 h5
    · exact List.map_fst_zip (Nat.le_of_eq h3.length)
    · clear h4 h5
      generalize imports ns = is at h3
      induction h3 with
      | nil => intro p hp; simp at hp
      | cons h _ ih =>
        intro p hp
        simp only [List.zip_cons_cons, List.mem_cons] at hp
        rcases hp with rfl | hp
        · exact compile_sound h
        · exact ih p hp

/-- C63. An error in an import names the files from the one with the error up to the file compiled; each is
imported by the next one.  An error other than a circular import or unreadable file is in a file that could
be read; otherwise that file is the unreadable one. -/
theorem C63_import_stack [GoUnicode] (fs : Files) (path : Str) (st : List Str) (c : SErr)
    (h : compile fs path = .err (.inImport st c)) :
    ∃ f pre, st = f :: pre ++ [path] ∧ ImportChain fs st ∧ Cause fs f c :=
  compile_stack h

/-- C63. An error without such a list is in the file compiled. -/
theorem C63_own_error [GoUnicode] (fs : Files) (path : Str) (c : SErr) (h : compile fs path = .err c)
    (hc : ∀ st e, c ≠ .inImport st e) : Cause fs path c := by
  have := compile_stack h
  unfold StackOk at this
  split at this
  · exact absurd rfl (hc _ _)
  · obtain ⟨f, rest, h1, h2⟩ := this
    simp only [List.cons.injEq] at h1
    rw [h1.1]; exact h2

example : let _ := asciiOnly
    errOf (compile [(S "a.ridl", S "webrpc = v1\nimport x/b.ridl\n"), (S "x/b.ridl", S "webrpc = v1\nimport c.ridl\n")]
      (S "a.ridl")) = some (.inImport [S "x/c.ridl", S "x/b.ridl", S "a.ridl"] .readFile) := by decide +kernel

end Verif.Props
