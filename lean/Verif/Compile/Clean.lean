import Verif.Compile.Refine
/-! Errors about import cycles come from the import graph only. -/

namespace Verif.Compile
open Verif.Schema Verif.Spec
open Verif.Ridl hiding Str

/-- An error of reading one file. -/
def Unreadable : SErr → Prop
  | .badPath => True
  | .readFile => True
  | .syntaxError => True
  | _ => False

/-- The error is neither about imports nor about reading files. -/
def Plain : SErr → Prop
  | .circularImport => False
  | .inImport _ _ => False
  | .badPath => False
  | .readFile => False
  | .syntaxError => False
  | _ => True

theorem Plain.not_circular {e : SErr} (h : Plain e) : ¬ IsCircularErr e := by
  cases e <;> simp_all [Plain, IsCircularErr]

/-- The operation does not report an import cycle, and is not cut off. -/
def Clean {α : Type} (r : Res α) : Prop :=
  match r with
  | .err e => Plain e
  | .fuel => False
  | _ => True

variable {α β σ : Type}

theorem clean_ok {a : α} : Clean (.ok a) := trivial
theorem clean_panic : Clean (.panic : Res α) := trivial
theorem clean_err {e : SErr} (h : Plain e) : Clean (.err e : Res α) := h
theorem clean_failIf {b : Bool} {e : SErr} (h : Plain e) : Clean (Res.failIf b e) := by
  unfold Res.failIf; split
  · exact clean_err h
  · exact clean_ok

theorem clean_bind {r : Res α} {f : α → Res β} (h : Clean r) (hf : ∀ a, Clean (f a)) : Clean (r >>= f) := by
  change Clean (Res.bind r f)
  cases r with
  | ok a => exact hf a
  | err e' => exact h
  | panic => trivial
  | fuel => exact h

theorem clean_bind' {r : Res α} {f : α → Res β} (h : Clean r) (hf : ∀ a, Clean (f a)) : Clean (r.bind f) :=
  clean_bind h hf

theorem clean_each {f : α → Res β} (hf : ∀ a, Clean (f a)) (xs : List α) : Clean (Res.each f xs) := by
  induction xs with
  | nil => exact clean_ok
  | cons x xs ih => exact clean_bind' (hf x) fun _ => clean_bind' ih fun _ => clean_ok

theorem clean_eachIdx {f : Nat → α → Res β} (hf : ∀ i a, Clean (f i a)) (i : Nat) (xs : List α) :
    Clean (eachIdx f i xs) := by
  induction xs generalizing i with
  | nil => exact clean_ok
  | cons x xs ih => exact clean_bind' (hf i x) fun _ => clean_bind' (ih _) fun _ => clean_ok

theorem clean_fold {f : σ → α → Res σ} (hf : ∀ s a, Clean (f s a)) (s : σ) (xs : List α) :
    Clean (foldRes f s xs) := by
  induction xs generalizing s with
  | nil => exact clean_ok
  | cons x xs ih => exact clean_bind' (hf s x) fun _ => ih _

theorem clean_orErr {r : Res α} {e : SErr} (hr : r ≠ .fuel) (h : Plain e) : Clean (orErr r e) := by
  cases r with
  | ok a => exact clean_ok
  | err e' => exact clean_err h
  | panic => exact clean_panic
  | fuel => exact absurd rfl hr

macro "clean_auto" : tactic => `(tactic| repeat' with_reducible first
  | exact clean_ok
  | exact clean_panic
  | exact clean_err (by simp [Plain])
  | exact clean_failIf (by simp [Plain])
  | exact clean_orErr (parseExpr_total _ _) (by simp [Plain])
  | (apply clean_each; intro _)
  | (apply clean_eachIdx; intro _ _)
  | (apply clean_fold; intro _ _)
  | apply clean_bind
  | assumption
  | intro _
  | split
  | dsimp only)

variable [GoUnicode]

omit [GoUnicode] in
theorem clean_parseRef {ts : List TypeDecl} {e : Str} : Clean (parseRef ts e) := by
  unfold parseRef; clean_auto

theorem clean_parseMapKey {ts : List TypeDecl} {e : Str} : Clean (parseMapKey ts e) := by
  unfold parseMapKey; clean_auto

omit [GoUnicode] in
theorem clean_parseMapExpr {e : Str} : Clean (parseMapExpr e) := by
  unfold parseMapExpr; clean_auto

omit [GoUnicode] in
theorem err_bind {r : Res α} {f : α → Res β} {e : SErr} (h : (r >>= f) = .err e) :
    r = .err e ∨ ∃ a, r = .ok a ∧ f a = .err e := by
  change Res.bind r f = _ at h
  cases r with
  | ok a => exact .inr ⟨a, rfl, h⟩
  | err e' => simp only [Res.bind, Res.err.injEq] at h; exact .inl (by rw [h])
  | panic => simp [Res.bind] at h
  | fuel => simp [Res.bind] at h

theorem parseExprN_err {ts : List TypeDecl} {n : Nat} {s : Str} {e : SErr} (h : parseExprN ts n s = .err e) :
    Plain e := by
  have cl : ∀ {α : Type} {r : Res α}, Clean r → r = .err e → Plain e := by
    intro α r h h'; rw [h'] at h; exact h
  induction n generalizing s with
  | zero => simp [parseExprN] at h
  | succ n ih =>
    unfold parseExprN at h
    split at h
    · simp at h
    · split at h
      · rcases err_bind h with h | ⟨_, _, h⟩
        · exact ih h
        · simp at h
      · rcases err_bind h with h | ⟨_, _, h⟩
        · exact cl clean_parseMapExpr h
        · rcases err_bind h with h | ⟨_, _, h⟩
          · exact cl clean_parseMapKey h
          · rcases err_bind h with h | ⟨_, _, h⟩
            · exact ih h
            · simp at h
      · exact cl clean_parseRef h
      · exact cl clean_parseRef h
      · simp at h

theorem clean_parseExpr {ts : List TypeDecl} {e : Str} : Clean (parseExpr ts e) := by
  cases h : parseExpr ts e with
  | ok a => trivial
  | err e' => exact parseExprN_err h
  | panic => trivial
  | fuel => exact parseExpr_total _ _ h

theorem clean_varTypeParse {ts : List TypeDecl} {o : Option VarType} : Clean (varTypeParse ts o) := by
  unfold varTypeParse
  split
  · exact clean_panic
  · exact clean_bind (clean_failIf (by simp [Plain])) fun _ => clean_bind clean_parseExpr fun _ => clean_ok

omit [GoUnicode] in
theorem clean_json {acc : Str} {ms : List Meta} : Clean (jsonFieldName acc ms) := by
  induction ms generalizing acc with
  | nil => exact clean_ok
  | cons m ms ih =>
    unfold jsonFieldName
    split
    · exact ih
    · split
      · exact ih
      · split
        · exact clean_err (by simp [Plain])
        · exact ih
    · exact clean_err (by simp [Plain])

theorem clean_checkFields {a b : List Str} {fs : List Field} : Clean (checkFields a b fs) := by
  induction fs generalizing a b with
  | nil => exact clean_ok
  | cons f fs ih =>
    unfold checkFields
    refine clean_bind (clean_failIf (by simp [Plain])) fun _ => ?_
    refine clean_bind (clean_failIf (by simp [Plain])) fun _ => ?_
    refine clean_bind (clean_failIf (by simp [Plain])) fun _ => ?_
    refine clean_bind clean_json fun _ => ?_
    refine clean_bind (clean_failIf (by simp [Plain])) fun _ => ih

omit [GoUnicode] in
theorem clean_checkEnum {t : TypeDecl} : Clean (checkEnum t) := by unfold checkEnum; clean_auto

theorem clean_typeParse {ts : List TypeDecl} {t : TypeDecl} : Clean (typeParse ts t) := by
  unfold typeParse structField
  have h1 := @clean_checkFields
  have h2 := @clean_checkEnum t
  have h3 := @clean_varTypeParse _ ts
  clean_auto
  · exact h1
  · exact h3

theorem clean_errorDups {a : List Str} {b : List Int} {es : List ErrorDecl} : Clean (errorDups a b es) := by
  induction es generalizing a b with
  | nil => exact clean_ok
  | cons e es ih =>
    unfold errorDups
    exact clean_bind (clean_failIf (by simp [Plain])) fun _ =>
      clean_bind (clean_failIf (by simp [Plain])) fun _ => ih

theorem clean_errorsParse {b es : List ErrorDecl} : Clean (errorsParse b es) := by
  induction es generalizing b with
  | nil => exact clean_ok
  | cons e es ih =>
    unfold errorsParse errorParse
    have := @clean_errorDups
    clean_auto
    · exact this
    · exact ih

theorem clean_checkMethods {a : List Str} {ms : List Method} : Clean (checkMethods a ms) := by
  induction ms generalizing a with
  | nil => exact clean_ok
  | cons m ms ih =>
    unfold checkMethods
    exact clean_bind (clean_failIf (by simp [Plain])) fun _ =>
      clean_bind (clean_failIf (by simp [Plain])) fun _ => ih

theorem clean_serviceParse {ts : List TypeDecl} {es : List ErrorDecl} {ss : List Service} {s : Service} :
    Clean (serviceParse ts es ss s) := by
  unfold serviceParse methodParse argParse
  have h1 := @clean_checkMethods
  have h3 := @clean_varTypeParse _ ts
  clean_auto
  · exact h1
  · exact h3
  · exact h3

omit [GoUnicode] in
theorem clean_normBasePath {b : Str} : Clean (normBasePath b) := by unfold normBasePath; clean_auto

theorem clean_validate {s : Schema} : Clean (validate s) := by
  unfold validate
  have h1 := @clean_normBasePath
  have h2 := @clean_typeParse
  have h3 := @clean_errorsParse
  have h4 := @clean_serviceParse
  clean_auto
  · exact h1
  · exact h2
  · exact h3
  · exact h4

omit [GoUnicode] in
theorem clean_applyDef {s : Schema} {d : DefNode} : Clean (applyDef s d) := by unfold applyDef; clean_auto

theorem clean_updateType {n : Str} {f : TypeDecl → TypeDecl} {s : Schema} : Clean (updateType n f s) := by
  unfold updateType; clean_auto

theorem clean_succinctArg {ts : List TypeDecl} {n : Str} : Clean (succinctArg ts n) := by
  unfold succinctArg; clean_auto

theorem clean_buildArgs {ts : List TypeDecl} {as : List ArgNode} : Clean (buildArgs ts as) := by
  unfold buildArgs makeArg
  have := @clean_succinctArg _ ts
  clean_auto
  exact this

theorem clean_declare {path : Str} {ns : List Node} {s : Schema} : Clean (declare path ns s) := by
  unfold declare resolveAlias resolveEnum resolveStruct resolveService makeMethod makeField makeError
  have h1 := @clean_updateType
  have h2 := @clean_buildArgs
  clean_auto
  all_goals first | exact h1 | exact h2

/-! ### Outcome of a compilation -/

omit [GoUnicode] in
theorem readNodes_err {fs : Files} {path : Str} {e : SErr} (h : readNodes fs path = .err e) : Unreadable e := by
  unfold readNodes at h
  rcases err_bind h with h | ⟨_, _, h⟩
  · unfold Res.failIf at h
    split at h
    · simp at h; subst h; trivial
    · simp at h
  · split at h
    · simp at h; subst h; trivial
    · split at h <;> simp at h
      subst h; trivial

omit [GoUnicode] in
theorem readNodes_fuel {fs : Files} {path : Str} (h : readNodes fs path = .fuel) :
    ∃ src, fs.lookup path = some src ∧ parseDoc src = .outOfFuel := by
  unfold readNodes at h
  rcases Verif.Props.bind_fuel.1 h with h | ⟨_, _, h⟩
  · exact absurd h Verif.Props.failIf_not_fuel
  · split at h
    · simp at h
    · next src hs =>
      split at h <;> simp at h
      next hp => exact ⟨src, hs, hp⟩

omit [GoUnicode] in
theorem readNodes_file {fs : Files} {path : Str} {ns : List Node} (h : readNodes fs path = .ok ns) :
    ∃ src, fs.lookup path = some src ∧ parseDoc src = .ok ns ∧ validPath path = true := by
  simp only [readNodes, Res.bind_ok, Res.failIf_ok] at h
  obtain ⟨_, hv, h⟩ := h
  cases hs : fs.lookup path with
  | none => rw [hs] at h; simp at h
  | some src =>
    rw [hs] at h
    simp only at h
    refine ⟨src, rfl, ?_, by simpa using hv⟩
    split at h <;> simp at h
    next hp => rw [hp, h]

theorem compileN_outcome {fs : Files} {root : Str} (n : Nat) (parents : List Str) (path : Str) (st : Shared)
    (hready : Ready fs root (path :: parents) st.graph) (hn : fs.length + 1 ≤ n + parents.length) :
    Outcome fs root st.graph (compileN fs n parents path st) := by
  induction n generalizing parents path st with
  | zero =>
    exfalso
    have h1 : parents.Nodup := (List.nodup_cons.1 hready.nodup).2
    have h2 : ∀ x ∈ parents, x ∈ fs.map Prod.fst := by
      intro x hx
      have := hready.files x (by simpa using hx)
      rw [Option.isSome_iff_exists] at this
      obtain ⟨src, hs⟩ := this
      exact List.mem_map.2 ⟨(x, src), lookup_mem hs, rfl⟩
    have := nodup_length_le h1 h2
    simp at this
    omega
  | succ n ih =>
    unfold compileN
    change Outcome fs root st.graph (Res.bind _ _)
    cases h1 : readNodes fs path with
    | err e => exact fun h => absurd h (by have := readNodes_err h1; cases e <;> simp_all [Unreadable, IsCircularErr])
    | panic => trivial
    | fuel =>
      obtain ⟨src, g1, g2⟩ := readNodes_fuel h1
      exact ⟨path, src, hready.reach path (by simp), g1, g2⟩
    | ok ns =>
      obtain ⟨src, hsrc, hparse, -⟩ := readNodes_file h1
      dsimp only [Res.bind]
      change Outcome fs root st.graph (Res.bind _ _)
      have h2 := clean_fold (@clean_applyDef) {} (definitions ns)
      revert h2
      generalize foldRes applyDef {} (definitions ns) = r
      intro h2
      cases r with
      | err e => exact fun h => absurd h (Plain.not_circular h2)
      | panic => trivial
      | fuel => exact h2.elim
      | ok s0 =>
        dsimp only [Res.bind]
        change Outcome fs root st.graph (Res.bind _ _)
        have h3 := imports_outcome (a := (s0, st)) (ns := imports ns) (rec := compileN fs n) hready (by simp [hsrc])
          (fun x hx => ⟨ns, h1, x, hx, rfl⟩)
          (fun x hx st' hr => ih (path :: parents) (importPath path x) st' hr (by simp; omega))
        revert h3
        generalize foldRes (importOne (compileN fs n) (path :: parents) path) (s0, st) (imports ns) = r
        intro h3
        cases r with
        | err e => exact h3
        | panic => trivial
        | fuel => exact h3
        | ok r =>
          dsimp only [Res.bind]
          change Outcome fs root st.graph (Res.bind _ _)
          have h4 := @clean_declare _ path ns r.1
          revert h4
          generalize declare path ns r.1 = q
          intro h4
          cases q with
          | err e => exact fun h => absurd h (Plain.not_circular h4)
          | panic => trivial
          | fuel => exact h4.elim
          | ok s1 =>
            dsimp only [Res.bind]
            change Outcome fs root st.graph (Res.bind _ _)
            have h5 := @clean_validate _ s1
            revert h5
            generalize validate s1 = q
            intro h5
            cases q with
            | err e => exact fun h => absurd h (Plain.not_circular h5)
            | panic => trivial
            | fuel => exact h5.elim
            | ok s2 => exact h3

omit [GoUnicode] in
theorem ready_root (fs : Files) (path : Str) : Ready fs path [path] (Graph.new [path]) :=
  { ends := endsAreNodes_new _
    edges := by intro x y h; simp [Edge, Graph.new] at h
    walk := by simp [Chain, Graph.new]
    nodup := by simp
    files := by simp
    reach := by intro x hx; simp at hx; exact .inl hx.symm }

theorem compile_outcome (fs : Files) (path : Str) :
    (compile fs path = .fuel → Hangs fs path) ∧
    (∀ e, compile fs path = .err e → IsCircularErr e →
      ∃ f, Reach (Imports fs) path f ∧ Path (Imports fs) f f) := by
  have h := compileN_outcome (fs.length + 2) [] path { graph := Graph.new [path], cache := [] }
    (ready_root fs path) (by omega)
  unfold compile
  revert h
  generalize compileN fs (fs.length + 2) [] path { graph := Graph.new [path], cache := [] } = r
  intro h
  constructor
  · intro hf
    cases r with
    | fuel => exact h
    | ok a => exact absurd hf (by change Res.ok _ ≠ _; simp)
    | err a => exact absurd hf (by change Res.err _ ≠ _; simp)
    | panic => exact absurd hf (by change Res.panic ≠ _; simp)
  · intro e he hc
    cases r with
    | fuel => exact absurd he (by change Res.fuel ≠ _; simp)
    | ok a => exact absurd he (by change Res.ok _ ≠ _; simp)
    | err a =>
      change Res.err a = _ at he
      simp only [Res.err.injEq] at he
      subst he
      exact h hc
    | panic => exact absurd he (by change Res.panic ≠ _; simp)

theorem compile_sound {fs : Files} {path : Str} {s : Schema} (h : compile fs path = .ok s) :
    Compiled fs path s := by
  simp only [compile, Res.bind_ok, Res.ok.injEq] at h
  obtain ⟨r, h1, rfl⟩ := h
  exact (compileN_sound fs _ _ _ _ r.1 r.2 (by intro p m hm; simp at hm) h1).1

/-! ### Completeness -/

/-- Parsing a file that has a meaning gives it, or runs out of bounds. -/
def Finds (fs : Files) (g : Graph Str) (s : Schema) (r : Res (Schema × Shared)) : Prop :=
  match r with
  | .ok (s', st') => s' = s ∧ CacheOk fs st' ∧ EndsAreNodes st'.graph ∧
      (∀ x y, Edge st'.graph x y → Imports fs x y ∧ ∃ m, Compiled fs x m) ∧ ∀ x ∈ g.nodes, x ∈ st'.graph.nodes
  | .fuel => True
  | _ => False

theorem importSchema_finds {fs : Files} {rec : List Str → Str → Shared → Res (Schema × Shared)}
    {chain : List Str} {path ip : Str} {st : Shared} {m : Schema}
    (hc : CacheOk fs st) (he : EndsAreNodes st.graph)
    (hed : ∀ x y, Edge st.graph x y → Imports fs x y ∧ ∃ m, Compiled fs x m)
    (hp : path ∈ st.graph.nodes) (himp : Imports fs path ip) (hpath : ∃ m, Compiled fs path m)
    (hm : Compiled fs ip m)
    (hrec : ∀ st, CacheOk fs st → EndsAreNodes st.graph →
      (∀ x y, Edge st.graph x y → Imports fs x y ∧ ∃ m, Compiled fs x m) → ip ∈ st.graph.nodes →
      Finds fs st.graph m (rec chain ip st)) :
    Finds fs st.graph m (importSchema rec chain path ip st) := by
  unfold importSchema
  cases hl : st.cache.lookup ip with
  | some m' => exact ⟨compiled_det (hc _ _ hl) hm, hc, he, hed, fun _ h => h⟩
  | none =>
    simp only [importFile]
    have hends := endsAreNodes_import he (v := ip) hp
    have hedges : ∀ x y, Edge ((st.graph.addNode ip).addEdge path ip) x y →
        Imports fs x y ∧ ∃ m, Compiled fs x m := by
      intro x y e
      rw [edge_addEdge, edge_addNode] at e
      rcases e with e | ⟨rfl, rfl⟩
      · exact hed x y e
      · exact ⟨himp, hpath⟩
    have hac : ¬ Cyclic (Edge ((st.graph.addNode ip).addEdge path ip)) := by
      rintro ⟨x, hx⟩
      obtain ⟨m, hm⟩ := Path.edge_src (fun a b e => (hedges a b e).2) hx
      exact acc_no_cycle (compiled_acc hm) (hx.mono fun a b e => (hedges a b e).1)
    rw [(isCircular_exact hends).2.2 hac]
    simp only
    have := hrec { st with graph := (st.graph.addNode ip).addEdge path ip } hc hends hedges
      (by rw [nodes_addEdge, mem_addNode]; exact .inr rfl)
    revert this
    generalize rec chain ip { st with graph := (st.graph.addNode ip).addEdge path ip } = r
    intro h
    cases r with
    | ok a =>
      obtain ⟨m', st'⟩ := a
      obtain ⟨rfl, h2, h3, h4, h5⟩ := h
      refine ⟨rfl, ?_, h3, h4, fun x hx => h5 x (by rw [nodes_addEdge, mem_addNode]; exact .inl hx)⟩
      intro p m'' hl
      simp only [List.lookup_cons] at hl
      split at hl
      · next he => simp only [beq_iff_eq] at he; simp only [Option.some.injEq] at hl; subst hl; rw [he]; exact hm
      · exact h2 p m'' hl
    | err e => exact h
    | panic => exact h
    | fuel => trivial

theorem imports_finds {fs : Files} {rec : List Str → Str → Shared → Res (Schema × Shared)}
    {chain : List Str} {path : Str} {ps : List (ImportNode × Schema)} {a : Schema × Shared}
    (hc : CacheOk fs a.2) (he : EndsAreNodes a.2.graph)
    (hed : ∀ x y, Edge a.2.graph x y → Imports fs x y ∧ ∃ m, Compiled fs x m)
    (hp : path ∈ a.2.graph.nodes) (hpath : ∃ m, Compiled fs path m)
    (himp : ∀ p ∈ ps, Imports fs path (importPath path p.1))
    (hm : ∀ p ∈ ps, Compiled fs (importPath path p.1) p.2)
    (hrec : ∀ p ∈ ps, ∀ st, CacheOk fs st → EndsAreNodes st.graph →
      (∀ x y, Edge st.graph x y → Imports fs x y ∧ ∃ m, Compiled fs x m) →
      importPath path p.1 ∈ st.graph.nodes →
      Finds fs st.graph p.2 (rec chain (importPath path p.1) st)) :
    Finds fs a.2.graph (mergeAll a.1 ps) (foldRes (importOne rec chain path) a (ps.map Prod.fst)) := by
  induction ps generalizing a with
  | nil => exact ⟨rfl, hc, he, hed, fun _ h => h⟩
  | cons p ps ih =>
    simp only [List.map_cons, foldRes, importOne]
    have h1 := importSchema_finds (chain := chain) hc he hed hp (himp p (by simp)) hpath (hm p (by simp))
      (hrec p (by simp))
    revert h1
    generalize importSchema rec chain path (importPath path p.1) a.2 = r
    intro h1
    cases r with
    | ok b =>
      obtain ⟨m, st'⟩ := b
      obtain ⟨rfl, k2, k3, k4, k5⟩ := h1
      have := ih (a := (takeImport a.1 p.2 (p.1.members.map (·.val)), st')) k2 k3 k4 (k5 _ hp)
        (fun q hq => himp q (by simp [hq])) (fun q hq => hm q (by simp [hq])) (fun q hq => hrec q (by simp [hq]))
      change Finds fs a.2.graph (mergeAll (takeImport a.1 p.2 (p.1.members.map (·.val))) ps)
        (foldRes (importOne rec chain path) (takeImport a.1 p.2 (p.1.members.map (·.val)), st') (ps.map Prod.fst))
      revert this
      generalize foldRes (importOne rec chain path) _ (ps.map Prod.fst) = r'
      intro h2
      cases r' with
      | ok c =>
        obtain ⟨m', st''⟩ := c
        exact ⟨h2.1, h2.2.1, h2.2.2.1, h2.2.2.2.1, fun x hx => h2.2.2.2.2 x (k5 x hx)⟩
      | err e => exact h2
      | panic => exact h2
      | fuel => trivial
    | err e => exact h1.elim
    | panic => exact h1.elim
    | fuel => trivial

theorem compileN_finds {fs : Files} {path : Str} {s : Schema} (h : Compiled fs path s) (n : Nat)
    (parents : List Str) (st : Shared) (hc : CacheOk fs st) (he : EndsAreNodes st.graph)
    (hed : ∀ x y, Edge st.graph x y → Imports fs x y ∧ ∃ m, Compiled fs x m) (hp : path ∈ st.graph.nodes) :
    Finds fs st.graph s (compileN fs n parents path st) := by
  induction n generalizing path s parents st with
  | zero => trivial
  | succ n ih =>
    have hh := h
    cases h with
    | @intro _ ns s0 s1 _ ps h1 h2 h3 h4 h5 h6 =>
      unfold compileN
      rw [h1]
      change Finds fs st.graph s (Res.bind _ _)
      dsimp only [Res.bind]
      rw [h2]
      change Finds fs st.graph s (Res.bind _ _)
      dsimp only [Res.bind]
      have h7 := imports_finds (rec := compileN fs n) (chain := path :: parents) (ps := ps) (a := (s0, st)) hc he hed
        hp ⟨s, hh⟩ (fun p hp => ⟨ns, h1, p.1, by rw [← h3]; exact List.mem_map.2 ⟨p, hp, rfl⟩, rfl⟩) h4
        (fun p hp st' a b c d => ih (h4 p hp) _ st' a b c d)
      rw [h3] at h7
      revert h7
      generalize foldRes (importOne (compileN fs n) (path :: parents) path) (s0, st) (imports ns) = r
      intro h7
      cases r with
      | ok r =>
        obtain ⟨m, st'⟩ := r
        obtain ⟨rfl, k⟩ := h7
        change Finds fs st.graph s (Res.bind _ _)
        dsimp only [Res.bind]
        rw [h5]
        change Finds fs st.graph s (Res.bind _ _)
        dsimp only [Res.bind]
        rw [h6]
        exact ⟨rfl, k⟩
      | err e => exact h7.elim
      | panic => exact h7.elim
      | fuel => trivial

/-- The compiler computes the meaning of the files. -/
theorem compile_iff {fs : Files} {path : Str} {s : Schema} :
    compile fs path = .ok s ↔ Compiled fs path s := by
  refine ⟨compile_sound, fun h => ?_⟩
  have h1 := compileN_finds h (fs.length + 2) [] { graph := Graph.new [path], cache := [] }
    (by intro p m hm; simp at hm) (endsAreNodes_new _) (by intro x y e; simp [Edge, Graph.new] at e)
    (by simp [Graph.new])
  cases h2 : compileN fs (fs.length + 2) [] path { graph := Graph.new [path], cache := [] } with
  | ok a =>
    rw [h2] at h1
    simp only [compile, h2]
    exact congrArg Res.ok h1.1
  | err e => rw [h2] at h1; exact h1.elim
  | panic => rw [h2] at h1; exact h1.elim
  | fuel =>
    exfalso
    have : compile fs path = .fuel := by simp only [compile, h2]; rfl
    obtain ⟨p, src, hr, hl, hp⟩ := (compile_outcome fs path).1 this
    obtain ⟨m, hm⟩ := compiled_reach h hr
    cases hm with
    | intro g1 _ _ _ _ _ =>
      obtain ⟨src', k1, k2, _⟩ := readNodes_file g1
      rw [hl] at k1
      simp only [Option.some.injEq] at k1
      subst k1
      rw [hp] at k2
      simp at k2

end Verif.Compile
