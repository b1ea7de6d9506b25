import Verif.Compile.DeclareLemmas
/-! Which objects the schema of a file holds. -/

namespace Verif.Compile
open Verif.Schema Verif.Spec
open Verif.Ridl hiding Str

variable [GoUnicode]

omit [GoUnicode] in
theorem updateFirst_map {α β : Type} {p : α → Bool} {f : α → α} {g : α → β} (h : ∀ x, g (f x) = g x)
    (l : List α) : (updateFirst p f l).map g = l.map g := by
  induction l with
  | nil => rfl
  | cons x l ih =>
    simp only [updateFirst]
    split <;> simp [h, ih]

omit [GoUnicode] in
theorem foldRes_inv {α σ τ : Type} {f : σ → α → Res σ} {g : σ → τ} (h : ∀ s x s', f s x = .ok s' → g s' = g s)
    {s s' : σ} {xs : List α} (hf : foldRes f s xs = .ok s') : g s' = g s := by
  induction xs generalizing s with
  | nil => simp [foldRes] at hf; rw [hf]
  | cons x xs ih =>
    rw [foldRes, Res.bind_ok'] at hf
    obtain ⟨s1, h1, h2⟩ := hf
    exact (ih h2).trans (h _ _ _ h1)

/-- What no declaration of a type changes. -/
def typeFrame (s : Schema) : Schema × List (Ptr × Str × Str) := (noTypes s, s.types.map TypeDecl.ident)

/-- What no declaration of a service changes. -/
def serviceFrame (s : Schema) : Schema × List (Ptr × Str) := (noServices s, s.services.map Service.ident)

theorem alias_frame {s s' : Schema} {n : AliasNode} (h : resolveAlias s n = .ok s') : typeFrame s' = typeFrame s := by
  obtain ⟨h1, f, h2, h3, -⟩ := resolveAlias_ok h
  simp only [typeFrame, h1, h2, updateFirst_map h3]

theorem enum_frame {s s' : Schema} {n : EnumNode} (h : resolveEnum s n = .ok s') : typeFrame s' = typeFrame s := by
  obtain ⟨h1, f, h2, h3, -⟩ := resolveEnum_ok h
  simp only [typeFrame, h1, h2, updateFirst_map h3]

theorem struct_frame {s s' : Schema} {n : StructNode} (h : resolveStruct s n = .ok s') :
    typeFrame s' = typeFrame s := by
  obtain ⟨h1, f, h2, h3, -⟩ := resolveStruct_ok h
  simp only [typeFrame, h1, h2, updateFirst_map h3]

theorem service_frame {s s' : Schema} {n : ServiceNode} (h : resolveService s n = .ok s') :
    serviceFrame s' = serviceFrame s := by
  obtain ⟨h1, f, h2, h3, -⟩ := resolveService_ok h
  simp only [serviceFrame, h1, h2, updateFirst_map h3]

/-- The schema after the 1st pass. -/
def declared (path : Str) (ns : List Node) (s : Schema) : Schema :=
  { s with types := s.types ++ declaredTypes path ns, services := s.services ++ declaredServices path ns }

/-- The steps of `declare`. -/
theorem declare_steps {path : Str} {ns : List Node} {s s' : Schema} (h : declare path ns s = .ok s') :
    ∃ s1 s2 es s3, foldRes resolveAlias (declared path ns s) (aliases ns) = .ok s1 ∧
      foldRes resolveEnum s1 (enums ns) = .ok s2 ∧ eachIdx (makeError path) 0 (errors ns) = .ok es ∧
      foldRes resolveStruct { s2 with errors := s2.errors ++ es } (structs ns) = .ok s3 ∧
      foldRes resolveService s3 (services ns) = .ok s' := by
  simp only [declare, Res.bind_ok] at h
  obtain ⟨s1, h1, s2, h2, es, h3, s3, h4, h5⟩ := h
  exact ⟨s1, s2, es, s3, h1, h2, h3, h4, h5⟩

omit [GoUnicode] in
theorem noTypes_eq {s s' : Schema} (h : noTypes s = noTypes s') :
    s.webrpcVersion = s'.webrpcVersion ∧ s.schemaName = s'.schemaName ∧ s.schemaVersion = s'.schemaVersion ∧
    s.basePath = s'.basePath ∧ s.errors = s'.errors ∧ s.services = s'.services ∧ s.nils = s'.nils := by
  simp only [noTypes, Schema.mk.injEq] at h
  simp [h]

omit [GoUnicode] in
theorem noServices_eq {s s' : Schema} (h : noServices s = noServices s') :
    s.webrpcVersion = s'.webrpcVersion ∧ s.schemaName = s'.schemaName ∧ s.schemaVersion = s'.schemaVersion ∧
    s.basePath = s'.basePath ∧ s.types = s'.types ∧ s.errors = s'.errors ∧ s.nils = s'.nils := by
  simp only [noServices, Schema.mk.injEq] at h
  simp [h]

/-- Name, versions, base path and which lists are nil. -/
def header (s : Schema) : Str × Str × Str × Str × SchemaNils :=
  (s.webrpcVersion, s.schemaName, s.schemaVersion, s.basePath, s.nils)

/-- Which objects there are after `declare`. -/
theorem declare_ids {path : Str} {ns : List Node} {s s' : Schema} (h : declare path ns s = .ok s') :
    header s' = header s ∧
    s'.types.map TypeDecl.ident = (s.types ++ declaredTypes path ns).map TypeDecl.ident ∧
    s'.services.map Service.ident = (s.services ++ declaredServices path ns).map Service.ident ∧
    ∃ es, eachIdx (makeError path) 0 (errors ns) = .ok es ∧ s'.errors = s.errors ++ es := by
  obtain ⟨s1, s2, es, s3, h1, h2, h3, h4, h5⟩ := declare_steps h
  have e1 := foldRes_inv (g := typeFrame) (fun _ _ _ => alias_frame) h1
  have e2 := foldRes_inv (g := typeFrame) (fun _ _ _ => enum_frame) h2
  have e4 := foldRes_inv (g := typeFrame) (fun _ _ _ => struct_frame) h4
  have e5 := foldRes_inv (g := serviceFrame) (fun _ _ _ => service_frame) h5
  simp only [typeFrame, serviceFrame, Prod.mk.injEq] at e1 e2 e4 e5
  obtain ⟨a1, a2, a3, a4, a5, a6, a7⟩ := noTypes_eq e1.1
  obtain ⟨b1, b2, b3, b4, b5, b6, b7⟩ := noTypes_eq e2.1
  obtain ⟨c1, c2, c3, c4, c5, c6, c7⟩ := noTypes_eq e4.1
  obtain ⟨d1, d2, d3, d4, d5, d6, d7⟩ := noServices_eq e5.1
  refine ⟨?_, ?_, ?_, es, h3, ?_⟩
  · simp only [header, d1, d2, d3, d4, c1, c2, c3, c4, b1, b2, b3, b4, a1, a2, a3, a4, d7, c7, b7, a7]; rfl
  · rw [d5, e4.2]; exact e2.2.trans e1.2
  · rw [e5.2, c6, b6, a6]; rfl
  · rw [d6, c5]; simp only [b5, a5]; rfl

omit [GoUnicode] in
theorem eachIdx_ok {α β : Type} {f : Nat → α → Res β} {i : Nat} {xs : List α} {ys : List β} :
    eachIdx f i xs = .ok ys ↔ Pointwise (fun (p : α × Nat) y => f p.2 p.1 = .ok y) (xs.zipIdx i) ys := by
  induction xs generalizing i ys with
  | nil =>
    constructor
    · intro h; simp [eachIdx] at h; subst h; exact .nil
    · intro h; cases h; rfl
  | cons x xs ih =>
    simp only [eachIdx, Res.bind_ok', List.zipIdx_cons, Res.ok.injEq]
    constructor
    · rintro ⟨y, h1, zs, h2, rfl⟩
      exact .cons h1 (ih.1 h2)
    · intro h
      cases h with
      | cons h1 h2 => exact ⟨_, h1, _, ih.2 h2, rfl⟩

omit [GoUnicode] in
theorem nodup_mapIdx_ptr {α : Type} (path : Str) (l : List α) : (l.mapIdx fun i _ => ((path, i) : Ptr)).Nodup := by
  rw [List.nodup_iff_pairwise_ne, List.pairwise_iff_getElem]
  intro i j hi hj hij
  simp only [List.getElem_mapIdx, ne_eq, Prod.mk.injEq, true_and]
  omega

omit [GoUnicode] in
/-- The types declared in a file are different objects, of this file. -/
theorem declaredTypes_ptr (path : Str) (ns : List Node) :
    ((declaredTypes path ns).map (·.ptr)).Nodup ∧ ∀ t ∈ declaredTypes path ns, t.ptr.1 = path := by
  unfold declaredTypes
  generalize hm : (aliases ns).map (fun n (p : Ptr) =>
      ({ ptr := p, kind := S "alias", name := n.name.val, comments := parseComment n.comment } : TypeDecl)) ++
    (enums ns).map (fun n (p : Ptr) => ({ ptr := p, kind := S "enum", name := n.name.val } : TypeDecl)) ++
    (structs ns).map (fun n (p : Ptr) =>
      ({ ptr := p, kind := S "struct", name := n.name.val, comments := parseComment n.comment } : TypeDecl)) = mks
  have hp : ∀ mk ∈ mks, ∀ p, (mk p).ptr = p := by
    intro mk hmk p
    rw [← hm] at hmk
    simp only [List.mem_append, List.mem_map] at hmk
    rcases hmk with (⟨_, _, rfl⟩ | ⟨_, _, rfl⟩) | ⟨_, _, rfl⟩ <;> rfl
  dsimp only
  constructor
  · have : (mks.mapIdx fun i mk => mk (path, i)).map (·.ptr) = mks.mapIdx fun i _ => ((path, i) : Ptr) := by
      apply List.ext_getElem (by simp)
      intro i h1 h2
      simp only [List.getElem_map, List.getElem_mapIdx]
      exact hp _ (List.getElem_mem _) _
    rw [this]
    exact nodup_mapIdx_ptr path mks
  · intro t ht
    rw [List.mem_mapIdx] at ht
    obtain ⟨i, hi, rfl⟩ := ht
    rw [hp _ (List.getElem_mem _)]

omit [GoUnicode] in
theorem declaredServices_ptr (path : Str) (ns : List Node) :
    ((declaredServices path ns).map (·.ptr)).Nodup ∧ ∀ t ∈ declaredServices path ns, t.ptr.1 = path := by
  unfold declaredServices
  constructor
  · have : ((services ns).mapIdx fun i n =>
      ({ ptr := (path, i), name := n.name.val, comments := parseComment n.comment } : Service)).map (·.ptr) =
        (services ns).mapIdx fun i _ => ((path, i) : Ptr) := by
      apply List.ext_getElem (by simp)
      intro i h1 h2
      simp only [List.getElem_map, List.getElem_mapIdx]
    rw [this]
    exact nodup_mapIdx_ptr path _
  · intro t ht
    rw [List.mem_mapIdx] at ht
    obtain ⟨i, hi, rfl⟩ := ht
    rfl

omit [GoUnicode] in
theorem makeErrors_ptr {path : Str} {es : List ErrorNode} {xs : List ErrorDecl}
    (h : eachIdx (makeError path) 0 es = .ok xs) :
    xs.map (·.ptr) = es.mapIdx fun i _ => ((path, i) : Ptr) := by
  rw [eachIdx_ok] at h
  have := h.map_eq (f := fun p : ErrorNode × Nat => ((path, p.2) : Ptr)) (g := fun e : ErrorDecl => e.ptr)
    (by
      rintro ⟨n, i⟩ y hy
      simp only [makeError] at hy
      split at hy <;> simp at hy
      rw [← hy])
  rw [← this, List.mapIdx_eq_zipIdx_map]

/-! ### Merging imports -/

omit [GoUnicode] in
theorem addNew_mem {α : Type} {ptr : α → Ptr} {name : α → Str} {members : List Str} {acc xs : List α} {y : α}
    (h : y ∈ addNew ptr name members acc xs) : y ∈ acc ∨ y ∈ xs ∧ isImportAllowed (name y) members = true := by
  unfold addNew at h
  induction xs generalizing acc with
  | nil => exact .inl h
  | cons x xs ih =>
    simp only [List.foldl_cons] at h
    rcases ih h with h1 | h1
    · split at h1
      · next hc =>
        rcases List.mem_append.1 h1 with h2 | h2
        · exact .inl h2
        · simp only [List.mem_singleton] at h2
          subst h2
          simp only [Bool.and_eq_true] at hc
          exact .inr ⟨by simp, hc.2⟩
      · exact .inl h1
    · exact .inr ⟨List.mem_cons_of_mem _ h1.1, h1.2⟩

omit [GoUnicode] in
theorem addNew_nodup {α : Type} {ptr : α → Ptr} {name : α → Str} {members : List Str} {acc xs : List α}
    (h : (acc.map ptr).Nodup) : ((addNew ptr name members acc xs).map ptr).Nodup := by
  unfold addNew
  induction xs generalizing acc with
  | nil => exact h
  | cons x xs ih =>
    simp only [List.foldl_cons]
    apply ih
    split
    · next hc =>
      simp only [Bool.and_eq_true, Bool.not_eq_true', List.any_eq_false, decide_eq_true_eq] at hc
      rw [List.map_append, List.nodup_append]
      refine ⟨h, by simp, ?_⟩
      intro a ha b hb
      simp only [List.map_cons, List.map_nil, List.mem_singleton] at hb
      subst hb
      rw [List.mem_map] at ha
      obtain ⟨y, hy, rfl⟩ := ha
      exact hc.1 y hy
    · exact h

omit [GoUnicode] in
theorem addNew_prefix {α : Type} {ptr : α → Ptr} {name : α → Str} {members : List Str} {acc xs : List α} :
    acc <+: addNew ptr name members acc xs := by
  unfold addNew
  induction xs generalizing acc with
  | nil => exact List.prefix_refl _
  | cons x xs ih =>
    simp only [List.foldl_cons]
    split
    · exact (List.prefix_append _ _).trans ih
    · exact ih

/-- What is known about the objects of a schema: types and errors are listed once, everything comes
from files satisfying `P`. -/
structure Owned (P : Str → Prop) (s : Schema) : Prop where
  types : (s.types.map (·.ptr)).Nodup
  errors : (s.errors.map (·.ptr)).Nodup
  typesFrom : ∀ t ∈ s.types, P t.ptr.1
  errorsFrom : ∀ t ∈ s.errors, P t.ptr.1
  servicesFrom : ∀ t ∈ s.services, P t.ptr.1

omit [GoUnicode] in
theorem owned_take {P : Str → Prop} {s m : Schema} {members : List Str} (h : Owned P s)
    (h1 : ∀ t ∈ m.types, P t.ptr.1) (h2 : ∀ t ∈ m.errors, P t.ptr.1) (h3 : ∀ t ∈ m.services, P t.ptr.1) :
    Owned P (takeImport s m members) where
  types := addNew_nodup h.types
  errors := addNew_nodup h.errors
  typesFrom t ht := by
    rcases addNew_mem ht with ht | ht
    · exact h.typesFrom t ht
    · exact h1 t ht.1
  errorsFrom t ht := by
    rcases addNew_mem ht with ht | ht
    · exact h.errorsFrom t ht
    · exact h2 t ht.1
  servicesFrom t ht := by
    rcases List.mem_append.1 ht with ht | ht
    · exact h.servicesFrom t ht
    · exact h3 t (List.mem_filter.1 ht).1

omit [GoUnicode] in
theorem owned_merge {P : Str → Prop} {s : Schema} {ps : List (ImportNode × Schema)} (h : Owned P s)
    (hp : ∀ p ∈ ps, (∀ t ∈ p.2.types, P t.ptr.1) ∧ (∀ t ∈ p.2.errors, P t.ptr.1) ∧
      ∀ t ∈ p.2.services, P t.ptr.1) : Owned P (mergeAll s ps) := by
  unfold mergeAll
  induction ps generalizing s with
  | nil => exact h
  | cons p ps ih =>
    simp only [List.foldl_cons]
    have := hp p (by simp)
    exact ih (owned_take h this.1 this.2.1 this.2.2) (fun q hq => hp q (by simp [hq]))

omit [GoUnicode] in
theorem defs_empty {s : Schema} {ds : List DefNode} (h : foldRes applyDef {} ds = .ok s) :
    s.types = [] ∧ s.errors = [] ∧ s.services = [] := by
  have := foldRes_inv (g := fun s : Schema => (s.types, s.errors, s.services)) (fun s x s' hx => by
    simp only [applyDef] at hx
    repeat' split at hx
    all_goals first
      | (simp only [Res.bind_ok, Res.failIf_ok, Res.ok.injEq] at hx; obtain ⟨_, _, rfl⟩ := hx; rfl)
      | simp at hx) h
  simpa using this

omit [GoUnicode] in
theorem header_take {s m : Schema} {members : List Str} : header (takeImport s m members) = header s := rfl

omit [GoUnicode] in
theorem header_merge {s : Schema} {ps : List (ImportNode × Schema)} : header (mergeAll s ps) = header s := by
  unfold mergeAll
  induction ps generalizing s with
  | nil => rfl
  | cons p ps ih => simp only [List.foldl_cons]; rw [ih]; rfl

/-- Validation keeps the objects. -/
theorem validate_ids {s s' : Schema} (h : validate s = .ok s') :
    s'.types.map TypeDecl.ident = s.types.map TypeDecl.ident ∧ s'.errors.map (·.ptr) = s.errors.map (·.ptr) ∧
    s'.services.map Service.ident = s.services.map Service.ident := by
  obtain ⟨-, -, b, ts, es, ss, -, hts, he, hss, rfl⟩ := validate_ok.1 h
  refine ⟨?_, ?_, ?_⟩
  · exact (hts.map_eq fun x y hxy => by
      have := (typeParse_ok hxy).2.2.2.1
      simp only [TypeDecl.sig, Prod.mk.injEq] at this
      simp [TypeDecl.ident, this]).symm
  · obtain ⟨tl, h1, h2, -⟩ := errorsParse_ok he
    simp only [h1, h2, List.nil_append, List.map_map]
    rfl
  · exact (hss.map_eq fun x y hxy => by
      obtain ⟨-, -, -, -, -, ms, -, rfl⟩ := serviceParse_ok.1 hxy
      rfl).symm

/-- The objects of the schema of a file. -/
theorem compiled_owned {fs : Files} {path : Str} {s : Schema} (h : Compiled fs path s) :
    Owned (Reach (Imports fs) path) s := by
  induction h with
  | @intro path ns s0 s1 s ps h1 h2 h3 hc h5 h6 ih =>
    have hacc := compiled_acc (.intro h1 h2 h3 hc h5 h6)
    have hpath : ∀ p ∈ ps, Imports fs path (importPath path p.1) := by
      intro p hp
      refine ⟨ns, h1, p.1, ?_, rfl⟩
      rw [← h3]; exact List.mem_map_of_mem hp
    -- the merged imports
    have hm : Owned (Path (Imports fs) path) (mergeAll s0 ps) := by
      obtain ⟨e1, e2, e3⟩ := defs_empty h2
      refine owned_merge ⟨by simp [e1], by simp [e2], by simp [e1], by simp [e2], by simp [e3]⟩ ?_
      intro p hp
      have ho := ih p hp
      have hr : ∀ f, Reach (Imports fs) (importPath path p.1) f → Path (Imports fs) path f := by
        intro f hf
        rcases hf with rfl | hf
        · exact .edge (hpath p hp)
        · exact .step (hpath p hp) hf
      exact ⟨fun t ht => hr _ (ho.typesFrom t ht), fun t ht => hr _ (ho.errorsFrom t ht),
        fun t ht => hr _ (ho.servicesFrom t ht)⟩
    have hne : ∀ f, Path (Imports fs) path f → f ≠ path := by
      rintro f hf rfl
      exact acc_no_cycle hacc hf
    obtain ⟨-, d2, d3, es, d4, d5⟩ := declare_ids h5
    obtain ⟨v1, v2, v3⟩ := validate_ids h6
    have ht : s.types.map (·.ptr) = (mergeAll s0 ps).types.map (·.ptr) ++ (declaredTypes path ns).map (·.ptr) := by
      have := congrArg (List.map Prod.fst) (v1.trans d2)
      simpa [TypeDecl.ident, Function.comp_def] using this
    have he : s.errors.map (·.ptr) = (mergeAll s0 ps).errors.map (·.ptr) ++ es.map (·.ptr) := by
      rw [v2, d5, List.map_append]
    have hs : s.services.map (·.ptr) =
        (mergeAll s0 ps).services.map (·.ptr) ++ (declaredServices path ns).map (·.ptr) := by
      have := congrArg (List.map Prod.fst) (v3.trans d3)
      simpa [Service.ident, Function.comp_def] using this
    obtain ⟨t1, t2⟩ := declaredTypes_ptr path ns
    obtain ⟨u1, u2⟩ := declaredServices_ptr path ns
    have ep := makeErrors_ptr d4
    have hep : ∀ p ∈ es.map (·.ptr), p.1 = path := by
      intro p hp
      rw [ep, List.mem_mapIdx] at hp
      obtain ⟨i, _, rfl⟩ := hp
      rfl
    refine ⟨?_, ?_, ?_, ?_, ?_⟩
    · rw [ht, List.nodup_append]
      refine ⟨hm.types, t1, ?_⟩
      intro a ha b hb hab
      rw [List.mem_map] at ha hb
      obtain ⟨x, hx, rfl⟩ := ha
      obtain ⟨y, hy, rfl⟩ := hb
      exact hne _ (hm.typesFrom x hx) (by rw [hab]; exact t2 y hy)
    · rw [he, List.nodup_append]
      refine ⟨hm.errors, by rw [ep]; exact nodup_mapIdx_ptr _ _, ?_⟩
      intro a ha b hb hab
      have := hep b hb
      rw [List.mem_map] at ha
      obtain ⟨x, hx, rfl⟩ := ha
      exact hne _ (hm.errorsFrom x hx) (by rw [hab]; exact this)
    · intro t h
      have : t.ptr ∈ s.types.map (·.ptr) := List.mem_map_of_mem h
      rw [ht, List.mem_append] at this
      rcases this with h' | h'
      · rw [List.mem_map] at h'
        obtain ⟨x, hx, hx'⟩ := h'
        rw [← hx']; exact .inr (hm.typesFrom x hx)
      · rw [List.mem_map] at h'
        obtain ⟨x, hx, hx'⟩ := h'
        rw [← hx', t2 x hx]; exact .inl rfl
    · intro t h
      have : t.ptr ∈ s.errors.map (·.ptr) := List.mem_map_of_mem h
      rw [he, List.mem_append] at this
      rcases this with h' | h'
      · rw [List.mem_map] at h'
        obtain ⟨x, hx, hx'⟩ := h'
        rw [← hx']; exact .inr (hm.errorsFrom x hx)
      · rw [hep _ h']; exact .inl rfl
    · intro t h
      have : t.ptr ∈ s.services.map (·.ptr) := List.mem_map_of_mem h
      rw [hs, List.mem_append] at this
      rcases this with h' | h'
      · rw [List.mem_map] at h'
        obtain ⟨x, hx, hx'⟩ := h'
        rw [← hx']; exact .inr (hm.servicesFrom x hx)
      · rw [List.mem_map] at h'
        obtain ⟨x, hx, hx'⟩ := h'
        rw [← hx', u2 x hx]; exact .inl rfl

end Verif.Compile
