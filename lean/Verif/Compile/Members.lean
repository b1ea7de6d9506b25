import Verif.Compile.Declared
import Verif.Compile.Cycles
import Verif.Props.Validation
/-!
# Which objects of imported files a schema has

Every type, error and service of a schema looks the same as in the schema of the file that declares
it (up to the trees of type expressions, which each importing file computes anew).
-/

namespace Verif.Compile
open Verif.Schema Verif.Spec
open Verif.Ridl (Token Node DefNode ImportNode EnumNode StructNode ErrorNode ArgNode AnnNode MethodNode
  ServiceNode AliasNode Graph)

/-- A field without the tree of its type expression. -/
def _root_.Verif.Schema.Field.bare (f : Field) : Field := { f with type := none }

/-- A type without the trees of the type expressions of its fields. -/
def _root_.Verif.Schema.TypeDecl.bare (t : TypeDecl) : TypeDecl := { t with fields := t.fields.map Field.bare }

/-- An argument without the tree of its type expression. -/
def _root_.Verif.Schema.Argument.bare (a : Argument) : Argument := { a with type := none }

/-- A method without the trees of the type expressions of its arguments and results. -/
def _root_.Verif.Schema.Method.bare (m : Method) : Method :=
  { m with inputs := m.inputs.map Argument.bare, outputs := m.outputs.map Argument.bare }

/-- A service without the trees of type expressions. -/
def _root_.Verif.Schema.Service.bare (v : Service) : Service := { v with methods := v.methods.map Method.bare }

variable [GoUnicode]

theorem typeParse_bare {ts : List TypeDecl} {t t' : TypeDecl} (h : typeParse ts t = .ok t') : t'.bare = t.bare := by
  obtain ⟨-, -, -, -, h⟩ := typeParse_ok h
  rcases h with ⟨-, rfl, -⟩ | ⟨-, rfl, -⟩ | ⟨-, -, fs, rfl, hp⟩
  · rfl
  · rfl
  · simp only [TypeDecl.bare]
    rw [hp.map_eq (f := Field.bare) (g := Field.bare)]
    intro x y hxy
    simp only [structField, Res.bind_ok, Res.failIf_ok, Res.ok.injEq] at hxy
    obtain ⟨_, _, _, _, rfl⟩ := hxy
    rfl

theorem argParse_bare {ts : List TypeDecl} {a a' : Argument} (h : argParse ts a = .ok a') : a.bare = a'.bare := by
  simp only [argParse, Res.bind_ok, Res.failIf_ok, Res.ok.injEq] at h
  obtain ⟨_, _, _, _, rfl⟩ := h
  rfl

theorem methodParse_bare {ts : List TypeDecl} {es : List ErrorDecl} {m m' : Method} (h : methodParse ts es m = .ok m') :
    m.bare = m'.bare := by
  simp only [methodParse, Res.bind_ok, Res.failIf_ok, Res.ok.injEq] at h
  obtain ⟨_, _, ins, h1, _, _, outs, h2, _, _, rfl⟩ := h
  simp only [Method.bare]
  rw [(each_ok.1 h1).map_eq (f := Argument.bare) (g := Argument.bare) (fun _ _ => argParse_bare),
    (each_ok.1 h2).map_eq (f := Argument.bare) (g := Argument.bare) (fun _ _ => argParse_bare)]

theorem serviceParse_bare {ts : List TypeDecl} {es : List ErrorDecl} {ss : List Service} {v v' : Service}
    (h : serviceParse ts es ss v = .ok v') : v'.bare = v.bare := by
  obtain ⟨-, -, -, -, -, ms, hp, rfl⟩ := serviceParse_ok.1 h
  simp only [Service.bare]
  rw [hp.map_eq (f := Method.bare) (g := Method.bare) (fun _ _ => methodParse_bare)]

/-- The types, services and errors after the imports of a file are those of the resulting schema, up to
trees. -/
theorem compiled_imported {fs : Files} {path : Str} {ns : List Node} {s0 s1 s : Schema}
    {ps : List (ImportNode × Schema)} (h1 : readNodes fs path = .ok ns)
    (h2 : foldRes applyDef {} (definitions ns) = .ok s0) (h3 : ps.map Prod.fst = imports ns)
    (h4 : ∀ p ∈ ps, Compiled fs (importPath path p.1) p.2) (h5 : declare path ns (mergeAll s0 ps) = .ok s1)
    (h6 : validate s1 = .ok s) :
    (∃ I D, s.types = I ++ D ∧ I.map TypeDecl.bare = (mergeAll s0 ps).types.map TypeDecl.bare ∧
      D.map TypeDecl.ident = (declaredTypes path ns).map TypeDecl.ident) ∧
    (∃ I D, s.services = I ++ D ∧ I.map Service.bare = (mergeAll s0 ps).services.map Service.bare ∧
      D.map Service.ident = (declaredServices path ns).map Service.ident) ∧
    ∃ es, eachIdx (makeError path) 0 (errors ns) = .ok es ∧
      s.errors = ((mergeAll s0 ps).errors ++ es).map fun e => { e with name := trimSpace e.name } := by
  obtain ⟨-, d2, d3, es, d4, d5⟩ := declare_ids h5
  obtain ⟨v1, v2, v3⟩ := validate_ids h6
  obtain ⟨⟨I, A, E, T, e1, e2, -⟩, I', V, f1, f2, -⟩ := compiled_means h1 h2 h3 h4 h5 h6
  refine ⟨⟨I, A ++ E ++ T, by rw [e1]; simp, (e2.map_eq fun x y h => (typeParse_bare h).symm).symm, ?_⟩,
    ⟨I', V, f1, (f2.map_eq fun x y h => (serviceParse_bare h).symm).symm, ?_⟩, es, d4, ?_⟩
  · have hh := v1.trans d2
    rw [e1, List.append_assoc, List.append_assoc, List.map_append, List.map_append (l₁ := (mergeAll s0 ps).types)] at hh
    have := (List.append_inj hh (by simp [e2.length])).2
    rw [List.append_assoc]; exact this
  · have hh := v3.trans d3
    rw [f1, List.map_append, List.map_append] at hh
    exact (List.append_inj hh (by simp [f2.length])).2
  · rw [(Verif.Props.C19_errors _ _ h6).2.2.2, d5]

omit [GoUnicode] in
theorem bare_ptr {t t' : TypeDecl} (h : t.bare = t'.bare) : t.ident = t'.ident := by
  simp only [TypeDecl.bare, TypeDecl.mk.injEq] at h
  simp [TypeDecl.ident, h]

omit [GoUnicode] in
theorem bare_ptr_service {t t' : Service} (h : t.bare = t'.bare) : t.ident = t'.ident := by
  simp only [Service.bare, Service.mk.injEq] at h
  simp [Service.ident, h]

omit [GoUnicode] in
/-- What merging adds. -/
theorem merge_types {s : Schema} {ps : List (ImportNode × Schema)} {t : TypeDecl} (h : t ∈ (mergeAll s ps).types) :
    t ∈ s.types ∨ ∃ p ∈ ps, t ∈ p.2.types ∧ isImportAllowed t.name (p.1.members.map (·.val)) = true := by
  unfold mergeAll at h
  induction ps generalizing s with
  | nil => exact .inl h
  | cons p ps ih =>
    rcases ih h with h | ⟨q, hq, h⟩
    · rcases addNew_mem h with h | h
      · exact .inl h
      · exact .inr ⟨p, by simp, h⟩
    · exact .inr ⟨q, by simp [hq], h⟩

omit [GoUnicode] in
theorem merge_errors {s : Schema} {ps : List (ImportNode × Schema)} {t : ErrorDecl} (h : t ∈ (mergeAll s ps).errors) :
    t ∈ s.errors ∨ ∃ p ∈ ps, t ∈ p.2.errors ∧ isImportAllowed t.name (p.1.members.map (·.val)) = true := by
  unfold mergeAll at h
  induction ps generalizing s with
  | nil => exact .inl h
  | cons p ps ih =>
    rcases ih h with h | ⟨q, hq, h⟩
    · rcases addNew_mem h with h | h
      · exact .inl h
      · exact .inr ⟨p, by simp, h⟩
    · exact .inr ⟨q, by simp [hq], h⟩

omit [GoUnicode] in
theorem merge_services {s : Schema} {ps : List (ImportNode × Schema)} {t : Service} :
    t ∈ (mergeAll s ps).services ↔
    t ∈ s.services ∨ ∃ p ∈ ps, t ∈ p.2.services ∧ isImportAllowed t.name (p.1.members.map (·.val)) = true := by
  unfold mergeAll
  induction ps generalizing s with
  | nil => simp
  | cons p ps ih =>
    rw [List.foldl_cons, ih]
    simp only [takeImport, List.mem_append, List.mem_filter, List.mem_cons]
    constructor
    · rintro ((h | h) | ⟨q, hq, h⟩)
      · exact .inl h
      · exact .inr ⟨p, .inl rfl, h⟩
      · exact .inr ⟨q, .inr hq, h⟩
    · rintro (h | ⟨q, rfl | hq, h⟩)
      · exact .inl (.inl h)
      · exact .inl (.inr h)
      · exact .inr ⟨q, hq, h⟩

/-- Every object of the schema of a file looks like its original in the schema of the file declaring
it. -/
theorem compiled_original {fs : Files} {path : Str} {s : Schema} (h : Compiled fs path s) :
    (∀ t ∈ s.types, ∃ m, Compiled fs t.ptr.1 m ∧ ∃ u ∈ m.types, u.bare = t.bare) ∧
    (∀ t ∈ s.errors, ∃ m, Compiled fs t.ptr.1 m ∧ t ∈ m.errors) ∧
    (∀ t ∈ s.services, ∃ m, Compiled fs t.ptr.1 m ∧ ∃ u ∈ m.services, u.bare = t.bare) := by
  induction h with
  | @intro path ns s0 s1 s ps h1 h2 h3 hc h5 h6 ih =>
    have hself := Compiled.intro h1 h2 h3 hc h5 h6
    obtain ⟨⟨I, D, e1, e2, e3⟩, ⟨I', D', f1, f2, f3⟩, es, g1, g2⟩ := compiled_imported h1 h2 h3 hc h5 h6
    obtain ⟨z1, z2, z3⟩ := defs_empty h2
    refine ⟨?_, ?_, ?_⟩
    · intro t ht
      rw [e1, List.mem_append] at ht
      rcases ht with hi | hd
      · have : t.bare ∈ (mergeAll s0 ps).types.map TypeDecl.bare := by rw [← e2]; exact List.mem_map_of_mem hi
        rw [List.mem_map] at this
        obtain ⟨u, hu, hb⟩ := this
        rcases merge_types hu with hu | ⟨p, hp, hu, -⟩
        · simp [z1] at hu
        · obtain ⟨m, hm, w, hw, hb'⟩ := (ih p hp).1 u hu
          have hp' : u.ptr = t.ptr := congrArg Prod.fst (bare_ptr hb)
          exact ⟨m, hp' ▸ hm, w, hw, hb'.trans hb⟩
      · have : t.ident ∈ (declaredTypes path ns).map TypeDecl.ident := by rw [← e3]; exact List.mem_map_of_mem hd
        rw [List.mem_map] at this
        obtain ⟨u, hu, hb⟩ := this
        have hp : t.ptr = u.ptr := congrArg Prod.fst hb.symm
        have : t.ptr.1 = path := by rw [hp, (declaredTypes_ptr path ns).2 u hu]
        exact ⟨s, this ▸ hself, t, by simp [e1, hd], rfl⟩
    · intro t ht
      have ht' := ht
      rw [g2, List.mem_map] at ht
      obtain ⟨e, he, rfl⟩ := ht
      rcases List.mem_append.1 he with hi | hd
      · rcases merge_errors hi with hu | ⟨p, hp, hu, -⟩
        · simp [z2] at hu
        · obtain ⟨m, hm, hw⟩ := (ih p hp).2.1 e hu
          -- the name is trimmed already
          have htr : trimSpace e.name = e.name := by
            cases hm with
            | intro _ _ _ _ _ k6 =>
              rw [(Verif.Props.C19_errors _ _ k6).2.2.2, List.mem_map] at hw
              obtain ⟨e', -, rfl⟩ := hw
              exact Verif.Props.trimSpace_idem _
          exact ⟨m, hm, by rw [htr]; exact hw⟩
      · have hx : e.ptr ∈ es.map (·.ptr) := List.mem_map_of_mem hd
        rw [makeErrors_ptr g1, List.mem_mapIdx] at hx
        obtain ⟨i, _, hx⟩ := hx
        exact ⟨s, by dsimp only; rw [← hx]; exact hself, ht'⟩
    · intro t ht
      rw [f1, List.mem_append] at ht
      rcases ht with hi | hd
      · have : t.bare ∈ (mergeAll s0 ps).services.map Service.bare := by rw [← f2]; exact List.mem_map_of_mem hi
        rw [List.mem_map] at this
        obtain ⟨u, hu, hb⟩ := this
        rcases merge_services.1 hu with hu | ⟨p, hp, hu, -⟩
        · simp [z3] at hu
        · obtain ⟨m, hm, w, hw, hb'⟩ := (ih p hp).2.2 u hu
          have hp' : u.ptr = t.ptr := congrArg Prod.fst (bare_ptr_service hb)
          exact ⟨m, hp' ▸ hm, w, hw, hb'.trans hb⟩
      · have : t.ident ∈ (declaredServices path ns).map Service.ident := by rw [← f3]; exact List.mem_map_of_mem hd
        rw [List.mem_map] at this
        obtain ⟨u, hu, hb⟩ := this
        have hp : t.ptr = u.ptr := congrArg Prod.fst hb.symm
        have : t.ptr.1 = path := by rw [hp, (declaredServices_ptr path ns).2 u hu]
        exact ⟨s, this ▸ hself, t, by simp [f1, hd], rfl⟩

omit [GoUnicode] in
theorem nodup_ptr_eq {α β : Type} {ptr : α → β} {l : List α} (h : (l.map ptr).Nodup) {x y : α} (hx : x ∈ l)
    (hy : y ∈ l) (he : ptr x = ptr y) : x = y := by
  rw [List.nodup_iff_pairwise_ne, List.pairwise_map] at h
  induction l with
  | nil => simp at hx
  | cons a l ih =>
    cases h with
    | cons h1 h2 =>
      rcases List.mem_cons.1 hx with rfl | hx'
      · rcases List.mem_cons.1 hy with rfl | hy'
        · rfl
        · exact absurd he (h1 y hy')
      · rcases List.mem_cons.1 hy with rfl | hy'
        · exact absurd he.symm (h1 x hx')
        · exact ih h2 hx' hy'

/-- The same type in two schemas. -/
theorem types_agree {fs : Files} {a b : Str} {s m : Schema} (hs : Compiled fs a s) (hm : Compiled fs b m)
    {t u : TypeDecl} (ht : t ∈ s.types) (hu : u ∈ m.types) (h : t.ptr = u.ptr) : t.bare = u.bare := by
  obtain ⟨o, ho, x, hx, ex⟩ := (compiled_original hs).1 t ht
  obtain ⟨o', ho', y, hy, ey⟩ := (compiled_original hm).1 u hu
  rw [← h] at ho'
  cases compiled_det ho ho'
  have hp : x.ptr = y.ptr := by
    have h1 : x.ptr = t.ptr := congrArg Prod.fst (bare_ptr ex)
    have h2 : y.ptr = u.ptr := congrArg Prod.fst (bare_ptr ey)
    rw [h1, h2, h]
  rw [← ex, ← ey, nodup_ptr_eq (compiled_owned ho).types hx hy hp]

/-- The same error in two schemas. -/
theorem errors_agree {fs : Files} {a b : Str} {s m : Schema} (hs : Compiled fs a s) (hm : Compiled fs b m)
    {t u : ErrorDecl} (ht : t ∈ s.errors) (hu : u ∈ m.errors) (h : t.ptr = u.ptr) : t = u := by
  obtain ⟨o, ho, hx⟩ := (compiled_original hs).2.1 t ht
  obtain ⟨o', ho', hy⟩ := (compiled_original hm).2.1 u hu
  rw [← h] at ho'
  cases compiled_det ho ho'
  exact nodup_ptr_eq (compiled_owned ho).errors hx hy h

omit [GoUnicode] in
/-- Everything allowed is in, up to identity. -/
theorem addNew_has {α : Type} {ptr : α → Ptr} {name : α → Str} {members : List Str} {acc xs : List α} {x : α}
    (hx : x ∈ xs) (ha : isImportAllowed (name x) members = true) :
    ∃ y ∈ addNew ptr name members acc xs, ptr y = ptr x := by
  induction xs generalizing acc with
  | nil => simp at hx
  | cons z xs ih =>
    rcases List.mem_cons.1 hx with rfl | hx
    · have hpre : ∀ a, a <+: addNew ptr name members a xs := fun a => addNew_prefix
      simp only [addNew, List.foldl_cons]
      by_cases hc : acc.any fun y => ptr y = ptr x
      · rw [List.any_eq_true] at hc
        obtain ⟨y, hy, he⟩ := hc
        refine ⟨y, ?_, by simpa using he⟩
        apply (hpre _).subset
        split <;> simp [hy]
      · refine ⟨x, ?_, rfl⟩
        apply (hpre _).subset
        rw [if_pos (by simp [Bool.eq_false_iff.2 hc, ha])]
        simp
    · exact ih hx

omit [GoUnicode] in
theorem merge_types_mono {s : Schema} {ps : List (ImportNode × Schema)} :
    s.types <+: (mergeAll s ps).types ∧ s.errors <+: (mergeAll s ps).errors := by
  unfold mergeAll
  induction ps generalizing s with
  | nil => exact ⟨List.prefix_refl _, List.prefix_refl _⟩
  | cons p ps ih => 
    have := ih (s := takeImport s p.2 (p.1.members.map (·.val)))
    exact ⟨addNew_prefix.trans this.1, addNew_prefix.trans this.2⟩

omit [GoUnicode] in
theorem merge_types_has {s : Schema} {ps : List (ImportNode × Schema)} {p : ImportNode × Schema} {t : TypeDecl}
    (hp : p ∈ ps) (ht : t ∈ p.2.types) (ha : isImportAllowed t.name (p.1.members.map (·.val)) = true) :
    ∃ u ∈ (mergeAll s ps).types, u.ptr = t.ptr := by
  induction ps generalizing s with
  | nil => simp at hp
  | cons q ps ih =>
    rcases List.mem_cons.1 hp with rfl | hp
    · obtain ⟨y, hy, he⟩ := addNew_has (ptr := TypeDecl.ptr) (name := TypeDecl.name) (acc := s.types) ht ha
      exact ⟨y, (merge_types_mono (s := takeImport s p.2 (p.1.members.map (·.val))) (ps := ps)).1.subset hy, he⟩
    · exact ih hp

omit [GoUnicode] in
theorem merge_errors_has {s : Schema} {ps : List (ImportNode × Schema)} {p : ImportNode × Schema} {t : ErrorDecl}
    (hp : p ∈ ps) (ht : t ∈ p.2.errors) (ha : isImportAllowed t.name (p.1.members.map (·.val)) = true) :
    ∃ u ∈ (mergeAll s ps).errors, u.ptr = t.ptr := by
  induction ps generalizing s with
  | nil => simp at hp
  | cons q ps ih =>
    rcases List.mem_cons.1 hp with rfl | hp
    · obtain ⟨y, hy, he⟩ := addNew_has (ptr := ErrorDecl.ptr) (name := ErrorDecl.name) (acc := s.errors) ht ha
      exact ⟨y, (merge_types_mono (s := takeImport s p.2 (p.1.members.map (·.val))) (ps := ps)).2.subset hy, he⟩
    · exact ih hp

end Verif.Compile
