import Verif.Schema.FilterLemmas
/-! # C37-C39: selecting services, methods and types -/

namespace Verif.Props
open Verif.Schema Verif.Spec

/-! ### C37 -/

/-- C37: with a list of names, the services kept are exactly those whose name is in the list, in the
order of the schema; nothing else changes. -/
theorem C37_selected (s : Schema) (names : List Str) (hne : names ≠ []) :
    (∀ v : Service, v ∈ (matchServices s names).services ↔ v ∈ s.services ∧ v.name ∈ names) ∧
    (matchServices s names).services.Sublist s.services ∧
    (∀ v : Service, v.name ∈ names → (matchServices s names).services.countP (·.name == v.name)
      = s.services.countP (·.name == v.name)) ∧
    { matchServices s names with services := s.services, nils := s.nils } = s := by
  have h0 : matchServices s names = { s with services := s.services.filter (fun v => names.contains v.name), nils := { s.nils with services := true } } := by
    unfold matchServices
    rw [if_neg (by simp [hne])]
  rw [h0]
  refine ⟨fun v => by simp [List.mem_filter], List.filter_sublist, ?_, rfl⟩
  intro v hv
  simp only [List.countP_filter]
  congr 1
  funext w
  by_cases h : w.name = v.name <;> simp [h, hv]

/-- C37: an empty list of names selects everything. -/
theorem C37_empty (s : Schema) : matchServices s [] = s := rfl

example : ["A".toList] ≠ ([] : List Str) := by decide

/-! ### C38 -/

theorem onlySpaces_iff (v : Str) : onlySpaces v = true ↔ ∀ c ∈ v, c = ' ' := by
  unfold onlySpaces; simp

theorem annotated_iff (m : Method) (anns : List (Str × Str)) : annotated m anns = true ↔ CarriesOne m anns := by
  induction anns with
  | nil => simp [annotated, CarriesOne]
  | cons a r ih =>
    obtain ⟨name, value⟩ := a
    have hcons : CarriesOne m ((name, value) :: r) ↔ Carries m name value ∨ CarriesOne m r := by
      simp [CarriesOne]
    rw [hcons, ← ih]
    rw [annotated]
    split
    · rename_i hl
      have : ¬ Carries m name value := by
        rintro ⟨ann, h, _⟩; rw [hl] at h; cases h
      simp [this]
    · rename_i ann hl
      have hC : Carries m name value ↔ name = ann.annotationType ∧ (onlySpaces value = true ∨ value = ann.value) := by
        constructor
        · rintro ⟨ann', h, h1, h2⟩
          rw [hl] at h; cases h
          refine ⟨h1.symm, ?_⟩
          rcases h2 with h2 | h2
          · exact .inl ((onlySpaces_iff _).2 h2)
          · exact .inr h2.symm
        · rintro ⟨h1, h2⟩
          refine ⟨ann, hl, h1.symm, ?_⟩
          rcases h2 with h2 | h2
          · exact .inl ((onlySpaces_iff _).1 h2)
          · exact .inr h2.symm
      rw [hC]
      by_cases hs : onlySpaces value = true
      · simp only [hs, if_true, true_or, and_true]
        by_cases hn : name = ann.annotationType
        · simp [hn]
        · simp [hn]
      · simp only [hs, if_false, false_or, Bool.false_eq_true]
        by_cases hn : name = ann.annotationType ∧ value = ann.value
        · simp [hn]
        · simp [hn]

/-- What a method filter does: in every service the methods with `p` stay, in their order, and nothing
else changes. -/
def KeepsMethods (p : Method → Prop) (s s' : Schema) : Prop :=
  { s' with services := s.services } = s ∧ s'.services.length = s.services.length ∧
  ∀ (i : Nat) (v : Service), s.services[i]? = some v → ∃ v' : Service, s'.services[i]? = some v' ∧ { v' with methods := v.methods, nils := v.nils : Service } = v ∧
    v'.methods.Sublist v.methods ∧ ∀ m, m ∈ v'.methods ↔ m ∈ v.methods ∧ p m

/-- C38: the match filter keeps exactly the methods carrying one of the annotations. -/
theorem C38_match (s : Schema) (anns : List (Str × Str)) :
    KeepsMethods (fun m => CarriesOne m anns) s (matchMethods s anns) := by
  refine ⟨rfl, by simp [matchMethods], ?_⟩
  intro i v hv
  refine ⟨{ v with methods := v.methods.filter (annotated · anns), nils := { v.nils with methods := true } }, by simp [matchMethods, hv], rfl, List.filter_sublist, ?_⟩
  intro m
  simp only [List.mem_filter, annotated_iff]

/-- C38: the ignore filter keeps exactly the methods carrying none of them. -/
theorem C38_ignore (s : Schema) (anns : List (Str × Str)) :
    KeepsMethods (fun m => ¬ CarriesOne m anns) s (ignoreMethods s anns) := by
  refine ⟨rfl, by simp [ignoreMethods], ?_⟩
  intro i v hv
  refine ⟨{ v with methods := v.methods.filter (fun m => !annotated m anns), nils := { v.nils with methods := true } }, by simp [ignoreMethods, hv], rfl, List.filter_sublist, ?_⟩
  intro m
  simp only [List.mem_filter, Bool.not_eq_true', ← Bool.not_eq_true, annotated_iff]

/-- C38: every method is kept by exactly one of the two filters: the numbers of methods add up. -/
theorem C38_partition (s : Schema) (anns : List (Str × Str)) (i : Nat) (v a b : Service)
    (h : s.services[i]? = some v) (ha : (matchMethods s anns).services[i]? = some a)
    (hb : (ignoreMethods s anns).services[i]? = some b) :
    (a.methods ++ b.methods).Perm v.methods ∧ ∀ m ∈ a.methods, ∀ n ∈ b.methods, m ≠ n := by
  simp only [matchMethods, ignoreMethods, List.getElem?_map, h, Option.map_some, Option.some.injEq] at ha hb
  subst ha hb
  refine ⟨List.filter_append_perm _ _, ?_⟩
  intro m hm n hn hmn
  subst hmn
  have h1 := (List.mem_filter.1 hm).2
  have h2 := (List.mem_filter.1 hn).2
  simp [h1] at h2

/-- C38: the result does not depend on the order in which the requested annotations are visited. -/
theorem C38_order (s : Schema) (anns anns' : List (Str × Str)) (h : anns.Perm anns') :
    matchMethods s anns = matchMethods s anns' ∧ ignoreMethods s anns = ignoreMethods s anns' := by
  have : ∀ m, annotated m anns = annotated m anns' := by
    intro m
    rw [Bool.eq_iff_iff, annotated_iff, annotated_iff]
    unfold CarriesOne
    simp only [h.mem_iff]
  unfold matchMethods ignoreMethods
  simp only [this, and_self]

example : Carries { name := S "M", annotations := [(S "auth", ⟨S "auth", S "admin"⟩)] } (S "auth") (S "admin") ∧
    Carries { name := S "M", annotations := [(S "auth", ⟨S "auth", S "admin"⟩)] } (S "auth") (S " ") ∧
    ¬ Carries { name := S "M", annotations := [(S "auth", ⟨S "auth", S "admin"⟩)] } (S "auth") (S "user") := by
  refine ⟨⟨_, rfl, rfl, .inr rfl⟩, ⟨_, rfl, rfl, .inl (by decide)⟩, ?_⟩
  rintro ⟨ann, h, _, h2⟩
  have : ann = ⟨S "auth", S "admin"⟩ := by
    have h3 : List.lookup (S "auth") [(S "auth", (⟨S "auth", S "admin"⟩ : Annotation))] = some ⟨S "auth", S "admin"⟩ := by decide
    rw [h3] at h; exact (Option.some.inj h).symm
  subst this
  rcases h2 with h2 | h2
  · revert h2; decide
  · revert h2; decide

/-! ### C39 -/

theorem needs_mem {ts : List TypeDecl} {a : VarType} {u : TypeDecl} (h : Needs ts a u) : u ∈ ts := by
  induction h with
  | here h =>
    rcases h with ⟨_, _, _, _, b, c, h, _⟩ | ⟨_, _, _, _, b, c, h, _⟩
    · rw [h]; simp
    · rw [h]; simp
  | field _ _ _ _ _ ih => exact ih

theorem treeShake_some (n : Nat) (s s' : Schema) (names : List Str) (h : treeShakeN n s names = some s') :
    ∃ used : List Str, s' = { s with types := s.types.filter (fun t => used.contains t.name), nils := { s.nils with types := true } } ∧
      ∀ w, w ∈ used ↔ ∃ v ∈ s.services, v.name ∈ names ∧ ∃ a, ArgOf v a ∧
        ∃ u, Needs s.types a u ∧ w = u.name ∧ w ≠ [] := by
  unfold treeShakeN at h
  dsimp only at h
  split at h
  · rename_i used other hu ho
    refine ⟨used, (Option.some.inj h).symm, ?_⟩
    intro w
    obtain ⟨_, h2⟩ := markAll_some hu
    rw [h2]
    constructor
    · rintro ⟨v, hv, a, ha, hw⟩
      obtain ⟨hv1, hv2⟩ := List.mem_filter.1 hv
      obtain ⟨_, h4⟩ := markAll_some ha
      obtain ⟨x, hx, b, hb, hw⟩ := (h4 w).1 hw
      rw [markVarN_some n hb] at hw
      exact ⟨v, hv1, by simpa using hv2, x, mem_serviceVars.1 hx, hw⟩
    · rintro ⟨v, hv, hvn, x, hx, hw⟩
      have hv' : v ∈ s.services.filter fun v => names.contains v.name := List.mem_filter.2 ⟨hv, by simpa using hvn⟩
      obtain ⟨a, ha⟩ := (markAll_some hu).1 v hv'
      obtain ⟨h3, h4⟩ := markAll_some ha
      obtain ⟨b, hb⟩ := h3 x (mem_serviceVars.2 hx)
      exact ⟨v, hv', a, ha, (h4 w).2 ⟨x, mem_serviceVars.2 hx, b, hb, (markVarN_some n hb w).2 hw⟩⟩
  · cases h

/-- C39: when tree shaking ends, the types kept are exactly those needed by the selected services; the
rest of the schema stays as it was. -/
theorem C39_exact (n : Nat) (s s' : Schema) (names : List Str) (h : treeShakeN n s names = some s') :
    { s' with types := s.types, nils := s.nils } = s ∧ s'.types.Sublist s.types ∧
    ∀ t ∈ s.types, t ∈ s'.types ↔ NeededBy s names t := by
  obtain ⟨used, rfl, hu⟩ := treeShake_some n s s' names h
  refine ⟨rfl, List.filter_sublist, ?_⟩
  intro t ht
  simp only [List.mem_filter, ht, true_and, List.contains_iff_mem, hu]
  constructor
  · rintro ⟨v, hv, hvn, a, ha, u, hn, hw, hne⟩
    exact ⟨hne, v, hv, hvn, a, ha, u, hn, hw.symm⟩
  · rintro ⟨hne, v, hv, hvn, a, ha, u, hn, hw⟩
    exact ⟨v, hv, hvn, a, ha, u, hn, hw.symm, hne⟩

/-- C39: with distinct type names nothing unneeded is kept. -/
theorem C39_only_needed (n : Nat) (s s' : Schema) (names : List Str) (h : treeShakeN n s names = some s')
    (huniq : ∀ t ∈ s.types, ∀ u ∈ s.types, t.name = u.name → t = u) (t : TypeDecl) (ht : t ∈ s'.types) :
    ∃ v ∈ s.services, v.name ∈ names ∧ ∃ a, ArgOf v a ∧ Needs s.types a t := by
  obtain ⟨h1, h2, h3⟩ := C39_exact n s s' names h
  have hts := h2.subset ht
  obtain ⟨_, v, hv, hvn, a, ha, u, hn, hw⟩ := (h3 t hts).1 ht
  have hu : u ∈ s.types := needs_mem hn
  rw [huniq t hts u hu hw.symm]
  exact ⟨v, hv, hvn, a, ha, hn⟩

/-- C39: tree shaking ends exactly when no argument or result of any method (of any service, selected
or not) can hold a struct nested in itself. -/
theorem C39_ends (s : Schema) (names : List Str) :
    (∃ n, (treeShakeN n s names).isSome) ↔ ¬ RecursiveArgs s := by
  have hall : ∀ n, (treeShakeN n s names).isSome ↔
      ∀ v ∈ s.services, ∀ a, ArgOf v a → ∀ t, MentionsStruct s.types a t → markFields s.types n t ≠ none := by
    intro n
    unfold treeShakeN
    dsimp only
    have key : ∀ p : Service → Bool,
        markAll (fun v => markAll (markVar s.types (markFields s.types n)) (serviceVars v)) (s.services.filter p) = none ↔
        ∃ v ∈ s.services, p v = true ∧ ∃ a, ArgOf v a ∧ ∃ t, MentionsStruct s.types a t ∧ markFields s.types n t = none := by
      intro p
      rw [markAll_none]
      constructor
      · rintro ⟨v, hv, hn⟩
        obtain ⟨hv1, hv2⟩ := List.mem_filter.1 hv
        obtain ⟨x, hx, hn⟩ := markAll_none.1 hn
        exact ⟨v, hv1, hv2, x, mem_serviceVars.1 hx, markVar_none.1 hn⟩
      · rintro ⟨v, hv, hp, x, hx, hn⟩
        exact ⟨v, List.mem_filter.2 ⟨hv, hp⟩, markAll_none.2 ⟨x, mem_serviceVars.2 hx, markVar_none.2 hn⟩⟩
    have k1 := key fun v => names.contains v.name
    have k2 := key fun v => !names.contains v.name
    constructor
    · intro h v hv a ha t ht hn
      cases hc : names.contains v.name with
      | true =>
        have := k1.2 ⟨v, hv, hc, a, ha, t, ht, hn⟩
        rw [this] at h; simp at h
      | false =>
        have h2 := k2.2 ⟨v, hv, by rw [hc]; rfl, a, ha, t, ht, hn⟩
        rw [h2] at h
        split at h
        · rename_i h3; cases h3
        · cases h
    · intro h
      split
      · rfl
      · rename_i hno
        exfalso
        cases h1 : markAll (fun v => markAll (markVar s.types (markFields s.types n)) (serviceVars v))
            (s.services.filter fun v => names.contains v.name) with
        | none => obtain ⟨v, hv, _, a, ha, t, ht, hn⟩ := k1.1 h1; exact h v hv a ha t ht hn
        | some x =>
          cases h2 : markAll (fun v => markAll (markVar s.types (markFields s.types n)) (serviceVars v))
            (s.services.filter fun v => !names.contains v.name) with
          | none => obtain ⟨v, hv, _, a, ha, t, ht, hn⟩ := k2.1 h2; exact h v hv a ha t ht hn
          | some y => exact hno x y h1 h2
  constructor
  · rintro ⟨n, hn⟩ ⟨v, hv, a, ha, t, ht, u, hr, hp⟩
    exact (markFields_ends t).1 ⟨n, (hall n).1 hn v hv a ha t ht⟩ ⟨u, hr, hp⟩
  · intro hno
    refine ⟨s.types.length + 1, (hall _).2 ?_⟩
    intro v hv a ha t ht
    obtain ⟨n, hn⟩ := (markFields_ends t).2 fun ⟨u, hr, hp⟩ => hno ⟨v, hv, a, ha, t, ht, u, hr, hp⟩
    exact markFields_bound t n hn

/-- C39: after tree shaking, every struct and enum that a method of a selected service may transfer is
still declared (types are named, as `Validate` requires).  Missing from the full claim: aliases, see
`C39_alias_lost`, and recursive structs, see `C39_recursive`. -/
theorem C39_closed_partial (n : Nat) (s s' : Schema) (names : List Str) (h : treeShakeN n s names = some s')
    (hname : ∀ t ∈ s.types, t.name ≠ []) (v : Service) (hv : v ∈ s.services) (hn : v.name ∈ names)
    (a : VarType) (ha : ArgOf v a) (t : TypeDecl) (ht : Needs s.types a t) : t ∈ s'.types := by
  have hmem := needs_mem ht
  exact ((C39_exact n s s' names h).2.2 t hmem).2 ⟨hname t hmem, v, hv, hn, a, ha, t, ht, rfl⟩

/-- A schema whose only service takes an alias. -/
def aliasSchema : Schema :=
  { types := [{ ptr := ([], 0), kind := S "alias", name := S "Id", type := some (.leaf (S "string") .string) }]
    services := [{ ptr := ([], 0), name := S "A", methods := [
      { name := S "Get", inputs := [{ name := S "id", type := some (.alias (S "Id") (S "Id") ([], 0)) }] }] }] }

/-- C39: the full claim is false of the code: the declaration of an alias used by a selected service is
removed. -/
theorem C39_alias_lost : ∃ n s', treeShakeN n aliasSchema [S "A"] = some s' ∧ s'.types.length = 0 ∧
    aliasSchema.types.length = 1 := by
  refine ⟨1, { aliasSchema with types := [], nils := { types := true } }, ?_, rfl, rfl⟩
  rfl

/-- A schema with a linked list. -/
def nodeSchema : Schema :=
  { types := [{ ptr := ([], 0), kind := S "struct", name := S "Node", fields := [
      { name := S "next", type := some (.struct (S "Node") (S "Node") ([], 0)) }] }]
    services := [{ ptr := ([], 0), name := S "A", methods := [
      { name := S "Get", outputs := [{ name := S "node", type := some (.struct (S "Node") (S "Node") ([], 0)) }] }] }] }

/-- C39: the full claim is false of the code: on a recursive struct tree shaking never ends. -/
theorem C39_recursive : ∀ n, treeShakeN n nodeSchema [S "A"] = none := by
  intro n
  cases h : treeShakeN n nodeSchema [S "A"] with
  | none => rfl
  | some s' =>
    exfalso
    refine (C39_ends nodeSchema [S "A"]).1 ⟨n, by simp [h]⟩ ?_
    have hm : ∀ t ∈ nodeSchema.types, MentionsStruct nodeSchema.types (.struct (S "Node") (S "Node") ([], 0)) t := by
      intro t ht
      simp only [nodeSchema, List.mem_singleton] at ht
      subst ht
      exact ⟨_, _, _, .self _, [], [], rfl, rfl, by simp⟩
    have hE : ∀ t ∈ nodeSchema.types, Holds nodeSchema.types t t := by
      intro t ht
      refine ⟨{ name := S "next", type := some (.struct (S "Node") (S "Node") ([], 0)) }, ?_, _, rfl, hm t ht⟩
      simp only [nodeSchema, List.mem_singleton] at ht
      subst ht
      simp
    obtain ⟨t, ht⟩ : ∃ t, t ∈ nodeSchema.types := ⟨_, List.mem_singleton.2 rfl⟩
    exact ⟨_, List.mem_singleton.2 rfl, _, ⟨_, List.mem_singleton.2 rfl, _, List.mem_singleton.2 rfl, rfl⟩, t, hm t ht, t, .inl rfl,
      .edge (hE t ht)⟩

/-- A schema with two services, a struct, and an enum nested in the struct. -/
def shakeSchema : Schema :=
  { types := [{ ptr := ([], 0), kind := S "enum", name := S "Kind" },
      { ptr := ([], 1), kind := S "struct", name := S "User", fields := [
        { name := S "kinds", type := some (.list (S "[]Kind") (.enum (S "Kind") (S "Kind") ([], 0))) }] },
      { ptr := ([], 2), kind := S "struct", name := S "Other" }]
    services := [{ ptr := ([], 0), name := S "A", methods := [
      { name := S "Get", outputs := [{ name := S "u", type := some (.map (S "map<string,User>") (.leaf (S "string") .string)
        (.struct (S "User") (S "User") ([], 1))) }] }] },
      { ptr := ([], 1), name := S "B", methods := [
      { name := S "Put", inputs := [{ name := S "o", type := some (.struct (S "Other") (S "Other") ([], 2)) }] }] }] }

example : (treeShakeN 5 shakeSchema [S "A"]).map (fun s => s.types.map (·.name)) = some [S "Kind", S "User"] ∧
    (treeShakeN 5 shakeSchema [S "B"]).map (fun s => s.types.map (·.name)) = some [S "Other"] ∧
    (∀ t ∈ shakeSchema.types, t.name ≠ []) := by decide +kernel

end Verif.Props
