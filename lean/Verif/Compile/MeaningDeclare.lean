import Verif.Compile.MeaningStages
/-! What a file declares, in both directions. -/

namespace Verif.Compile
open Verif.Schema Verif.Spec
open Verif.Ridl hiding Str

variable [GoUnicode]

omit [GoUnicode] in
theorem Part.refl (later : List Str) (d : TypeDecl) : Part later d d := ⟨Le.refl d, .inl rfl⟩

theorem namesDiffer_le {l l' : List TypeDecl} (h : LeList l l') : NamesDiffer l ↔ NamesDiffer l' := by
  have hm : l.map (·.name) = l'.map (·.name) := h.map_eq fun _ _ q => q.2.2.1.symm
  have key : ∀ l : List TypeDecl, NamesDiffer l ↔ (l.map (·.name)).Pairwise fun a b => toLower a ≠ toLower b := by
    intro l; unfold NamesDiffer; rw [List.pairwise_map]
  rw [key, key, hm]

/-! ### Aliases -/

omit [GoUnicode] in
theorem mem_zipIdx_of_mem {α : Type} {l : List α} {a : α} (h : a ∈ l) (k : Nat) : ∃ j, (a, j) ∈ l.zipIdx k := by
  induction l generalizing k with
  | nil => simp at h
  | cons x l ih =>
    rw [List.zipIdx_cons]
    rcases List.mem_cons.1 h with rfl | h
    · exact ⟨k, by simp⟩
    · obtain ⟨j, hj⟩ := ih h (k + 1)
      exact ⟨j, List.mem_cons_of_mem _ hj⟩

theorem aliasS_le {path : Str} {s : Schema} {p : AliasNode × Nat} {d : TypeDecl} (h : AliasS path s p d) : Le (aliasDecl path p) d := by
  obtain ⟨vt, -, rfl⟩ := h
  exact ⟨rfl, rfl, rfl, .inl rfl⟩

theorem isAlias_le {ts : List TypeDecl} {path : Str} {later : List Str} {n : AliasNode} {i : Nat} {d : TypeDecl}
    (h : IsAlias ts (path, i) later (Node.alias n).entry d) : Le (aliasDecl path (n, i)) d := by
  obtain ⟨cs, t, vt, -, -, -, -, rfl⟩ := h
  exact ⟨rfl, rfl, rfl, .inl rfl⟩

theorem steps_le {N : Type} {mk : N → TypeDecl} {R : Schema → N → TypeDecl → Prop} {post : List TypeDecl} {s : Schema}
    {pre : List TypeDecl} {xs : List N} {ds : List TypeDecl} (hR : ∀ s x d, R s x d → Le (mk x) d)
    (h : Steps mk setTypes R post s pre xs ds) : LeList (xs.map mk) ds := by
  induction xs generalizing s pre ds with
  | nil => cases ds with
    | nil => exact .nil
    | cons _ _ => exact absurd h (by simp [Steps])
  | cons x xs ih => cases ds with
    | nil => exact absurd h (by simp [Steps])
    | cons d ds => exact .cons (hR _ _ _ h.1) (ih h.2)

theorem aliasesAre_le {ts : List TypeDecl} {path : Str} {i : Nat} {as : List AliasNode} {ds : List TypeDecl}
    (h : AliasesAre ts path i (as.map fun a => (Node.alias a).entry) ds) : LeList ((as.zipIdx i).map (aliasDecl path)) ds := by
  induction as generalizing i ds with
  | nil => cases ds with
    | nil => exact .nil
    | cons _ _ => exact absurd h (by simp [AliasesAre])
  | cons a as ih => cases ds with
    | nil => exact absurd h (by simp [AliasesAre])
    | cons d ds => exact .cons (isAlias_le h.1) (ih h.2)

theorem aliases_iff {path : Str} {as : List AliasNode} {i : Nat} {s : Schema} {pre post postF ds F : List TypeDecl}
    (hs : s.types = pre ++ (as.zipIdx i).map (aliasDecl path) ++ post) (hn : NamesDiffer s.types)
    (hF : F = pre ++ ds ++ postF) (hpost : ∀ later, Pointwise (Part later) post postF) :
    Steps (aliasDecl path) setTypes (AliasS path) post s pre (as.zipIdx i) ds ↔
      AliasesAre F path i (as.map fun a => (Node.alias a).entry) ds := by
  induction as generalizing i s pre ds with
  | nil => cases ds with
    | nil => simp [Steps, AliasesAre]
    | cons _ _ => simp [Steps, AliasesAre]
  | cons a as ih =>
    cases ds with
    | nil => simp [Steps, AliasesAre]
    | cons d ds =>
      have hz : (a :: as).zipIdx i = (a, i) :: as.zipIdx (i + 1) := List.zipIdx_cons
      rw [hz] at hs ⊢
      rw [List.map_cons] at hs ⊢
      have key : Le (aliasDecl path (a, i)) d → LeList ((as.zipIdx (i + 1)).map (aliasDecl path)) ds →
          (AliasS path s (a, i) d ↔ IsAlias F (path, i) (((a :: as).map fun a => (Node.alias a).entry).map Entry.name) (Node.alias a).entry d) := by
        intro h1 h2
        have hlat : ((a :: as).map fun a => (Node.alias a).entry).map Entry.name = (a :: as).map fun n => n.name.val := by
          rw [List.map_map]; rfl
        rw [hlat]
        have hmem : ∀ x ∈ aliasDecl path (a, i) :: (as.zipIdx (i + 1)).map (aliasDecl path), x.name ∈ (a :: as).map fun n => n.name.val := by
          intro x hx
          rcases List.mem_cons.1 hx with rfl | hx
          · simp [aliasDecl]
          · rw [List.mem_map] at hx
            obtain ⟨⟨b, j⟩, hb, rfl⟩ := hx
            have : b ∈ as := (List.mem_zipIdx hb).2.2 ▸ List.getElem_mem _
            simp only [List.map_cons, List.mem_cons, List.mem_map]
            exact .inr ⟨b, this, rfl⟩
        have hp : Pointwise (Part ((a :: as).map fun n => n.name.val)) s.types F := by
          rw [hs, hF]
          refine ((Pointwise.refl (Part.refl _) pre).append ?_).append (hpost _)
          have : ∀ (l l' : List TypeDecl), LeList l l' → (∀ x ∈ l, x.name ∈ (a :: as).map fun n => n.name.val) →
              Pointwise (Part ((a :: as).map fun n => n.name.val)) l l' := by
            intro l l' h
            induction h with
            | nil => intro _; exact .nil
            | cons hr _ ih => intro hx; exact .cons ⟨hr, .inr (.inr (hx _ (by simp)))⟩ (ih fun y hy => hx y (by simp [hy]))
          exact this _ _ (.cons h1 h2) hmem
        have hl : ∀ n ∈ (a :: as).map (fun n => n.name.val), ∃ d ∈ s.types, d.name = n ∧ d.type = none ∧ d.kind ≠ S "enum" := by
          intro n hn
          have hk : S "alias" ≠ S "enum" := by decide
          rcases List.mem_cons.1 (List.map_cons .. ▸ hn) with rfl | hn
          · exact ⟨aliasDecl path (a, i), by rw [hs]; simp, rfl, rfl, hk⟩
          · rw [List.mem_map] at hn
            obtain ⟨b, hb, rfl⟩ := hn
            obtain ⟨j, hj⟩ := mem_zipIdx_of_mem hb (i + 1)
            refine ⟨aliasDecl path (b, j), ?_, rfl, rfl, hk⟩
            rw [hs]
            exact List.mem_append_left _ (List.mem_append_right _ (List.mem_cons_of_mem _ (List.mem_map_of_mem hj)))
        unfold AliasS
        simp only [parseExpr_part hp hn hl, Node.entry, IsAlias, docLines_iff]
        constructor
        · rintro ⟨vt, ⟨t, g1, g2, g3⟩, rfl⟩
          exact ⟨_, t, vt, rfl, g1, g2, g3, by rw [metas_eq]; rfl⟩
        · rintro ⟨cs, t, vt, rfl, g1, g2, g3, rfl⟩
          exact ⟨vt, ⟨t, g1, g2, g3⟩, by rw [metas_eq]; rfl⟩
      have hrec : Le (aliasDecl path (a, i)) d →
          (Steps (aliasDecl path) setTypes (AliasS path) post (setTypes (pre ++ d :: ((as.zipIdx (i + 1)).map (aliasDecl path) ++ post)) s)
            (pre ++ [d]) (as.zipIdx (i + 1)) ds ↔ AliasesAre F path (i + 1) (as.map fun a => (Node.alias a).entry) ds) := by
        intro h1
        refine ih (s := setTypes (pre ++ d :: ((as.zipIdx (i + 1)).map (aliasDecl path) ++ post)) s) (by simp [setTypes]) ?_ (by rw [hF]; simp)
        refine (namesDiffer_le ?_).1 hn
        rw [hs, List.append_assoc]
        exact (LeList.refl pre).append (.cons h1 (LeList.refl _))
      simp only [Steps, AliasesAre]
      constructor
      · rintro ⟨h1, h2⟩
        have hle := aliasS_le h1
        exact ⟨(key hle (steps_le (fun _ _ _ => aliasS_le) h2)).1 h1, (hrec hle).1 h2⟩
      · rintro ⟨h1, h2⟩
        have hle := isAlias_le h1
        exact ⟨(key hle (aliasesAre_le h2)).2 h1, (hrec hle).2 h2⟩

/-! ### Enums and structs -/

theorem const_iff {N : Type} {mk : N → TypeDecl} {R : Schema → N → TypeDecl → Prop} {Q : N → TypeDecl → Prop} {F : List TypeDecl}
    (hR : ∀ s x d, R s x d → Part [] (mk x) d) (hQ : ∀ x d, Q x d → Part [] (mk x) d) {xs : List N} {s : Schema}
    {pre post postF ds : List TypeDecl}
    (hRQ : ∀ s, ∀ x ∈ xs, ∀ d, Pointwise (Part []) s.types F → NamesDiffer s.types → (R s x d ↔ Q x d))
    (hs : s.types = pre ++ xs.map mk ++ post) (hn : NamesDiffer s.types)
    (hF : F = pre ++ ds ++ postF) (hpost : Pointwise (Part []) post postF) :
    Steps mk setTypes R post s pre xs ds ↔ Pointwise Q xs ds := by
  have sp : ∀ {xs : List N} {s pre ds}, Steps mk setTypes R post s pre xs ds → Pointwise (Part []) (xs.map mk) ds := by
    intro xs
    induction xs with
    | nil => intro s pre ds h; cases ds with
      | nil => exact .nil
      | cons _ _ => exact absurd h (by simp [Steps])
    | cons x xs ih => intro s pre ds h; cases ds with
      | nil => exact absurd h (by simp [Steps])
      | cons d ds => exact .cons (hR _ _ _ h.1) (ih h.2)
  have pp : ∀ {xs : List N} {ds}, Pointwise Q xs ds → Pointwise (Part []) (xs.map mk) ds := by
    intro xs ds h
    rw [pointwise_map_left]
    exact h.imp hQ
  induction xs generalizing s pre ds with
  | nil =>
    constructor
    · intro h; cases ds with
      | nil => exact .nil
      | cons _ _ => exact absurd h (by simp [Steps])
    · intro h; cases h; trivial
  | cons x xs ih =>
    cases ds with
    | nil =>
      constructor
      · intro h; exact absurd h (by simp [Steps])
      · intro h; cases h
    | cons d ds =>
      rw [List.map_cons] at hs
      have key : Part [] (mk x) d → Pointwise (Part []) (xs.map mk) ds → (R s x d ↔ Q x d) := by
        intro h1 h2
        refine hRQ s x (by simp) d ?_ hn
        rw [hs, hF]
        exact ((Pointwise.refl (Part.refl _) pre).append (.cons h1 h2)).append hpost
      have hrec : Part [] (mk x) d → (Steps mk setTypes R post (setTypes (pre ++ d :: (xs.map mk ++ post)) s) (pre ++ [d]) xs ds ↔ Pointwise Q xs ds) := by
        intro h1
        refine ih (s := setTypes (pre ++ d :: (xs.map mk ++ post)) s) (fun s y hy => hRQ s y (by simp [hy])) (by simp [setTypes]) ?_ (by rw [hF]; simp)
        refine (namesDiffer_le ?_).1 hn
        rw [hs, List.append_assoc]
        exact (LeList.refl pre).append (.cons h1.1 (LeList.refl _))
      constructor
      · rintro ⟨h1, h2⟩
        have hp := hR _ _ _ h1
        exact .cons ((key hp (sp h2)).1 h1) ((hrec hp).1 h2)
      · intro h
        cases h with
        | cons h1 h2 =>
          have hp := hQ _ _ h1
          exact ⟨(key hp (pp h2)).2 h1, (hrec hp).2 h2⟩

theorem parseExpr_same {ts ts' : List TypeDecl} (h : Pointwise (Part []) ts ts') (hn : NamesDiffer ts) {e : Str} {vt : VarType} :
    parseExpr ts e = .ok vt ↔ parseExpr ts' e = .ok vt := by
  rw [parseExpr_part h hn (by simp), parseExpr_iff]
  constructor
  · rintro ⟨t, h1, h2, _⟩; exact ⟨t, h2, h1⟩
  · rintro ⟨t, h1, h2⟩; exact ⟨t, h2, h1, by simp⟩

theorem isField_same {ts ts' : List TypeDecl} (h : Pointwise (Part []) ts ts') (hn : NamesDiffer ts) {e : FieldEntry} {f : Field} :
    IsField ts e f ↔ IsField ts' e f := by
  simp only [IsField, typeIs_iff, parseExpr_same h hn]

theorem enumS_iff {path : Str} {s : Schema} {F : List TypeDecl} {p : EnumNode × Nat} {d : TypeDecl}
    (hsh : (Node.enum p.1).entry.Shaped) (h : Pointwise (Part []) s.types F) (hn : NamesDiffer s.types) :
    EnumS path s p d ↔ IsEnum F (path, p.2) (Node.enum p.1).entry d := by
  have hv : ∀ x ∈ p.1.values, ∀ v, x.right = some v → v.val ≠ [] := by
    intro x hx v hv
    exact hsh x.entry (List.mem_map_of_mem hx) v.val (by simp [DefNode.entry, hv])
  unfold EnumS
  simp only [Node.entry, IsEnum, typeIs_iff, parseExpr_same h hn]
  constructor
  · rintro ⟨vt, h1, rfl⟩
    obtain ⟨t, e1, e2⟩ := parseExpr_iff.1 h1
    have hx : vt.expr = p.1.enumType.val := by rw [denotes_expr e1, e2]
    refine ⟨some vt, _, ⟨vt, h1, rfl⟩, ?_, rfl⟩
    rw [← hx]
    exact (members_iff hv).1 rfl
  · rintro ⟨o, fs, ⟨vt, h1, rfl⟩, h2, rfl⟩
    obtain ⟨t, e1, e2⟩ := parseExpr_iff.1 h1
    have hx : vt.expr = p.1.enumType.val := by rw [denotes_expr e1, e2]
    rw [← hx] at h2
    exact ⟨vt, h1, by rw [(members_iff hv).2 h2]; rfl⟩

theorem structS_iff {path : Str} {s : Schema} {F : List TypeDecl} {p : StructNode × Nat} {d : TypeDecl}
    (h : Pointwise (Part []) s.types F) (hn : NamesDiffer s.types) :
    StructS path s p d ↔ StructIs F (path, p.2) (Node.struct p.1).entry d := by
  unfold StructS
  simp only [Node.entry, StructIs, docLines_iff, makeFields_iff]
  have hp : ∀ {l : List FieldEntry} {fs}, Pointwise (IsField s.types) l fs ↔ Pointwise (IsField F) l fs :=
    pointwise_congr fun x _ y => isField_same h hn
  constructor
  · rintro ⟨fs, h1, rfl⟩
    exact ⟨_, fs, rfl, hp.1 h1, rfl⟩
  · rintro ⟨cs, fs, rfl, h1, rfl⟩
    exact ⟨fs, hp.2 h1, rfl⟩

theorem serviceS_iff {path : Str} {s : Schema} {p : ServiceNode × Nat} {v : Service} (hsh : (Node.service p.1).entry.Shaped) :
    ServiceS path s p v ↔ IsService s.types (path, p.2) (Node.service p.1).entry v := by
  unfold ServiceS
  rw [show (Node.service p.1).entry = .service p.1.comment p.1.name.val (p.1.methods.map MethodNode.entry) from rfl]
  simp only [IsService, docLines_iff, makeMethods_iff hsh]
  constructor
  · rintro ⟨ms, h1, rfl⟩
    exact ⟨_, ms, rfl, h1, rfl⟩
  · rintro ⟨cs, ms, rfl, h1, rfl⟩
    exact ⟨ms, h1, rfl⟩

theorem services_iff {path : Str} {ss : List ServiceNode} {i : Nat} {s : Schema} {pre post V : List Service}
    (hsh : ∀ n ∈ ss, (Node.service n).entry.Shaped) :
    Steps (serviceDecl path) setServices (ServiceS path) post s pre (ss.zipIdx i) V ↔
      Pointwise (fun e v => IsService s.types (path, e.2) e.1 v) ((ss.map fun n => (Node.service n).entry).zipIdx i) V := by
  induction ss generalizing i s pre V with
  | nil =>
    constructor
    · intro h; cases V with
      | nil => exact .nil
      | cons _ _ => exact absurd h (by simp [Steps])
    · intro h; cases h; trivial
  | cons n ss ih =>
    rw [List.map_cons, List.zipIdx_cons, List.zipIdx_cons]
    have hr := fun (s : Schema) (pre : List Service) V => ih (i := i + 1) (s := s) (pre := pre) (V := V) (fun x hx => hsh x (by simp [hx]))
    constructor
    · intro h
      cases V with
      | nil => exact absurd h (by simp [Steps])
      | cons v V =>
        refine .cons ((serviceS_iff (hsh n (by simp))).1 h.1) ?_
        exact (hr (setServices (pre ++ v :: ((ss.zipIdx (i+1)).map (serviceDecl path) ++ post)) s) (pre ++ [v]) V).1 h.2
    · intro h
      cases h with
      | cons h1 h2 =>
        refine ⟨(serviceS_iff (hsh n (by simp))).2 h1, ?_⟩
        exact (hr (setServices (pre ++ _ :: ((ss.zipIdx (i+1)).map (serviceDecl path) ++ post)) s) (pre ++ [_]) _).2 h2

/-! ### All together -/

/-- What `declare` adds to the schema `m`. -/
structure Declares (path : Str) (ns : List Node) (m s : Schema) : Prop where
  header : header s = header m
  types : ∃ A E T, s.types = m.types ++ A ++ E ++ T ∧
    AliasesAre s.types path 0 (aliasesOf (ns.map Node.entry)) A ∧
    Pointwise (fun e d => IsEnum s.types (path, e.2) e.1 d) ((enumsOf (ns.map Node.entry)).zipIdx A.length) E ∧
    Pointwise (fun e d => StructIs s.types (path, e.2) e.1 d) ((structsOf (ns.map Node.entry)).zipIdx (A.length + E.length)) T
  errors : ∃ X, s.errors = m.errors ++ X ∧ Pointwise (fun e d => IsError (path, e.2) e.1 d) (errorsOf (ns.map Node.entry)).zipIdx X
  services : ∃ V, s.services = m.services ++ V ∧
    Pointwise (fun e v => IsService s.types (path, e.2) e.1 v) (servicesOf (ns.map Node.entry)).zipIdx V

omit [GoUnicode] in
theorem mem_node {α : Type} {sel : Node → Option α} {mk : α → Node} (h : ∀ n a, sel n = some a → n = mk a) {ns : List Node} {a : α}
    (ha : a ∈ ns.filterMap sel) : mk a ∈ ns := by
  rw [List.mem_filterMap] at ha
  obtain ⟨n, hn, e⟩ := ha
  rw [← h n a e]; exact hn

omit [GoUnicode] in
theorem part_struct {later : List Str} {path : Str} {l : List (StructNode × Nat)} {T : List TypeDecl}
    (h : Pointwise (Part []) (l.map (structDecl path)) T) : Pointwise (Part later) (l.map (structDecl path)) T := by
  have : ∀ (a b : List TypeDecl), Pointwise (Part []) a b → (∀ x ∈ a, x.kind ≠ S "enum") → Pointwise (Part later) a b := by
    intro a b h
    induction h with
    | nil => intro _; exact .nil
    | cons hr _ ih =>
      intro hk
      refine .cons ⟨hr.1, ?_⟩ (ih fun y hy => hk y (by simp [hy]))
      rcases hr.2 with q | q | q
      · exact .inl q
      · exact .inr (.inl q)
      · simp at q
  refine this _ _ h ?_
  intro x hx
  rw [List.mem_map] at hx
  obtain ⟨p, _, rfl⟩ := hx
  simp only [structDecl]
  decide

omit [GoUnicode] in
theorem part_enum {later : List Str} {path : Str} {l : List (EnumNode × Nat)} {E : List TypeDecl}
    (h : LeList (l.map (enumDecl path)) E) : Pointwise (Part later) (l.map (enumDecl path)) E := by
  have : ∀ (a b : List TypeDecl), LeList a b → (∀ x ∈ a, x.kind = S "enum") → Pointwise (Part later) a b := by
    intro a b h
    induction h with
    | nil => intro _; exact .nil
    | cons hr _ ih => intro hk; exact .cons ⟨hr, .inr (.inl (hk _ (by simp)))⟩ (ih fun y hy => hk y (by simp [hy]))
  refine this _ _ h ?_
  intro x hx
  rw [List.mem_map] at hx
  obtain ⟨p, _, rfl⟩ := hx
  rfl

theorem enumS_part {path : Str} {s : Schema} {p : EnumNode × Nat} {d : TypeDecl} (h : EnumS path s p d) : Part [] (enumDecl path p) d := by
  obtain ⟨vt, -, rfl⟩ := h
  exact ⟨⟨rfl, rfl, rfl, .inl rfl⟩, .inr (.inl rfl)⟩
theorem isEnum_part {F : List TypeDecl} {path : Str} {p : EnumNode × Nat} {d : TypeDecl}
    (h : IsEnum F (path, p.2) (Node.enum p.1).entry d) : Part [] (enumDecl path p) d := by
  obtain ⟨vt, _, -, -, rfl⟩ := h
  exact ⟨⟨rfl, rfl, rfl, .inl rfl⟩, .inr (.inl rfl)⟩
theorem structS_part {path : Str} {s : Schema} {p : StructNode × Nat} {d : TypeDecl} (h : StructS path s p d) : Part [] (structDecl path p) d := by
  obtain ⟨vt, -, rfl⟩ := h
  exact ⟨⟨rfl, rfl, rfl, .inl rfl⟩, .inl rfl⟩
theorem isStruct_part {F : List TypeDecl} {path : Str} {p : StructNode × Nat} {d : TypeDecl}
    (h : StructIs F (path, p.2) (Node.struct p.1).entry d) : Part [] (structDecl path p) d := by
  obtain ⟨vt, _, -, -, rfl⟩ := h
  exact ⟨⟨rfl, rfl, rfl, .inl rfl⟩, .inl rfl⟩

omit [GoUnicode] in
theorem noTypes_setTypes (l : List TypeDecl) (s : Schema) : noTypes (setTypes l s) = noTypes s := rfl

/-- The condition under which declarations find their own objects. -/
structure Apart (path : Str) (ns : List Node) (m : Schema) : Prop where
  types : NamesDiffer (m.types ++ declaredTypes path ns)
  services : ∀ e ∈ m.services, ∀ n ∈ Compile.services ns, toLower e.name ≠ toLower n.name.val
  ownServices : (Compile.services ns).Pairwise fun a b => toLower a.name.val ≠ toLower b.name.val

omit [GoUnicode] in
theorem pairwise_zipIdx {α : Type} {R : α → α → Prop} {l : List α} (h : l.Pairwise R) (k : Nat) :
    (l.zipIdx k).Pairwise fun a b => R a.1 b.1 := by
  have : ((l.zipIdx k).map Prod.fst).Pairwise R := by rw [List.zipIdx_map_fst]; exact h
  rwa [List.pairwise_map] at this

theorem pairwise_names {N : Type} {mk : N → TypeDecl} {nm : N → Str} (hmk : ∀ x, (mk x).name = nm x) {xs : List N}
    (h : NamesDiffer (xs.map mk)) : xs.Pairwise fun a b => toLower (nm a) ≠ toLower (nm b) := by
  unfold NamesDiffer at h
  rw [List.pairwise_map] at h
  refine h.imp ?_
  intro a b hab
  rw [hmk, hmk] at hab
  exact hab

theorem declare_iff {path : Str} {ns : List Node} {m s1 : Schema} (hsh : ∀ n ∈ ns, n.entry.Shaped) (hap : Apart path ns m) :
    declare path ns m = .ok s1 ↔ Declares path ns m s1 := by
  have shE : ∀ n ∈ enums ns, (Node.enum n).entry.Shaped := fun n hn =>
    hsh _ (mem_node (mk := Node.enum) (by intro n a h; cases n <;> simp_all) hn)
  have shX : ∀ n ∈ Compile.errors ns, (Node.error n).entry.Shaped := fun n hn =>
    hsh _ (mem_node (mk := Node.error) (by intro n a h; cases n <;> simp_all) hn)
  have shV : ∀ n ∈ services ns, (Node.service n).entry.Shaped := fun n hn =>
    hsh _ (mem_node (mk := Node.service) (by intro n a h; cases n <;> simp_all) hn)
  have hT := hap.types
  rw [declaredTypes_eq, ← List.append_assoc, ← List.append_assoc] at hT
  -- the loops
  let AZ := (aliases ns).zipIdx
  let EZ := (enums ns).zipIdx (aliases ns).length
  let TZ := (structs ns).zipIdx ((aliases ns).length + (enums ns).length)
  let VZ := (services ns).zipIdx
  have nA : ∀ s pre post, s.types = pre ++ AZ.map (aliasDecl path) ++ post → NamesDiffer s.types → ∀ s',
      foldRes resolveAlias s (aliases ns) = .ok s' ↔ ∃ A, Steps (aliasDecl path) setTypes (AliasS path) post s pre AZ A ∧ s' = setTypes (pre ++ A ++ post) s := by
    intro s pre post hs hn s'
    rw [foldRes_zipIdx _ _ _ 0]
    rw [hs] at hn
    refine steps_iff (get := Schema.types) (nameOf := TypeDecl.name) (nm := fun p : AliasNode × Nat => p.1.name.val)
      (mk := aliasDecl path) (set := setTypes) (step := fun s p => resolveAlias s p.1) (R := AliasS path) (fun _ _ => rfl) (fun _ _ _ => rfl) (fun _ => rfl)
      (fun _ => rfl) (fun s x d h => by obtain ⟨_, _, rfl⟩ := h; rfl) (fun s x pre post a b s' => alias_step s x pre post a b s') AZ s pre post hs ?_ ?_ s'
    · intro e he x hx
      exact (namesDiffer_split hn).1 e he (aliasDecl path x) (List.mem_map_of_mem hx)
    · exact pairwise_names (mk := aliasDecl path) (fun _ => rfl) (namesDiffer_split hn).2
  have nE : ∀ s pre post, s.types = pre ++ EZ.map (enumDecl path) ++ post → NamesDiffer s.types → ∀ s',
      foldRes resolveEnum s (enums ns) = .ok s' ↔ ∃ A, Steps (enumDecl path) setTypes (EnumS path) post s pre EZ A ∧ s' = setTypes (pre ++ A ++ post) s := by
    intro s pre post hs hn s'
    rw [foldRes_zipIdx _ _ _ (aliases ns).length]
    rw [hs] at hn
    refine steps_iff (get := Schema.types) (nameOf := TypeDecl.name) (nm := fun p : EnumNode × Nat => p.1.name.val)
      (mk := enumDecl path) (set := setTypes) (step := fun s p => resolveEnum s p.1) (R := EnumS path) (fun _ _ => rfl) (fun _ _ _ => rfl) (fun _ => rfl)
      (fun _ => rfl) (fun s x d h => by obtain ⟨_, _, rfl⟩ := h; rfl) (fun s x pre post a b s' => enum_step s x pre post a b s') EZ s pre post hs ?_ ?_ s'
    · intro e he x hx
      exact (namesDiffer_split hn).1 e he (enumDecl path x) (List.mem_map_of_mem hx)
    · exact pairwise_names (mk := enumDecl path) (fun _ => rfl) (namesDiffer_split hn).2
  have nT : ∀ s pre post, s.types = pre ++ TZ.map (structDecl path) ++ post → NamesDiffer s.types → ∀ s',
      foldRes resolveStruct s (structs ns) = .ok s' ↔ ∃ A, Steps (structDecl path) setTypes (StructS path) post s pre TZ A ∧ s' = setTypes (pre ++ A ++ post) s := by
    intro s pre post hs hn s'
    rw [foldRes_zipIdx _ _ _ ((aliases ns).length + (enums ns).length)]
    rw [hs] at hn
    refine steps_iff (get := Schema.types) (nameOf := TypeDecl.name) (nm := fun p : StructNode × Nat => p.1.name.val)
      (mk := structDecl path) (set := setTypes) (step := fun s p => resolveStruct s p.1) (R := StructS path) (fun _ _ => rfl) (fun _ _ _ => rfl) (fun _ => rfl)
      (fun _ => rfl) (fun s x d h => by obtain ⟨_, _, rfl⟩ := h; rfl) (fun s x pre post a b s' => struct_step s x pre post a b s') TZ s pre post hs ?_ ?_ s'
    · intro e he x hx
      exact (namesDiffer_split hn).1 e he (structDecl path x) (List.mem_map_of_mem hx)
    · exact pairwise_names (mk := structDecl path) (fun _ => rfl) (namesDiffer_split hn).2
  have nV : ∀ s, s.services = m.services ++ VZ.map (serviceDecl path) ++ [] → ∀ s',
      foldRes resolveService s (services ns) = .ok s' ↔ ∃ A, Steps (serviceDecl path) setServices (ServiceS path) [] s m.services VZ A ∧ s' = setServices (m.services ++ A ++ []) s := by
    intro s hs s'
    rw [foldRes_zipIdx _ _ _ 0]
    refine steps_iff (get := Schema.services) (nameOf := Service.name) (nm := fun p : ServiceNode × Nat => p.1.name.val)
      (mk := serviceDecl path) (set := setServices) (step := fun s p => resolveService s p.1) (R := ServiceS path) (fun _ _ => rfl) (fun _ _ _ => rfl) (fun _ => rfl)
      (fun _ => rfl) (fun s x d h => by obtain ⟨_, _, rfl⟩ := h; rfl) (fun s x pre post a b s' => service_step s x pre post a b s') VZ s m.services [] hs ?_ ?_ s'
    · intro e he x hx
      have : x.1 ∈ services ns := (List.mem_zipIdx hx).2.2 ▸ List.getElem_mem _
      exact hap.services e he x.1 this
    · exact pairwise_zipIdx hap.ownServices 0
  -- the first schema
  let s0 : Schema := { m with types := m.types ++ declaredTypes path ns, services := m.services ++ declaredServices path ns }
  have ht0 : s0.types = m.types ++ AZ.map (aliasDecl path) ++ (EZ.map (enumDecl path) ++ TZ.map (structDecl path)) := by
    show m.types ++ declaredTypes path ns = _
    rw [declaredTypes_eq]; simp [AZ, EZ, TZ]
  have hn0 : NamesDiffer s0.types := hap.types
  -- after the aliases
  have ht1 : ∀ A, (setTypes (m.types ++ A ++ (EZ.map (enumDecl path) ++ TZ.map (structDecl path))) s0).types =
      (m.types ++ A) ++ EZ.map (enumDecl path) ++ TZ.map (structDecl path) := by intro A; simp [setTypes]
  have hn1 : ∀ A, LeList (AZ.map (aliasDecl path)) A →
      NamesDiffer (setTypes (m.types ++ A ++ (EZ.map (enumDecl path) ++ TZ.map (structDecl path))) s0).types := by
    intro A hA
    refine (namesDiffer_le ?_).1 hn0
    rw [ht0]
    exact ((LeList.refl _).append hA).append (LeList.refl _)
  have key : ∀ A E T X V, s1 = { m with types := m.types ++ A ++ E ++ T, errors := m.errors ++ X, services := m.services ++ V } →
      LeList (AZ.map (aliasDecl path)) A → LeList (EZ.map (enumDecl path)) E → Pointwise (Part []) (TZ.map (structDecl path)) T →
      ∀ sE sT sV, sE = setTypes (m.types ++ A ++ (EZ.map (enumDecl path) ++ TZ.map (structDecl path))) s0 →
      sT = ({ setTypes (m.types ++ A ++ E ++ TZ.map (structDecl path)) s0 with errors := m.errors ++ X } : Schema) →
      sV = ({ setTypes (m.types ++ A ++ E ++ T) s0 with errors := m.errors ++ X } : Schema) →
      (Steps (aliasDecl path) setTypes (AliasS path) (EZ.map (enumDecl path) ++ TZ.map (structDecl path)) s0 m.types AZ A ↔
        AliasesAre s1.types path 0 (aliasesOf (ns.map Node.entry)) A) ∧
      (Steps (enumDecl path) setTypes (EnumS path) (TZ.map (structDecl path)) sE (m.types ++ A) EZ E ↔
        Pointwise (fun e d => IsEnum s1.types (path, e.2) e.1 d) ((enumsOf (ns.map Node.entry)).zipIdx A.length) E) ∧
      (Steps (structDecl path) setTypes (StructS path) [] sT (m.types ++ A ++ E) TZ T ↔
        Pointwise (fun e d => StructIs s1.types (path, e.2) e.1 d) ((structsOf (ns.map Node.entry)).zipIdx (A.length + E.length)) T) ∧
      (Steps (serviceDecl path) setServices (ServiceS path) [] sV m.services VZ V ↔
        Pointwise (fun e v => IsService s1.types (path, e.2) e.1 v) (servicesOf (ns.map Node.entry)).zipIdx V) := by
    intro A E T X V hs1 lA lE lT sE sT sV hsE hsT hsV
    have hF : s1.types = m.types ++ A ++ E ++ T := by rw [hs1]
    have hlA : A.length = (aliases ns).length := by rw [← lA.length]; simp [AZ]
    have hlE : E.length = (enums ns).length := by rw [← lE.length]; simp [EZ]
    refine ⟨?_, ?_, ?_, ?_⟩
    · rw [aliasesOf_eq]
      exact aliases_iff (postF := E ++ T) ht0 hn0 (by rw [hF]; simp) (fun later => (part_enum lE).append (part_struct lT))
    · rw [enumsOf_eq, hlA, zipIdx_map, pointwise_map_left]
      refine const_iff (mk := enumDecl path) (R := EnumS path) (Q := fun x d => IsEnum s1.types (path, x.2) (Node.enum x.1).entry d)
        (F := s1.types) (s := sE) (pre := m.types ++ A) (post := TZ.map (structDecl path)) (postF := T) (fun s x d => enumS_part) (fun x d => isEnum_part) ?_ (by rw [hsE]; exact ht1 A) (by rw [hsE]; exact hn1 A lA) hF lT
      intro s x hx d hp hn
      have : x.1 ∈ enums ns := (List.mem_zipIdx hx).2.2 ▸ List.getElem_mem _
      exact enumS_iff (shE x.1 this) hp hn
    · rw [structsOf_eq, hlA, hlE, zipIdx_map, pointwise_map_left]
      refine const_iff (mk := structDecl path) (R := StructS path) (Q := fun x d => StructIs s1.types (path, x.2) (Node.struct x.1).entry d)
        (F := s1.types) (s := sT) (pre := m.types ++ A ++ E) (post := []) (postF := []) (fun s x d => structS_part) (fun x d => isStruct_part) ?_ (by rw [hsT]; simp [setTypes]) ?_ (by rw [hF]; simp) .nil
      · intro s x hx d hp hn
        exact structS_iff hp hn
      · rw [hsT]
        refine (namesDiffer_le (l := s0.types) ?_).1 hn0
        rw [ht0]
        show LeList _ (m.types ++ A ++ E ++ TZ.map (structDecl path))
        rw [← List.append_assoc]
        exact (((LeList.refl _).append lA).append lE).append (LeList.refl _)
    · rw [servicesOf_eq]
      have : sV.types = s1.types := by rw [hsV, hF]; rfl
      rw [← this]
      exact services_iff shV
  simp only [declare, Res.bind_ok]
  constructor
  · rintro ⟨sa, h1, sb, h2, X, h3, sc, h4, h5⟩
    obtain ⟨A, gA, rfl⟩ := (nA s0 m.types _ ht0 hn0 sa).1 h1
    have lA := steps_le (mk := aliasDecl path) (R := AliasS path) (fun _ _ _ => aliasS_le) gA
    obtain ⟨E, gE, rfl⟩ := (nE _ _ _ (ht1 A) (hn1 A lA) sb).1 h2
    have lE := steps_le (mk := enumDecl path) (R := EnumS path) (fun _ _ _ h => (enumS_part h).1) gE
    obtain ⟨T, gT, rfl⟩ := (nT _ (m.types ++ A ++ E) [] (by simp [setTypes]) (by
      refine (namesDiffer_le (l := s0.types) ?_).1 hn0
      rw [ht0]
      show LeList _ (m.types ++ A ++ E ++ TZ.map (structDecl path))
      rw [← List.append_assoc]
      exact (((LeList.refl _).append lA).append lE).append (LeList.refl _)) sc).1 h4
    have lT : Pointwise (Part []) (TZ.map (structDecl path)) T := by
      have : ∀ {xs : List (StructNode × Nat)} {s pre ds}, Steps (structDecl path) setTypes (StructS path) [] s pre xs ds →
          Pointwise (Part []) (xs.map (structDecl path)) ds := by
        intro xs
        induction xs with
        | nil => intro s pre ds h; cases ds with
          | nil => exact .nil
          | cons _ _ => exact absurd h (by simp [Steps])
        | cons x xs ih => intro s pre ds h; cases ds with
          | nil => exact absurd h (by simp [Steps])
          | cons d ds => exact .cons (structS_part h.1) (ih h.2)
      exact this gT
    obtain ⟨V, gV, hV⟩ := (nV _ (by show m.services ++ declaredServices path ns = _; rw [declaredServices_eq, List.append_nil]) s1).1 h5
    have hs1 : s1 = { m with types := m.types ++ A ++ E ++ T, errors := m.errors ++ X, services := m.services ++ V } := by
      rw [hV]; simp [setServices, setTypes, s0]
    obtain ⟨k1, k2, k3, k4⟩ := key A E T X V hs1 lA lE lT _ _ _ rfl rfl rfl
    refine ⟨by rw [hs1]; rfl, ⟨A, E, T, by rw [hs1], k1.1 gA, k2.1 gE, k3.1 gT, ⟩, ⟨X, by rw [hs1], ?_⟩, ⟨V, by rw [hs1], k4.1 ?_⟩⟩
    · rw [errorsOf_eq]; exact (makeErrors_iff shX).1 h3
    · simp only [List.append_nil] at gV
      exact gV
  · rintro ⟨hh, ⟨A, E, T, hF, gA, gE, gT⟩, ⟨X, hX, gX⟩, ⟨V, hV, gV⟩⟩
    have hs1 : s1 = { m with types := m.types ++ A ++ E ++ T, errors := m.errors ++ X, services := m.services ++ V } := by
      cases s1
      simp only [header, Prod.mk.injEq] at hh
      simp only at hF hX hV
      subst hF hX hV
      obtain ⟨rfl, rfl, rfl, rfl, rfl⟩ := hh
      rfl
    have lA : LeList (AZ.map (aliasDecl path)) A := by
      rw [aliasesOf_eq] at gA; exact aliasesAre_le gA
    have hlA : A.length = (aliases ns).length := by rw [← lA.length]; simp [AZ]
    have lE : LeList (EZ.map (enumDecl path)) E := by
      have := gE
      rw [enumsOf_eq, hlA, zipIdx_map, pointwise_map_left] at this
      unfold LeList
      rw [pointwise_map_left]
      exact this.imp fun _ _ h => (isEnum_part h).1
    have hlE : E.length = (enums ns).length := by rw [← lE.length]; simp [EZ]
    have lT : Pointwise (Part []) (TZ.map (structDecl path)) T := by
      have := gT
      rw [structsOf_eq, hlA, hlE, zipIdx_map, pointwise_map_left] at this
      rw [pointwise_map_left]
      exact this.imp fun _ _ h => isStruct_part h
    obtain ⟨k1, k2, k3, k4⟩ := key A E T X V hs1 lA lE lT _ _ _ rfl rfl rfl
    refine ⟨_, (nA s0 m.types _ ht0 hn0 _).2 ⟨A, k1.2 gA, rfl⟩, _, (nE _ _ _ (ht1 A) (hn1 A lA) _).2 ⟨E, k2.2 gE, rfl⟩, X, ?_, _,
      (nT _ (m.types ++ A ++ E) [] (by simp [setTypes]) ?_ _).2 ⟨T, k3.2 gT, rfl⟩, ?_⟩
    · rw [errorsOf_eq] at gX; exact (makeErrors_iff shX).2 gX
    · refine (namesDiffer_le (l := s0.types) ?_).1 hn0
      rw [ht0]
      show LeList _ (m.types ++ A ++ E ++ TZ.map (structDecl path))
      rw [← List.append_assoc]
      exact (((LeList.refl _).append lA).append lE).append (LeList.refl _)
    · refine (nV _ (by show m.services ++ declaredServices path ns = _; rw [declaredServices_eq, List.append_nil]) s1).2 ⟨V, ?_, ?_⟩
      · have := k4.2 gV
        simp only [List.append_nil]
        exact this
      · rw [hs1]; simp [setServices, setTypes, s0]

end Verif.Compile
