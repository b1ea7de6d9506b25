import Verif.Props.Cli2
import Verif.Props.FilterValid
import Verif.Spec.Alike
/-!
# C76: a schema file and its JSON form are interchangeable
-/

namespace Verif.Interchange
open Verif.Schema hiding Json Method
open Verif.Spec hiding Names
open Verif.Props Verif.Json Verif.Cli Verif.Gen
open Verif.Schema (Method)

/-! ### Lists -/

theorem pw_of_map {α β γ : Type} {f : α → γ} {g : β → γ} {l : List α} {l' : List β} (h : l.map f = l'.map g) :
    Pointwise (fun a b => f a = g b) l l' := by
  induction l generalizing l' with
  | nil => cases l' with
    | nil => exact .nil
    | cons _ _ => simp at h
  | cons x l ih => cases l' with
    | nil => simp at h
    | cons y l' =>
      simp only [List.map_cons, List.cons.injEq] at h
      exact .cons h.1 (ih h.2)

theorem pw_and {α β : Type} {R Q : α → β → Prop} {l : List α} {l' : List β} (h : Pointwise R l l') (k : Pointwise Q l l') :
    Pointwise (fun a b => R a b ∧ Q a b) l l' := by
  induction h with
  | nil => exact .nil
  | cons h _ ih => cases k with
    | cons k1 k2 => exact .cons ⟨h, k1⟩ (ih k2)

theorem pw_flat {α β γ : Type} {R : α → β → Prop} {f : α → List γ} {g : β → List γ} {l : List α} {l' : List β} (h : Pointwise R l l')
    (hl : ∀ a b, R a b → (f a).length = (g b).length) (he : l.flatMap f = l'.flatMap g) :
    Pointwise (fun a b => R a b ∧ f a = g b) l l' := by
  induction h with
  | nil => exact .nil
  | cons h _ ih =>
    simp only [List.flatMap_cons] at he
    obtain ⟨e1, e2⟩ := List.append_inj he (hl _ _ h)
    exact .cons ⟨h, e1⟩ (ih e2)

theorem pw_filter {α β : Type} {R : α → β → Prop} {p : α → Bool} {q : β → Bool} {l : List α} {l' : List β} (h : Pointwise R l l')
    (hp : ∀ a ∈ l, ∀ b ∈ l', R a b → p a = q b) : Pointwise R (l.filter p) (l'.filter q) := by
  induction h with
  | nil => exact .nil
  | @cons a b l l' h _ ih =>
    have h1 := hp a (by simp) b (by simp) h
    have h2 := ih fun a ha b hb => hp a (by simp [ha]) b (by simp [hb])
    by_cases e : p a = true
    · rw [List.filter_cons_of_pos e, List.filter_cons_of_pos (by rw [← h1]; exact e)]
      exact .cons h h2
    · rw [List.filter_cons_of_neg e, List.filter_cons_of_neg (by rw [← h1]; exact e)]
      exact h2

theorem pw_map {α β γ δ : Type} {R : α → β → Prop} {Q : γ → δ → Prop} {f : α → γ} {g : β → δ} {l : List α} {l' : List β}
    (h : Pointwise R l l') (hq : ∀ a b, R a b → Q (f a) (g b)) : Pointwise Q (l.map f) (l'.map g) := by
  induction h with
  | nil => exact .nil
  | cons h _ ih => exact .cons (hq _ _ h) ih

theorem pw_flip {α β : Type} {R : α → β → Prop} {l : List α} {l' : List β} (h : Pointwise R l l') :
    Pointwise (fun b a => R a b) l' l := by
  induction h with
  | nil => exact .nil
  | cons h _ ih => exact .cons h ih

/-! ### Twins -/

/-- Alike, and written alike. -/
def TwinType [GoPrint] (t t' : TypeDecl) : Prop := AlikeType t t' ∧ encTypeDecl t = encTypeDecl t'

def TwinMethod [GoPrint] (m m' : Method) : Prop := AlikeMethod m m' ∧ encMethod m = encMethod m'

def TwinService [GoPrint] (v v' : Service) : Prop :=
  v.name = v'.name ∧ v.comments = v'.comments ∧ Pointwise TwinMethod v.methods v'.methods ∧ serviceNils v = serviceNils v'

structure Twin [GoPrint] (s s' : Schema) : Prop where
  webrpc : s.webrpcVersion = s'.webrpcVersion
  name : s.schemaName = s'.schemaName
  version : s.schemaVersion = s'.schemaVersion
  path : s.basePath = s'.basePath
  types : Pointwise TwinType s.types s'.types
  errors : s.errors.map errorView = s'.errors.map errorView
  services : Pointwise TwinService s.services s'.services
  lists : schemaNils s = schemaNils s'

section
variable [GoPrint]

theorem Twin.alike {s s' : Schema} (h : Twin s s') : Alike s s' :=
  ⟨h.webrpc, h.name, h.version, h.path, h.types.imp fun _ _ h => h.1, h.errors,
    h.services.imp fun _ _ h => ⟨h.1, h.2.1, h.2.2.1.imp fun _ _ h => h.1, h.2.2.2⟩, h.lists⟩

theorem TwinType.symm {t t' : TypeDecl} (h : TwinType t t') : TwinType t' t := ⟨⟨h.1.1.symm, h.1.2.symm⟩, h.2.symm⟩

theorem Twin.symm {s s' : Schema} (h : Twin s s') : Twin s' s :=
  ⟨h.webrpc.symm, h.name.symm, h.version.symm, h.path.symm, (pw_flip h.types).imp fun _ _ h => h.symm, h.errors.symm,
    (pw_flip h.services).imp fun _ _ h => ⟨h.1.symm, h.2.1.symm, (pw_flip h.2.2.1).imp fun _ _ h => ⟨⟨h.1.1.symm, h.1.2.1.symm, h.1.2.2.symm⟩, h.2.symm⟩, h.2.2.2.symm⟩, h.lists.symm⟩

omit [GoPrint] in
theorem encError_view {l l' : List ErrorDecl} (h : l.map errorView = l'.map errorView) : l.map encError = l'.map encError := by
  refine (pw_of_map h).map_eq fun a b e => ?_
  unfold errorView at e
  simp only [Prod.mk.injEq] at e
  obtain ⟨e1, e2, e3, e4⟩ := e
  unfold encError
  rw [e1, e2, e3, e4]

theorem TwinService.enc {v v' : Service} (h : TwinService v v') : encService v = encService v' := by
  obtain ⟨h1, h2, h3, h4⟩ := h
  unfold serviceNils isNil at h4
  simp only [List.cons.injEq, and_true] at h4
  unfold encService
  rw [h1, encSlice_congr (h3.map_eq fun _ _ h => h.2) h4.1, encSlice_congr (f := encStr) (g := encStr) (by rw [h2]) h4.2]

theorem Twin.enc {s s' : Schema} (h : Twin s s') : encSchema s = encSchema s' := by
  have h4 := h.lists
  unfold schemaNils isNil at h4
  simp only [List.cons.injEq, and_true] at h4
  unfold encSchema
  rw [h.webrpc, h.name, h.version, h.path, encSlice_congr (h.types.map_eq fun _ _ h => h.2) h4.1, encSlice_congr (encError_view h.errors) h4.2.1,
    encSlice_congr (h.services.map_eq fun _ _ h => h.enc) h4.2.2]

/-! ### What is read back is a twin -/

omit [GoPrint] in
theorem encSlice_inj {α β : Type} {a b : Bool} {f : α → Verif.Json.Json} {g : β → Verif.Json.Json} {l : List α} {l' : List β}
    (h : encSlice a f l = encSlice b g l') : l.map f = l'.map g ∧ isNil a l = isNil b l' := by
  unfold encSlice encList at h
  unfold isNil
  cases l <;> cases l' <;> cases a <;> cases b <;> simp at h ⊢ <;> exact h

omit [GoPrint] in
theorem encAnnotations_nil {a b : Bool} {l l' : List (Str × Annotation)} (h : encAnnotations a l = encAnnotations b l') :
    isNil a l = isNil b l' := by
  have hl : (sortKeys l).length = l.length := (sortKeys_spec l).1.length_eq
  have hl' : (sortKeys l').length = l'.length := (sortKeys_spec l').1.length_eq
  unfold encAnnotations at h
  unfold isNil
  cases l <;> cases l' <;> cases a <;> cases b <;> simp [sortKeys] at h ⊢ <;> simp_all [sortKeys]

theorem encMethod_nils {m m' : Method} (h : encMethod m = encMethod m') (hv : methodView m = methodView m') : methodNils m = methodNils m' := by
  have e1 : m.succinct = m'.succinct := congrArg (·.2.2.2.1) hv
  have e2 : m.streamInput = m'.streamInput := congrArg (·.2.2.2.2.1) hv
  have e3 : m.streamOutput = m'.streamOutput := congrArg (·.2.2.2.2.2.1) hv
  unfold encMethod members omitIf at h
  rw [e1, e2, e3] at h
  have : encAnnotations m.nils.annotations m.annotations = encAnnotations m'.nils.annotations m'.annotations ∧
      encSlice m.nils.comments encStr m.comments = encSlice m'.nils.comments encStr m'.comments ∧
      encSlice m.nils.inputs encArgument m.inputs = encSlice m'.nils.inputs encArgument m'.inputs ∧
      encSlice m.nils.outputs encArgument m.outputs = encSlice m'.nils.outputs encArgument m'.outputs := by
    cases h1 : m'.succinct <;> cases h2 : m'.streamInput <;> cases h3 : m'.streamOutput <;> rw [h1, h2, h3] at h <;>
      simp only [List.filterMap_cons, Option.map_some, Option.map_none, Bool.not_false, Bool.not_true, if_true, if_false, Bool.false_eq_true,
        Verif.Json.Json.obj.injEq, List.cons.injEq, Prod.mk.injEq, true_and] at h <;> exact ⟨h.2.1, h.2.2.1, h.2.2.2.1, h.2.2.2.2.1⟩
  unfold methodNils
  rw [encAnnotations_nil this.1, (encSlice_inj this.2.1).2, (encSlice_inj this.2.2.1).2, (encSlice_inj this.2.2.2).2]

theorem encService_methods {v v' : Service} (h : encService v = encService v') :
    v.methods.map encMethod = v'.methods.map encMethod ∧ serviceNils v = serviceNils v' := by
  unfold encService members at h
  simp only [List.filterMap_cons, Option.map_some, List.filterMap_nil, Verif.Json.Json.obj.injEq, List.cons.injEq, Prod.mk.injEq, and_true, true_and] at h
  exact ⟨(encSlice_inj h.2.1).1, by unfold serviceNils; rw [(encSlice_inj h.2.1).2, (encSlice_inj h.2.2).2]⟩

theorem encSchema_parts {s s' : Schema} (h : encSchema s = encSchema s') :
    s.types.map encTypeDecl = s'.types.map encTypeDecl ∧ s.services.map encService = s'.services.map encService ∧ schemaNils s = schemaNils s' := by
  unfold encSchema members at h
  simp only [List.filterMap_cons, Option.map_some, List.filterMap_nil, Verif.Json.Json.obj.injEq, List.cons.injEq, Prod.mk.injEq, and_true, true_and] at h
  exact ⟨(encSlice_inj h.2.2.2.2.1).1, (encSlice_inj h.2.2.2.2.2.2).1, by
    unfold schemaNils; rw [(encSlice_inj h.2.2.2.2.1).2, (encSlice_inj h.2.2.2.2.2.1).2, (encSlice_inj h.2.2.2.2.2.2).2]⟩

omit [GoPrint] in
theorem fieldTypes_length {t t' : TypeDecl} (h : typeView t = typeView t') : ((fieldTypes t).map shape).length = ((fieldTypes t').map shape).length := by
  have e1 : t.kind = t'.kind := congrArg (·.1) h
  have e2 : t.fields.map fieldView = t'.fields.map fieldView := congrArg (·.2.2.2.1) h
  have e3 : ∀ l : List Field, ((l.filterMap (·.type)).map shape).length = ((l.map fieldView).filterMap (·.2.2.1)).length := by
    intro l
    rw [List.length_map, List.filterMap_map]
    have : l.filterMap ((fun x => x.2.2.1) ∘ fieldView) = (l.filterMap (·.type)).map (·.expr) := by
      rw [List.map_filterMap]; rfl
    rw [this, List.length_map]
  unfold fieldTypes
  rw [e1]
  split
  · rw [e3, e3, e2]
  · rfl

omit [GoPrint] in
theorem argTypes_length {m m' : Method} (h : methodView m = methodView m') : ((argTypes m).map shape).length = ((argTypes m').map shape).length := by
  have e1 : m.inputs.map argView = m'.inputs.map argView := congrArg (·.2.2.2.2.2.2.1) h
  have e2 : m.outputs.map argView = m'.outputs.map argView := congrArg (·.2.2.2.2.2.2.2.1) h
  have e3 : ∀ l : List Argument, ((l.filterMap (·.type)).map shape).length = ((l.map argView).filterMap (·.2.1)).length := by
    intro l
    rw [List.length_map, List.filterMap_map]
    have : l.filterMap ((fun x => x.2.1) ∘ argView) = (l.filterMap (·.type)).map (·.expr) := by
      rw [List.map_filterMap]; rfl
    rw [this, List.length_map]
  unfold argTypes
  rw [e3, e3, List.map_append, List.map_append, e1, e2]

omit [GoPrint] in
theorem methodTypes_length {v v' : Service} (h : serviceView v = serviceView v') :
    (v.methods.flatMap fun m => (argTypes m).map shape).length = (v'.methods.flatMap fun m => (argTypes m).map shape).length := by
  have e1 : v.methods.map methodView = v'.methods.map methodView := congrArg (·.2.1) h
  rw [List.length_flatMap, List.length_flatMap, (pw_of_map e1).map_eq fun _ _ h => argTypes_length h]

theorem twin_of {s s' : Schema} (he : encSchema s' = encSchema s) (hv : schemaView s' = schemaView s)
    (hu : (usedTypes s').map shape = (usedTypes s).map shape) : Twin s' s := by
  obtain ⟨e1, e2, e3⟩ := encSchema_parts he
  have v5 : s'.types.map typeView = s.types.map typeView := congrArg (·.2.2.2.2.1) hv
  have v7 : s'.services.map serviceView = s.services.map serviceView := congrArg (·.2.2.2.2.2.2) hv
  have hus : ∀ s : Schema, (usedTypes s).map shape = (s.types.flatMap fun t => (fieldTypes t).map shape) ++
      s.services.flatMap fun v => v.methods.flatMap fun m => (argTypes m).map shape := by
    intro s
    rw [usedTypes_eq, List.map_append, List.map_flatMap, List.map_flatMap]
    congr 1
    congr 1
    funext v
    unfold usedBy
    rw [List.map_flatMap]
    rfl
  rw [hus, hus] at hu
  have hlen : (s'.types.flatMap fun t => (fieldTypes t).map shape).length = (s.types.flatMap fun t => (fieldTypes t).map shape).length := by
    rw [List.length_flatMap, List.length_flatMap, (pw_of_map v5).map_eq fun _ _ h => fieldTypes_length h]
  obtain ⟨u1, u2⟩ := List.append_inj hu hlen
  refine ⟨congrArg (·.1) hv, congrArg (·.2.1) hv, congrArg (·.2.2.1) hv, congrArg (·.2.2.2.1) hv, ?_, congrArg (·.2.2.2.2.2.1) hv, ?_, e3⟩
  · exact (pw_and (pw_flat (pw_of_map v5) (fun _ _ h => fieldTypes_length h) u1) (pw_of_map e1)).imp fun _ _ h => ⟨⟨h.1.1, h.1.2⟩, h.2⟩
  · refine (pw_and (pw_flat (pw_of_map v7) (fun _ _ h => methodTypes_length h) u2) (pw_of_map e2)).imp fun v v' h => ?_
    obtain ⟨⟨h1, h2⟩, h3⟩ := h
    have m1 : v.methods.map methodView = v'.methods.map methodView := congrArg (·.2.1) h1
    refine ⟨congrArg (·.1) h1, congrArg (·.2.2) h1, ?_, (encService_methods h3).2⟩
    exact (pw_and (pw_flat (pw_of_map m1) (fun _ _ h => argTypes_length h) h2) (pw_of_map (encService_methods h3).1)).imp
      fun _ _ h => ⟨⟨h.1.1, h.1.2, encMethod_nils h.2 h.1.1⟩, h.2⟩

end

/-! ### Following references in twins -/

section
variable [GoUnicode] [GoPrint]

/-- A schema that is accepted as it is and lists no type twice. -/
structure Ready (s : Schema) : Prop where
  settled : Settled s
  objects : DistinctObjects (s.types.map (·.ptr))
  names : DistinctNames (s.types.map (·.name))

omit [GoPrint] in
/-- A reference in a parsed type leads to a declaration of that name. -/
theorem ref_named {ts : List TypeDecl} {t : Ty} {w : VarType} (h : Denotes ts t w) {u : VarType} (hp : Part w u) :
    (∀ e n p, u = .struct e n p → ∃ d ∈ ts, d.ptr = p ∧ SameName d.name n) ∧
    (∀ e n p, u = .enum e n p → ∃ d ∈ ts, d.ptr = p ∧ SameName d.name n) := by
  induction h with
  | omitted => cases hp; constructor <;> (intro _ _ _ e; cases e)
  | scalar _ => cases hp; constructor <;> (intro _ _ _ e; cases e)
  | list _ ih =>
    cases hp with
    | self => constructor <;> (intro _ _ _ e; cases e)
    | elem _ _ _ h => exact ih h
  | @map k v kt vt _ hk _ ih =>
    cases hp with
    | self => constructor <;> (intro _ _ _ e; cases e)
    | value _ _ _ _ h => exact ih h
    | key _ _ _ _ h =>
      rcases hk with ⟨_, c, _, rfl⟩ | ⟨_, d, ⟨l, r, rfl, hd, _⟩, _, rfl⟩
      · cases h; constructor <;> (intro _ _ _ e; cases e)
      · cases h
        constructor
        · intro _ _ _ e; cases e
        · intro _ _ _ e; cases e; exact ⟨d, by simp, rfl, hd⟩
  | @named n d vt _ hf hr =>
    obtain ⟨l, r, rfl, hd, _⟩ := hf
    rcases hr with ⟨_, rfl⟩ | ⟨_, rfl⟩ | ⟨_, rfl⟩ <;> cases hp
    · constructor
      · intro _ _ _ e; cases e; exact ⟨d, by simp, rfl, by rw [hd]; rfl⟩
      · intro _ _ _ e; cases e
    · constructor
      · intro _ _ _ e; cases e
      · intro _ _ _ e; cases e; exact ⟨d, by simp, rfl, by rw [hd]; rfl⟩
    · constructor <;> (intro _ _ _ e; cases e)

omit [GoPrint] in
theorem tree_named {ts : List TypeDecl} {w : VarType} (h : IsTree ts w) {u : VarType} (hp : Part w u) :
    (∀ e n p, u = .struct e n p → ∃ d ∈ ts, d.ptr = p ∧ SameName d.name n) ∧
    (∀ e n p, u = .enum e n p → ∃ d ∈ ts, d.ptr = p ∧ SameName d.name n) := by
  obtain ⟨t, w, _, _, h, rfl⟩ := h
  rcases part_setExpr hp with hp | rfl
  · exact ref_named h hp
  · have := ref_named h (.self w)
    cases w <;> simp only [VarType.setExpr] <;> constructor <;> (intro _ _ _ e; cases e)
    · exact this.1 _ _ _ rfl
    · exact this.2 _ _ _ rfl

omit [GoUnicode] [GoPrint] in
/-- Parts of types of the same shape correspond. -/
theorem part_shape {w u : VarType} (h : Part w u) : ∀ w', shape w = shape w' → ∃ u', Part w' u' ∧ shape u = shape u' := by
  induction h with
  | self t => intro w' e; exact ⟨w', .self _, e⟩
  | elem e el u _ ih =>
    intro w' he
    cases w' <;> simp [shape] at he
    obtain ⟨u', h1, h2⟩ := ih _ he.2
    exact ⟨u', .elem _ _ _ h1, h2⟩
  | key e k v u _ ih =>
    intro w' he
    cases w' <;> simp [shape] at he
    obtain ⟨u', h1, h2⟩ := ih _ he.2.1
    exact ⟨u', .key _ _ _ _ h1, h2⟩
  | value e k v u _ ih =>
    intro w' he
    cases w' <;> simp [shape] at he
    obtain ⟨u', h1, h2⟩ := ih _ he.2.2
    exact ⟨u', .value _ _ _ _ h1, h2⟩

omit [GoUnicode] [GoPrint] in
theorem declares_unique {ts : List TypeDecl} {p : Ptr} {t u : TypeDecl} (h : Declares ts p t) (hd : DistinctObjects (ts.map (·.ptr)))
    (hu : u ∈ ts) (hp : u.ptr = p) : u = t := by
  obtain ⟨h1, h2⟩ := declares_mem h
  exact ptr_inj hd hu h1 (hp.trans h2.symm)

/-- The corresponding declaration: it is a twin. -/
theorem twin_decl {s s' : Schema} (ht : Twin s s') (hs' : Ready s') {d d' : TypeDecl} (h : d ∈ s.types)
    (h' : d' ∈ s'.types) (hn : SameName d.name d'.name) : TwinType d d' := by
  obtain ⟨x, hx, ht⟩ := ht.types.mem_left h
  have e : x.name = d.name := (congrArg (·.2.1) ht.1.1).symm
  have : x = d' := by
    refine distinct_inj (f := (·.name)) hs'.names hx h' ?_
    rw [e]; exact hn
  subst this
  exact ht

theorem twin_struct {s s' : Schema} (ht : Twin s s') (hs : Ready s) (hs' : Ready s') {a a' : VarType} (h1 : IsTree s.types a)
    (h2 : IsTree s'.types a') (he : shape a = shape a') {u : TypeDecl} (hm : MentionsStruct s.types a u) :
    ∃ u', MentionsStruct s'.types a' u' ∧ TwinType u u' ∧ u ∈ s.types ∧ u' ∈ s'.types := by
  obtain ⟨e, n, p, hp, hd⟩ := hm
  obtain ⟨d, d1, d2, d3⟩ := (tree_named h1 hp).1 _ _ _ rfl
  have := declares_unique hd hs.objects d1 d2
  subst this
  obtain ⟨w', p1, p2⟩ := part_shape hp _ he
  cases w' <;> simp [shape] at p2
  rename_i e' n' p'
  obtain ⟨rfl, rfl⟩ := p2
  obtain ⟨d', c1, c2, c3⟩ := (tree_named h2 p1).1 _ _ _ rfl
  refine ⟨d', ⟨_, _, _, p1, ?_⟩, twin_decl ht hs' d1 c1 (d3.trans c3.symm), d1, c1⟩
  rw [← c2]
  exact declares_of hs'.objects c1

theorem twin_mentions {s s' : Schema} (ht : Twin s s') (hs : Ready s) (hs' : Ready s') {a a' : VarType} (h1 : IsTree s.types a)
    (h2 : IsTree s'.types a') (he : shape a = shape a') {u : TypeDecl} (hm : Mentions s.types a u) :
    ∃ u', Mentions s'.types a' u' ∧ TwinType u u' := by
  rcases hm with hm | ⟨e, n, p, hp, hd⟩
  · obtain ⟨u', h1, h2, _⟩ := twin_struct ht hs hs' h1 h2 he hm
    exact ⟨u', .inl h1, h2⟩
  · obtain ⟨d, d1, d2, d3⟩ := (tree_named h1 hp).2 _ _ _ rfl
    have := declares_unique hd hs.objects d1 d2
    subst this
    obtain ⟨w', p1, p2⟩ := part_shape hp _ he
    cases w' <;> simp [shape] at p2
    rename_i e' n' p'
    obtain ⟨rfl, rfl⟩ := p2
    obtain ⟨d', c1, c2, c3⟩ := (tree_named h2 p1).2 _ _ _ rfl
    refine ⟨d', .inr ⟨_, _, _, p1, ?_⟩, twin_decl ht hs' d1 c1 (d3.trans c3.symm)⟩
    rw [← c2]
    exact declares_of hs'.objects c1

omit [GoUnicode] in
theorem twin_field {t t' : TypeDecl} (h : TwinType t t') (hk : t.kind = S "struct") {f : Field} (hf : f ∈ t.fields) {w : VarType}
    (hw : f.type = some w) : t'.kind = S "struct" ∧ ∃ f' ∈ t'.fields, ∃ w', f'.type = some w' ∧ shape w = shape w' := by
  have hk' : t'.kind = S "struct" := (congrArg (·.1) h.1.1).symm.trans hk
  refine ⟨hk', ?_⟩
  have e := h.1.2
  unfold fieldTypes at e
  rw [if_pos (show t.kind = "struct".toList from hk), if_pos (show t'.kind = "struct".toList from hk')] at e
  have : shape w ∈ (t'.fields.filterMap (·.type)).map shape := by
    rw [← e]
    exact List.mem_map.2 ⟨w, List.mem_filterMap.2 ⟨f, hf, hw⟩, rfl⟩
  obtain ⟨w', h1, h2⟩ := List.mem_map.1 this
  obtain ⟨f', h3, h4⟩ := List.mem_filterMap.1 h1
  exact ⟨f', h3, w', h4, h2.symm⟩

theorem twin_needs {s s' : Schema} (ht : Twin s s') (hs : Ready s) (hs' : Ready s') {a : VarType} {t : TypeDecl}
    (hn : Needs s.types a t) (h1 : IsTree s.types a) : ∀ a', IsTree s'.types a' → shape a = shape a' →
      ∃ t', Needs s'.types a' t' ∧ TwinType t t' := by
  induction hn with
  | here h =>
    intro a' h2 he
    obtain ⟨u', h3, h4⟩ := twin_mentions ht hs hs' h1 h2 he h
    exact ⟨u', .here h3, h4⟩
  | field f hm hf hw _ ih =>
    intro a' h2 he
    obtain ⟨u', m1, m2, m3, m4⟩ := twin_struct ht hs hs' h1 h2 he hm
    have hk := (mentions_kind hs.objects h1 hm).2
    obtain ⟨hk', f', hf', w', hw', hsh⟩ := twin_field m2 hk hf hw
    obtain ⟨t', n1, n2⟩ := ih (settled_field hs.settled m3 hk hf hw) w' (settled_field hs'.settled m4 hk' hf' hw') hsh
    exact ⟨t', .field f' m1 hf' hw' n1, n2⟩

omit [GoUnicode] in
theorem twin_arg {v v' : Service} (h : TwinService v v') {a : VarType} (ha : ArgOf v a) : ∃ a', ArgOf v' a' ∧ shape a = shape a' := by
  obtain ⟨m, hm, x, hx, he⟩ := ha
  obtain ⟨m', hm', hmm⟩ := h.2.2.1.mem_left hm
  have : shape a ∈ (argTypes m').map shape := by
    rw [← hmm.1.2.1]
    exact List.mem_map.2 ⟨a, List.mem_filterMap.2 ⟨x, hx, he⟩, rfl⟩
  obtain ⟨a', h1, h2⟩ := List.mem_map.1 this
  obtain ⟨x', h3, h4⟩ := List.mem_filterMap.1 h1
  exact ⟨a', ⟨m', hm', x', h3, h4⟩, h2.symm⟩

theorem twin_needed {s s' : Schema} (ht : Twin s s') (hs : Ready s) (hs' : Ready s') {names : List Str} {t t' : TypeDecl}
    (hn : t.name = t'.name) (h : NeededBy s names t) : NeededBy s' names t' := by
  obtain ⟨h0, v, hv, hvn, a, ha, u, hu, hun⟩ := h
  obtain ⟨v', hv', hvv⟩ := ht.services.mem_left hv
  obtain ⟨a', ha', hsh⟩ := twin_arg hvv ha
  obtain ⟨u', h1, h2⟩ := twin_needs ht hs hs' hu (settled_arg hs.settled hv ha) a' (settled_arg hs'.settled hv' ha') hsh
  have e : u.name = u'.name := congrArg (·.2.1) h2.1.1
  exact ⟨by rw [← hn]; exact h0, v', hv', by rw [← hvv.1]; exact hvn, a', ha', u', h1, by rw [← e, hun, hn]⟩

theorem twin_holds {s s' : Schema} (ht : Twin s s') (hs : Ready s) (hs' : Ready s') {t t' u : TypeDecl} (h : TwinType t t')
    (hm : t ∈ s.types) (hm' : t' ∈ s'.types) (hk : t.kind = S "struct") (hh : Holds s.types t u) :
    ∃ u', Holds s'.types t' u' ∧ TwinType u u' ∧ u ∈ s.types ∧ u' ∈ s'.types ∧ u.kind = S "struct" := by
  obtain ⟨f, hf, w, hw, hms⟩ := hh
  obtain ⟨hk', f', hf', w', hw', hsh⟩ := twin_field h hk hf hw
  have t1 := settled_field hs.settled hm hk hf hw
  obtain ⟨u', m1, m2, m3, m4⟩ := twin_struct ht hs hs' t1 (settled_field hs'.settled hm' hk' hf' hw') hsh hms
  exact ⟨u', ⟨f', hf', w', hw', m1⟩, m2, m3, m4, (mentions_kind hs.objects t1 hms).2⟩

theorem twin_path {s s' : Schema} (ht : Twin s s') (hs : Ready s) (hs' : Ready s') {t u : TypeDecl} (hp : Path (Holds s.types) t u)
    (hm : t ∈ s.types) (hk : t.kind = S "struct") : ∀ t' ∈ s'.types, TwinType t t' →
    ∃ u', Path (Holds s'.types) t' u' ∧ TwinType u u' ∧ u ∈ s.types ∧ u' ∈ s'.types ∧ u.kind = S "struct" := by
  induction hp with
  | edge h =>
    intro t' hm' htt
    obtain ⟨u', h1, h2⟩ := twin_holds ht hs hs' htt hm hm' hk h
    exact ⟨u', .edge h1, h2⟩
  | step h _ ih =>
    intro t' hm' htt
    obtain ⟨u', h1, h2, h3, h4, h5⟩ := twin_holds ht hs hs' htt hm hm' hk h
    obtain ⟨z', z1, z2⟩ := ih h3 h5 u' h4 h2
    exact ⟨z', .step h1 z1, z2⟩

theorem twin_same {s' : Schema} (hs' : Ready s') {u a b : TypeDecl} (ha : TwinType u a) (hb : TwinType u b)
    (h1 : a ∈ s'.types) (h2 : b ∈ s'.types) : a = b := by
  refine distinct_inj (f := (·.name)) hs'.names h1 h2 ?_
  have e1 : u.name = a.name := congrArg (·.2.1) ha.1.1
  have e2 : u.name = b.name := congrArg (·.2.1) hb.1.1
  show toLower a.name = toLower b.name
  rw [← e1, e2]

theorem twin_recursive {s s' : Schema} (ht : Twin s s') (hs : Ready s) (hs' : Ready s') (h : RecursiveArgs s) : RecursiveArgs s' := by
  obtain ⟨v, hv, a, ha, t, hm, u, hr, hc⟩ := h
  obtain ⟨v', hv', hvv⟩ := ht.services.mem_left hv
  obtain ⟨a', ha', hsh⟩ := twin_arg hvv ha
  have ta := settled_arg hs.settled hv ha
  obtain ⟨t', m1, m2, m3, m4⟩ := twin_struct ht hs hs' ta (settled_arg hs'.settled hv' ha') hsh hm
  have hk := (mentions_kind hs.objects ta hm).2
  obtain ⟨u', r1, r2, r3, r4, r5⟩ : ∃ u', Reach (Holds s'.types) t' u' ∧ TwinType u u' ∧ u ∈ s.types ∧ u' ∈ s'.types ∧ u.kind = S "struct" := by
    rcases hr with rfl | hr
    · exact ⟨t', .inl rfl, m2, m3, m4, hk⟩
    · obtain ⟨u', p1, p2⟩ := twin_path ht hs hs' hr m3 hk t' m4 m2
      exact ⟨u', .inr p1, p2⟩
  obtain ⟨z, z1, z2, _, z4, _⟩ := twin_path ht hs hs' hc r3 r5 u' r4 r2
  have := twin_same hs' z2 r2 z4 r4
  subst this
  exact ⟨v', hv', a', ha', t', m1, z, r1, z1⟩

end

/-! ### Filters keep twins -/

section
variable [GoUnicode] [GoPrint]

omit [GoUnicode] [GoPrint] in
theorem twin_kept {f : Flags} {m m' : Method} (h : AlikeMethod m m') : Kept f m ↔ Kept f m' := by
  have e : (fun k => m.annotations.lookup k) = fun k => m'.annotations.lookup k := congrArg (·.2.1) h.1
  have hc : ∀ k v, Carries m k v ↔ Carries m' k v := by
    intro k v
    unfold Carries
    rw [show m.annotations.lookup k = m'.annotations.lookup k from congrFun e k]
  unfold Kept Asked
  simp only [hc]

omit [GoUnicode] [GoPrint] in
/-- A list is nil when it was, or when a filter has emptied it. -/
theorem nil_picked {α β : Type} {a b : Bool} {p : Prop} [Decidable p] {l k : List α} {l' k' : List β} (h : isNil a l = isNil b l')
    (hk : k.length = k'.length) (hid : ¬ p → k = l ∧ k' = l') : isNil (a || decide p) k = isNil (b || decide p) k' := by
  by_cases hp : p
  · unfold isNil
    rw [isEmpty_of_length hk]
    simp [hp]
  · obtain ⟨rfl, rfl⟩ := hid hp
    simpa [hp] using h

theorem twin_picked (w : World) (f : Flags) {s s' : Schema} (h : Twin s s') (hs : Ready s) (hs' : Ready s') :
    Twin (picked w f s) (picked w f s') := by
  have hnil : s.services = [] ↔ s'.services = [] := by
    rw [← List.length_eq_zero_iff, ← List.length_eq_zero_iff, h.services.length]
  have ht : Pointwise TwinType (picked w f s).types (picked w f s').types := by
    unfold picked
    refine pw_filter h.types fun t _ t' _ htt => ?_
    have hn : t.name = t'.name := congrArg (·.2.1) htt.1.1
    have : KeptType f s t ↔ KeptType f s' t' := by
      constructor
      · intro hk hc
        obtain ⟨i, h1, h2⟩ := hk hc
        exact ⟨i, h1, twin_needed h hs hs' hn h2⟩
      · intro hk hc
        obtain ⟨i, h1, h2⟩ := hk hc
        exact ⟨i, h1, twin_needed h.symm hs' hs hn.symm h2⟩
    rw [Bool.eq_iff_iff]
    simp only [decide_eq_true_eq]
    exact this
  have hv : Pointwise TwinService (picked w f s).services (picked w f s').services := by
    unfold picked
    refine pw_map (pw_filter h.services fun v _ v' _ hvv => ?_) fun v v' hvv => ?_
    · rw [Bool.eq_iff_iff]
      simp only [decide_eq_true_eq]
      unfold Chosen
      rw [hvv.1]
    · have hms : Pointwise TwinMethod (v.methods.filter fun m => @decide (Kept f m) (Classical.propDecidable _))
          (v'.methods.filter fun m => @decide (Kept f m) (Classical.propDecidable _)) := pw_filter hvv.2.2.1 fun m _ m' _ hmm => by
        rw [Bool.eq_iff_iff]
        simp only [decide_eq_true_eq]
        exact twin_kept hmm.1
      refine ⟨hvv.1, hvv.2.1, hms, ?_⟩
      have hl := hvv.2.2.2
      unfold serviceNils at hl ⊢
      simp only [List.cons.injEq, and_true] at hl ⊢
      refine ⟨nil_picked hl.1 hms.length fun hf => ?_, hl.2⟩
      have hm : ∀ m, Kept f m := fun m => ⟨fun h => absurd (.inl h) hf, fun h => absurd (.inr h) hf⟩
      exact ⟨filter_true _ _ fun m => by simp only [hm]; simp, filter_true _ _ fun m => by simp only [hm]; simp⟩
  refine ⟨h.webrpc, h.name, ?_, ?_, ht, h.errors, hv, ?_⟩
  · unfold picked; dsimp only; rw [h.version]
  · unfold picked; dsimp only
    rw [h.path]
    simp only [ne_eq, hnil]
  · have hl := h.lists
    unfold schemaNils at hl ⊢
    simp only [List.cons.injEq, and_true] at hl ⊢
    refine ⟨nil_picked hl.1 ht.length fun hf => ?_, hl.2.1, ?_⟩
    · have hk : ∀ s t, KeptType f s t := fun s t h => absurd h hf
      exact ⟨filter_true _ _ fun m => by simp only [hk]; simp, filter_true _ _ fun m => by simp only [hk]; simp⟩
    · have hlen := hv.length
      unfold picked at hlen ⊢
      dsimp only at hlen ⊢
      rw [List.length_map, List.length_map] at hlen
      have := nil_picked (p := f.service ≠ []) hl.2.2 hlen fun hf => by
        have hc : ∀ v, Chosen f v := fun v => .inl (Classical.not_not.1 hf)
        exact ⟨filter_true _ _ fun m => by simp only [hc]; simp, filter_true _ _ fun m => by simp only [hc]; simp⟩
      unfold isNil at this ⊢
      rw [List.isEmpty_map, List.isEmpty_map]
      exact this

omit [GoUnicode] [GoPrint] in
theorem picked_plain (w : World) (f : Flags) {s : Schema} (h : ∀ vt ∈ allTypes s, PlainText vt.expr) :
    ∀ vt ∈ allTypes (picked w f s), PlainText vt.expr := by
  intro vt hvt
  apply h
  unfold allTypes picked at hvt
  unfold allTypes
  rcases List.mem_append.1 hvt with hvt | hvt
  · obtain ⟨t, ht, hv⟩ := List.mem_flatMap.1 hvt
    exact List.mem_append_left _ (List.mem_flatMap.2 ⟨t, (List.mem_filter.1 ht).1, hv⟩)
  · obtain ⟨v, hv, hvt⟩ := List.mem_flatMap.1 hvt
    obtain ⟨v0, hv0, rfl⟩ := List.mem_map.1 hv
    obtain ⟨m, hm, hvt⟩ := List.mem_flatMap.1 hvt
    exact List.mem_append_right _ (List.mem_flatMap.2 ⟨v0, (List.mem_filter.1 hv0).1,
      List.mem_flatMap.2 ⟨m, (List.mem_filter.1 hm).1, hvt⟩⟩)

/-! ### Generating from twins -/

theorem generate_twins (x : Ext) (w w' : World) (hw : w'.schemaVersionVar = w.schemaVersionVar) (f : Flags) (opts : List (Str × Str)) (s s' : Schema) (h : Twin s s')
    (hs : Ready s) (hs' : Ready s') (hp : ∀ vt ∈ allTypes s, PlainText vt.expr) (hp' : ∀ vt ∈ allTypes s', PlainText vt.expr)
    (hd : f.target ≠ S "debug") (hx : ∀ place refresh tm, x.load place refresh = some tm → SeesText tm) :
    generate x (picked w f s) f.target opts f.fmt f.refreshCache = generate x (picked w' f s') f.target opts f.fmt f.refreshCache := by
  have hww : picked w' f s' = picked w f s' := by unfold picked; rw [hw]
  rw [hww]
  have ht := twin_picked w f h hs hs'
  have hj : toJSON (picked w f s) = toJSON (picked w f s') := by
    rw [toJSON_plain (picked_plain w f hp), toJSON_plain (picked_plain w f hp'), ht.enc]
  unfold generate
  dsimp only
  rw [defaultBasePath_picked, defaultBasePath_picked, schemaHash, schemaHash, hj]
  cases (toJSON (picked w f s')).map x.sha1 with
  | none => rfl
  | some hash =>
    dsimp only
    have hr : ∀ place refresh tm, x.load place refresh = some tm →
        tm.render (fullVars (baseVars x (picked w f s) hash f.target opts) tm.version) =
        tm.render (fullVars (baseVars x (picked w f s') hash f.target opts) tm.version) := by
      intro place refresh tm hl
      refine hx place refresh tm hl _ _ ht.alike ?_
      unfold fullVars baseVars
      dsimp only
      rw [ht.name, ht.version]
    cases hr' : resolve x.modLines f.target with
    | json => rfl
    | debug => exact absurd ((C50_builtin x.modLines f.target).2.1 hr') hd
    | embedded e => dsimp only; cases hl : x.load (.embedded e) f.refreshCache with
      | none => rfl
      | some tm => dsimp only; rw [hr _ _ tm hl]
    | local_ e => dsimp only; cases hl : x.load (.local_ e) f.refreshCache with
      | none => rfl
      | some tm => dsimp only; rw [hr _ _ tm hl]
    | remote e => dsimp only; cases hl : x.load (.remote e) f.refreshCache with
      | none => rfl
      | some tm => dsimp only; rw [hr _ _ tm hl]

/-! ### Files -/

omit [GoPrint] in
theorem json_valid {text : Str} {s : Schema} (h : parseSchemaJSON text = .ok s) : ∃ s0, validate s0 = .ok s := by
  unfold parseSchemaJSON at h
  split at h
  · cases h
  · cases h
  · split at h
    · cases h
    · cases h
    · rename_i s0 _
      split at h
      · rename_i hv; cases h; exact ⟨s0, hv⟩
      all_goals cases h

omit [GoPrint] in
theorem loaded_valid {w : World} {path : Str} {s : Schema} (h : parseSchemaFile w path = .ok s) : ∃ s0, validate s0 = .ok s := by
  unfold parseSchemaFile at h
  dsimp only at h
  split at h
  · split at h
    · cases h
    · rename_i text _
      cases hp : parseSchemaJSON text <;> rw [hp] at h <;> cases h
      exact json_valid hp
  · split at h
    · cases hc : Compile.compile w.files ((absPath w.cwd path).drop 1) <;> rw [hc] at h <;> cases h
      obtain ⟨_, _, s0, _, _, _, _, _, h0⟩ := (C62_cache_transparent _ _ _).1 hc
      exact ⟨_, h0⟩
    · cases h

omit [GoPrint] in
theorem ready_of (hcase : CaseKeepsBlanks) {s : Schema} (hv : validate s = .ok s) (hd : DistinctObjects (s.types.map (·.ptr))) : Ready s :=
  ⟨(settled_iff hcase s).1 hv, hd, (C17_type_names s s hv hd).1⟩

/-- A valid schema that is portable, and what is read back from its JSON text. -/
theorem read_back (hcase : CaseKeepsBlanks) {s : Schema} (hv : validate s = .ok s) (hp : Portable s) :
    ∃ text s2, toJSON s = some text ∧ parseSchemaJSON text = .ok s2 ∧ Twin s s2 ∧ Ready s ∧ Ready s2 ∧
      ∀ vt ∈ allTypes s2, PlainText vt.expr := by
  obtain ⟨text, s2, h1, h2, h3, h4, -⟩ := C27_round_trip_partial s s hv hp
  obtain ⟨s3, g1, g2, g3, g4⟩ := validate_again hv hp
  have hst : ∀ e ∈ s.errors, -(2 ^ 63 : Int) ≤ e.httpStatus ∧ e.httpStatus < 2 ^ 63 := by
    intro e he
    obtain ⟨-, -, -, -, -, a, b⟩ := (C19_errors s s hv).2.2.1 e he
    omega
  have hj := toJSON_plain (s := s) hp.plain
  have hpl : ∀ vt ∈ allTypes s3, PlainText vt.expr := by
    intro vt hvt
    have : vt.expr ∈ (allTypes s3).map (·.expr) := List.mem_map.2 ⟨vt, hvt, rfl⟩
    rw [exprs_of_view g3] at this
    obtain ⟨x, hx, he⟩ := List.mem_map.1 this
    rw [← he]; exact hp.plain x hx
  have hpar : parseSchemaJSON (print ⟨true, false⟩ 0 (encSchema s) ++ ['\n']) = .ok s3 := by
    unfold parseSchemaJSON
    rw [parse_printed ⟨true, false⟩ (encSchema s) (nums_schema hp) ['\n'] (by decide)]
    have hd := decSchema_enc hp hst
    obtain ⟨L, he⟩ : ∃ L, encSchema s = .obj L := ⟨_, rfl⟩
    rw [he] at hd ⊢
    dsimp only
    rw [hd]
    dsimp only
    rw [g1]
  have hres : ∀ vt ∈ usedTypes s3, vt.Resolved := by
    intro vt hvt
    have : shape vt ∈ (usedTypes s3).map shape := List.mem_map.2 ⟨vt, hvt, rfl⟩
    rw [g4] at this
    obtain ⟨x, hx, he⟩ := List.mem_map.1 this
    have hr : ∀ a b : VarType, shape a = shape b → a.Resolved → b.Resolved := by
      intro a
      induction a with
      | leaf e c => intro b h; cases b <;> simp [shape] at h; obtain ⟨rfl, rfl⟩ := h; exact id
      | list e t ih => intro b h; cases b <;> simp [shape] at h; rename_i e' t'; exact ih t' h.2
      | map e k v _ ih => intro b h; cases b <;> simp [shape] at h; rename_i e' k' v'; exact ih v' h.2.2
      | struct => intro b h; cases b <;> simp [shape] at h; exact fun _ => trivial
      | enum => intro b h; cases b <;> simp [shape] at h; exact fun _ => trivial
      | alias => intro b h; cases b <;> simp [shape] at h; exact fun _ => trivial
    exact hr x vt he (hp.resolved x hx)
  have hv3 : validate s3 = .ok s3 := C24_idempotent _ s3 g1 hres
  exact ⟨_, s3, hj, hpar, (twin_of g2 g3 g4).symm, ready_of hcase hv hp.types, ready_of hcase hv3 (made_json hpar).1, hpl⟩

/-- **C76**: running webrpc-gen on a file with the JSON text of a schema does exactly what running it on the schema's
own file does: same exit status, same output, same file written, for all flags that choose services, methods, types and
versions. -/
theorem C76_same_outcome_partial (hcase : CaseKeepsBlanks) (w : World) (x : Ext) (args args' : List Str) (f : Flags) (opts : List (Str × Str))
    (s : Schema) (text path : Str) (files : Compile.Files) (d : List Str)
    (h : Generating w args f opts s) (hp : Portable s) (ht : toJSON s = some text)
    (hd : f.target ≠ S "debug") (hx : ∀ place refresh tm, x.load place refresh = some tm → SeesText tm)
    (hc : Command args' { f with schema := path } opts) (hne : path ≠ [])
    (hcwd : w.cwd = absText d) (hpr : ∀ e ∈ d, Proper e) (hext : Ends (reached d path) ".json")
    (hfile : files.lookup (Compile.joinSlash (reached d path).reverse) = some text) :
    ∃ n n' o, run n w x args = .ends o ∧ run n' { w with files := files } x args' = .ends o := by
  obtain ⟨s0, h0⟩ := loaded_valid h.loaded
  have hv : validate s = .ok s := C24_idempotent s0 s h0 hp.resolved
  obtain ⟨text', s2, j1, j2, tw, r1, r2, pl⟩ := read_back hcase hv hp
  rw [ht] at j1
  cases j1
  have hl : parseSchemaFile { w with files := files } path = .ok s2 :=
    (C70_reads { w with files := files } d hpr hcwd path s2).2 (.inl ⟨hext, text, hfile, j2⟩)
  have h2 : Generating { w with files := files } args' { f with schema := path } opts s2 :=
    ⟨hc, h.version, hne, hl, h.target, h.filters, fun hh hr => h.ends hh (twin_recursive tw.symm r2 r1 hr)⟩
  obtain ⟨n, e1⟩ := run_generating w x args f opts s h
  obtain ⟨n', e2⟩ := run_generating _ x args' _ opts s2 h2
  refine ⟨n, n', _, e1, ?_⟩
  rw [e2]
  congr 1
  have hpk : picked { w with files := files } { f with schema := path } s2 = picked { w with files := files } f s2 := rfl
  rw [hpk]
  show finish w f _ = _
  rw [generate_twins x w { w with files := files } rfl f opts s s2 tw r1 r2 hp.plain pl hd hx]

/-! ### The file made by the target `json` -/

omit [GoUnicode] [GoPrint] in
theorem rpc_ok : GivenPathOk (S "/rpc/") := by
  refine ⟨by decide, ?_, ?_⟩
  · rintro ⟨a, b, h⟩
    have : ':' ∈ S "/rpc/" := by rw [← h]; simp [S]
    exact absurd this (by decide)
  · rintro r ⟨a, h⟩
    have : '%' ∈ S "/rpc/" := by rw [← h]; simp
    exact absurd this (by decide)

omit [GoUnicode] [GoPrint] in
theorem picked_whole (w : World) (f : Flags) (s : Schema) (h1 : f.service = []) (h2 : f.ignore = []) (h3 : f.matching = []) :
    picked w f s = { s with
      basePath := if s.basePath = [] ∧ s.services ≠ [] then S "/rpc/" else s.basePath
      schemaVersion := if f.schemaVersion ≠ S "$WEBRPC_SCHEMA_VERSION" then f.schemaVersion
        else if w.schemaVersionVar ≠ [] then w.schemaVersionVar else s.schemaVersion } := by
  have hk : ∀ t, KeptType f s t := fun t h => absurd h1 h.2
  have hc : ∀ v, Chosen f v := fun v => .inl h1
  have hm : ∀ m, Kept f m := fun m => ⟨fun h => absurd h2 h, fun h => absurd h3 h⟩
  unfold picked
  congr 1
  · exact filter_true _ _ fun t => by simp only [hk]; simp
  · rw [filter_true _ _ fun v => by simp only [hc]; simp]
    have : ∀ v : Service, { v with methods := v.methods.filter (fun m => @decide (Kept f m) (Classical.propDecidable _))
                                   nils := { v.nils with methods := v.nils.methods || decide (f.ignore ≠ [] ∨ f.matching ≠ []) } } = v := by
      intro v
      rw [filter_true _ _ fun m => by simp only [hm]; simp]
      simp [h2, h3]
    exact (List.map_congr_left fun v _ => this v).trans (List.map_id' _)
  · simp [h1]

omit [GoUnicode] [GoPrint] in
theorem picked_twice (w : World) (f f1 : Flags) (s : Schema) (h1 : f1.service = []) (h2 : f1.ignore = []) (h3 : f1.matching = [])
    (h4 : f1.schemaVersion = S "$WEBRPC_SCHEMA_VERSION") : picked w f (picked w f1 s) = picked w f s := by
  rw [picked_whole w f1 s h1 h2 h3, h4]
  have hk : ∀ t, KeptType f { s with
      basePath := if s.basePath = [] ∧ s.services ≠ [] then S "/rpc/" else s.basePath
      schemaVersion := if w.schemaVersionVar ≠ [] then w.schemaVersionVar else s.schemaVersion } t ↔ KeptType f s t := fun t => Iff.rfl
  simp only [ne_eq, not_true_eq_false, if_false]
  unfold picked
  dsimp only
  congr 1
  · by_cases hv : f.schemaVersion = S "$WEBRPC_SCHEMA_VERSION"
    · by_cases hw : w.schemaVersionVar = []
      · simp [hw]
      · simp [hw]
    · simp [hv]
  · by_cases hb : s.basePath = [] ∧ s.services ≠ []
    · rw [if_pos hb]
      split <;> rfl
    · rw [if_neg hb, if_neg hb]

omit [GoPrint] in
theorem picked_settled (hcase : CaseKeepsBlanks) (w : World) (f : Flags) (s : Schema) (h1 : f.service = []) (h2 : f.ignore = [])
    (h3 : f.matching = []) (h4 : f.schemaVersion = S "$WEBRPC_SCHEMA_VERSION") (hv : validate s = .ok s) :
    validate (picked w f s) = .ok (picked w f s) := by
  rw [settled_iff hcase] at hv ⊢
  obtain ⟨⟨v1, v2, v3, v4, v5, v6, v7, v8⟩, p, t, e, r⟩ := hv
  rw [picked_whole w f s h1 h2 h3, h4]
  simp only [ne_eq, not_true_eq_false, if_false]
  refine ⟨⟨v1, ?_, ?_, v4, v5, v6, v7, v8⟩, ?_, t, e, r⟩
  · intro hs
    dsimp only
    split
    · rename_i hw; exact hw
    · exact v2 hs
  · dsimp only
    split
    · intro _; exact rpc_ok
    · exact v3
  · dsimp only
    split
    · rw [if_neg (by decide)]; decide +kernel
    · exact p

omit [GoPrint] in
theorem picked_portable (w : World) (f : Flags) (s : Schema) (h1 : f.service = []) (h2 : f.ignore = []) (h3 : f.matching = [])
    (hp : Portable s) : Portable (picked w f s) := by
  rw [picked_whole w f s h1 h2 h3]
  exact ⟨hp.resolved, hp.types, hp.services, hp.plain, hp.keys, hp.metas, hp.argMetas, hp.annotations, hp.ints⟩

/-- **C76**: making the JSON file with webrpc-gen's own target `json` and then generating from that file does exactly what
generating from the schema's own file does. -/
theorem C76_two_steps_partial (hcase : CaseKeepsBlanks) (w : World) (x : Ext) (args1 args args' : List Str) (f1 f : Flags)
    (opts1 opts : List (Str × Str)) (s : Schema) (d : List Str)
    (h1 : Generating w args1 f1 opts1 s) (h : Generating w args f opts s) (hp : Portable s)
    (j1 : f1.target = S "json") (j2 : f1.service = []) (j3 : f1.ignore = []) (j4 : f1.matching = [])
    (j5 : f1.schemaVersion = S "$WEBRPC_SCHEMA_VERSION") (j6 : f1.out ≠ []) (j7 : f1.out ≠ S "stdout")
    (j8 : w.writable (absPath w.cwd f1.out) = true)
    (hd : f.target ≠ S "debug") (hx : ∀ place refresh tm, x.load place refresh = some tm → SeesText tm)
    (hc : Command args' { f with schema := f1.out } opts)
    (hcwd : w.cwd = absText d) (hpr : ∀ e ∈ d, Proper e) (hext : Ends (reached d f1.out) ".json") :
    ∃ n1 o1 n n' o, run n1 w x args1 = .ends o1 ∧ o1.status = 0 ∧
      run n w x args = .ends o ∧ run n' { w with files := filesAfter w o1 } x args' = .ends o := by
  obtain ⟨s0, h0⟩ := loaded_valid h.loaded
  have hv : validate s = .ok s := C24_idempotent s0 s h0 hp.resolved
  have hv1 := picked_settled hcase w f1 s j2 j3 j4 j5 hv
  have hp1 := picked_portable w f1 s j2 j3 j4 hp
  obtain ⟨text, s2, t1, t2, tw, r1, r2, pl⟩ := read_back hcase hv1 hp1
  obtain ⟨n1, o1, g1, -, g2⟩ := C69_json w x args1 f1 opts1 s text h1 j1 t1
  have ho := g2 j6 j7 j8
  subst ho
  have hfile : (filesAfter w { status := 0, wrote := some (absPath w.cwd f1.out, text) }).lookup
      (Compile.joinSlash (reached d f1.out).reverse) = some text := by
    unfold filesAfter
    dsimp only
    rw [hcwd, (absPath_eq hpr f1.out).1]
    show List.lookup _ ((Compile.joinSlash (reached d f1.out).reverse, text) :: _) = _
    rw [List.lookup_cons_self]
  obtain ⟨files, hfe⟩ : ∃ files, files = filesAfter w { status := 0, wrote := some (absPath w.cwd f1.out, text) } := ⟨_, rfl⟩
  rw [← hfe] at hfile
  have hl : parseSchemaFile { w with files := files } f1.out = .ok s2 :=
    (C70_reads { w with files := files } d hpr hcwd f1.out s2).2 (.inl ⟨hext, text, hfile, t2⟩)
  have hrec : RecursiveArgs (picked w f1 s) ↔ RecursiveArgs s := by rw [picked_whole w f1 s j2 j3 j4]; exact Iff.rfl
  have h2 : Generating { w with files := files } args' { f with schema := f1.out } opts s2 :=
    ⟨hc, h.version, j6, hl, h.target, h.filters, fun hh hr => h.ends hh (hrec.1 (twin_recursive tw.symm r2 r1 hr))⟩
  obtain ⟨n, e1⟩ := run_generating w x args f opts s h
  obtain ⟨n', e2⟩ := run_generating _ x args' _ opts s2 h2
  refine ⟨n1, _, n, n', _, g1, rfl, e1, ?_⟩
  rw [← hfe, e2]
  congr 1
  show finish w f (generate x (picked { w with files := files } f s2) _ _ _ _) = _
  rw [← generate_twins x w { w with files := files } rfl f opts _ s2 tw r1 r2 hp1.plain pl hd hx, picked_twice w f f1 s j2 j3 j4 j5]

end

/-! ### Examples -/

def jsonArgs : List Str := [S "-schema=./a.ridl", S "-target=json", S "-out=gen/out.json"]

def exWorld2 : World := { exWorld with writable := fun _ => true }

def exArgs2 : List Str :=
  [S "-schema=gen/out.json", S "-target=typescript", S "-client", S "-service=A", S "-methodTreeShake", S "-ignore=@internal", S "-schemaVersion=v7", S "-out=gen/out.ts"]

theorem pw_names {l l' : List TypeDecl} (h : Pointwise AlikeType l l') : l.map TypeDecl.name = l'.map TypeDecl.name :=
  h.map_eq fun _ _ e => congrArg (·.2.1) e.1

theorem exSees (place : Target) (refresh : Bool) (tm : Templates) (h : exExt.load place refresh = some tm) : SeesText tm := by
  cases h
  intro v v' ha he
  have e1 := ha.version
  have e2 := ha.path
  have e3 := pw_names ha.types
  have e4 : v.schema.services.map (fun s => s.name :: s.methods.map Method.name) = v'.schema.services.map (fun s => s.name :: s.methods.map Method.name) :=
    ha.services.map_eq fun a b hab => by
      rw [hab.1, hab.2.2.1.map_eq (f := Method.name) (g := Method.name) fun _ _ e => congrArg (·.1) e.1]
  have e5 : v.opts = v'.opts := by rw [he]
  dsimp only
  rw [e1, e2, e3, e5]
  have : ∀ l : List Service, (l.flatMap fun s => s.name :: s.methods.map Method.name) = (l.map fun s => s.name :: s.methods.map Method.name).flatten :=
    fun l => List.flatMap_def ..
  rw [this, this, e4]

/-- Loading works and gives a schema that passes the test. -/
def loadsTo (r : Input) (p : Schema → Bool) : Bool :=
  match r with
  | .ok s => p s
  | _ => false

theorem loadsTo_iff {r : Input} {p : Schema → Bool} : loadsTo r p = true ↔ ∃ s, r = .ok s ∧ p s = true := by
  cases r <;> simp [loadsTo]

/-- C76: the hypotheses of `C76_two_steps_partial` are met. -/
theorem C76_example : let _ := asciiOnly; let _ := asciiPrint
    ∃ f1 f opts s, Generating exWorld2 jsonArgs f1 [] s ∧ Generating exWorld2 exArgs f opts s ∧ Portable s ∧
      f1.target = S "json" ∧ f1.out = S "gen/out.json" ∧ f1.service = [] ∧ f1.ignore = [] ∧ f1.matching = [] ∧
      f1.schemaVersion = S "$WEBRPC_SCHEMA_VERSION" ∧
      f.target ≠ S "debug" ∧ Command exArgs2 { f with schema := S "gen/out.json" } opts ∧
      exWorld2.cwd = absText [S "w"] ∧ Ends (reached [S "w"] (S "gen/out.json")) ".json" := by
  intro _ _
  have hl : loadsTo (parseSchemaFile exWorld2 (S "./a.ridl")) (fun s => portableB s && (treeShakeN 9 s [S "A"]).isSome) = true := by
    decide +kernel
  obtain ⟨s, hs, h1, h2⟩ : ∃ s, parseSchemaFile exWorld2 (S "./a.ridl") = .ok s ∧ portableB s = true ∧ (treeShakeN 9 s [S "A"]).isSome = true := by
    obtain ⟨s, h1, h2⟩ := loadsTo_iff.1 hl
    exact ⟨s, h1, by rwa [Bool.and_eq_true] at h2⟩
  have hrec : ¬ RecursiveArgs s := (C39_ends s [S "A"]).1 ⟨9, h2⟩
  refine ⟨{ schema := S "./a.ridl", target := S "json", out := S "gen/out.json" },
    { schema := S "./a.ridl", target := S "typescript", service := S "A", methodTreeShake := true, ignore := S "@internal",
      schemaVersion := S "v7", out := S "gen/out.ts" }, [(S "client", [])], s,
    ⟨?_, rfl, by decide, hs, by decide, ?_, fun _ => hrec⟩, ⟨?_, rfl, by decide, hs, by decide, ?_, fun _ => hrec⟩, portableB_ok h1,
    rfl, rfl, rfl, rfl, rfl, rfl, by decide, ?_, by decide, S "out", [S "gen", S "w"], by decide +kernel⟩
  · rw [← C68_command]
    exact ⟨jsonArgs, by decide +kernel, by decide +kernel⟩
  · exact (filters_iff _ {}).1 (Option.isSome_iff_exists.1 (by decide +kernel))
  · rw [← C68_command]
    exact ⟨exArgs.eraseIdx 2, by decide +kernel, by decide +kernel⟩
  · exact (filters_iff _ {}).1 (Option.isSome_iff_exists.1 (by decide +kernel))
  · rw [← C68_command]
    exact ⟨exArgs2.eraseIdx 2, by decide +kernel, by decide +kernel⟩

/-- One run after another, in the files the first one leaves. -/
def andThen [GoUnicode] [GoPrint] (w : World) (x : Ext) (a b : List Str) : Run :=
  match run 9 w x a with
  | .ends o => run 9 { w with files := filesAfter w o } x b
  | r => r

def aliasWorld : World :=
  { exWorld2 with files := [(S "w/a.ridl", S "webrpc = v1\nname = demo\nversion = v0.1.0\ntype Ids: []uint64\n")] }

/-- The element types of all aliases, as the template function `listElemType` gives them; `none` if it fails. -/
def elemTypes (s : Schema) : Option (List Str) :=
  s.types.mapM fun t => (t.type.bind fun vt => listElemType (.varType vt)).bind toStr

/-- Templates that list them. -/
def elemRender (v : Vars) : Rendered :=
  match elemTypes v.schema with
  | none => .fails
  | some l => .text (join (S ",") l)

def elemExt : Ext := { exExt with load := fun _ _ => some { version := S "gen-x@v2", render := elemRender } }

/-- C76 needs its condition on templates, because the types of aliases are parsed in RIDL files only: templates that ask
for the element type of an alias for a list work on the schema file and fail on its JSON form. -/
theorem C76_alias_elem : let _ := asciiOnly; let _ := asciiPrint
    run 9 aliasWorld elemExt [S "-schema=a.ridl", S "-target=x"] = .ends { status := 0, stdout := some (S "uint64\n") } ∧
    andThen aliasWorld elemExt [S "-schema=a.ridl", S "-target=json", S "-out=b.json"] [S "-schema=b.json", S "-target=x"] =
      .ends { status := 1 } := by
  intro _ _
  refine ⟨by decide +kernel, by decide +kernel⟩

end Verif.Interchange
