import Verif.Json.SchemaLemmas
import Verif.Props.Validation
/-!
# C27: the JSON form of a schema
-/

namespace Verif.Props
open Verif.Schema hiding Json
open Verif.Spec Verif.Json

/-! ### Parsing types under other declarations of the same names -/

theorem firstDecl_same {ts ts' : List TypeDecl} {R : TypeDecl → TypeDecl → Prop} (h : Pointwise R ts ts')
    {p : TypeDecl → Prop} (hp : ∀ t t', R t t' → (p t ↔ p t')) {d : TypeDecl} (hd : FirstDecl ts p d) :
    ∃ d', FirstDecl ts' p d' ∧ R d d' := by
  obtain ⟨l, r, rfl, h1, h2⟩ := hd
  induction l generalizing ts' with
  | nil =>
    cases h with
    | cons hr hrest => exact ⟨_, ⟨[], _, rfl, (hp _ _ hr).1 h1, by simp⟩, hr⟩
  | cons x l ih =>
    cases h with
    | cons hr hrest =>
      obtain ⟨d', ⟨l', r', rfl, g1, g2⟩, hdd⟩ := ih hrest fun y hy => h2 y (by simp [hy])
      refine ⟨d', ⟨_ :: l', r', rfl, g1, ?_⟩, hdd⟩
      intro y hy
      rcases List.mem_cons.1 hy with rfl | hy
      · exact fun hpy => h2 x (by simp) ((hp _ _ hr).2 hpy)
      · exact g2 y hy

/-- Declarations of the same kind and name. -/
def SameDecl (t t' : TypeDecl) : Prop := t'.kind = t.kind ∧ t'.name = t.name

theorem denotes_same [GoUnicode] {ts ts' : List TypeDecl} (h : Pointwise SameDecl ts ts') {t : Ty} {vt : VarType}
    (hd : Denotes ts t vt)
    (hk : ∀ k ∈ mapKeys vt, ∀ d ∈ ts, SameName d.name k.expr → d.kind = S "enum") :
    ∃ vt', Denotes ts' t vt' ∧ shape vt' = shape vt := by
  induction hd with
  | omitted => exact ⟨_, .omitted, rfl⟩
  | scalar hc => exact ⟨_, .scalar hc, rfl⟩
  | list _ ih =>
    obtain ⟨v', h1, h2⟩ := ih hk
    exact ⟨_, .list h1, by simp [shape, h2]⟩
  | @map k v kt vt hc hkt _ ih =>
    obtain ⟨v', h1, h2⟩ := ih fun k hk' => hk k (by simp [mapKeys, hk'])
    have he := keyTree_expr hkt
    rcases hkt with ⟨a, c, b, rfl⟩ | ⟨a, d, b, -, rfl⟩
    · exact ⟨_, .map hc (.inl ⟨a, c, b, rfl⟩) h1, by simp [shape, h2]⟩
    · have hen : d.kind = S "enum" := by
        obtain ⟨l, r, rfl, g1, -⟩ := b
        exact hk (.enum k k d.ptr) (by simp [mapKeys]) d (by simp) g1
      obtain ⟨d', b', hs⟩ := firstDecl_same h (fun x y (hxy : SameDecl x y) => by rw [hxy.2]) b
      exact ⟨_, .map hc (.inr ⟨a, d', b', .inl (hs.1.trans hen), rfl⟩) h1, by simp [shape, h2]⟩
  | @named n d vt hp hf hr =>
    obtain ⟨d', b', hs⟩ := firstDecl_same h (fun x y (hxy : SameDecl x y) => by rw [hxy.2]) hf
    rcases hr with ⟨a, rfl⟩ | ⟨a, rfl⟩ | ⟨a, rfl⟩
    · exact ⟨_, .named hp b' (.inl ⟨hs.1.trans a, rfl⟩), rfl⟩
    · exact ⟨_, .named hp b' (.inr (.inl ⟨hs.1.trans a, rfl⟩)), rfl⟩
    · exact ⟨_, .named hp b' (.inr (.inr ⟨hs.1.trans a, rfl⟩)), rfl⟩

theorem shape_expr {a b : VarType} (h : shape a = shape b) : a.expr = b.expr := by
  cases a <;> cases b <;> simp [shape] at h <;> simp [VarType.expr, h]

/-- A type of a validated schema, decoded from its text and parsed again. -/
theorem parse_again [GoUnicode] {ts ts' : List TypeDecl} (h : Pointwise SameDecl ts ts') {v : VarType}
    (hv : varTypeParse ts (some v) = .ok v) (hr : v.Resolved)
    (hk : ∀ k ∈ mapKeys v, ∀ d ∈ ts, SameName d.name k.expr → d.kind = S "enum") :
    ∃ v', varTypeParse ts' (some (reVar v)) = .ok v' ∧ shape v' = shape v := by
  obtain ⟨-, -, t, hc, ht, hd⟩ := C14_normal_form ts v v hv hr
  obtain ⟨v', hd', hs⟩ := denotes_same h hd hk
  refine ⟨v', ?_, hs⟩
  have hne : v.expr ≠ [] := by
    simp only [varTypeParse, Res.bind_ok, Res.failIf_ok, decide_eq_false_iff_not] at hv
    exact hv.choose_spec.1
  have hp : parseExpr ts' v.expr = .ok v' := parseExpr_iff.2 ⟨t, hd', ht⟩
  have hb : buildExpr v' [] = v'.expr := by rw [build_denotes hd' hc, denotes_expr hd']
  have he : (reVar v).expr = v.expr := rfl
  simp only [varTypeParse, he, hp, hne, decide_false, Res.failIf_false, Res.ok_bind, hb, setExpr_self]

/-! ### Encoding only looks at the texts of types -/

theorem encType_congr [GoPrint] {a b : Option VarType} (h : a.map (·.expr) = b.map (·.expr)) : encType a = encType b := by
  cases a <;> cases b <;> simp at h <;> simp [encType, h]

theorem isNone_congr {a b : Option VarType} (h : a.map (·.expr) = b.map (·.expr)) : a.isNone = b.isNone := by
  cases a <;> cases b <;> simp at h <;> rfl

theorem encMeta_sort (m : Meta) : encMeta (sortKeys m) = encMeta m := by
  unfold encMeta; rw [sortKeys_idem]

theorem encList_congr {α β : Type} {f : α → Verif.Json.Json} {g : β → Verif.Json.Json} {l : List α} {l' : List β}
    (h : l.map f = l'.map g) : encList f l = encList g l' := by
  unfold encList
  rw [h]

theorem isEmpty_of_length {α β : Type} {l : List α} {l' : List β} (h : l.length = l'.length) : l.isEmpty = l'.isEmpty := by
  cases l <;> cases l' <;> simp at h ⊢

theorem encSlice_congr {α β : Type} {a b : Bool} {f : α → Verif.Json.Json} {g : β → Verif.Json.Json} {l : List α} {l' : List β}
    (h : l.map f = l'.map g) (hn : (a && l.isEmpty) = (b && l'.isEmpty)) : encSlice a f l = encSlice b g l' := by
  have : (a = true ∧ l = []) ↔ (b = true ∧ l' = []) := by
    rw [← List.isEmpty_iff, ← List.isEmpty_iff, ← Bool.and_eq_true, ← Bool.and_eq_true, hn]
  unfold encSlice
  rw [encList_congr h]
  simp only [this]

theorem encSlice_again {α β : Type} {b : Bool} {f : α → Verif.Json.Json} {g : β → Verif.Json.Json} {l : List α} {l' : List β}
    (h : l'.map g = l.map f) : encSlice (b && l.isEmpty) g l' = encSlice b f l := by
  have hl : l'.isEmpty = l.isEmpty := isEmpty_of_length (by simpa using congrArg List.length h)
  refine encSlice_congr h ?_
  rw [hl]
  cases b <;> cases l.isEmpty <;> rfl

theorem encMetas_sort (ms : List Meta) : encList encMeta (ms.map sortKeys) = encList encMeta ms := by
  apply encList_congr
  rw [List.map_map]
  apply List.map_congr_left
  intro m _
  exact encMeta_sort m

/-- A field after decoding and parsing. -/
theorem encField_again [GoPrint] (f : Field) (o : Option VarType) (ho : o.map (·.expr) = f.type.map (·.expr)) :
    encField { reField f with type := o } = encField f := by
  have hm : (decide (f.metas.map sortKeys = [])) = decide (f.metas = []) := by
    cases f.metas <;> simp
  unfold encField reField
  dsimp only
  rw [encType_congr ho, isNone_congr ho, encMetas_sort, hm]

theorem lookup_sort {α : Type} {m : List (Str × α)} (h : IsMap m) : (fun k => (sortKeys m).lookup k) = fun k => m.lookup k := by
  funext k
  exact lookup_perm (sortKeys_spec m).1 (isMap_perm (sortKeys_spec m).1.symm h) k

theorem metas_sort {ms : List Meta} (h : ∀ m ∈ ms, StringMeta m) :
    (ms.map sortKeys).map (fun m k => List.lookup k m) = ms.map fun m k => m.lookup k := by
  rw [List.map_map]
  apply List.map_congr_left
  intro m hm
  exact lookup_sort (h m hm).1

theorem fieldView_again {f : Field} (hm : ∀ m ∈ f.metas, StringMeta m) (o : Option VarType)
    (ho : o.map (·.expr) = f.type.map (·.expr)) : fieldView { reField f with type := o } = fieldView f := by
  unfold fieldView reField
  dsimp only
  rw [ho, metas_sort hm]

theorem reVar_expr (o : Option VarType) : (o.map reVar).map (·.expr) = o.map (·.expr) := by cases o <;> rfl

/-! ### Checks that do not look at the order of metas -/

theorem jsonFieldName_sort {ms : List Meta} (h : ∀ m ∈ ms, StringMeta m) (acc : Str) :
    jsonFieldName acc (ms.map sortKeys) = jsonFieldName acc ms := by
  induction ms generalizing acc with
  | nil => rfl
  | cons m ms ih =>
    have hl := congrFun (lookup_sort (h m (by simp)).1) (S "json")
    have ih' := ih fun x hx => h x (by simp [hx])
    rw [List.map_cons, jsonFieldName, jsonFieldName, hl]
    split
    · exact ih' acc
    · split
      · exact ih' acc
      · split
        · rfl
        · exact ih' _
    · rfl

theorem checkFields_again [GoUnicode] {fs : List Field} (h : ∀ f ∈ fs, ∀ m ∈ f.metas, StringMeta m) (seen sj : List Str) :
    checkFields seen sj (fs.map reField) = checkFields seen sj fs := by
  induction fs generalizing seen sj with
  | nil => rfl
  | cons f fs ih =>
    have hj := fun acc => jsonFieldName_sort (h f (by simp)) acc
    simp only [List.map_cons, checkFields]
    have e : (reField f).name = f.name := rfl
    have e2 : (reField f).metas = f.metas.map sortKeys := rfl
    simp only [e, e2, hj, ih fun g hg => h g (by simp [hg])]

theorem each_again {α β γ : Type} {f : β → Res γ} {r : α → β} {g : α → Res γ} (h : ∀ x, f (r x) = g x) (l : List α) :
    Res.each f (l.map r) = Res.each g l := by
  induction l with
  | nil => rfl
  | cons x l ih => simp only [List.map_cons, Res.each, h, ih]

theorem checkEnum_again (t : TypeDecl) (i : Nat) : checkEnum (reType i t) = checkEnum t := by
  unfold checkEnum reType
  dsimp only
  have hv : varTypeString (t.type.map reVar) = varTypeString t.type := by cases t.type <;> rfl
  rw [hv]
  rw [each_again (g := fun f : Field => do
    Res.failIf (f.value = []) .enumValueMissing
    Res.failIf f.type.isSome .enumFieldType)]
  intro f
  have : (reField f).type.isSome = f.type.isSome := by
    unfold reField; cases f.type <;> rfl
  rw [this]
  rfl

/-! ### Lists position by position -/

theorem map_exists {α β γ : Type} {F : β → Res γ} {h : α → β} {Q : α → γ → Prop} {l : List α}
    (hl : ∀ x ∈ l, ∃ y, F (h x) = .ok y ∧ Q x y) :
    ∃ ys, Pointwise (fun b c => F b = .ok c) (l.map h) ys ∧ Pointwise Q l ys := by
  induction l with
  | nil => exact ⟨[], .nil, .nil⟩
  | cons x l ih =>
    obtain ⟨ys, h1, h2⟩ := ih fun y hy => hl y (by simp [hy])
    obtain ⟨y, g1, g2⟩ := hl x (by simp)
    exact ⟨y :: ys, .cons g1 h1, .cons g2 h2⟩

theorem numbered_names {α β γ : Type} {h : Nat → α → β} {f : β → γ} {g : α → γ} (hfg : ∀ i x, f (h i x) = g x) (i : Nat) (l : List α) :
    (numbered h i l).map f = l.map g := by
  induction l generalizing i with
  | nil => rfl
  | cons x l ih => simp [numbered, hfg, ih]

theorem numbered_pointwise {α β : Type} {h : Nat → α → β} {R : α → β → Prop} (hr : ∀ i x, R x (h i x)) (i : Nat) (l : List α) :
    Pointwise R l (numbered h i l) := by
  induction l generalizing i with
  | nil => exact .nil
  | cons x l ih => exact .cons (hr i x) (ih (i + 1))

theorem numbered_exists_mem {α β γ : Type} {F : β → Res γ} {h : Nat → α → β} {Q : α → γ → Prop} {l : List α} (i : Nat)
    (hl : ∀ x ∈ l, ∀ j, h j x ∈ numbered h i l → ∃ y, F (h j x) = .ok y ∧ Q x y) :
    ∃ ys, Pointwise (fun b c => F b = .ok c) (numbered h i l) ys ∧ Pointwise Q l ys := by
  induction l generalizing i with
  | nil => exact ⟨[], .nil, .nil⟩
  | cons x l ih =>
    obtain ⟨ys, h1, h2⟩ := ih (i + 1) fun y hy j hj => hl y (by simp [hy]) j (by simp [numbered, hj])
    obtain ⟨y, g1, g2⟩ := hl x (by simp) i (by simp [numbered])
    exact ⟨y :: ys, .cons g1 h1, .cons g2 h2⟩

/-! ### Validating the decoded schema -/

theorem distinct_inj [GoUnicode] {α : Type} {f : α → Str} {l : List α} (h : DistinctNames (l.map f)) {a b : α} (ha : a ∈ l)
    (hb : b ∈ l) (he : toLower (f a) = toLower (f b)) : a = b := by
  refine pairwise_inj (f := fun x => toLower (f x)) (l := l) ?_ ha hb he
  unfold DistinctNames at h
  rw [List.pairwise_map] at h ⊢
  exact h

/-- The field of a struct. -/
theorem structField_again [GoUnicode] [GoPrint] {ts ts' : List TypeDecl} (h : Pointwise SameDecl ts ts') {f : Field}
    (hf : structField ts f = .ok f) (hr : ∀ v, f.type = some v → v.Resolved)
    (hk : ∀ v, f.type = some v → ∀ k ∈ mapKeys v, ∀ d ∈ ts, SameName d.name k.expr → d.kind = S "enum")
    (hm : ∀ m ∈ f.metas, StringMeta m) :
    ∃ f', structField ts' (reField f) = .ok f' ∧ encField f' = encField f ∧ fieldView f' = fieldView f ∧
      f'.type.map shape = f.type.map shape := by
  obtain ⟨v, h1, h2, h3⟩ := structField_ok hf
  have ht : f.type = some v := congrArg Field.type h3
  rw [ht] at h1
  obtain ⟨v', g1, g2⟩ := parse_again h h1 (hr v ht) (hk v ht)
  have he : (some v').map (·.expr) = f.type.map (·.expr) := by rw [ht]; simp [shape_expr g2]
  refine ⟨{ reField f with type := some v' }, ?_, encField_again f _ he, fieldView_again hm _ he, by simp [ht, g2]⟩
  have e1 : (reField f).type = some (reVar v) := by unfold reField; simp [ht]
  have e2 : (reField f).value = [] := h2
  simp only [structField, e1, g1, e2, ne_eq, not_true_eq_false, decide_false, Res.failIf_false, Res.ok_bind]

theorem argParse_again [GoUnicode] [GoPrint] {ts ts' : List TypeDecl} (h : Pointwise SameDecl ts ts') {a : Argument}
    (ha : argParse ts a = .ok a) (hr : ∀ v, a.type = some v → v.Resolved)
    (hk : ∀ v, a.type = some v → ∀ k ∈ mapKeys v, ∀ d ∈ ts, SameName d.name k.expr → d.kind = S "enum")
    (hm : ∀ m ∈ a.metas, StringMeta m) :
    ∃ a', argParse ts' (reArg a) = .ok a' ∧ encArgument a' = encArgument a ∧ argView a' = argView a ∧
      a'.type.map shape = a.type.map shape := by
  obtain ⟨h0, v, h1, h3⟩ := argParse_ok.1 ha
  have ht : a.type = some v := congrArg Argument.type h3
  rw [ht] at h1
  obtain ⟨v', g1, g2⟩ := parse_again h h1 (hr v ht) (hk v ht)
  have he : (some v').map (·.expr) = a.type.map (·.expr) := by rw [ht]; simp [shape_expr g2]
  refine ⟨{ reArg a with type := some v' }, ?_, ?_, ?_, by simp [ht, g2]⟩
  · rw [argParse_ok]
    refine ⟨h0, v', ?_, rfl⟩
    have : (reArg a).type = some (reVar v) := by unfold reArg; simp [ht]
    rw [this]; exact g1
  · unfold encArgument reArg
    dsimp only
    rw [encType_congr he, encMetas_sort]
    simp only [List.map_eq_nil_iff]
  · unfold argView reArg
    dsimp only
    rw [he, metas_sort hm]

/-- The types used in one declaration. -/
def usedIn (t : TypeDecl) : List VarType := if t.kind = S "struct" then t.fields.filterMap (·.type) else []

/-- The types used in one service. -/
def usedBy (v : Service) : List VarType := v.methods.flatMap fun m => (m.inputs ++ m.outputs).filterMap (·.type)

theorem usedTypes_eq (s : Schema) : usedTypes s = s.types.flatMap usedIn ++ s.services.flatMap usedBy := by
  unfold usedTypes
  congr 1
  induction s.types with
  | nil => rfl
  | cons t ts ih =>
    rw [List.flatMap_cons, ← ih, usedIn]
    by_cases hk : t.kind = S "struct"
    · simp [hk]
    · simp [hk]

theorem filterMap_shape {α : Type} {f : α → Option VarType} {l l' : List α}
    (h : Pointwise (fun a b => (f b).map shape = (f a).map shape) l l') :
    (l'.filterMap f).map shape = (l.filterMap f).map shape := by
  induction h with
  | nil => rfl
  | @cons x y xs ys hr _ ih =>
    rw [List.filterMap_cons, List.filterMap_cons]
    cases hx : f x <;> cases hy : f y <;> rw [hx, hy] at hr <;> simp at hr
    · exact ih
    · simp [hr, ih]

theorem flatMap_shape {α : Type} {f : α → List VarType} {l l' : List α}
    (h : Pointwise (fun a b => (f b).map shape = (f a).map shape) l l') :
    (l'.flatMap f).map shape = (l.flatMap f).map shape := by
  induction h with
  | nil => rfl
  | cons hr _ ih => simp [List.flatMap_cons, hr, ih]

theorem typeParse_again [GoUnicode] [GoPrint] {s : Schema} (hp : Portable s) {t : TypeDecl} (htm : t ∈ s.types) (i : Nat)
    (ht : typeParse s.types t = .ok t) (ts' : List TypeDecl) (h : Pointwise SameDecl s.types ts')
    (hd : DistinctNames (ts'.map (·.name))) (hm : reType i t ∈ ts') :
    ∃ t', typeParse ts' (reType i t) = .ok t' ∧ SameDecl t t' ∧ encTypeDecl t' = encTypeDecl t ∧ typeView t' = typeView t ∧
      (usedIn t').map shape = (usedIn t).map shape := by
  obtain ⟨h1, h2, -, -, h4⟩ := typeParse_ok ht
  have hdup : (ts'.any fun m => decide (m.ptr ≠ (reType i t).ptr ∧ toLower (reType i t).name = toLower m.name)) = false := by
    rw [List.any_eq_false]
    intro m hm'
    simp only [decide_eq_true_eq]
    rintro ⟨a, b⟩
    exact a (congrArg TypeDecl.ptr (distinct_inj hd hm' hm b.symm))
  have hname : (reType i t).name = t.name := rfl
  have hkind : (reType i t).kind = t.kind := rfl
  rw [hname] at hdup
  have hn0 : decide (t.name = []) = false := by simp [h1]
  have hmf := (hp.metas t htm).2
  have hmt := (hp.metas t htm).1
  have hcf := checkFields_again hmf [] []
  have hmn : decide (t.metas.map sortKeys = []) = decide (t.metas = []) := by cases t.metas <;> simp
  have k1 : S "struct" ≠ S "enum" := by decide
  have k2 : S "struct" ≠ S "alias" := by decide
  have k3 : S "enum" ≠ S "alias" := by decide
  have fin : ∀ fs' : List Field, fs'.map encField = t.fields.map encField → fs'.map fieldView = t.fields.map fieldView →
      encTypeDecl { reType i t with fields := fs' } = encTypeDecl t ∧
      typeView { reType i t with fields := fs' } = typeView t := by
    intro fs' e1 e2
    have hl : fs'.length = t.fields.length := by simpa using congrArg List.length e1
    constructor
    · unfold encTypeDecl reType
      dsimp only
      rw [encType_congr (reVar_expr t.type), isNone_congr (reVar_expr t.type), encMetas_sort, hmn, encList_congr e1, hl]
    · unfold typeView reType
      dsimp only
      rw [reVar_expr, metas_sort hmt, e2]
  have hre1 : (t.fields.map reField).map encField = t.fields.map encField := by
    rw [List.map_map]
    apply List.map_congr_left
    intro f _
    exact encField_again f _ (reVar_expr _)
  have hre2 : (t.fields.map reField).map fieldView = t.fields.map fieldView := by
    rw [List.map_map]
    apply List.map_congr_left
    intro f hf
    exact fieldView_again (hmf f hf) _ (reVar_expr _)
  have hself : ({ reType i t with fields := t.fields.map reField } : TypeDecl) = reType i t := rfl
  simp only [typeParse, hname, hkind, hn0, h2, hdup, Res.failIf_false, Bool.not_true, Res.ok_bind]
  rcases h4 with ⟨hk, -, hn⟩ | ⟨hk, -, hc, he⟩ | ⟨hk, hc, fs, hfs, hpf⟩
  · have : (reType i t).type.isNone = false := by
      unfold reType
      cases hq : t.type with
      | none => exact absurd hq hn
      | some _ => rfl
    refine ⟨reType i t, ?_, ⟨rfl, rfl⟩, (fin _ hre1 hre2).1, (fin _ hre1 hre2).2, ?_⟩
    · simp [hk, this]
    · unfold usedIn
      have hne : ¬ t.kind = S "struct" := by rw [hk]; exact fun h => k2 h.symm
      rw [hkind, if_neg hne, if_neg hne]
  · refine ⟨reType i t, ?_, ⟨rfl, rfl⟩, (fin _ hre1 hre2).1, (fin _ hre1 hre2).2, ?_⟩
    · have : (reType i t).fields = t.fields.map reField := rfl
      simp [hk, k3, this, hcf, hc, checkEnum_again, he]
    · unfold usedIn
      have hne : ¬ t.kind = S "struct" := by rw [hk]; exact fun h => k1 h.symm
      rw [hkind, if_neg hne, if_neg hne]
  · have hfe : fs = t.fields := by
      have := congrArg TypeDecl.fields hfs
      exact this.symm
    subst hfe
    have hpf' : ∀ f ∈ t.fields, structField s.types f = .ok f := by
      have : ∀ {l : List Field}, Pointwise (fun f f' => structField s.types f = .ok f') l l → ∀ f ∈ l, structField s.types f = .ok f := by
        intro l hl
        induction l with
        | nil => simp
        | cons x l ih =>
          cases hl with
          | cons a b =>
            intro f hf
            rcases List.mem_cons.1 hf with rfl | hf
            · exact a
            · exact ih b f hf
      exact this hpf
    have hu : ∀ f ∈ t.fields, ∀ v, f.type = some v → v ∈ usedTypes s := by
      intro f hf v hv
      simp only [usedTypes, List.mem_append, List.mem_flatMap, List.mem_filter, List.mem_filterMap, decide_eq_true_eq]
      exact .inl ⟨t, ⟨htm, hk⟩, f, hf, hv⟩
    obtain ⟨fs', q1, q2⟩ := map_exists (l := t.fields) (h := reField) (F := structField ts')
      (Q := fun f f' => encField f' = encField f ∧ fieldView f' = fieldView f ∧ f'.type.map shape = f.type.map shape)
      (fun f hf => structField_again h (hpf' f hf) (fun v hv => hp.resolved v (hu f hf v hv))
        (fun v hv => hp.keys v (hu f hf v hv)) (hmf f hf))
    have f1 := fin fs' (q2.map_eq fun _ _ h => h.1.symm).symm (q2.map_eq fun _ _ h => h.2.1.symm).symm
    refine ⟨{ reType i t with fields := fs' }, ?_, ⟨rfl, rfl⟩, f1.1, f1.2, ?_⟩
    · have : (reType i t).fields = t.fields.map reField := rfl
      simp only [hk, k1, k2, this, hcf, hc, each_ok.2 q1, Res.ok_bind, if_false]
      simp
      exact ⟨(hkind.trans hk).symm, hname.symm⟩
    · unfold usedIn
      dsimp only
      rw [hkind, if_pos hk, if_pos hk]
      exact filterMap_shape (q2.imp fun _ _ h => h.2.2)

theorem methodParse_again [GoUnicode] [GoPrint] {s : Schema} (hp : Portable s) {v : Service} (hv : v ∈ s.services) {m : Method}
    (hm : m ∈ v.methods) (h : methodParse s.types s.errors m = .ok m) {ts' : List TypeDecl}
    (hs : Pointwise SameDecl s.types ts') {es' : List ErrorDecl} (he : es'.map (·.name) = s.errors.map (·.name)) :
    ∃ m', methodParse ts' es' (reMethod m) = .ok m' ∧ m'.name = m.name ∧ encMethod m' = encMethod m ∧ methodView m' = methodView m ∧
      ((m'.inputs ++ m'.outputs).filterMap (·.type)).map shape = ((m.inputs ++ m.outputs).filterMap (·.type)).map shape := by
  obtain ⟨h1, h2, ins, outs, h3, h4, h5⟩ := methodParse_ok.1 h
  have e1 : ins = m.inputs := (congrArg Method.inputs h5).symm
  have e2 : outs = m.outputs := (congrArg Method.outputs h5).symm
  subst e1; subst e2
  have self : ∀ {l : List Argument}, Pointwise (fun a b => argParse s.types a = .ok b) l l → ∀ a ∈ l, argParse s.types a = .ok a := by
    intro l hl
    induction l with
    | nil => simp
    | cons x l ih =>
      cases hl with
      | cons a b =>
        intro f hf
        rcases List.mem_cons.1 hf with rfl | hf
        · exact a
        · exact ih b f hf
  have hu : ∀ a ∈ m.inputs ++ m.outputs, ∀ x, a.type = some x → x ∈ usedTypes s := by
    intro a ha x hx
    simp only [usedTypes, List.mem_append, List.mem_flatMap, List.mem_filterMap]
    exact .inr ⟨v, hv, m, hm, a, by simpa using ha, hx⟩
  have go : ∀ l : List Argument, (∀ a ∈ l, a ∈ m.inputs ++ m.outputs) → Pointwise (fun a b => argParse s.types a = .ok b) l l →
      ∃ l', Pointwise (fun a b => argParse ts' a = .ok b) (l.map reArg) l' ∧
        Pointwise (fun a a' => encArgument a' = encArgument a ∧ argView a' = argView a ∧ a'.type.map shape = a.type.map shape) l l' := by
    intro l hl hpw
    exact map_exists fun a ha => argParse_again hs (self hpw a ha) (fun x hx => hp.resolved x (hu a (hl a ha) x hx))
      (fun x hx => hp.keys x (hu a (hl a ha) x hx)) (hp.argMetas v hv m hm a (hl a ha))
  obtain ⟨ins', i1, i2⟩ := go m.inputs (fun a ha => by simp [ha]) h3
  obtain ⟨outs', o1, o2⟩ := go m.outputs (fun a ha => by simp [ha]) h4
  refine ⟨{ reMethod m with inputs := ins', outputs := outs' }, ?_, rfl, ?_, ?_, ?_⟩
  · rw [methodParse_ok]
    refine ⟨?_, ?_, ins', outs', i1, o1, rfl⟩
    · intro hsu
      have := h1 hsu
      unfold reMethod
      simpa using this
    · intro n hn
      obtain ⟨e, he1, he2⟩ := h2 n hn
      have : n ∈ es'.map (·.name) := by rw [he]; exact List.mem_map.2 ⟨e, he1, he2⟩
      obtain ⟨e', a, b⟩ := List.mem_map.1 this
      exact ⟨e', a, b⟩
  · unfold encMethod reMethod
    dsimp only
    have ha : encAnnotations (m.nils.annotations && m.annotations.isEmpty) (sortKeys m.annotations) =
        encAnnotations m.nils.annotations m.annotations := by
      unfold encAnnotations
      rw [sortKeys_idem]
      have hl := (sortKeys_spec m.annotations).1.length_eq
      cases ha : m.annotations with
      | nil => cases m.nils.annotations <;> rfl
      | cons x l => simp
    rw [ha, encSlice_again (f := encStr) rfl, encSlice_again (i2.map_eq fun _ _ h => h.1.symm).symm,
      encSlice_again (o2.map_eq fun _ _ h => h.1.symm).symm]
  · unfold methodView reMethod
    dsimp only
    rw [lookup_sort (hp.annotations v hv m hm), (i2.map_eq fun _ _ h => h.2.1.symm).symm, (o2.map_eq fun _ _ h => h.2.1.symm).symm]
  · rw [List.filterMap_append, List.filterMap_append, List.map_append, List.map_append]
    rw [filterMap_shape (i2.imp fun _ _ h => h.2.2), filterMap_shape (o2.imp fun _ _ h => h.2.2)]

theorem serviceParse_again [GoUnicode] [GoPrint] {s : Schema} (hp : Portable s) {v : Service} (hv : v ∈ s.services) (i : Nat)
    (h : serviceParse s.types s.errors s.services v = .ok v) {ts' : List TypeDecl} (hs : Pointwise SameDecl s.types ts')
    {es' : List ErrorDecl} (he : es'.map (·.name) = s.errors.map (·.name)) (ss' : List Service)
    (hd : DistinctNames (ss'.map (·.name))) (hm : reService i v ∈ ss') :
    ∃ v', serviceParse ts' es' ss' (reService i v) = .ok v' ∧ encService v' = encService v ∧ serviceView v' = serviceView v ∧
      (usedBy v').map shape = (usedBy v).map shape := by
  obtain ⟨h1, -, h3, h4, h5, ms, h6, h7⟩ := serviceParse_ok.1 h
  have e : ms = v.methods := (congrArg Service.methods h7).symm
  subst e
  have self : ∀ {l : List Method}, Pointwise (fun a b => methodParse s.types s.errors a = .ok b) l l →
      ∀ a ∈ l, methodParse s.types s.errors a = .ok a := by
    intro l hl
    induction l with
    | nil => simp
    | cons x l ih =>
      cases hl with
      | cons a b =>
        intro f hf
        rcases List.mem_cons.1 hf with rfl | hf
        · exact a
        · exact ih b f hf
  obtain ⟨ms', q1, q2⟩ := map_exists (l := v.methods) (h := reMethod) (F := methodParse ts' es')
    (Q := fun m m' => m'.name = m.name ∧ encMethod m' = encMethod m ∧ methodView m' = methodView m ∧
      ((m'.inputs ++ m'.outputs).filterMap (·.type)).map shape = ((m.inputs ++ m.outputs).filterMap (·.type)).map shape)
    (fun m hm' => methodParse_again hp hv hm' (self h6 m hm') hs he)
  refine ⟨{ reService i v with methods := ms' }, ?_, ?_, ?_, ?_⟩
  · rw [serviceParse_ok]
    refine ⟨h1, ?_, ?_, ?_, ?_, ms', q1, rfl⟩
    · intro m hm' hptr hn
      exact hptr (congrArg Service.ptr (distinct_inj hd hm' hm hn.symm))
    · unfold reService
      simpa using h3
    · intro m hm'
      obtain ⟨m0, a, rfl⟩ := List.mem_map.1 hm'
      exact h4 m0 a
    · unfold reService
      dsimp only
      rw [List.pairwise_map]
      exact h5
  · unfold encService reService
    dsimp only
    rw [encSlice_again (f := encStr) rfl, encSlice_again (q2.map_eq fun _ _ h => h.2.1.symm).symm]
  · unfold serviceView reService
    dsimp only
    rw [(q2.map_eq fun _ _ h => h.2.2.1.symm).symm]
  · exact flatMap_shape (q2.imp fun _ _ h => h.2.2.2)

theorem pointwise_self {α : Type} {R : α → α → Prop} {l : List α} (hl : Pointwise R l l) : ∀ a ∈ l, R a a := by
  induction l with
  | nil => simp
  | cons x l ih =>
    cases hl with
    | cons a b =>
      intro f hf
      rcases List.mem_cons.1 hf with rfl | hf
      · exact a
      · exact ih b f hf

/-- The decoded schema validates, to a schema that says the same. -/
theorem validate_again [GoUnicode] [GoPrint] {s : Schema} (hv : validate s = .ok s) (hp : Portable s) :
    ∃ s', validate (reload s) = .ok s' ∧ encSchema s' = encSchema s ∧ schemaView s' = schemaView s ∧
      (usedTypes s').map shape = (usedTypes s).map shape := by
  have hT := (C17_type_names s s hv hp.types).1
  have hS := (C20_names s s hv).1 hp.services
  obtain ⟨h1, h2, b, ts, es, ss, hb, hts, hes, hss, heq⟩ := validate_ok.1 hv
  have e1 : b = s.basePath := (congrArg Schema.basePath heq).symm
  have e2 : ts = s.types := (congrArg Schema.types heq).symm
  have e3 : es = s.errors := (congrArg Schema.errors heq).symm
  have e4 : ss = s.services := (congrArg Schema.services heq).symm
  subst e1; subst e2; subst e3; subst e4
  have hsame : Pointwise SameDecl s.types (numbered reType 0 s.types) := numbered_pointwise (fun _ _ => ⟨rfl, rfl⟩) 0 _
  have hTn : DistinctNames ((numbered reType 0 s.types).map (·.name)) := by
    rw [numbered_names (h := reType) (f := fun t : TypeDecl => t.name) (g := fun t : TypeDecl => t.name) (fun _ _ => rfl)]; exact hT
  have hSn : DistinctNames ((numbered reService 0 s.services).map (·.name)) := by
    rw [numbered_names (h := reService) (f := fun t : Service => t.name) (g := fun t : Service => t.name) (fun _ _ => rfl)]; exact hS
  obtain ⟨ts', t1, t2⟩ := numbered_exists_mem (h := reType) (F := typeParse (numbered reType 0 s.types)) (l := s.types)
    (Q := fun t t' => SameDecl t t' ∧ encTypeDecl t' = encTypeDecl t ∧ typeView t' = typeView t ∧
      (usedIn t').map shape = (usedIn t).map shape) 0
    (fun t ht i hi => typeParse_again hp ht i (pointwise_self hts t ht) _ hsame hTn hi)
  obtain ⟨ss', s1, s2⟩ := numbered_exists_mem (h := reService)
    (F := serviceParse ts' (numbered reError 0 s.errors) (numbered reService 0 s.services)) (l := s.services)
    (Q := fun v v' => encService v' = encService v ∧ serviceView v' = serviceView v ∧ (usedBy v').map shape = (usedBy v).map shape) 0
    (fun v hv' i hi => serviceParse_again hp hv' i (pointwise_self hss v hv') (t2.imp fun _ _ h => h.1)
      (numbered_names (h := reError) (f := fun e : ErrorDecl => e.name) (g := fun e : ErrorDecl => e.name) (fun _ _ => rfl) 0 _) _ hSn hi)
  have he : errorsParse [] (numbered reError 0 s.errors) = .ok (numbered reError 0 s.errors) := by
    obtain ⟨tl, a1, a2, a3, a4⟩ := errorsParse_ok hes
    simp only [List.nil_append] at a1
    subst a1
    have hpw : Pointwise (fun (a : ErrorDecl) b => b.name = a.name ∧ (trimSpace a.name = a.name ∧ ErrorOk a → trimSpace b.name = b.name ∧ ErrorOk b))
        s.errors (numbered reError 0 s.errors) := numbered_pointwise (fun _ _ => ⟨rfl, fun h => h⟩) 0 _
    refine errorsParse_fixed rfl ?_ ?_
    · intro e hem
      obtain ⟨e0, hm0, -, hr⟩ := hpw.mem_right hem
      refine hr ⟨?_, a3 e0 hm0⟩
      have hm1 := hm0
      rw [a2] at hm1
      obtain ⟨e1, _, rfl⟩ := List.mem_map.1 hm1
      exact trimSpace_idem _
    · have hpair : s.errors.Pairwise (fun a b => toLower a.name ≠ toLower b.name ∧ a.code ≠ b.code) := by
        by_cases hz : s.errors = []
        · rw [hz]; exact .nil
        · exact a4 hz
      have : (s.errors.map fun e : ErrorDecl => (e.name, e.code)).Pairwise (fun a b => toLower a.1 ≠ toLower b.1 ∧ a.2 ≠ b.2) := by
        rw [List.pairwise_map]; exact hpair
      rw [← numbered_names (h := reError) (f := fun e : ErrorDecl => (e.name, e.code)) (g := fun e : ErrorDecl => (e.name, e.code)) (fun _ _ => rfl) 0, List.pairwise_map] at this
      exact this
  refine ⟨{ reload s with types := ts', services := ss' }, ?_, ?_, ?_, ?_⟩
  · rw [validate_ok]
    refine ⟨h1, ?_, s.basePath, ts', numbered reError 0 s.errors, ss', hb, t1, he, s1, rfl⟩
    intro hne
    refine h2 ?_
    rintro hz
    apply hne
    show numbered reService 0 s.services = []
    rw [hz]; rfl
  · have he' : (numbered reError 0 s.errors).map encError = s.errors.map encError := numbered_names (h := reError) (f := encError) (g := encError) (fun _ _ => rfl) 0 _
    unfold encSchema reload
    dsimp only
    rw [encSlice_again (t2.map_eq fun _ _ h => h.2.1.symm).symm, encSlice_again (s2.map_eq fun _ _ h => h.1.symm).symm,
      encSlice_again he']
  · have he' : (numbered reError 0 s.errors).map errorView = s.errors.map errorView := numbered_names (h := reError) (f := errorView) (g := errorView) (fun _ _ => rfl) 0 _
    unfold schemaView reload
    dsimp only
    rw [(t2.map_eq fun _ _ h => h.2.2.1.symm).symm, (s2.map_eq fun _ _ h => h.2.1.symm).symm, he']
  · rw [usedTypes_eq, usedTypes_eq, List.map_append, List.map_append]
    dsimp only
    rw [flatMap_shape (t2.imp fun _ _ h => h.2.2.2), flatMap_shape (s2.imp fun _ _ h => h.2.2)]

/-! ### The round trip -/

theorem exprs_of_view {s s' : Schema} (h : schemaView s' = schemaView s) :
    (allTypes s').map (·.expr) = (allTypes s).map (·.expr) := by
  have h1 : s'.types.map typeView = s.types.map typeView := congrArg (·.2.2.2.2.1) h
  have h2 : s'.services.map serviceView = s.services.map serviceView := congrArg (·.2.2.2.2.2.2) h
  have e1 : ∀ l : List TypeDecl, (l.flatMap fun t => t.type.toList ++ t.fields.filterMap (·.type)).map (·.expr) =
      (l.map typeView).flatMap fun v => v.2.2.1.toList ++ v.2.2.2.1.filterMap (·.2.2.1) := by
    intro l
    rw [List.map_flatMap, List.flatMap_map]
    congr 1
    funext t
    rw [List.map_append, List.map_filterMap]
    unfold typeView fieldView
    dsimp only
    rw [List.filterMap_map]
    congr 1
    cases t.type <;> rfl
  have e2 : ∀ l : List Service, (l.flatMap fun v => v.methods.flatMap fun m => (m.inputs ++ m.outputs).filterMap (·.type)).map (·.expr) =
      (l.map serviceView).flatMap fun v => v.2.1.flatMap fun m => (m.2.2.2.2.2.2.1 ++ m.2.2.2.2.2.2.2.1).filterMap (·.2.1) := by
    intro l
    rw [List.map_flatMap, List.flatMap_map]
    congr 1
    funext v
    unfold serviceView
    dsimp only
    rw [List.map_flatMap, List.flatMap_map]
    congr 1
    funext m
    rw [List.map_filterMap]
    unfold methodView argView
    dsimp only
    rw [← List.map_append, List.filterMap_map]
    rfl
  unfold allTypes
  rw [List.map_append, List.map_append, e1, e1, e2, e2, h1, h2]

theorem toJSON_plain [GoPrint] {s : Schema} (h : ∀ vt ∈ allTypes s, PlainText vt.expr) :
    toJSON s = some (print ⟨true, false⟩ 0 (encSchema s) ++ ['\n']) := by
  unfold toJSON
  rw [if_pos]
  rw [List.all_eq_true]
  intro t ht
  have hpl := h t ht
  rw [plain_quote hpl]
  have := cook_escape false t.expr
  rw [plain_escape hpl] at this
  rw [this]; rfl

/-- **C27**: a validated schema written as JSON is read back as a valid schema that says the same, whose types have the
same parsed shape, and that is written as the same text and so has the same hash. -/
theorem C27_round_trip_partial [GoUnicode] [GoPrint] (s0 s : Schema) (h : validate s0 = .ok s) (hp : Portable s) :
    ∃ text s2, toJSON s = some text ∧ parseSchemaJSON text = .ok s2 ∧ schemaView s2 = schemaView s ∧
      (usedTypes s2).map shape = (usedTypes s).map shape ∧ toJSON s2 = some text ∧
      ∀ sha1 : Str → Str, schemaHash sha1 s2 = schemaHash sha1 s := by
  have hv : validate s = .ok s := C24_idempotent s0 s h hp.resolved
  obtain ⟨s2, h1, h2, h3, h4⟩ := validate_again hv hp
  have hst : ∀ e ∈ s.errors, -(2 ^ 63 : Int) ≤ e.httpStatus ∧ e.httpStatus < 2 ^ 63 := by
    intro e he
    obtain ⟨-, -, -, -, -, a, b⟩ := (C19_errors s0 s h).2.2.1 e he
    omega
  have hj := toJSON_plain (s := s) hp.plain
  have hpl2 : ∀ vt ∈ allTypes s2, PlainText vt.expr := by
    intro vt hvt
    have : vt.expr ∈ (allTypes s2).map (·.expr) := List.mem_map.2 ⟨vt, hvt, rfl⟩
    rw [exprs_of_view h3] at this
    obtain ⟨x, hx, he⟩ := List.mem_map.1 this
    rw [← he]; exact hp.plain x hx
  have hj2 : toJSON s2 = some (print ⟨true, false⟩ 0 (encSchema s) ++ ['\n']) := by
    rw [toJSON_plain hpl2, h2]
  refine ⟨_, s2, hj, ?_, h3, h4, hj2, ?_⟩
  · unfold parseSchemaJSON
    rw [parse_printed ⟨true, false⟩ (encSchema s) (nums_schema hp) ['\n'] (by decide)]
    have hd := decSchema_enc hp hst
    obtain ⟨L, he⟩ : ∃ L, encSchema s = .obj L := ⟨_, rfl⟩
    rw [he] at hd ⊢
    dsimp only
    rw [hd]
    dsimp only
    rw [h1]
  · intro sha1
    unfold schemaHash
    rw [hj, hj2]

/-! ### The hypotheses are met, and none can be dropped -/

theorem resolvedB_ok : ∀ {t : VarType}, resolvedB t = true → t.Resolved
  | .leaf _ c, h => by simpa [resolvedB, VarType.Resolved] using h
  | .list _ t, h => resolvedB_ok (t := t) h
  | .map _ _ v, h => resolvedB_ok (t := v) h
  | .struct .., _ => trivial
  | .enum .., _ => trivial
  | .alias .., _ => trivial

/-- Decision of `StringMeta`. -/
def stringMetaB (m : Meta) : Bool := decide ((m.map (·.1)).Nodup) && m.all fun p => match p.2 with | .str _ => true | _ => false

theorem stringMetaB_ok {m : Meta} (h : stringMetaB m = true) : StringMeta m := by
  unfold stringMetaB at h
  rw [Bool.and_eq_true, decide_eq_true_eq, List.all_eq_true] at h
  refine ⟨h.1, fun p hp => ?_⟩
  have := h.2 p hp
  revert this
  cases p.2 <;> simp

/-- Decision of `Portable`. -/
def portableB [GoUnicode] (s : Schema) : Bool :=
  (usedTypes s).all resolvedB && decide ((s.types.map (·.ptr)).Nodup) && decide ((s.services.map (·.ptr)).Nodup) &&
  ((allTypes s).all fun vt => decide (vt.expr ≠ [] ∧ ∀ c ∈ vt.expr, 0x20 ≤ c.toNat ∧ c.toNat < 0x7F ∧ c ≠ '"' ∧ c ≠ '\\')) &&
  ((usedTypes s).all fun vt => (mapKeys vt).all fun k => s.types.all fun t =>
    decide (toLower t.name = toLower k.expr → t.kind = S "enum")) &&
  (s.types.all fun t => t.metas.all stringMetaB && t.fields.all fun f => f.metas.all stringMetaB) &&
  (s.services.all fun v => v.methods.all fun m => (m.inputs ++ m.outputs).all fun a => a.metas.all stringMetaB) &&
  (s.services.all fun v => v.methods.all fun m => decide ((m.annotations.map (·.1)).Nodup)) &&
  s.errors.all fun e => decide (-(2 ^ 63 : Int) ≤ e.code ∧ e.code < 2 ^ 63)

theorem portableB_ok [GoUnicode] {s : Schema} (h : portableB s = true) : Portable s := by
  simp only [portableB, Bool.and_eq_true, List.all_eq_true, decide_eq_true_eq] at h
  obtain ⟨⟨⟨⟨⟨⟨⟨⟨h1, h2⟩, h3⟩, h4⟩, h5⟩, h6⟩, h9⟩, h7⟩, h8⟩ := h
  exact ⟨fun vt hv => resolvedB_ok (h1 vt hv), h2, h3, h4, fun vt hv k hk t ht hn => h5 vt hv k hk t ht hn,
    fun t ht => ⟨fun m hm => stringMetaB_ok ((h6 t ht).1 m hm), fun f hf m hm => stringMetaB_ok ((h6 t ht).2 f hf m hm)⟩,
    fun v hv m hm a ha x hx => stringMetaB_ok (h9 v hv m hm a ha x hx), h7, h8⟩

/-- ASCII only. -/
@[reducible] def asciiPrint : GoPrint := ⟨fun _ => false⟩

/-- The hypotheses of `C27_round_trip_partial` are met: the example (an enum, a struct with a map type and a meta, an
alias, two errors, a service). -/
theorem C27_example : let _ := asciiOnly; ∃ s, validate exSchema = .ok s ∧ Portable s := by
  let _ := asciiOnly
  obtain ⟨s', h⟩ := exSchema_valid
  refine ⟨s', h, portableB_ok ?_⟩
  have hall : (match validate exSchema with
    | .ok s => portableB s
    | _ => false) = true := by decide +kernel
  rw [h] at hall
  exact hall

/-- What happens to a schema that is validated, written as JSON and loaded. -/
inductive Trip
  | same | rejected | notJson | other
deriving DecidableEq

/-- Validate, write, load. -/
def trip [GoUnicode] [GoPrint] (s0 : Schema) : Trip :=
  match validate s0 with
  | .ok s => match toJSON s with
    | none => .notJson
    | some text => match parseSchemaJSON text with
      | .ok s2 => if toJSON s2 = some text then .same else .other
      | .invalid _ => .rejected
      | .badJson => .notJson
      | _ => .other
  | _ => .other

/-- A schema with the given types and services. -/
def tripSchema (ts : List TypeDecl) (vs : List Service := []) : Schema :=
  { webrpcVersion := S "v1", schemaName := S "demo", schemaVersion := S "v1", basePath := [], types := ts, errors := [], services := vs }

/-- Without the condition on map keys the round trip fails: `K2` is an alias of an enum, as a RIDL file declares it, and
the key of a map; the schema validates, but the schema loaded from its JSON form is rejected. -/
theorem C27_alias_key : let _ := asciiOnly; let _ := asciiPrint; trip (tripSchema [
    { ptr := ([], 0), kind := S "enum", name := S "Kind", type := some (.leaf (S "uint32") .unknown), fields := [{ name := S "A", value := S "0" }] },
    { ptr := ([], 1), kind := S "alias", name := S "K2", type := some (.enum (S "Kind") (S "Kind") ([], 0)) },
    { ptr := ([], 2), kind := S "struct", name := S "T", fields := [{ name := S "m", type := some (.leaf (S "map<K2,string>") .unknown) }] }])
    = .rejected := by decide +kernel

/-- The same schema with the enum itself as the key survives. -/
theorem C27_enum_key : let _ := asciiOnly; let _ := asciiPrint; trip (tripSchema [
    { ptr := ([], 0), kind := S "enum", name := S "Kind", type := some (.leaf (S "uint32") .unknown), fields := [{ name := S "A", value := S "0" }] },
    { ptr := ([], 1), kind := S "alias", name := S "K2", type := some (.enum (S "Kind") (S "Kind") ([], 0)) },
    { ptr := ([], 2), kind := S "struct", name := S "T", fields := [{ name := S "m", type := some (.leaf (S "map<Kind,string>") .unknown) }] }])
    = .same := by decide +kernel

/-- Without the condition on type texts it fails: a type whose name has a quote is not found when the schema is loaded,
since the text of a type is not unescaped. -/
theorem C27_quoted_name : let _ := asciiOnly; let _ := asciiPrint; trip (tripSchema [
    { ptr := ([], 0), kind := S "struct", name := S "A\"B", fields := [{ name := S "x", type := some (.leaf (S "string") .unknown) }] },
    { ptr := ([], 1), kind := S "struct", name := S "T", fields := [{ name := S "m", type := some (.leaf (S "A\"B") .unknown) }] }])
    = .rejected := by decide +kernel

/-- Without the condition on repeated services it fails: a service listed twice validates, its JSON form does not. -/
theorem C27_service_twice : let _ := asciiOnly; let _ := asciiPrint; trip (tripSchema []
    [{ ptr := ([], 0), name := S "A", methods := [{ name := S "Ping" }] }, { ptr := ([], 0), name := S "A", methods := [{ name := S "Ping" }] }])
    = .rejected := by decide +kernel

/-- An equivalent JSON text need not load: here `<` and `>` are written as escapes, as many JSON writers (among them
Go's default) do, and the same schema is rejected. -/
theorem C27_html_escapes : let _ := asciiOnly;
    (match parseSchemaJSON (S "{\"webrpc\":\"v1\",\"name\":\"demo\",\"types\":[{\"kind\":\"struct\",\"name\":\"T\",\"fields\":[{\"name\":\"m\",\"type\":\"map<string,bool>\"}]}]}") with
      | .ok s => s.types.length = 1
      | _ => False) ∧
    (match parseSchemaJSON (S "{\"webrpc\":\"v1\",\"name\":\"demo\",\"types\":[{\"kind\":\"struct\",\"name\":\"T\",\"fields\":[{\"name\":\"m\",\"type\":\"map\\u003cstring,bool\\u003e\"}]}]}") with
      | .invalid _ => True
      | _ => False) := by
  let _ := asciiOnly
  constructor
  · have : (match parseSchemaJSON (S "{\"webrpc\":\"v1\",\"name\":\"demo\",\"types\":[{\"kind\":\"struct\",\"name\":\"T\",\"fields\":[{\"name\":\"m\",\"type\":\"map<string,bool>\"}]}]}") with
      | .ok s => decide (s.types.length = 1)
      | _ => false) = true := by decide +kernel
    revert this
    cases parseSchemaJSON (S "{\"webrpc\":\"v1\",\"name\":\"demo\",\"types\":[{\"kind\":\"struct\",\"name\":\"T\",\"fields\":[{\"name\":\"m\",\"type\":\"map<string,bool>\"}]}]}") <;> simp
  · have : (match parseSchemaJSON (S "{\"webrpc\":\"v1\",\"name\":\"demo\",\"types\":[{\"kind\":\"struct\",\"name\":\"T\",\"fields\":[{\"name\":\"m\",\"type\":\"map\\u003cstring,bool\\u003e\"}]}]}") with
      | .invalid _ => true
      | _ => false) = true := by decide +kernel
    revert this
    cases parseSchemaJSON (S "{\"webrpc\":\"v1\",\"name\":\"demo\",\"types\":[{\"kind\":\"struct\",\"name\":\"T\",\"fields\":[{\"name\":\"m\",\"type\":\"map\\u003cstring,bool\\u003e\"}]}]}") <;> simp

end Verif.Props
