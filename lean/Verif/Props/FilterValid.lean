import Verif.Props.Filters
import Verif.Props.SchemaJson
import Verif.Props.Complete
import Verif.Compile.Declared
import Verif.Props.Imports
/-! # C75: what the filters leave of a valid schema is a valid schema

A schema is valid and settled when validation accepts it as it is: `validate s = .ok s`
(`C24_idempotent`: the validated schemas in which every type is written out). -/

namespace Verif.Props
open Verif.Schema hiding Json
open Verif.Spec

theorem pointwise_refl {α : Type} {R : α → α → Prop} {l : List α} (h : ∀ a ∈ l, R a a) : Pointwise R l l := by
  induction l with
  | nil => exact .nil
  | cons x l ih => exact .cons (h x (by simp)) (ih fun a ha => h a (by simp [ha]))

/-- The schema is accepted as it is, in terms of its parts. -/
structure Settled [GoUnicode] (s : Schema) : Prop where
  valid : ValidSchema s
  path : s.basePath = if s.basePath = [] then [] else slashed s.basePath
  types : ∀ t ∈ s.types, TypeDeclBecomes s.types t t
  errors : ∀ e ∈ s.errors, trimSpace e.name = e.name
  services : ∀ v ∈ s.services, ∀ m ∈ v.methods, ∀ a ∈ m.inputs ++ m.outputs, ArgBecomes s.types a a

theorem methodBecomes_self [GoUnicode] {ts : List TypeDecl} {m : Method} :
    MethodBecomes ts m m ↔ ∀ a ∈ m.inputs ++ m.outputs, ArgBecomes ts a a := by
  constructor
  · rintro ⟨ins, outs, h1, h2, h3⟩ a ha
    have e1 : m.inputs = ins := congrArg Method.inputs h3
    have e2 : m.outputs = outs := congrArg Method.outputs h3
    subst e1 e2
    rcases List.mem_append.1 ha with ha | ha
    · exact pointwise_self h1 a ha
    · exact pointwise_self h2 a ha
  · intro h
    exact ⟨m.inputs, m.outputs, pointwise_refl fun a ha => h a (by simp [ha]),
      pointwise_refl fun a ha => h a (by simp [ha]), rfl⟩

theorem serviceBecomes_self [GoUnicode] {ts : List TypeDecl} {v : Service} :
    ServiceBecomes ts v v ↔ ∀ m ∈ v.methods, ∀ a ∈ m.inputs ++ m.outputs, ArgBecomes ts a a := by
  constructor
  · rintro ⟨ms, h1, h3⟩ m hm
    have e1 : v.methods = ms := congrArg Service.methods h3
    subst e1
    exact methodBecomes_self.1 (pointwise_self h1 m hm)
  · intro h
    exact ⟨v.methods, pointwise_refl fun m hm => methodBecomes_self.2 (h m hm), rfl⟩

theorem settled_iff [GoUnicode] (hcase : CaseKeepsBlanks) (s : Schema) : validate s = .ok s ↔ Settled s := by
  rw [C66_validates_exactly hcase]
  constructor
  · rintro ⟨hv, h⟩
    refine ⟨hv, h.path, pointwise_self h.types, ?_, ?_⟩
    · intro e he
      have hm := h.errors
      obtain ⟨i, hi⟩ := List.getElem?_of_mem he
      have := congrArg (·[i]?) hm
      simp only [List.getElem?_map, hi, Option.map_some, Option.some.injEq] at this
      exact (congrArg ErrorDecl.name this).symm
    · intro v hv'
      exact serviceBecomes_self.1 (pointwise_self h.services v hv')
  · intro h
    refine ⟨h.valid, ⟨rfl, rfl, rfl⟩, h.path, pointwise_refl h.types, ?_, ?_, rfl⟩
    · have : ∀ l : List ErrorDecl, (∀ e ∈ l, trimSpace e.name = e.name) →
          l = l.map fun e => { e with name := trimSpace e.name } := by
        intro l hl
        induction l with
        | nil => rfl
        | cons x l ih =>
          rw [List.map_cons, ← ih fun e he => hl e (by simp [he]), hl x (by simp)]
      exact this _ h.errors
    · exact pointwise_refl fun v hv => serviceBecomes_self.2 (h.services v hv)

/-! ### Selecting services and methods -/

/-- C75: selecting services leaves a valid schema. -/
theorem C75_services [GoUnicode] (hcase : CaseKeepsBlanks) (s : Schema) (names : List Str)
    (h : validate s = .ok s) : validate (matchServices s names) = .ok (matchServices s names) := by
  rw [settled_iff hcase] at h ⊢
  unfold matchServices
  split
  · exact h
  obtain ⟨⟨v1, v2, v3, v4, v5, v6, v7, v8⟩, h2, h3, h4, h5⟩ := h
  refine ⟨⟨v1, ?_, v3, v4, v5, v6, v7, ?_⟩, h2, h3, h4, ?_⟩
  · intro hne
    refine v2 fun he => hne ?_
    simp [he]
  · intro v hv
    have hv' := (List.mem_filter.1 hv).1
    have := v8 v hv'
    exact ⟨this.name, fun m hm => this.unique m (List.mem_filter.1 hm).1, this.nonempty, this.methods, this.distinct⟩
  · intro v hv
    exact h5 v (List.mem_filter.1 hv).1

theorem methods_valid [GoUnicode] (hcase : CaseKeepsBlanks) (s : Schema) (p : Method → Bool) (g : Service → ServiceNils)
    (h : validate s = .ok s) :
    validate { s with services := s.services.map fun v => { v with methods := v.methods.filter p, nils := g v } } =
        .ok { s with services := s.services.map fun v => { v with methods := v.methods.filter p, nils := g v } } ↔
      ∀ v ∈ s.services, ∃ m ∈ v.methods, p m = true := by
  rw [settled_iff hcase] at h ⊢
  constructor
  · intro h' v hv
    have := (h'.valid.services { v with methods := v.methods.filter p, nils := g v } (List.mem_map_of_mem hv)).nonempty
    obtain ⟨m, hm⟩ := List.exists_mem_of_ne_nil _ this
    obtain ⟨h1, h2⟩ := List.mem_filter.1 hm
    exact ⟨m, h1, h2⟩
  · intro hk
    obtain ⟨⟨v1, v2, v3, v4, v5, v6, v7, v8⟩, h2, h3, h4, h5⟩ := h
    refine ⟨⟨v1, ?_, v3, v4, v5, v6, v7, ?_⟩, h2, h3, h4, ?_⟩
    · intro hne
      exact v2 fun he => hne (by simp [he])
    · intro v hv
      obtain ⟨v0, hv0, rfl⟩ := List.mem_map.1 hv
      have := v8 v0 hv0
      refine ⟨this.name, ?_, ?_, ?_, ?_⟩
      · intro m hm
        obtain ⟨m0, hm0, rfl⟩ := List.mem_map.1 hm
        exact this.unique m0 hm0
      · obtain ⟨m, hm, hp⟩ := hk v0 hv0
        exact List.ne_nil_of_mem (List.mem_filter.2 ⟨hm, hp⟩)
      · intro m hm
        exact this.methods m (List.mem_filter.1 hm).1
      · exact this.distinct.sublist ((List.filter_sublist).map _)
    · intro v hv m hm
      obtain ⟨v0, hv0, rfl⟩ := List.mem_map.1 hv
      exact h5 v0 hv0 m (List.mem_filter.1 hm).1

/-- C75: the match filter leaves a valid schema exactly when every service keeps a method. -/
theorem C75_match [GoUnicode] (hcase : CaseKeepsBlanks) (s : Schema) (anns : List (Str × Str)) (h : validate s = .ok s) :
    validate (matchMethods s anns) = .ok (matchMethods s anns) ↔
      ∀ v ∈ s.services, ∃ m ∈ v.methods, CarriesOne m anns := by
  have := methods_valid hcase s (annotated · anns) (fun v => { v.nils with methods := true }) h
  simp only [annotated_iff] at this
  exact this

/-- C75: the ignore filter leaves a valid schema exactly when every service keeps a method. -/
theorem C75_ignore [GoUnicode] (hcase : CaseKeepsBlanks) (s : Schema) (anns : List (Str × Str)) (h : validate s = .ok s) :
    validate (ignoreMethods s anns) = .ok (ignoreMethods s anns) ↔
      ∀ v ∈ s.services, ∃ m ∈ v.methods, ¬ CarriesOne m anns := by
  have := methods_valid hcase s (fun m => !annotated m anns) (fun v => { v.nils with methods := true }) h
  simp only [Bool.not_eq_true', ← Bool.not_eq_true, annotated_iff] at this
  exact this

/-! ### Selecting types -/

theorem part_setExpr {w u : VarType} {e : Str} (h : Part (w.setExpr e) u) : Part w u ∨ u = w.setExpr e := by
  cases w with
  | leaf _ _ => cases h; exact .inr rfl
  | list _ _ => cases h with
    | self => exact .inr rfl
    | elem _ _ _ h => exact .inl (.elem _ _ _ h)
  | map _ _ _ => cases h with
    | self => exact .inr rfl
    | key _ _ _ _ h => exact .inl (.key _ _ _ _ h)
    | value _ _ _ _ h => exact .inl (.value _ _ _ _ h)
  | struct _ _ _ => cases h; exact .inr rfl
  | enum _ _ _ => cases h; exact .inr rfl
  | alias _ _ _ => cases h; exact .inr rfl

/-- The identity a reference carries, with its kind. -/
inductive RefTo : VarType → Str → Ptr → Prop
  | struct (e n p) : RefTo (.struct e n p) (S "struct") p
  | enum (e n p) : RefTo (.enum e n p) (S "enum") p
  | alias (e n p) : RefTo (.alias e n p) (S "alias") p

theorem refTo_setExpr {w : VarType} {e k : Str} {p : Ptr} : RefTo (w.setExpr e) k p ↔ RefTo w k p := by
  constructor <;> intro h <;> cases w <;> cases h <;> constructor

/-- Some part refers to `p`. -/
def Names (w : VarType) (k : Str) (p : Ptr) : Prop := ∃ u, Part w u ∧ RefTo u k p

theorem names_setExpr {w : VarType} {e k : Str} {p : Ptr} : Names (w.setExpr e) k p ↔ Names w k p := by
  constructor
  · rintro ⟨u, h1, h2⟩
    rcases part_setExpr h1 with h1 | rfl
    · exact ⟨u, h1, h2⟩
    · exact ⟨w, .self _, refTo_setExpr.1 h2⟩
  · rintro ⟨u, h1, h2⟩
    rcases part_setExpr (w := w.setExpr e) (e := w.expr) (u := u) (by
      have : (w.setExpr e).setExpr w.expr = w := by cases w <;> rfl
      rw [this]; exact h1) with h1 | rfl
    · exact ⟨u, h1, h2⟩
    · exact ⟨_, .self _, refTo_setExpr.1 h2⟩

theorem firstDecl_filter {ts : List TypeDecl} {p : TypeDecl → Prop} {q : TypeDecl → Bool} {d : TypeDecl}
    (h : FirstDecl ts p d) (hq : q d = true) : FirstDecl (ts.filter q) p d := by
  obtain ⟨l, r, rfl, h1, h2⟩ := h
  refine ⟨l.filter q, r.filter q, by simp [hq], h1, fun x hx => h2 x (List.mem_filter.1 hx).1⟩

/-- An expression keeps its tree when the declarations its names refer to are kept. -/
theorem denotes_filter [GoUnicode] {ts : List TypeDecl} {q : TypeDecl → Bool} {t : Ty} {w : VarType} (h : Denotes ts t w)
    (hk : ∀ k p, Names w k p → ∀ d ∈ ts, d.ptr = p → q d = true) : Denotes (ts.filter q) t w := by
  induction h with
  | omitted => exact .omitted
  | scalar h => exact .scalar h
  | list _ ih => exact .list (ih fun k p ⟨u, h1, h2⟩ => hk k p ⟨u, .elem _ _ _ h1, h2⟩)
  | @map k v kt vt h1 h2 _ ih =>
    refine .map h1 ?_ (ih fun k p ⟨u, h1, h2⟩ => hk k p ⟨u, .value _ _ _ _ h1, h2⟩)
    rcases h2 with h2 | ⟨h2, d, h3, h4, rfl⟩
    · exact .inl h2
    · refine .inr ⟨h2, d, firstDecl_filter h3 ?_, h4, rfl⟩
      obtain ⟨l, r, rfl, _, _⟩ := h3
      exact hk _ d.ptr ⟨_, .key _ _ _ _ (.self _), .enum _ _ _⟩ d (by simp) rfl
  | @named n d vt h1 h2 h3 =>
    refine .named h1 (firstDecl_filter h2 ?_) h3
    obtain ⟨l, r, rfl, _, _⟩ := h2
    rcases h3 with ⟨_, rfl⟩ | ⟨_, rfl⟩ | ⟨_, rfl⟩
    · exact hk _ d.ptr ⟨_, .self _, .struct _ _ _⟩ d (by simp) rfl
    · exact hk _ d.ptr ⟨_, .self _, .enum _ _ _⟩ d (by simp) rfl
    · exact hk _ d.ptr ⟨_, .self _, .alias _ _ _⟩ d (by simp) rfl

/-- What a name in a tree refers to. -/
theorem denotes_names [GoUnicode] {ts : List TypeDecl} {t : Ty} {w : VarType} (h : Denotes ts t w) {k : Str} {p : Ptr}
    (hn : Names w k p) : ∃ d ∈ ts, d.ptr = p ∧
      (d.kind = k ∨ (k = S "enum" ∧ ∃ u, d.type = some u ∧ u.type = CoreType.enum)) := by
  induction h with
  | omitted => obtain ⟨u, h1, h2⟩ := hn; cases h1; cases h2
  | scalar h => obtain ⟨u, h1, h2⟩ := hn; cases h1; cases h2
  | list _ ih =>
    obtain ⟨u, h1, h2⟩ := hn
    cases h1 with
    | self => cases h2
    | elem _ _ _ h1 => exact ih ⟨u, h1, h2⟩
  | @map key v kt vt h1 h2 _ ih =>
    obtain ⟨u, hp, hr⟩ := hn
    cases hp with
    | self => cases hr
    | value _ _ _ _ h => exact ih ⟨u, h, hr⟩
    | key _ _ _ _ h =>
      rcases h2 with ⟨_, c, _, rfl⟩ | ⟨h2, d, h3, h4, rfl⟩
      · cases h; cases hr
      · cases h; cases hr
        obtain ⟨l, r, rfl, _, _⟩ := h3
        refine ⟨d, by simp, rfl, ?_⟩
        rcases h4 with h4 | h4
        · exact .inl h4
        · exact .inr ⟨rfl, h4⟩
  | @named n d vt h1 h2 h3 =>
    obtain ⟨u, hp, hr⟩ := hn
    obtain ⟨l, r, rfl, _, _⟩ := h2
    refine ⟨d, by simp, ?_⟩
    rcases h3 with ⟨hk, rfl⟩ | ⟨hk, rfl⟩ | ⟨hk, rfl⟩ <;> cases hp <;> cases hr <;> exact ⟨rfl, .inl hk⟩

theorem ptr_inj {ts : List TypeDecl} (hd : DistinctObjects (ts.map (·.ptr))) {t u : TypeDecl} (ht : t ∈ ts) (hu : u ∈ ts)
    (h : t.ptr = u.ptr) : t = u := by
  obtain ⟨a, b, rfl⟩ := List.append_of_mem ht
  unfold DistinctObjects at hd
  rw [List.nodup_iff_pairwise_ne, List.pairwise_map, List.pairwise_append, List.pairwise_cons] at hd
  obtain ⟨_, ⟨h1, _⟩, h2⟩ := hd
  rcases List.mem_append.1 hu with hu | hu
  · exact absurd h.symm (h2 u hu t (by simp))
  · rcases List.mem_cons.1 hu with hu | hu
    · exact hu.symm
    · exact absurd h (h1 u hu)

theorem declares_mem {ts : List TypeDecl} {p : Ptr} {t : TypeDecl} (h : Declares ts p t) : t ∈ ts ∧ t.ptr = p := by
  obtain ⟨a, b, rfl, h, _⟩ := h
  exact ⟨by simp, h⟩

theorem declares_of {ts : List TypeDecl} (hd : DistinctObjects (ts.map (·.ptr))) {t : TypeDecl} (ht : t ∈ ts) :
    Declares ts t.ptr t := by
  obtain ⟨a, b, rfl⟩ := List.append_of_mem ht
  refine ⟨a, b, rfl, rfl, fun x hx he => ?_⟩
  unfold DistinctObjects at hd
  rw [List.nodup_iff_pairwise_ne, List.pairwise_map, List.pairwise_append] at hd
  exact hd.2.2 x hx t (by simp) he

/-- The type as validation leaves it. -/
def IsTree [GoUnicode] (ts : List TypeDecl) (v : VarType) : Prop :=
  ∃ (t : Ty) (w : VarType), t.text = v.expr ∧ v.expr ≠ [] ∧ Denotes ts t w ∧ v = w.setExpr t.shown

theorem typeBecomes_self [GoUnicode] {ts : List TypeDecl} {o : Option VarType} :
    TypeBecomes ts o o ↔ ∃ v, o = some v ∧ IsTree ts v := by
  constructor
  · rintro ⟨v, t, w, h1, h2, h3, h4, h5⟩
    exact ⟨v, h1, t, w, h3, h2, h4, by rw [h1] at h5; exact Option.some.inj h5⟩
  · rintro ⟨v, h1, t, w, h3, h2, h4, h5⟩
    exact ⟨v, t, w, h1, h2, h3, h4, by rw [h1, ← h5]⟩

theorem isTree_filter [GoUnicode] {ts : List TypeDecl} {q : TypeDecl → Bool} {v : VarType} (h : IsTree ts v)
    (hk : ∀ k p, Names v k p → ∀ d ∈ ts, d.ptr = p → q d = true) : IsTree (ts.filter q) v := by
  obtain ⟨t, w, h1, h2, h3, rfl⟩ := h
  exact ⟨t, w, h1, h2, denotes_filter h3 fun k p hn => hk k p (names_setExpr.2 hn), rfl⟩

theorem isTree_names [GoUnicode] {ts : List TypeDecl} {v : VarType} (h : IsTree ts v) {k : Str} {p : Ptr}
    (hn : Names v k p) : ∃ d ∈ ts, d.ptr = p ∧
      (d.kind = k ∨ (k = S "enum" ∧ ∃ u, d.type = some u ∧ u.type = CoreType.enum)) := by
  obtain ⟨t, w, h1, h2, h3, rfl⟩ := h
  exact denotes_names h3 (names_setExpr.1 hn)

/-- No struct declaration carries a type of its own that is an enum (parsers never make one). -/
def PlainStructs (s : Schema) : Prop :=
  ∀ t ∈ s.types, t.kind = S "struct" → ∀ u, t.type = some u → u.type ≠ CoreType.enum

section
variable [GoUnicode] {s : Schema}

theorem settled_field (h : Settled s) {t : TypeDecl} (ht : t ∈ s.types) (hk : t.kind = S "struct") {f : Field}
    (hf : f ∈ t.fields) {w : VarType} (hw : f.type = some w) : IsTree s.types w := by
  rcases h.types t ht with ⟨h1, _⟩ | ⟨_, fs, h1, h2⟩
  · exact absurd hk h1
  · have e : t.fields = fs := congrArg TypeDecl.fields h1
    subst e
    obtain ⟨o, h3, h4⟩ := pointwise_self h2 f hf
    have e : f.type = o := congrArg Field.type h4
    subst e
    obtain ⟨v, h5, h6⟩ := typeBecomes_self.1 h3
    rw [hw] at h5
    cases h5
    exact h6

theorem settled_arg (h : Settled s) {v : Service} (hv : v ∈ s.services) {a : VarType} (ha : ArgOf v a) : IsTree s.types a := by
  obtain ⟨m, hm, x, hx, he⟩ := ha
  obtain ⟨o, h3, h4⟩ := h.services v hv m hm x hx
  have e : x.type = o := congrArg Argument.type h4
  subst e
  obtain ⟨v, h5, h6⟩ := typeBecomes_self.1 h3
  rw [he] at h5
  cases h5
  exact h6

/-- A struct mentioned in a tree is declared as one. -/
theorem mentions_kind (hd : DistinctObjects (s.types.map (·.ptr))) {v : VarType} (hv : IsTree s.types v)
    {u : TypeDecl} (hm : MentionsStruct s.types v u) : u ∈ s.types ∧ u.kind = S "struct" := by
  obtain ⟨e, n, p, h1, h2⟩ := hm
  obtain ⟨h3, h4⟩ := declares_mem h2
  obtain ⟨d, h5, h6, h7⟩ := isTree_names hv ⟨_, h1, .struct e n p⟩
  have := ptr_inj hd h5 h3 (h6.trans h4.symm)
  subst this
  rcases h7 with h7 | ⟨h7, _⟩
  · exact ⟨h3, h7⟩
  · exact absurd h7 (by decide)

theorem inside_tree (h : Settled s) (hd : DistinctObjects (s.types.map (·.ptr))) {v w : VarType}
    (hi : Inside s.types v w) (hv : IsTree s.types v) : IsTree s.types w := by
  induction hi with
  | self => exact hv
  | field f h1 h2 h3 _ ih =>
    obtain ⟨h5, h6⟩ := mentions_kind hd hv h1
    exact ih (settled_field h h5 h6 h2 h3)

omit [GoUnicode] in
theorem inside_needs {v w : VarType} (hi : Inside s.types v w) {d : TypeDecl} (hm : Mentions s.types w d) :
    Needs s.types v d := by
  induction hi with
  | self => exact .here hm
  | field f h1 h2 h3 _ ih => exact .field f h1 h2 h3 (ih hm)

/-- A needed struct is inside: its fields are. -/
theorem needs_inside (h : Settled s) (hd : DistinctObjects (s.types.map (·.ptr))) (hp : PlainStructs s) {v : VarType}
    {t : TypeDecl} (hn : Needs s.types v t) (hv : IsTree s.types v) (hk : t.kind = S "struct") :
    ∃ w, Inside s.types v w ∧ MentionsStruct s.types w t := by
  induction hn with
  | @here v t hm =>
    rcases hm with hm | ⟨e, n, p, h1, h2⟩
    · exact ⟨v, .self _, hm⟩
    · exfalso
      obtain ⟨h3, h4⟩ := declares_mem h2
      obtain ⟨d, h5, h6, h7⟩ := isTree_names hv ⟨_, h1, .enum e n p⟩
      have := ptr_inj hd h5 h3 (h6.trans h4.symm)
      subst this
      rcases h7 with h7 | ⟨_, u, h7, h8⟩
      · rw [hk] at h7; exact absurd h7 (by decide)
      · exact hp d h3 hk u h7 h8
  | field f h1 h2 h3 _ ih =>
    obtain ⟨h5, h6⟩ := mentions_kind hd hv h1
    obtain ⟨w, h7, h8⟩ := ih (settled_field h h5 h6 h2 h3) hk
    exact ⟨w, .field f h1 h2 h3 h7, h8⟩

omit [GoUnicode] in
theorem inside_field {ts : List TypeDecl} {v w x : VarType} {u : TypeDecl} (hi : Inside ts v w) (hm : MentionsStruct ts w u)
    {f : Field} (hf : f ∈ u.fields) (hw : f.type = some x) : Inside ts v x := by
  induction hi with
  | self => exact .field f hm hf hw (.self _)
  | field g h1 h2 h3 _ ih => exact .field g h1 h2 h3 (ih hm)

end

/-- C75: tree shaking followed by the selection of the same services leaves a valid schema exactly when
every alias that the selected services use, directly or in a struct, is still declared.  (Pointers are
those of distinct objects and struct declarations carry no type of their own: both hold of every schema
made by a parser.) -/
theorem C75_shake [GoUnicode] (hcase : CaseKeepsBlanks) (n : Nat) (s s1 : Schema) (names : List Str)
    (hne : names ≠ []) (h : validate s = .ok s)
    (hd : DistinctObjects (s.types.map (·.ptr))) (hp : PlainStructs s) (hs : treeShakeN n s names = some s1) :
    validate (matchServices s1 names) = .ok (matchServices s1 names) ↔
      ∀ p, AliasUsed s names p → ∃ t ∈ s1.types, t.ptr = p := by
  rw [settled_iff hcase] at h ⊢
  obtain ⟨used, rfl, hused⟩ := treeShake_some n s s1 names hs
  have hex := C39_exact n s _ names hs
  obtain ⟨_, _, hkept⟩ := hex
  rw [show matchServices { s with types := s.types.filter (fun t => used.contains t.name), nils := { s.nils with types := true } } names =
    { s with types := s.types.filter fun t => used.contains t.name,
             services := s.services.filter fun v => names.contains v.name,
             nils := { s.nils with types := true, services := true } } by
      unfold matchServices; rw [if_neg (by simp [hne])]]
  -- what is kept, in terms of needs
  have hnm : ∀ t ∈ s.types, t.name ≠ [] := by
    intro t ht he
    obtain ⟨c, cs, _, _, hc, _⟩ := (h.valid.types t ht).name
    rw [he] at hc; cases hc
  have keep : ∀ t ∈ s.types, used.contains t.name = true ↔
      ∃ v ∈ s.services, v.name ∈ names ∧ ∃ a, ArgOf v a ∧ Needs s.types a t := by
    intro t ht
    have := hkept t ht
    simp only [List.mem_filter, ht, true_and] at this
    rw [this]
    constructor
    · rintro ⟨_, v, hv, hvn, a, ha, u, hn, hw⟩
      have hu := needs_mem hn
      have : u = t := by
        apply ptr_inj hd hu ht
        apply Classical.byContradiction
        intro hne
        exact (h.valid.types t ht).unique u hu hne (by rw [hw]; rfl)
      subst this
      exact ⟨v, hv, hvn, a, ha, hn⟩
    · rintro ⟨v, hv, hvn, a, ha, hn⟩
      exact ⟨hnm t ht, v, hv, hvn, a, ha, t, hn, rfl⟩
  -- the types inside the arguments
  let In : VarType → Prop := fun w => ∃ v ∈ s.services, v.name ∈ names ∧ ∃ a, ArgOf v a ∧ Inside s.types a w
  have inTree : ∀ w, In w → IsTree s.types w := by
    rintro w ⟨v, hv, _, a, ha, hi⟩
    exact inside_tree h hd hi (settled_arg h hv ha)
  have inField : ∀ t ∈ s.types, used.contains t.name = true → t.kind = S "struct" → ∀ f ∈ t.fields, ∀ w,
      f.type = some w → In w := by
    intro t ht hu hk f hf w hw
    obtain ⟨v, hv, hvn, a, ha, hn⟩ := (keep t ht).1 hu
    obtain ⟨x, h1, h2⟩ := needs_inside h hd hp hn (settled_arg h hv ha) hk
    exact ⟨v, hv, hvn, a, ha, inside_field h1 h2 hf hw⟩
  have inArg : ∀ v ∈ s.services, v.name ∈ names → ∀ a, ArgOf v a → In a :=
    fun v hv hvn a ha => ⟨v, hv, hvn, a, ha, .self _⟩
  constructor
  · -- a valid result still declares the aliases
    rintro h' p ⟨v, hv, hvn, a, ha, w, hi, e, nm, hpart⟩
    have hv' : v ∈ s.services.filter fun v => names.contains v.name := List.mem_filter.2 ⟨hv, by simpa using hvn⟩
    have hw : IsTree (s.types.filter fun t => used.contains t.name) w := by
      cases hi with
      | self => exact settled_arg h' hv' ha
      | field f h1 h2 h3 h4 =>
        -- the last struct on the way
        have last : ∀ {x w : VarType}, Inside s.types x w → ∀ {u : TypeDecl} {f : Field}, f ∈ u.fields → f.type = some x →
            ∀ {y : VarType}, Inside s.types a y → MentionsStruct s.types y u →
            ∃ (y' : VarType) (u' : TypeDecl) (f' : Field), Inside s.types a y' ∧ MentionsStruct s.types y' u' ∧ f' ∈ u'.fields ∧
              f'.type = some w := by
          intro x w hi
          induction hi with
          | self => intro u f hf hx y hy hm; exact ⟨y, u, f, hy, hm, hf, hx⟩
          | field g g1 g2 g3 _ ih =>
            intro u f hf hx y hy hm
            exact ih g2 g3 (inside_field hy hm hf hx) g1
        obtain ⟨y, u, g, hy, hm, hg, hgw⟩ := last h4 h2 h3 (.self _) h1
        obtain ⟨hu1, hu2⟩ := mentions_kind hd (inside_tree h hd hy (settled_arg h hv ha)) hm
        have hu3 : used.contains u.name = true := (keep u hu1).2 ⟨v, hv, hvn, a, ha, inside_needs hy (.inl hm)⟩
        exact settled_field h' (List.mem_filter.2 ⟨hu1, hu3⟩) hu2 hg hgw
    obtain ⟨d, hd1, hd2, _⟩ := isTree_names hw ⟨_, hpart, .alias e nm p⟩
    exact ⟨d, hd1, hd2⟩
  · intro hal
    have inKept : ∀ w, In w → IsTree (s.types.filter fun t => used.contains t.name) w := by
      intro w hw
      have htree := inTree w hw
      refine isTree_filter htree ?_
      rintro k p ⟨u, hu, hr⟩ d hdm hdp
      have hdecl : Declares s.types p d := hdp ▸ declares_of hd hdm
      obtain ⟨v, hv, hvn, a, ha, hi⟩ := hw
      cases hr with
      | struct e n p => exact (keep d hdm).2 ⟨v, hv, hvn, a, ha, inside_needs hi (.inl ⟨e, n, p, hu, hdecl⟩)⟩
      | enum e n p => exact (keep d hdm).2 ⟨v, hv, hvn, a, ha, inside_needs hi (.inr ⟨e, n, p, hu, hdecl⟩)⟩
      | alias e n p =>
        obtain ⟨t, ht, htp⟩ := hal p ⟨v, hv, hvn, a, ha, w, hi, e, n, hu⟩
        obtain ⟨ht1, ht2⟩ := List.mem_filter.1 ht
        have := ptr_inj hd ht1 hdm (htp.trans hdp.symm)
        subst this
        exact ht2
    have written : ∀ o w, o = some w → IsTree (s.types.filter fun t => used.contains t.name) w →
        WrittenType (s.types.filter fun t => used.contains t.name) o := by
      rintro o v rfl ⟨t, w, h1, h2, h3, _⟩
      exact ⟨v, rfl, h2, t, h1, w, h3⟩
    obtain ⟨⟨v1, v2, v3, v4, v5, v6, v7, v8⟩, h2, h3, h4, h5⟩ := h
    refine ⟨⟨v1, ?_, v3, ?_, v5, v6, v7, ?_⟩, h2, ?_, h4, ?_⟩
    · intro hne
      exact v2 fun he => hne (by simp [he])
    · intro t ht
      obtain ⟨ht1, ht2⟩ := List.mem_filter.1 ht
      have hv := v4 t ht1
      refine ⟨hv.name, fun m hm => hv.unique m (List.mem_filter.1 hm).1, hv.kind, hv.alias, hv.enum, ?_⟩
      intro hk
      refine ⟨(hv.struct hk).1, ?_⟩
      intro f hf
      obtain ⟨g1, v, g2, _⟩ := (hv.struct hk).2 f hf
      exact ⟨g1, written _ v g2 (inKept v (inField t ht1 ht2 hk f hf v g2))⟩
    · intro v hv
      obtain ⟨hv1, hv2⟩ := List.mem_filter.1 hv
      have hvn : v.name ∈ names := by simpa using hv2
      have := v8 v hv1
      refine ⟨this.name, fun m hm => this.unique m (List.mem_filter.1 hm).1, this.nonempty, ?_, this.distinct⟩
      intro m hm
      have hmv := this.methods m hm
      refine ⟨hmv.name, ?_, hmv.errors, hmv.succinct⟩
      intro x hx
      obtain ⟨g1, w, g2, _⟩ := hmv.args x hx
      exact ⟨g1, written _ w g2 (inKept w (inArg v hv1 hvn w ⟨m, hm, x, hx, g2⟩))⟩
    · intro t ht
      obtain ⟨ht1, ht2⟩ := List.mem_filter.1 ht
      rcases h3 t ht1 with hk | ⟨hk, fs, g1, g2⟩
      · exact .inl hk
      · refine .inr ⟨hk, t.fields, rfl, ?_⟩
        have e : t.fields = fs := congrArg TypeDecl.fields g1
        subst e
        refine pointwise_refl fun f hf => ?_
        obtain ⟨o, g3, g4⟩ := pointwise_self g2 f hf
        have e : f.type = o := congrArg Field.type g4
        subst e
        obtain ⟨w, g5, _⟩ := typeBecomes_self.1 g3
        exact ⟨f.type, typeBecomes_self.2 ⟨w, g5, inKept w (inField t ht1 ht2 hk f hf w g5)⟩, rfl⟩
    · intro v hv m hm x hx
      obtain ⟨hv1, hv2⟩ := List.mem_filter.1 hv
      have hvn : v.name ∈ names := by simpa using hv2
      obtain ⟨o, g3, g4⟩ := h5 v hv1 m hm x hx
      have e : x.type = o := congrArg Argument.type g4
      subst e
      obtain ⟨w, g5, _⟩ := typeBecomes_self.1 g3
      exact ⟨x.type, typeBecomes_self.2 ⟨w, g5, inKept w (inArg v hv1 hvn w ⟨m, hm, x, hx, g5⟩)⟩, rfl⟩

/-! ### Schemas made by the parsers -/

theorem merged_plain {P : TypeDecl → Prop} {s : Schema} {ps : List (Ridl.ImportNode × Schema)} (h : ∀ t ∈ s.types, P t)
    (hp : ∀ p ∈ ps, ∀ t ∈ p.2.types, P t) : ∀ t ∈ (mergeAll s ps).types, P t := by
  unfold mergeAll
  induction ps generalizing s with
  | nil => exact h
  | cons p ps ih =>
    simp only [List.foldl_cons]
    refine ih ?_ fun q hq => hp q (by simp [hq])
    intro t ht
    rcases Compile.addNew_mem ht with ht | ht
    · exact h t ht
    · exact hp p (by simp) t ht.1

theorem validate_plain [GoUnicode] {s s' : Schema} (h : validate s = .ok s')
    (hp : ∀ t ∈ s.types, t.kind = S "struct" → ∀ u, t.type = some u → u.type ≠ CoreType.enum) :
    ∀ t ∈ s'.types, t.kind = S "struct" → ∀ u, t.type = some u → u.type ≠ CoreType.enum := by
  obtain ⟨-, -, b, ts, es, ss, -, hts, -, -, rfl⟩ := validate_ok.1 h
  intro t ht
  obtain ⟨t0, h0, h1⟩ := hts.mem_right ht
  have := (typeParse_ok h1).2.2.2.1
  simp only [TypeDecl.sig, Prod.mk.injEq] at this
  rw [this.2.1, this.2.2.2]
  exact hp t0 h0

/-- A schema compiled from RIDL files: distinct objects, plain structs. -/
theorem made_ridl [GoUnicode] {fs : Compile.Files} {path : Str} {s : Schema} (h : Compile.compile fs path = .ok s) :
    DistinctObjects (s.types.map (·.ptr)) ∧ PlainStructs s := by
  rw [Compile.compile_iff] at h
  refine ⟨(Compile.compiled_owned h).types, ?_⟩
  induction h with
  | @intro path ns s0 s1 s ps h1 h2 h3 hc h5 h6 ih =>
    have hnd : (s1.types.map (·.ptr)).Nodup := by
      have := (Compile.compiled_owned (.intro h1 h2 h3 hc h5 h6)).types
      have e := congrArg (List.map Prod.fst) (Compile.validate_ids h6).1
      simp only [List.map_map] at e
      have e' : s.types.map (·.ptr) = s1.types.map (·.ptr) := e
      rwa [e'] at this
    obtain ⟨A, E, T, e, hA, hE, hT⟩ := Compile.declare_types h5 (Compile.namesDiffer_of_valid h6 hnd)
    refine validate_plain h6 ?_
    intro t ht hk
    rw [e] at ht
    simp only [List.mem_append] at ht
    rcases ht with ((ht | ht) | ht) | ht
    · refine merged_plain (P := fun t => t.kind = S "struct" → ∀ u, t.type = some u → u.type ≠ CoreType.enum) ?_ ?_ t ht hk
      · simp [(Compile.defs_empty h2).1]
      · intro p hp t ht; exact ih p hp t ht
    · obtain ⟨_, _, q, _⟩ := hA.mem_right ht
      rw [hk] at q; exact absurd q (by decide)
    · obtain ⟨_, _, q, _⟩ := hE.mem_right ht
      rw [hk] at q; exact absurd q (by decide)
    · obtain ⟨_, _, _, _, q, _⟩ := hT.mem_right ht
      rw [q]; simp

theorem except_bind {ε α β : Type} {x : Except ε α} {f : α → Except ε β} {b : β} (h : (x >>= f) = .ok b) :
    ∃ a, x = .ok a ∧ f a = .ok b := by
  cases x with
  | error e => cases h
  | ok a => exact ⟨a, rfl, h⟩

theorem decTypeDecl_made {i : Nat} {j : Verif.Json.Json} {t : TypeDecl} (h : Verif.Json.decTypeDecl i j = .ok t) :
    t.ptr.2 = i ∧ ∀ u, t.type = some u → u.type ≠ CoreType.enum := by
  unfold Verif.Json.decTypeDecl at h
  obtain ⟨l, -, h⟩ := except_bind h
  obtain ⟨kind, -, h⟩ := except_bind h
  obtain ⟨name, -, h⟩ := except_bind h
  obtain ⟨type, ht, h⟩ := except_bind h
  obtain ⟨fields, -, h⟩ := except_bind h
  obtain ⟨opt, -, h⟩ := except_bind h
  obtain ⟨val, -, h⟩ := except_bind h
  obtain ⟨ms, -, h⟩ := except_bind h
  obtain ⟨cs, -, h⟩ := except_bind h
  cases h
  refine ⟨rfl, ?_⟩
  intro u hu
  dsimp only at hu
  subst hu
  unfold Verif.Json.decType at ht
  split at ht
  · split at ht
    · cases ht
    · cases ht; simp [VarType.type]
  · cases ht
  · cases ht

theorem decElems_made {i : Nat} {l : List Verif.Json.Json} {ts : List TypeDecl}
    (h : Verif.Json.decElems Verif.Json.decTypeDecl i l = .ok ts) :
    (ts.map (·.ptr)).Nodup ∧ ∀ t ∈ ts, i ≤ t.ptr.2 ∧ ∀ u, t.type = some u → u.type ≠ CoreType.enum := by
  induction l generalizing i ts with
  | nil => cases h; simp
  | cons j l ih =>
    unfold Verif.Json.decElems at h
    obtain ⟨x, hx, h⟩ := except_bind h
    obtain ⟨xs, hxs, h⟩ := except_bind h
    cases h
    obtain ⟨h1, h2⟩ := ih hxs
    obtain ⟨h3, h4⟩ := decTypeDecl_made hx
    constructor
    · rw [List.map_cons, List.nodup_cons]
      refine ⟨fun hm => ?_, h1⟩
      obtain ⟨y, hy, e⟩ := List.mem_map.1 hm
      have := (h2 y hy).1
      rw [e, h3] at this
      omega
    · intro t ht
      rcases List.mem_cons.1 ht with rfl | ht
      · exact ⟨Nat.le_of_eq h3.symm, h4⟩
      · exact ⟨Nat.le_of_succ_le (h2 t ht).1, (h2 t ht).2⟩

/-- A schema loaded from JSON: distinct objects, plain structs. -/
theorem made_json [GoUnicode] {text : Str} {s : Schema} (h : Verif.Json.parseSchemaJSON text = .ok s) :
    DistinctObjects (s.types.map (·.ptr)) ∧ PlainStructs s := by
  unfold Verif.Json.parseSchemaJSON at h
  split at h
  · cases h
  · cases h
  · rename_i j _ _
    split at h
    · cases h
    · cases h
    · rename_i s0 hs0
      split at h
      · rename_i s' hv
        cases h
        have hm : (s0.types.map (·.ptr)).Nodup ∧ ∀ t ∈ s0.types, ∀ u, t.type = some u → u.type ≠ CoreType.enum := by
          unfold Verif.Json.decSchema at hs0
          obtain ⟨l, -, hs0⟩ := except_bind hs0
          obtain ⟨_, -, hs0⟩ := except_bind hs0
          obtain ⟨_, -, hs0⟩ := except_bind hs0
          obtain ⟨_, -, hs0⟩ := except_bind hs0
          obtain ⟨_, -, hs0⟩ := except_bind hs0
          obtain ⟨ts, ht, hs0⟩ := except_bind hs0
          obtain ⟨_, -, hs0⟩ := except_bind hs0
          obtain ⟨_, -, hs0⟩ := except_bind hs0
          cases hs0
          dsimp only
          unfold Verif.Json.decList at ht
          split at ht
          · obtain ⟨h1, h2⟩ := decElems_made ht
            exact ⟨h1, fun t ht => (h2 t ht).2⟩
          · cases ht; simp
          · cases ht
        have e := congrArg (List.map Prod.fst) (Compile.validate_ids hv).1
        simp only [List.map_map] at e
        have e' : s.types.map (·.ptr) = s0.types.map (·.ptr) := e
        refine ⟨?_, validate_plain hv fun t ht _ => hm.2 t ht⟩
        unfold DistinctObjects
        rw [e']
        exact hm.1
      · cases h
      · cases h
      · cases h

/-- C75: for a schema compiled from RIDL files in which no type is left out. -/
theorem C75_ridl [GoUnicode] (hcase : CaseKeepsBlanks) (fs : Compile.Files) (path : Str) (n : Nat) (s s1 : Schema)
    (names : List Str) (hne : names ≠ []) (h : Compile.compile fs path = .ok s) (hr : AllResolved s)
    (hs : treeShakeN n s names = some s1) :
    validate (matchServices s1 names) = .ok (matchServices s1 names) ↔
      ∀ p, AliasUsed s names p → ∃ t ∈ s1.types, t.ptr = p := by
  obtain ⟨h1, h2⟩ := made_ridl h
  obtain ⟨_, _, s0, _, _, _, _, _, h0⟩ := (C62_cache_transparent fs path s).1 h
  exact C75_shake hcase n s s1 names hne (C24_idempotent s0 s h0 hr) h1 h2 hs

/-- C75: for a schema loaded from JSON in which no type is left out. -/
theorem C75_json [GoUnicode] (hcase : CaseKeepsBlanks) (text : Str) (n : Nat) (s s1 : Schema)
    (names : List Str) (hne : names ≠ []) (h : Verif.Json.parseSchemaJSON text = .ok s) (hr : AllResolved s)
    (hs : treeShakeN n s names = some s1) :
    validate (matchServices s1 names) = .ok (matchServices s1 names) ↔
      ∀ p, AliasUsed s names p → ∃ t ∈ s1.types, t.ptr = p := by
  obtain ⟨h1, h2⟩ := made_json h
  have h0 : ∃ s0, validate s0 = .ok s := by
    unfold Verif.Json.parseSchemaJSON at h
    split at h
    · cases h
    · cases h
    · split at h
      · cases h
      · cases h
      · rename_i s0 _
        split at h
        · rename_i hv; cases h; exact ⟨s0, hv⟩
        all_goals cases h
  obtain ⟨s0, h0⟩ := h0
  exact C75_shake hcase n s s1 names hne (C24_idempotent s0 s h0 hr) h1 h2 hs

/-- C75: without aliases in the selected services the result is valid. -/
theorem C75_no_alias [GoUnicode] (hcase : CaseKeepsBlanks) (n : Nat) (s s1 : Schema) (names : List Str)
    (hne : names ≠ []) (h : validate s = .ok s)
    (hd : DistinctObjects (s.types.map (·.ptr))) (hp : PlainStructs s) (hs : treeShakeN n s names = some s1)
    (ha : ∀ p, ¬ AliasUsed s names p) :
    validate (matchServices s1 names) = .ok (matchServices s1 names) :=
  (C75_shake hcase n s s1 names hne h hd hp hs).2 fun p hp => absurd hp (ha p)

/-! ### Examples, and what goes wrong -/

/-- Validate, shake, select, validate. -/
def afterShake [GoUnicode] (s0 : Schema) (names : List Str) : Option (Res (List Str × List Str)) :=
  match validate s0 with
  | .ok s => (treeShakeN 9 s names).map fun s1 =>
    (validate (matchServices s1 names)).bind fun s2 => .ok (s2.types.map (·.name), s2.services.map (·.name))
  | _ => none

/-- Validate, filter, write as JSON, load. -/
def afterFilter [GoUnicode] [Verif.Json.GoPrint] (s0 : Schema) (f : Schema → Schema) : Option SErr :=
  match validate s0 with
  | .ok s => match Verif.Json.toJSON (f s) with
    | some text => match Verif.Json.parseSchemaJSON text with
      | .invalid e => some e
      | _ => none
    | none => none
  | _ => none

/-- Two services; the first one needs an enum and a struct, the second one another struct. -/
def twoServices : Schema := tripSchema [
    { ptr := ([], 0), kind := S "enum", name := S "Kind", type := some (.leaf (S "uint32") .unknown), fields := [{ name := S "A", value := S "0" }] },
    { ptr := ([], 1), kind := S "struct", name := S "User", fields := [{ name := S "kinds", type := some (.leaf (S "map<Kind,[]User2>") .unknown) }] },
    { ptr := ([], 2), kind := S "struct", name := S "User2", fields := [{ name := S "x", type := some (.leaf (S "string") .unknown) }] },
    { ptr := ([], 3), kind := S "struct", name := S "Other", fields := [{ name := S "x", type := some (.leaf (S "string") .unknown) }] }]
  [{ ptr := ([], 0), name := S "A", methods := [
      { name := S "Get", annotations := [(S "auth", ⟨S "auth", S "admin"⟩)], outputs := [{ name := S "u", type := some (.leaf (S "User") .unknown) }] }] },
   { ptr := ([], 1), name := S "B", methods := [
      { name := S "Put", inputs := [{ name := S "o", type := some (.leaf (S "Other") .unknown) }] }] }]

/-- Decision of the hypotheses of `C75_shake`, without aliases. -/
def shakeable [GoUnicode] (s : Schema) : Bool :=
  (usedTypes s).all resolvedB && decide ((s.types.map (·.ptr)).Nodup) &&
    (s.types.all fun t => decide (t.kind = S "struct" → t.type = none)) &&
    (s.types.all fun t => decide (t.kind ≠ S "alias"))

/-- C75: the hypotheses of `C75_services`, `C75_shake` and `C75_no_alias` are met, by a schema that loses a type. -/
theorem C75_example : let _ := asciiOnly; ∃ s s1, validate twoServices = .ok s ∧ validate s = .ok s ∧
    DistinctObjects (s.types.map (·.ptr)) ∧ PlainStructs s ∧ treeShakeN 9 s [S "A"] = some s1 ∧
    (∀ p, ¬ AliasUsed s [S "A"] p) ∧ s1.types.length = 3 ∧ s.types.length = 4 := by
  let _ := asciiOnly
  have hall : (match validate twoServices with
    | .ok s => shakeable s && decide ((treeShakeN 9 s [S "A"]).map (fun s1 => (s1.types.length, s.types.length)) = some (3, 4))
    | _ => false) = true := by decide +kernel
  cases h : validate twoServices with
  | ok s =>
    rw [h] at hall
    simp only [shakeable, Bool.and_eq_true, List.all_eq_true, decide_eq_true_eq, Option.map_eq_some_iff, Prod.mk.injEq] at hall
    obtain ⟨⟨⟨⟨h1, h2⟩, h3⟩, h4⟩, s1, h5, h6, h7⟩ := hall
    have hs := C24_idempotent _ _ h fun vt hv => resolvedB_ok (h1 vt hv)
    have hpl : PlainStructs s := fun t ht hk u hu => by rw [h3 t ht hk] at hu; cases hu
    refine ⟨s, s1, h, hs, h2, hpl, h5, ?_, h6, h7⟩
    rintro p ⟨v, hv, _, a, ha, w, hi, e, n, hp⟩
    have hst := (settled_iff caseKeepsBlanks_ascii s).1 hs
    obtain ⟨d, hd1, hd2, hd3⟩ := isTree_names (inside_tree hst h2 hi (settled_arg hst hv ha)) ⟨_, hp, .alias e n p⟩
    rcases hd3 with hd3 | ⟨hd3, _⟩
    · exact h4 d hd1 hd3
    · exact absurd hd3 (by decide)
  | err e => rw [h] at hall; cases hall
  | panic => rw [h] at hall; cases hall
  | fuel => rw [h] at hall; cases hall

/-- C75: false of the code for aliases: a valid schema whose selected service uses an alias is not valid after tree
shaking. -/
theorem C75_alias_lost : let _ := asciiOnly; afterShake (tripSchema [
    { ptr := ([], 0), kind := S "alias", name := S "Id", type := some (.leaf (S "string") .string) }]
    [{ ptr := ([], 0), name := S "A", methods := [{ name := S "Get", inputs := [{ name := S "id", type := some (.leaf (S "Id") .unknown) }] }] }])
    [S "A"] = some (.err .invalidType) := by decide +kernel

/-- C75: the same schema with the alias replaced by its type stays valid. -/
theorem C75_alias_kept : let _ := asciiOnly; afterShake (tripSchema [
    { ptr := ([], 0), kind := S "alias", name := S "Id", type := some (.leaf (S "string") .string) }]
    [{ ptr := ([], 0), name := S "A", methods := [{ name := S "Get", inputs := [{ name := S "id", type := some (.leaf (S "string") .unknown) }] }] }])
    [S "A"] = some (.ok ([], [S "A"])) := by decide +kernel

/-- C75: a valid result need not declare all it uses: an alias of an enum that is the key of a map is kept, the enum it
stands for is not (the types of aliases are not validated). -/
theorem C75_behind_alias : let _ := asciiOnly; afterShake (tripSchema [
    { ptr := ([], 0), kind := S "enum", name := S "Kind", type := some (.leaf (S "uint32") .unknown), fields := [{ name := S "A", value := S "0" }] },
    { ptr := ([], 1), kind := S "alias", name := S "K2", type := some (.enum (S "Kind") (S "Kind") ([], 0)) }]
    [{ ptr := ([], 0), name := S "A", methods := [{ name := S "Get", inputs := [{ name := S "m", type := some (.leaf (S "map<K2,string>") .unknown) }] }] }])
    [S "A"] = some (.ok ([S "K2"], [S "A"])) := by decide +kernel

/-- C75: a filter that leaves a service without methods makes a schema whose JSON form cannot be loaded. -/
theorem C75_emptied : let _ := asciiOnly; let _ := asciiPrint;
    afterFilter twoServices (matchMethods · [(S "auth", S "")]) = some .noMethods ∧
    afterFilter twoServices (ignoreMethods · [(S "auth", S "")]) = some .noMethods ∧
    afterFilter twoServices id = none := by decide +kernel

/-- C75: the hypotheses of `C75_match` and `C75_ignore` are met on both sides: both filters on a valid schema, each
service keeping a method or not. -/
theorem C75_methods_example : let _ := asciiOnly; ∃ s, validate s = .ok s ∧
    (¬ ∀ v ∈ s.services, ∃ m ∈ v.methods, CarriesOne m [(S "auth", [])]) ∧
    (∀ v ∈ s.services, ∃ m ∈ v.methods, ¬ CarriesOne m [(S "role", [])]) := by
  let _ := asciiOnly
  have hall : (match validate twoServices with
    | .ok s => shakeable s && (!s.services.all fun v => v.methods.any fun m => annotated m [(S "auth", [])]) &&
        s.services.all fun v => v.methods.any fun m => !annotated m [(S "role", [])]
    | _ => false) = true := by decide +kernel
  cases h : validate twoServices with
  | ok s =>
    rw [h] at hall
    simp only [shakeable, Bool.and_eq_true, List.all_eq_true, decide_eq_true_eq] at hall
    obtain ⟨⟨⟨⟨⟨h1, _⟩, _⟩, _⟩, h5⟩, h6⟩ := hall
    refine ⟨s, C24_idempotent _ _ h fun vt hv => resolvedB_ok (h1 vt hv), ?_, ?_⟩
    · intro hc
      have : (s.services.all fun v => v.methods.any fun m => annotated m [(S "auth", [])]) = true := by
        rw [List.all_eq_true]
        intro v hv
        obtain ⟨m, hm, hcm⟩ := hc v hv
        exact List.any_eq_true.2 ⟨m, hm, (annotated_iff _ _).2 hcm⟩
      rw [this] at h5
      cases h5
    · intro v hv
      obtain ⟨m, hm, hc⟩ := List.any_eq_true.1 (h6 v hv)
      refine ⟨m, hm, fun hcm => ?_⟩
      rw [(annotated_iff _ _).2 hcm] at hc
      cases hc
  | err e => rw [h] at hall; cases hall
  | panic => rw [h] at hall; cases hall
  | fuel => rw [h] at hall; cases hall

end Verif.Props
