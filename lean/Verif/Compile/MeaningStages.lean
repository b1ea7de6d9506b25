import Verif.Compile.MeaningParts
/-! The loops over the declarations of a file, in both directions. -/

namespace Verif.Compile
open Verif.Schema Verif.Spec
open Verif.Ridl hiding Str

variable [GoUnicode]

/-! ### Meaning of expressions while declarations are incomplete -/

/-- `d` is an incomplete form of `d'`; the incomplete ones that matter have their names in `later`. -/
def Part (later : List Str) (d d' : TypeDecl) : Prop :=
  Le d d' ∧ (d'.type = d.type ∨ d.kind = S "enum" ∨ d.name ∈ later)

omit [GoUnicode] in
theorem firstDecl_ge {ts ts' : List TypeDecl} {R : TypeDecl → TypeDecl → Prop} (h : Pointwise R ts ts') {p : TypeDecl → Prop}
    {d' : TypeDecl} (hp : ∀ x y, R x y → (p x ↔ p y)) (hd : FirstDecl ts' p d') : ∃ d, FirstDecl ts p d ∧ R d d' := by
  obtain ⟨l', r', rfl, h1, h2⟩ := hd
  have key : ∀ (l' : List TypeDecl) (ts : List TypeDecl), Pointwise R ts (l' ++ d' :: r') → (∀ x ∈ l', ¬ p x) →
      ∃ d, FirstDecl ts p d ∧ R d d' := by
    intro l'
    induction l' with
    | nil =>
      intro ts h _
      cases h with
      | @cons x _ xs _ hr hs => exact ⟨x, ⟨[], xs, rfl, (hp _ _ hr).2 h1, by simp⟩, hr⟩
    | cons y l' ih =>
      intro ts h hn
      cases h with
      | @cons x _ xs _ hr hs =>
        obtain ⟨d, ⟨l, r, e, k1, k2⟩, k3⟩ := ih xs hs (fun z hz => hn z (by simp [hz]))
        refine ⟨d, ⟨x :: l, r, by rw [e]; rfl, k1, ?_⟩, k3⟩
        intro z hz
        rcases List.mem_cons.1 hz with rfl | hz
        · exact fun hx => hn y (by simp) ((hp _ _ hr).1 hx)
        · exact k2 z hz
  exact key l' ts h h2

/-- An expression has a meaning already if it has it in the end and uses none of the later aliases as a key. -/
theorem denotes_part {ts ts' : List TypeDecl} {later : List Str} (h : Pointwise (Part later) ts ts') (hn : NamesDiffer ts)
    (hl : ∀ n ∈ later, ∃ d ∈ ts, d.name = n ∧ d.type = none ∧ d.kind ≠ S "enum") {t : Ty} {vt : VarType} :
    Denotes ts t vt ↔ Denotes ts' t vt ∧ ∀ k ∈ t.keys, k ∉ reserved → ∀ n ∈ later, ¬ SameName k n := by
  have hle : LeList ts ts' := h.imp fun _ _ q => q.1
  constructor
  · intro hd
    refine ⟨denotes_le hle hd, ?_⟩
    induction hd with
    | omitted => intro k hk; simp [Ty.keys] at hk
    | scalar _ => intro k hk; simp [Ty.keys] at hk
    | list _ ih => exact ih
    | named _ _ _ => intro k hk; simp [Ty.keys] at hk
    | @map k v kt vt hc hkt _ ih =>
      intro k' hk'
      rw [Ty.keys, List.mem_cons] at hk'
      rcases hk' with rfl | hk'
      · intro hr n hnl hsame
        rcases hkt with ⟨hk, c, hc', _⟩ | ⟨_, d, ⟨l, r, e, k1, k2⟩, k3, _⟩
        · exact hr (by unfold reserved; exact List.mem_append_left _ (List.mem_map_of_mem hc'))
        · obtain ⟨x, hx, rfl, hx1, hx2⟩ := hl n hnl
          have hdx : d = x := by
            have hdm : d ∈ ts := by rw [e]; simp
            by_cases hdx : d = x
            · exact hdx
            · exfalso
              have := pairwise_of_mem hn hdm hx hdx
              exact this (k1.trans hsame)
          subst hdx
          rcases k3 with k3 | ⟨u, k3, _⟩
          · exact hx2 k3
          · rw [hx1] at k3; cases k3
      · exact ih k' hk'
  · rintro ⟨hd, hk⟩
    induction hd with
    | omitted => exact .omitted
    | scalar hc => exact .scalar hc
    | list _ ih => exact .list (ih hk)
    | @named n d' vt hp hf hr =>
      obtain ⟨d, g1, g2⟩ := firstDecl_ge h (p := fun d => d.name = n) (fun x y hxy => by rw [hxy.1.2.2.1]) hf
      refine .named hp g1 ?_
      unfold RefersTo at hr ⊢
      rw [← g2.1.1, ← g2.1.2.1]
      exact hr
    | @map k v kt vt hc hkt _ ih =>
      refine .map hc ?_ (ih fun k' hk' => hk k' (by rw [Ty.keys]; exact List.mem_cons_of_mem _ hk'))
      rcases hkt with hkt | ⟨hr, d', hf, hkind, rfl⟩
      · exact .inl hkt
      · obtain ⟨d, g1, g2⟩ := firstDecl_ge h (p := fun d => toLower d.name = toLower k) (fun x y hxy => by rw [hxy.1.2.2.1]) hf
        refine .inr ⟨hr, d, g1, ?_, by rw [g2.1.1]⟩
        rcases g2.2 with g | g | g
        · rw [← g2.1.2.1, ← g]; exact hkind
        · exact .inl g
        · exfalso
          obtain ⟨l, r, e, k1, k2⟩ := g1
          exact hk k (by simp [Ty.keys]) hr d.name g k1.symm
where
  pairwise_of_mem {ts : List TypeDecl} (hn : NamesDiffer ts) {a b : TypeDecl} (ha : a ∈ ts) (hb : b ∈ ts) (hab : a ≠ b) :
      toLower a.name ≠ toLower b.name := by
    unfold NamesDiffer at hn
    induction ts with
    | nil => simp at ha
    | cons x ts ih =>
      rw [List.pairwise_cons] at hn
      rcases List.mem_cons.1 ha with rfl | ha'
      · rcases List.mem_cons.1 hb with rfl | hb'
        · exact absurd rfl hab
        · exact hn.1 b hb'
      · rcases List.mem_cons.1 hb with rfl | hb'
        · exact fun e => hn.1 a ha' e.symm
        · exact ih hn.2 ha' hb'

theorem parseExpr_part {ts ts' : List TypeDecl} {later : List Str} (h : Pointwise (Part later) ts ts') (hn : NamesDiffer ts)
    (hl : ∀ n ∈ later, ∃ d ∈ ts, d.name = n ∧ d.type = none ∧ d.kind ≠ S "enum") {e : Str} {vt : VarType} :
    parseExpr ts e = .ok vt ↔ ∃ t, t.text = e ∧ Denotes ts' t vt ∧ ∀ k ∈ t.keys, k ∉ reserved → ∀ n ∈ later, ¬ SameName k n := by
  rw [parseExpr_iff]
  constructor
  · rintro ⟨t, h1, h2⟩; exact ⟨t, h2, (denotes_part h hn hl).1 h1⟩
  · rintro ⟨t, h1, h2⟩; exact ⟨t, (denotes_part h hn hl).2 h2, h1⟩

/-! ### A loop that completes one object after the other -/

/-- The objects `mk x` become the `ds'`, one after the other; `R` says what happens to one. -/
def Steps {N α : Type} (mk : N → α) (set : List α → Schema → Schema) (R : Schema → N → α → Prop) (post : List α) :
    Schema → List α → List N → List α → Prop
  | _, _, [], [] => True
  | s, pre, x :: xs, d' :: ds' =>
    R s x d' ∧ Steps mk set R post (set (pre ++ d' :: (xs.map mk ++ post)) s) (pre ++ [d']) xs ds'
  | _, _, _, _ => False

theorem steps_iff {N α : Type} {nm : N → Str} {nameOf : α → Str} {mk : N → α} {get : Schema → List α} {set : List α → Schema → Schema}
    {step : Schema → N → Res Schema} {R : Schema → N → α → Prop} (hgs : ∀ l s, get (set l s) = l)
    (hss : ∀ l l' s, set l (set l' s) = set l s) (hsg : ∀ s, set (get s) s = s)
    (hmk : ∀ x, nameOf (mk x) = nm x) (hR : ∀ s x d', R s x d' → nameOf d' = nm x)
    (hstep : ∀ s x pre post, get s = pre ++ mk x :: post → (∀ e ∈ pre, toLower (nameOf e) ≠ toLower (nm x)) →
      ∀ s', step s x = .ok s' ↔ ∃ d', R s x d' ∧ s' = set (pre ++ d' :: post) s)
    (xs : List N) (s : Schema) (pre post : List α) (hs : get s = pre ++ xs.map mk ++ post)
    (hpre : ∀ e ∈ pre, ∀ x ∈ xs, toLower (nameOf e) ≠ toLower (nm x))
    (hxs : xs.Pairwise fun a b => toLower (nm a) ≠ toLower (nm b)) (s' : Schema) :
    foldRes step s xs = .ok s' ↔ ∃ ds', Steps mk set R post s pre xs ds' ∧ s' = set (pre ++ ds' ++ post) s := by
  induction xs generalizing s pre with
  | nil =>
    simp only [foldRes, Res.ok.injEq]
    simp only [List.map_nil, List.append_nil] at hs
    constructor
    · rintro rfl
      exact ⟨[], trivial, by rw [List.append_nil, ← hs, hsg]⟩
    · rintro ⟨ds', h1, rfl⟩
      cases ds' with
      | nil => rw [List.append_nil, ← hs, hsg]
      | cons _ _ => exact absurd h1 (by simp [Steps])
  | cons x xs ih =>
    rw [List.pairwise_cons] at hxs
    rw [foldRes, Res.bind_ok']
    have hs0 : get s = pre ++ mk x :: (xs.map mk ++ post) := by rw [hs]; simp
    have h1 := hstep s x pre _ hs0 (fun e he => hpre e he x (by simp))
    have hrec : ∀ d', R s x d' → (foldRes step (set (pre ++ d' :: (xs.map mk ++ post)) s) xs = .ok s' ↔
        ∃ ds', Steps mk set R post (set (pre ++ d' :: (xs.map mk ++ post)) s) (pre ++ [d']) xs ds' ∧ s' = set (pre ++ d' :: ds' ++ post) s) := by
      intro d' hd'
      rw [ih (set (pre ++ d' :: (xs.map mk ++ post)) s) (pre ++ [d']) (by rw [hgs]; simp) ?_ hxs.2]
      · simp only [hss, List.append_assoc, List.singleton_append, List.cons_append, List.nil_append]
      · intro e he y hy
        rcases List.mem_append.1 he with he | he
        · exact hpre e he y (by simp [hy])
        · rw [List.mem_singleton.1 he, hR _ _ _ hd']
          exact hxs.1 y hy
    constructor
    · rintro ⟨s1, h2, h3⟩
      obtain ⟨d', hd', rfl⟩ := (h1 s1).1 h2
      obtain ⟨ds', h4, h5⟩ := (hrec d' hd').1 h3
      exact ⟨d' :: ds', ⟨hd', h4⟩, by simpa using h5⟩
    · rintro ⟨ds', h2, h3⟩
      cases ds' with
      | nil => exact absurd h2 (by simp [Steps])
      | cons d' ds' =>
        obtain ⟨hd', h4⟩ := h2
        exact ⟨_, (h1 _).2 ⟨d', hd', rfl⟩, (hrec d' hd').2 ⟨ds', h4, by simpa using h3⟩⟩

omit [GoUnicode] in
theorem steps_length {N α : Type} {mk : N → α} {set : List α → Schema → Schema} {R : Schema → N → α → Prop} {post : List α}
    {s : Schema} {pre : List α} {xs : List N} {ds : List α} (h : Steps mk set R post s pre xs ds) : ds.length = xs.length := by
  induction xs generalizing s pre ds with
  | nil => cases ds with
    | nil => rfl
    | cons _ _ => exact absurd h (by simp [Steps])
  | cons x xs ih => cases ds with
    | nil => exact absurd h (by simp [Steps])
    | cons d ds => rw [List.length_cons, List.length_cons, ih h.2]

/-! ### The steps -/

def setTypes (l : List TypeDecl) (s : Schema) : Schema := { s with types := l }
def setServices (l : List Service) (s : Schema) : Schema := { s with services := l }

omit [GoUnicode] in
theorem find_at {α : Type} {p : α → Bool} {pre post : List α} {d : α} (hd : p d = true) : ((pre ++ d :: post).find? p).isSome = true := by
  rw [List.find?_isSome]
  exact ⟨d, by simp, hd⟩

theorem updateType_iff {n : Str} {f : TypeDecl → TypeDecl} {s s' : Schema} {pre post : List TypeDecl} {d : TypeDecl}
    (hs : s.types = pre ++ d :: post) (hpre : ∀ e ∈ pre, toLower e.name ≠ toLower n) (hd : d.name = n) :
    updateType n f s = .ok s' ↔ s' = setTypes (pre ++ f d :: post) s := by
  have h1 : updateFirst (fun t => decide (toLower t.name = toLower n)) f s.types = pre ++ f d :: post := by
    rw [hs]
    exact updateFirst_at (fun e he => by simpa using hpre e he) (by simp [hd])
  have h2 : (getTypeByName s.types n).isSome = true := by
    unfold getTypeByName; rw [hs]; exact find_at (by simp [hd])
  unfold updateType
  cases hg : getTypeByName s.types n with
  | none => rw [hg] at h2; cases h2
  | some _ =>
    simp only [Res.ok.injEq]
    rw [show (fun t => decide (toLower t.name = toLower n)) = (fun t : TypeDecl => decide (toLower t.name = toLower n)) from rfl, h1]
    exact eq_comm

/-- The first form of an alias. -/
def aliasDecl (path : Str) (p : AliasNode × Nat) : TypeDecl :=
  { ptr := (path, p.2), kind := S "alias", name := p.1.name.val, comments := parseComment p.1.comment }
/-- The first form of an enum. -/
def enumDecl (path : Str) (p : EnumNode × Nat) : TypeDecl := { ptr := (path, p.2), kind := S "enum", name := p.1.name.val }
/-- The first form of a struct. -/
def structDecl (path : Str) (p : StructNode × Nat) : TypeDecl :=
  { ptr := (path, p.2), kind := S "struct", name := p.1.name.val, comments := parseComment p.1.comment }
/-- The first form of a service. -/
def serviceDecl (path : Str) (p : ServiceNode × Nat) : Service :=
  { ptr := (path, p.2), name := p.1.name.val, comments := parseComment p.1.comment }

omit [GoUnicode] in
theorem mapIdx_zipIdx {α β : Type} (f : Nat → α → β) (l : List α) (k : Nat) :
    l.mapIdx (fun i => f (i + k)) = (l.zipIdx k).map fun p => f p.2 p.1 := by
  induction l generalizing k with
  | nil => rfl
  | cons x l ih =>
    simp only [List.mapIdx_cons, List.zipIdx_cons, List.map_cons, Nat.zero_add]
    congr 1
    rw [← ih (k + 1)]
    congr 1
    funext i
    rw [Nat.add_assoc, Nat.add_comm 1 k]

omit [GoUnicode] in
theorem declaredTypes_eq (path : Str) (ns : List Node) : declaredTypes path ns =
    (aliases ns).zipIdx.map (aliasDecl path) ++ ((enums ns).zipIdx (aliases ns).length).map (enumDecl path) ++
      ((structs ns).zipIdx ((aliases ns).length + (enums ns).length)).map (structDecl path) := by
  unfold declaredTypes
  dsimp only
  rw [List.mapIdx_append, List.mapIdx_append]
  have key : ∀ {α : Type} (mk : α → Ptr → TypeDecl) (l : List α) (k : Nat),
      (l.map mk).mapIdx (fun i m => m (path, i + k)) = (l.zipIdx k).map fun p => mk p.1 (path, p.2) := by
    intro α mk l k
    have : (l.map mk).mapIdx (fun i m => m (path, i + k)) = l.mapIdx fun i x => mk x (path, i + k) := by
      apply List.ext_getElem
      · simp
      · intro i h1 h2; simp
    rw [this]
    exact mapIdx_zipIdx (fun i x => mk x (path, i)) l k
  refine congr (congrArg _ (congr (congrArg _ ?_) ?_)) ?_
  · exact key _ (aliases ns) 0
  · have := key (fun (n : EnumNode) p => ({ ptr := p, kind := S "enum", name := n.name.val } : TypeDecl)) (enums ns) (aliases ns).length
    simp only [List.length_map]
    exact this
  · have := key (fun (n : StructNode) p => ({ ptr := p, kind := S "struct", name := n.name.val, comments := parseComment n.comment } : TypeDecl))
      (structs ns) ((aliases ns).length + (enums ns).length)
    simp only [List.length_map, List.length_append]
    exact this

omit [GoUnicode] in
theorem declaredServices_eq (path : Str) (ns : List Node) : declaredServices path ns = (services ns).zipIdx.map (serviceDecl path) := by
  unfold declaredServices
  exact mapIdx_zipIdx (fun i (n : ServiceNode) => ({ ptr := (path, i), name := n.name.val, comments := parseComment n.comment } : Service)) (services ns) 0

def AliasS (path : Str) (s : Schema) (p : AliasNode × Nat) (d' : TypeDecl) : Prop :=
  ∃ vt, parseExpr s.types p.1.aliasType.val = .ok vt ∧ d' = { aliasDecl path p with type := some vt, metas := p.1.metas.map metaOf }
def EnumS (path : Str) (s : Schema) (p : EnumNode × Nat) (d' : TypeDecl) : Prop :=
  ∃ vt, parseExpr s.types p.1.enumType.val = .ok vt ∧ d' = { enumDecl path p with type := some vt, fields := p.1.values.mapIdx (enumField vt) }
def StructS (path : Str) (s : Schema) (p : StructNode × Nat) (d' : TypeDecl) : Prop :=
  ∃ fs, Res.each (makeField s.types) p.1.fields = .ok fs ∧ d' = { structDecl path p with fields := fs }
def ServiceS (path : Str) (s : Schema) (p : ServiceNode × Nat) (d' : Service) : Prop :=
  ∃ ms, Res.each (makeMethod s.types) p.1.methods = .ok ms ∧ d' = { serviceDecl path p with methods := ms }

theorem alias_step {path : Str} (s : Schema) (x : AliasNode × Nat) (pre post : List TypeDecl)
    (hs : s.types = pre ++ aliasDecl path x :: post) (hpre : ∀ e ∈ pre, toLower e.name ≠ toLower x.1.name.val) (s' : Schema) :
    resolveAlias s x.1 = .ok s' ↔ ∃ d', AliasS path s x d' ∧ s' = setTypes (pre ++ d' :: post) s := by
  simp only [resolveAlias, Res.bind_ok, orErr_ok, AliasS]
  constructor
  · rintro ⟨_, _, vt, h1, h2⟩
    rw [updateType_iff hs hpre rfl] at h2
    exact ⟨_, ⟨vt, h1, rfl⟩, h2⟩
  · rintro ⟨d', ⟨vt, h1, rfl⟩, h2⟩
    refine ⟨_, (updateType_iff (f := id) hs hpre rfl).2 rfl, vt, h1, ?_⟩
    rw [updateType_iff hs hpre rfl]
    exact h2

theorem enum_step {path : Str} (s : Schema) (x : EnumNode × Nat) (pre post : List TypeDecl)
    (hs : s.types = pre ++ enumDecl path x :: post) (hpre : ∀ e ∈ pre, toLower e.name ≠ toLower x.1.name.val) (s' : Schema) :
    resolveEnum s x.1 = .ok s' ↔ ∃ d', EnumS path s x d' ∧ s' = setTypes (pre ++ d' :: post) s := by
  simp only [resolveEnum, Res.bind_ok, orErr_ok, EnumS]
  constructor
  · rintro ⟨_, _, vt, h1, h2⟩
    rw [updateType_iff hs hpre rfl] at h2
    exact ⟨_, ⟨vt, h1, rfl⟩, h2⟩
  · rintro ⟨d', ⟨vt, h1, rfl⟩, h2⟩
    refine ⟨_, (updateType_iff (f := id) hs hpre rfl).2 rfl, vt, h1, ?_⟩
    rw [updateType_iff hs hpre rfl]
    exact h2

theorem struct_step {path : Str} (s : Schema) (x : StructNode × Nat) (pre post : List TypeDecl)
    (hs : s.types = pre ++ structDecl path x :: post) (hpre : ∀ e ∈ pre, toLower e.name ≠ toLower x.1.name.val) (s' : Schema) :
    resolveStruct s x.1 = .ok s' ↔ ∃ d', StructS path s x d' ∧ s' = setTypes (pre ++ d' :: post) s := by
  simp only [resolveStruct, Res.bind_ok, StructS]
  constructor
  · rintro ⟨_, _, vt, h1, h2⟩
    rw [updateType_iff hs hpre rfl] at h2
    exact ⟨_, ⟨vt, h1, rfl⟩, h2⟩
  · rintro ⟨d', ⟨vt, h1, rfl⟩, h2⟩
    refine ⟨_, (updateType_iff (f := id) hs hpre rfl).2 rfl, vt, h1, ?_⟩
    rw [updateType_iff hs hpre rfl]
    exact h2

theorem service_step {path : Str} (s : Schema) (x : ServiceNode × Nat) (pre post : List Service)
    (hs : s.services = pre ++ serviceDecl path x :: post) (hpre : ∀ e ∈ pre, toLower e.name ≠ toLower x.1.name.val) (s' : Schema) :
    resolveService s x.1 = .ok s' ↔ ∃ d', ServiceS path s x d' ∧ s' = setServices (pre ++ d' :: post) s := by
  have h2 : (getServiceByName s.services x.1.name.val).isSome = true := by
    unfold getServiceByName; rw [hs]; exact find_at (by simp [serviceDecl])
  have h1 : ∀ f, updateFirst (fun t => decide (toLower t.name = toLower x.1.name.val)) f s.services = pre ++ f (serviceDecl path x) :: post := by
    intro f
    rw [hs]
    exact updateFirst_at (fun e he => by simpa using hpre e he) (by simp [serviceDecl])
  simp only [resolveService, Res.bind_ok, ServiceS]
  cases hg : getServiceByName s.services x.1.name.val with
  | none => rw [hg] at h2; cases h2
  | some _ =>
    simp only [Res.ok.injEq]
    constructor
    · rintro ⟨ms, g1, rfl⟩
      refine ⟨_, ⟨ms, g1, rfl⟩, ?_⟩
      rw [h1]; rfl
    · rintro ⟨d', ⟨ms, g1, rfl⟩, rfl⟩
      refine ⟨ms, g1, ?_⟩
      rw [h1]; rfl

omit [GoUnicode] in
theorem foldRes_zipIdx {α σ : Type} (f : σ → α → Res σ) (s : σ) (l : List α) (k : Nat) :
    foldRes f s l = foldRes (fun s p => f s p.1) s (l.zipIdx k) := by
  induction l generalizing s k with
  | nil => rfl
  | cons x l ih =>
    rw [List.zipIdx_cons, foldRes, foldRes]
    congr 1
    funext s'
    exact ih s' (k + 1)

end Verif.Compile
