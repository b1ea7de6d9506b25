import Verif.Compile.Clean
/-! What the declarations of a file become. -/

namespace Verif.Compile
open Verif.Schema Verif.Spec
open Verif.Ridl hiding Str

variable [GoUnicode]

/-! ### A growing list of types -/

/-- `d'` is `d` with possibly more contents. -/
def Le (d d' : TypeDecl) : Prop :=
  d'.ptr = d.ptr ∧ d'.kind = d.kind ∧ d'.name = d.name ∧ (d.type = none ∨ d'.type = d.type)

/-- Element by element. -/
abbrev LeList := Pointwise Le

omit [GoUnicode] in
theorem Le.refl (d : TypeDecl) : Le d d := ⟨rfl, rfl, rfl, .inr rfl⟩
omit [GoUnicode] in
theorem Le.trans {a b c : TypeDecl} (h : Le a b) (h' : Le b c) : Le a c := by
  refine ⟨h'.1.trans h.1, h'.2.1.trans h.2.1, h'.2.2.1.trans h.2.2.1, ?_⟩
  rcases h.2.2.2 with h1 | h1
  · exact .inl h1
  · rcases h'.2.2.2 with h2 | h2
    · exact .inl (h1 ▸ h2)
    · exact .inr (h2.trans h1)

omit [GoUnicode] in
theorem _root_.Verif.Schema.Pointwise.refl {α : Type} {R : α → α → Prop} (h : ∀ x, R x x) (l : List α) :
    Pointwise R l l := by
  induction l with
  | nil => exact .nil
  | cons x l ih => exact .cons (h x) ih

omit [GoUnicode] in
theorem _root_.Verif.Schema.Pointwise.trans {α : Type} {R : α → α → Prop}
    (h : ∀ x y z, R x y → R y z → R x z) {a b c : List α} (hab : Pointwise R a b) (hbc : Pointwise R b c) :
    Pointwise R a c := by
  induction hab generalizing c with
  | nil => cases hbc; exact .nil
  | cons hr _ ih => cases hbc with
    | cons hr' hs => exact .cons (h _ _ _ hr hr') (ih hs)

omit [GoUnicode] in
theorem _root_.Verif.Schema.Pointwise.append {α β : Type} {R : α → β → Prop} {a b : List α} {c d : List β}
    (h : Pointwise R a c) (h' : Pointwise R b d) : Pointwise R (a ++ b) (c ++ d) := by
  induction h with
  | nil => exact h'
  | cons hr _ ih => exact .cons hr ih

omit [GoUnicode] in
theorem _root_.Verif.Schema.Pointwise.append_inv {α β : Type} {R : α → β → Prop} {a b : List α} {e : List β}
    (h : Pointwise R (a ++ b) e) : ∃ c d, e = c ++ d ∧ Pointwise R a c ∧ Pointwise R b d := by
  induction a generalizing e with
  | nil => exact ⟨[], e, rfl, .nil, h⟩
  | cons x a ih =>
    cases h with
    | cons hr hs =>
      obtain ⟨c, d, rfl, h1, h2⟩ := ih hs
      exact ⟨_ :: c, d, rfl, .cons hr h1, h2⟩

omit [GoUnicode] in
theorem LeList.refl (l : List TypeDecl) : LeList l l := Pointwise.refl Le.refl l
omit [GoUnicode] in
theorem LeList.trans {a b c : List TypeDecl} (h : LeList a b) (h' : LeList b c) : LeList a c :=
  Pointwise.trans (R := Le) (fun _ _ _ h h' => Le.trans h h') h h'

omit [GoUnicode] in
theorem firstDecl_le {ts ts' : List TypeDecl} (h : LeList ts ts') {p : TypeDecl → Prop} {d : TypeDecl}
    (hp : ∀ x y, Le x y → (p x ↔ p y)) (hd : FirstDecl ts p d) : ∃ d', FirstDecl ts' p d' ∧ Le d d' := by
  obtain ⟨l, r, rfl, h1, h2⟩ := hd
  obtain ⟨l', q, rfl, k1, k2⟩ := h.append_inv
  cases k2 with
  | @cons _ y _ r' hle hr =>
    refine ⟨y, ⟨l', r', rfl, (hp _ _ hle).1 h1, ?_⟩, hle⟩
    intro x hx hpx
    obtain ⟨z, hz, hzx⟩ := k1.mem_right hx
    exact h2 z hz ((hp _ _ hzx).2 hpx)

theorem keyTree_le {ts ts' : List TypeDecl} (h : LeList ts ts') {k : Str} {vt : VarType} (hk : KeyTree ts k vt) :
    KeyTree ts' k vt := by
  rcases hk with hk | ⟨h1, d, h2, h3, rfl⟩
  · exact .inl hk
  · obtain ⟨d', g1, g2⟩ := firstDecl_le h
      (p := fun d => toLower d.name = toLower k) (fun x y hxy => by rw [hxy.2.2.1]) h2
    refine .inr ⟨h1, d', g1, ?_, by rw [g2.1]⟩
    rcases h3 with h3 | ⟨u, h3, h4⟩
    · exact .inl (g2.2.1.trans h3)
    · refine .inr ⟨u, ?_, h4⟩
      rcases g2.2.2.2 with g | g
      · rw [g] at h3; simp at h3
      · exact g.trans h3

/-- An expression keeps its meaning when types get contents. -/
theorem denotes_le {ts ts' : List TypeDecl} (h : LeList ts ts') {t : Ty} {vt : VarType} (hd : Denotes ts t vt) :
    Denotes ts' t vt := by
  induction hd with
  | omitted => exact .omitted
  | scalar hc => exact .scalar hc
  | list _ ih => exact .list ih
  | map hc hk _ ih => exact .map hc (keyTree_le h hk) ih
  | @named n d vt hp hf hr =>
    obtain ⟨d', g1, g2⟩ := firstDecl_le h (p := fun d => d.name = n) (fun x y hxy => by rw [hxy.2.2.1]) hf
    refine .named hp g1 ?_
    unfold RefersTo at hr ⊢
    rw [g2.1, g2.2.1]
    exact hr

theorem parseExpr_le {ts ts' : List TypeDecl} (h : LeList ts ts') {e : Str} {vt : VarType}
    (hp : parseExpr ts e = .ok vt) : parseExpr ts' e = .ok vt := by
  obtain ⟨t, hd, he⟩ := parseExpr_iff.1 hp
  exact parseExpr_iff.2 ⟨t, denotes_le h hd, he⟩

/-! ### Filling in one declaration after the other -/

omit [GoUnicode] in
theorem updateFirst_at {α : Type} {p : α → Bool} {f : α → α} {pre post : List α} {d : α}
    (hpre : ∀ e ∈ pre, p e = false) (hd : p d = true) :
    updateFirst p f (pre ++ d :: post) = pre ++ f d :: post := by
  induction pre with
  | nil => simp [updateFirst, hd]
  | cons e pre ih =>
    simp only [List.cons_append, updateFirst]
    rw [if_neg (by simp [hpre e (by simp)]), ih (fun x hx => hpre x (by simp [hx]))]

/-- Three lists related position by position. -/
inductive Zip3 {α β γ : Type} (R : α → β → γ → Prop) : List α → List β → List γ → Prop
  | nil : Zip3 R [] [] []
  | cons {x y z xs ys zs} : R x y z → Zip3 R xs ys zs → Zip3 R (x :: xs) (y :: ys) (z :: zs)

omit [GoUnicode] in
theorem Zip3.imp {α β γ : Type} {R R' : α → β → γ → Prop} {xs : List α} {ys : List β} {zs : List γ}
    (h : Zip3 R xs ys zs) (hi : ∀ x y z, R x y z → R' x y z) : Zip3 R' xs ys zs := by
  induction h with
  | nil => exact .nil
  | cons hr _ ih => exact .cons (hi _ _ _ hr) ih

omit [GoUnicode] in
theorem Zip3.right {α β γ : Type} {R : α → β → γ → Prop} {Q : β → γ → Prop} {xs : List α} {ys : List β} {zs : List γ}
    (h : Zip3 R xs ys zs) (hi : ∀ x y z, R x y z → Q y z) : Pointwise Q ys zs := by
  induction h with
  | nil => exact .nil
  | cons hr _ ih => exact .cons (hi _ _ _ hr) ih

/-- A loop over declarations, each modifying the object of its name among `α`s. -/
theorem stage {N α ρ : Type} {nm : N → Str} {nameOf : α → Str} {get : Schema → List α} {rest : Schema → ρ}
    {step : Schema → N → Res Schema} {P : α → Prop} {L : α → α → Prop} {R : Schema → N → α → α → Prop}
    (hrefl : ∀ a, L a a) (hname : ∀ a b, L a b → nameOf b = nameOf a)
    (hstep : ∀ s x s', step s x = .ok s' → rest s' = rest s ∧
      ∃ f, get s' = updateFirst (fun t => decide (toLower (nameOf t) = toLower (nm x))) f (get s) ∧
        ∀ d, P d → L d (f d) ∧ R s x d (f d))
    (xs : List N) (s s' : Schema) (pre ds post : List α) (hs : get s = pre ++ ds ++ post)
    (hn : Pointwise (fun x d => nm x = nameOf d) xs ds) (hP : ∀ d ∈ ds, P d)
    (hpre : ∀ e ∈ pre, ∀ d ∈ ds, toLower (nameOf e) ≠ toLower (nameOf d))
    (hds : ds.Pairwise fun a b => toLower (nameOf a) ≠ toLower (nameOf b))
    (h : foldRes step s xs = .ok s') :
    rest s' = rest s ∧ ∃ ds', get s' = pre ++ ds' ++ post ∧
      Zip3 (fun x d d' => L d d' ∧ ∃ t, rest t = rest s ∧ Pointwise L (get t) (get s') ∧ R t x d d') xs ds ds' := by
  induction xs generalizing s pre ds with
  | nil =>
    cases hn
    simp only [foldRes, Res.ok.injEq] at h
    subst h
    exact ⟨rfl, [], hs, .nil⟩
  | cons x xs ih =>
    cases hn with
    | @cons _ d _ ds hnx hn =>
      rw [foldRes, Res.bind_ok'] at h
      obtain ⟨s1, h1, h⟩ := h
      obtain ⟨hr, f, hf, hq⟩ := hstep s x s1 h1
      have hd := hq d (hP d (by simp))
      have hs1 : get s1 = (pre ++ [f d]) ++ ds ++ post := by
        rw [hf, hs]
        have := updateFirst_at (p := fun t => decide (toLower (nameOf t) = toLower (nm x))) (f := f)
          (pre := pre) (post := ds ++ post) (d := d)
          (fun e he => by simp only [decide_eq_false_iff_not]; rw [hnx]; exact hpre e he d (by simp))
          (by simp [hnx])
        simpa using this
      rw [List.pairwise_cons] at hds
      have hnd : nameOf (f d) = nameOf d := hname _ _ hd.1
      obtain ⟨g1, ds', g2, g3⟩ := ih s1 (pre ++ [f d]) ds hs1 hn (fun e he => hP e (by simp [he]))
        (by
          intro e he d' hd'
          rcases List.mem_append.1 he with he | he
          · exact hpre e he d' (by simp [hd'])
          · simp only [List.mem_singleton] at he
            subst he
            rw [hnd]; exact hds.1 d' hd')
        hds.2 h
      refine ⟨g1.trans hr, f d :: ds', by simpa using g2, .cons ⟨hd.1, s, rfl, ?_, hd.2⟩ ?_⟩
      · rw [hs, g2]
        have hz : Pointwise L ds ds' := g3.right fun _ _ _ h => h.1
        have := ((Pointwise.refl hrefl pre).append ((Pointwise.cons hd.1 hz).append (Pointwise.refl hrefl post)))
        simpa using this
      · exact g3.imp fun _ _ _ h => ⟨h.1, by
          obtain ⟨t, h1, h2⟩ := h.2
          exact ⟨t, h1.trans hr, h2⟩⟩

theorem updateType_ok {n : Str} {f : TypeDecl → TypeDecl} {s s' : Schema} (h : updateType n f s = .ok s') :
    s' = { s with types := updateFirst (fun t => decide (toLower t.name = toLower n)) f s.types } := by
  unfold updateType at h
  split at h <;> simp at h
  exact h.symm

omit [GoUnicode] in
theorem orErr_ok {α : Type} {r : Res α} {e : SErr} {a : α} : orErr r e = .ok a ↔ r = .ok a := by
  cases r <;> simp [orErr]

/-- Identity, kind and name. -/
def _root_.Verif.Schema.TypeDecl.ident (t : TypeDecl) : Ptr × Str × Str := (t.ptr, t.kind, t.name)

/-- Identity and name. -/
def _root_.Verif.Schema.Service.ident (t : Service) : Ptr × Str := (t.ptr, t.name)

/-- What an alias line makes of the declaration of its name, the types being `ts`. -/
def AliasR (ts : List TypeDecl) (n : AliasNode) (d d' : TypeDecl) : Prop :=
  ∃ vt, parseExpr ts n.aliasType.val = .ok vt ∧
    d' = { d with type := some vt, metas := d.metas ++ n.metas.map metaOf }

/-- What an enum makes of the declaration of its name. -/
def EnumR (ts : List TypeDecl) (n : EnumNode) (d d' : TypeDecl) : Prop :=
  ∃ vt, parseExpr ts n.enumType.val = .ok vt ∧
    d' = { d with type := some vt, fields := d.fields ++ n.values.mapIdx (enumField vt) }

/-- What a struct makes of the declaration of its name. -/
def StructR (ts : List TypeDecl) (n : StructNode) (d d' : TypeDecl) : Prop :=
  ∃ fs, Res.each (makeField ts) n.fields = .ok fs ∧ d' = { d with fields := d.fields ++ fs }

/-- What a service makes of the declaration of its name. -/
def ServiceR (ts : List TypeDecl) (n : ServiceNode) (d d' : Service) : Prop :=
  ∃ ms, Res.each (makeMethod ts) n.methods = .ok ms ∧ d' = { d with methods := ms }

/-- A schema without its types. -/
def noTypes (s : Schema) : Schema := { s with types := [] }

/-- A schema without its services. -/
def noServices (s : Schema) : Schema := { s with services := [] }

theorem resolveAlias_ok {s s' : Schema} {n : AliasNode} (h : resolveAlias s n = .ok s') :
    noTypes s' = noTypes s ∧ ∃ f, s'.types = updateFirst (fun t => decide (toLower t.name = toLower n.name.val)) f s.types ∧
      (∀ d, (f d).ident = d.ident) ∧ ∀ d, d.type = none → Le d (f d) ∧ AliasR s.types n d (f d) := by
  simp only [resolveAlias, Res.bind_ok, orErr_ok] at h
  obtain ⟨_, _, vt, h1, h2⟩ := h
  have := updateType_ok h2
  subst this
  exact ⟨rfl, _, rfl, fun _ => rfl, fun d hd => ⟨⟨rfl, rfl, rfl, .inl hd⟩, vt, h1, rfl⟩⟩

theorem resolveEnum_ok {s s' : Schema} {n : EnumNode} (h : resolveEnum s n = .ok s') :
    noTypes s' = noTypes s ∧ ∃ f, s'.types = updateFirst (fun t => decide (toLower t.name = toLower n.name.val)) f s.types ∧
      (∀ d, (f d).ident = d.ident) ∧ ∀ d, d.type = none → Le d (f d) ∧ EnumR s.types n d (f d) := by
  simp only [resolveEnum, Res.bind_ok, orErr_ok] at h
  obtain ⟨_, _, vt, h1, h2⟩ := h
  have := updateType_ok h2
  subst this
  exact ⟨rfl, _, rfl, fun _ => rfl, fun d hd => ⟨⟨rfl, rfl, rfl, .inl hd⟩, vt, h1, rfl⟩⟩

theorem resolveStruct_ok {s s' : Schema} {n : StructNode} (h : resolveStruct s n = .ok s') :
    noTypes s' = noTypes s ∧ ∃ f, s'.types = updateFirst (fun t => decide (toLower t.name = toLower n.name.val)) f s.types ∧
      (∀ d, (f d).ident = d.ident) ∧ ∀ d : TypeDecl, True → Le d (f d) ∧ StructR s.types n d (f d) := by
  simp only [resolveStruct, Res.bind_ok] at h
  obtain ⟨_, _, fs, h1, h2⟩ := h
  have := updateType_ok h2
  subst this
  exact ⟨rfl, _, rfl, fun _ => rfl, fun d _ => ⟨⟨rfl, rfl, rfl, .inr rfl⟩, fs, h1, rfl⟩⟩

/-- Same identity and name. -/
def SvcLe (a b : Service) : Prop := b.ptr = a.ptr ∧ b.name = a.name

theorem resolveService_ok {s s' : Schema} {n : ServiceNode} (h : resolveService s n = .ok s') :
    noServices s' = noServices s ∧ ∃ f, s'.services = updateFirst (fun t => decide (toLower t.name = toLower n.name.val)) f s.services ∧
      (∀ d, (f d).ident = d.ident) ∧ ∀ d : Service, True → SvcLe d (f d) ∧ ServiceR s.types n d (f d) := by
  simp only [resolveService, Res.bind_ok] at h
  obtain ⟨ms, h1, h2⟩ := h
  split at h2
  · simp at h2
  · simp only [Res.ok.injEq] at h2
    subst h2
    exact ⟨rfl, _, rfl, fun _ => rfl, fun d _ => ⟨⟨rfl, rfl⟩, ms, h1, rfl⟩⟩

end Verif.Compile
