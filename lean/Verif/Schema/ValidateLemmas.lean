import Verif.Schema.Validate
import Verif.Schema.ExprLemmas
/-! # Lemmas on schema validation -/

namespace Verif.Schema
open Verif.Spec

/-- Two lists of the same length whose elements are related position by position. -/
inductive Pointwise {α β : Type} (R : α → β → Prop) : List α → List β → Prop
  | nil : Pointwise R [] []
  | cons {x y xs ys} : R x y → Pointwise R xs ys → Pointwise R (x :: xs) (y :: ys)

theorem each_ok {α β : Type} {f : α → Res β} {xs : List α} {ys : List β} :
    Res.each f xs = .ok ys ↔ Pointwise (fun x y => f x = .ok y) xs ys := by
  induction xs generalizing ys with
  | nil =>
    simp only [Res.each, Res.ok.injEq]
    constructor
    · rintro rfl; exact .nil
    · intro h; cases h; rfl
  | cons x xs ih =>
    simp only [Res.each, Res.bind_ok']
    constructor
    · rintro ⟨y, h1, ys', h2, h3⟩
      simp at h3; subst h3
      exact .cons h1 (ih.1 h2)
    · intro h
      cases h with
      | cons h1 h2 => exact ⟨_, h1, _, ih.2 h2, rfl⟩

theorem Pointwise.mem_right {α β : Type} {R : α → β → Prop} {xs : List α} {ys : List β}
    (h : Pointwise R xs ys) {y : β} (hy : y ∈ ys) : ∃ x ∈ xs, R x y := by
  induction h with
  | nil => simp at hy
  | cons hr _ ih =>
    rcases List.mem_cons.1 hy with rfl | hy
    · exact ⟨_, by simp, hr⟩
    · obtain ⟨x, hx, hr⟩ := ih hy; exact ⟨x, by simp [hx], hr⟩

theorem Pointwise.mem_left {α β : Type} {R : α → β → Prop} {xs : List α} {ys : List β}
    (h : Pointwise R xs ys) {x : α} (hx : x ∈ xs) : ∃ y ∈ ys, R x y := by
  induction h with
  | nil => simp at hx
  | cons hr _ ih =>
    rcases List.mem_cons.1 hx with rfl | hx
    · exact ⟨_, by simp, hr⟩
    · obtain ⟨y, hy, hr⟩ := ih hx; exact ⟨y, by simp [hy], hr⟩

theorem Pointwise.map_eq {α β γ : Type} {R : α → β → Prop} {xs : List α} {ys : List β}
    (h : Pointwise R xs ys) {f : α → γ} {g : β → γ} (hfg : ∀ x y, R x y → f x = g y) :
    xs.map f = ys.map g := by
  induction h with
  | nil => rfl
  | cons hr _ ih => simp [hfg _ _ hr, ih]

theorem Pointwise.imp {α β : Type} {R R' : α → β → Prop} {xs : List α} {ys : List β}
    (h : Pointwise R xs ys) (hi : ∀ x y, R x y → R' x y) : Pointwise R' xs ys := by
  induction h with
  | nil => exact .nil
  | cons hr _ ih => exact .cons (hi _ _ hr) ih

theorem Pointwise.self_right {α : Type} {R R' : α → α → Prop} {xs ys : List α}
    (h : Pointwise R xs ys) (hi : ∀ x y, y ∈ ys → R x y → R' y y) : Pointwise R' ys ys := by
  induction h with
  | nil => exact .nil
  | cons hr _ ih =>
    exact .cons (hi _ _ (by simp) hr) (ih fun x y hy hr => hi x y (by simp [hy]) hr)

theorem Pointwise.length {α β : Type} {R : α → β → Prop} {xs : List α} {ys : List β}
    (h : Pointwise R xs ys) : xs.length = ys.length := by
  induction h with
  | nil => rfl
  | cons _ _ ih => simp [ih]

/-! ## Parsing depends only on the signatures of the declared types -/

/-- What type expressions can see of a declaration. -/
def TypeDecl.sig (t : TypeDecl) : Ptr × Str × Str × Option VarType := (t.ptr, t.kind, t.name, t.type)

theorem find_sig {ts ts' : List TypeDecl} (h : ts.map TypeDecl.sig = ts'.map TypeDecl.sig)
    {p : TypeDecl → Bool} (hp : ∀ a b : TypeDecl, a.sig = b.sig → p a = p b) :
    (ts.find? p).map TypeDecl.sig = (ts'.find? p).map TypeDecl.sig := by
  induction ts generalizing ts' with
  | nil => simp at h; simp [h]
  | cons a ts ih =>
    cases ts' with
    | nil => simp at h
    | cons b ts' =>
      simp at h
      simp only [List.find?_cons, hp a b h.1]
      cases p b with
      | true => simp [h.1]
      | false => exact ih h.2

theorem parseRef_sig {ts ts' : List TypeDecl} (h : ts.map TypeDecl.sig = ts'.map TypeDecl.sig)
    (e : Str) : parseRef ts e = parseRef ts' e := by
  have := find_sig h (p := fun t => decide (e = t.name))
    (by intro a b hs; simp [TypeDecl.sig] at hs; simp [hs])
  unfold parseRef getType
  cases h1 : ts.find? (fun t => decide (e = t.name)) <;>
    cases h2 : ts'.find? (fun t => decide (e = t.name)) <;> simp [h1, h2, TypeDecl.sig] at this ⊢
  simp [this]

theorem parseMapKey_sig [GoUnicode] {ts ts' : List TypeDecl}
    (h : ts.map TypeDecl.sig = ts'.map TypeDecl.sig) (e : Str) :
    parseMapKey ts e = parseMapKey ts' e := by
  have := find_sig h (p := fun t => decide (toLower t.name = toLower e))
    (by intro a b hs; simp [TypeDecl.sig] at hs; simp [hs])
  unfold parseMapKey getTypeByName
  cases h1 : ts.find? (fun t => decide (toLower t.name = toLower e)) <;>
    cases h2 : ts'.find? (fun t => decide (toLower t.name = toLower e)) <;>
      simp [h1, h2, TypeDecl.sig] at this ⊢
  simp [this]

theorem parseExpr_sig [GoUnicode] {ts ts' : List TypeDecl}
    (h : ts.map TypeDecl.sig = ts'.map TypeDecl.sig) (e : Str) :
    parseExpr ts e = parseExpr ts' e := by
  unfold parseExpr
  generalize e.length + 1 = n
  induction n generalizing e with
  | zero => rfl
  | succ n ih =>
    have hk := parseMapKey_sig h
    have hr := parseRef_sig h
    simp only [parseExprN, ih, hk, hr]

theorem varTypeParse_sig [GoUnicode] {ts ts' : List TypeDecl}
    (h : ts.map TypeDecl.sig = ts'.map TypeDecl.sig) (v : Option VarType) :
    varTypeParse ts v = varTypeParse ts' v := by
  cases v with
  | none => rfl
  | some v => simp only [varTypeParse, parseExpr_sig h]

/-! ## Fields -/

theorem checkFields_ok [GoUnicode] {seen sj : List Str} {fs : List Field} {u : Unit}
    (h : checkFields seen sj fs = .ok u) :
    (∀ f ∈ fs, isValidArgName f.name = true ∧ toLower f.name ∉ seen ∧
      ∃ j, jsonFieldName f.name f.metas = .ok j ∧ toLower j ∉ sj) ∧
    fs.Pairwise (fun f g => toLower f.name ≠ toLower g.name) ∧
    fs.Pairwise (fun f g => ∀ i j, jsonFieldName f.name f.metas = .ok i →
      jsonFieldName g.name g.metas = .ok j → toLower i ≠ toLower j) := by
  induction fs generalizing seen sj with
  | nil => simp
  | cons f fs ih =>
    simp only [checkFields, Res.bind_ok, Res.failIf_ok, decide_eq_false_iff_not] at h
    obtain ⟨_, h1, _, h2, _, h3, j, h4, _, h5, h6⟩ := h
    simp at h2 h3 h5
    obtain ⟨a, b, c⟩ := ih h6
    refine ⟨?_, ?_, ?_⟩
    · intro g hg
      rcases List.mem_cons.1 hg with rfl | hg
      · exact ⟨h2, h3, j, h4, h5⟩
      · obtain ⟨q1, q2, q3, q4, q5⟩ := a g hg
        simp at q2 q5
        exact ⟨q1, q2.2, q3, q4, q5.2⟩
    · refine List.pairwise_cons.2 ⟨?_, b⟩
      intro g hg he
      have := (a g hg).2.1
      simp [he] at this
    · refine List.pairwise_cons.2 ⟨?_, c⟩
      intro g hg i k hi hk he
      obtain ⟨_, _, q3, q4, q5⟩ := a g hg
      rw [h4] at hi; rw [hk] at q4
      simp at hi q4
      subst hi; subst q4
      simp [he] at q5

theorem checkFields_congr [GoUnicode] {fs gs : List Field}
    (h : fs.map (fun f => (f.name, f.metas)) = gs.map (fun f => (f.name, f.metas))) (seen sj : List Str) :
    checkFields seen sj fs = checkFields seen sj gs := by
  induction fs generalizing gs seen sj with
  | nil => simp at h; simp [h]
  | cons f fs ih =>
    cases gs with
    | nil => simp at h
    | cons g gs =>
      simp at h
      simp only [checkFields, h.1.1, h.1.2, ih h.2]

/-! ## Types -/

/-- What a successful `(*Type).Parse` establishes. -/
theorem typeParse_ok [GoUnicode] {ts : List TypeDecl} {t t' : TypeDecl} (h : typeParse ts t = .ok t') :
    t.name ≠ [] ∧ startsWithUpper t.name = true ∧
    (∀ m ∈ ts, m.ptr ≠ t.ptr → toLower t.name ≠ toLower m.name) ∧
    t'.sig = t.sig ∧
    ((t.kind = S "alias" ∧ t' = t ∧ t.type ≠ none) ∨
     (t.kind = S "enum" ∧ t' = t ∧ checkFields [] [] t.fields = .ok () ∧ checkEnum t = .ok ()) ∨
     (t.kind = S "struct" ∧ checkFields [] [] t.fields = .ok () ∧
       ∃ fs, t' = { t with fields := fs } ∧ Pointwise (fun f f' => structField ts f = .ok f') t.fields fs)) := by
  simp only [typeParse, Res.bind_ok, Res.failIf_ok, decide_eq_false_iff_not] at h
  obtain ⟨_, h1, _, h2, _, h3, _, h4, h⟩ := h
  simp at h2 h3 h4
  have hk : t.kind = S "enum" ∨ t.kind = S "struct" ∨ t.kind = S "alias" := by
    by_cases q1 : t.kind = S "enum"
    · exact .inl q1
    · by_cases q2 : t.kind = S "struct"
      · exact .inr (.inl q2)
      · exact .inr (.inr (h4 q1 q2))
  have k1 : S "struct" ≠ S "enum" := by decide
  have k2 : S "struct" ≠ S "alias" := by decide
  have k3 : S "enum" ≠ S "alias" := by decide
  refine ⟨h1, h2, ?_, ?_⟩
  · intro m hm hp he; exact h3 m hm hp he
  · rcases hk with hk | hk | hk
    · simp only [hk, k3, if_false, if_true, Res.bind_ok, Res.ok.injEq] at h
      obtain ⟨_, h5, _, h6, rfl⟩ := h
      exact ⟨rfl, .inr (.inl ⟨hk, rfl, h5, h6⟩)⟩
    · simp only [hk, k1, k2, if_false, Res.bind_ok, Res.ok.injEq] at h
      obtain ⟨_, h5, fs, h6, rfl⟩ := h
      exact ⟨by simp [TypeDecl.sig, hk], .inr (.inr ⟨hk, h5, fs, by simp [hk], each_ok.1 h6⟩)⟩
    · simp only [hk, if_true, Res.bind_ok, Res.ok.injEq, Res.failIf_ok] at h
      obtain ⟨_, h5, rfl⟩ := h
      refine ⟨rfl, .inl ⟨hk, rfl, ?_⟩⟩
      intro hn; simp [hn] at h5

theorem structField_ok [GoUnicode] {ts : List TypeDecl} {f f' : Field} (h : structField ts f = .ok f') :
    ∃ vt, varTypeParse ts f.type = .ok vt ∧ f.value = [] ∧ f' = { f with type := some vt } := by
  simp only [structField, Res.bind_ok, Res.failIf_ok, Res.ok.injEq] at h
  obtain ⟨vt, h1, _, h2, rfl⟩ := h
  exact ⟨vt, h1, by simpa using h2, rfl⟩

theorem typeParse_intro [GoUnicode] {ts : List TypeDecl} {t : TypeDecl} (h1 : t.name ≠ [])
    (h2 : startsWithUpper t.name = true)
    (h3 : ∀ m ∈ ts, m.ptr ≠ t.ptr → toLower t.name ≠ toLower m.name)
    (h4 : (t.kind = S "alias" ∧ t.type ≠ none) ∨
      (t.kind = S "enum" ∧ checkFields [] [] t.fields = .ok () ∧ checkEnum t = .ok ()) ∨
      (t.kind = S "struct" ∧ checkFields [] [] t.fields = .ok () ∧
        Res.each (structField ts) t.fields = .ok t.fields)) :
    typeParse ts t = .ok t := by
  have k1 : S "struct" ≠ S "enum" := by decide
  have k2 : S "struct" ≠ S "alias" := by decide
  have k3 : S "enum" ≠ S "alias" := by decide
  have f1 : decide (t.name = []) = false := by simp [h1]
  have f3 : (ts.any fun m => decide (m.ptr ≠ t.ptr ∧ toLower t.name = toLower m.name)) = false := by
    rw [List.any_eq_false]
    intro m hm
    simp only [decide_eq_true_eq]
    rintro ⟨a, b⟩
    exact h3 m hm a b
  have f4 : decide (t.kind ≠ S "enum" ∧ t.kind ≠ S "struct" ∧ t.kind ≠ S "alias") = false := by
    rcases h4 with ⟨h, _⟩ | ⟨h, _⟩ | ⟨h, _⟩ <;> simp [h]
  simp only [typeParse, f1, h2, f3, f4, Res.failIf_false, Bool.not_true, Res.ok_bind]
  rcases h4 with ⟨h, hn⟩ | ⟨h, hc, he⟩ | ⟨h, hc, he⟩
  · have : t.type.isNone = false := by
      cases hq : t.type with
      | none => exact absurd hq hn
      | some _ => rfl
    simp only [h, if_true, this, Res.failIf_false, Res.ok_bind]
  · simp only [h, k3, if_false, if_true, hc, he, Res.ok_bind]
  · simp only [h, k1, k2, if_false, hc, he, Res.ok_bind]
    cases t; simp_all

/-- The types of a validated schema have the signatures of the given ones. -/
theorem types_sig [GoUnicode] {ts ts' : List TypeDecl} (h : Res.each (typeParse ts) ts = .ok ts') :
    ts.map TypeDecl.sig = ts'.map TypeDecl.sig :=
  (each_ok.1 h).map_eq fun _ _ hxy => (typeParse_ok hxy).2.2.2.1.symm

/-! ## Errors -/

theorem errorDups_ok [GoUnicode] {names : List Str} {codes : List Int} {es : List ErrorDecl} {u : Unit} :
    errorDups names codes es = .ok u ↔
    (∀ e ∈ es, toLower e.name ∉ names ∧ e.code ∉ codes) ∧
    es.Pairwise (fun a b => toLower a.name ≠ toLower b.name ∧ a.code ≠ b.code) := by
  induction es generalizing names codes with
  | nil => simp [errorDups]
  | cons e es ih =>
    simp only [errorDups, Res.bind_ok, Res.failIf_ok, ih]
    constructor
    · rintro ⟨_, h1, _, h2, h3, h4⟩
      simp at h1 h2
      refine ⟨?_, List.pairwise_cons.2 ⟨?_, h4⟩⟩
      · intro x hx
        rcases List.mem_cons.1 hx with rfl | hx
        · exact ⟨h1, h2⟩
        · have := h3 x hx; simp at this; exact ⟨this.1.2, this.2.2⟩
      · intro x hx
        have := h3 x hx
        simp at this
        exact ⟨fun q => this.1.1 q.symm, fun q => this.2.1 q.symm⟩
    · rintro ⟨h1, h2⟩
      obtain ⟨h3, h4⟩ := List.pairwise_cons.1 h2
      have h0 := h1 e (by simp)
      refine ⟨(), by simp [h0.1], (), by simp [h0.2], ?_, h4⟩
      intro x hx
      have q := h3 x hx
      have r := h1 x (by simp [hx])
      simp
      exact ⟨⟨fun z => q.1 z.symm, r.1⟩, fun z => q.2 z.symm, r.2⟩

/-- The conditions on one error (after trimming its name). -/
def ErrorOk [GoUnicode] (e : ErrorDecl) : Prop :=
  e.name ≠ [] ∧ 0 < e.code ∧ startsWithUpper e.name = true ∧
  hasPrefix (toLower e.name) (S "webrpc") = false ∧ e.message ≠ [] ∧
  400 ≤ e.httpStatus ∧ e.httpStatus ≤ 599

theorem errorParse_ok [GoUnicode] {b a : List ErrorDecl} {e e' : ErrorDecl} :
    errorParse b a e = .ok e' ↔ e' = { e with name := trimSpace e.name } ∧ ErrorOk e' ∧
      (b ++ e' :: a).Pairwise (fun a b => toLower a.name ≠ toLower b.name ∧ a.code ≠ b.code) := by
  simp only [errorParse, Res.bind_ok, Res.failIf_ok, errorDups_ok, decide_eq_false_iff_not, Res.ok.injEq]
  constructor
  · rintro ⟨_, h1, _, h2, _, h3, _, h4, _, h5, _, h6, _, ⟨h7, h8⟩, rfl⟩
    refine ⟨rfl, ⟨h1, by simpa using h2, by simpa using h3, by simpa using h4, h5, ?_⟩, h8⟩
    simp at h6; exact h6
  · rintro ⟨rfl, ⟨h1, h2, h3, h4, h5, h6⟩, h8⟩
    refine ⟨(), h1, (), by simpa using h2, (), by simpa using h3, (), by simpa using h4, (), h5, (), ?_,
      (), ⟨by simp, h8⟩, rfl⟩
    simp; exact h6

theorem errorsParse_ok [GoUnicode] {b es es' : List ErrorDecl} (h : errorsParse b es = .ok es') :
    ∃ tl, es' = b ++ tl ∧ tl = es.map (fun e => { e with name := trimSpace e.name }) ∧
      (∀ e ∈ tl, ErrorOk e) ∧
      (es ≠ [] → es'.Pairwise (fun a b => toLower a.name ≠ toLower b.name ∧ a.code ≠ b.code)) := by
  induction es generalizing b with
  | nil => simp [errorsParse] at h; subst h; exact ⟨[], by simp⟩
  | cons e es ih =>
    simp only [errorsParse, Res.bind_ok] at h
    obtain ⟨e', h1, h2⟩ := h
    obtain ⟨q1, q2, q3⟩ := errorParse_ok.1 h1
    obtain ⟨tl, h3, h4, h5, h6⟩ := ih h2
    refine ⟨e' :: tl, by simp [h3], by simp [h4, q1], ?_, ?_⟩
    · intro x hx
      rcases List.mem_cons.1 hx with rfl | hx
      · exact q2
      · exact h5 x hx
    · intro _
      by_cases hes : es = []
      · subst hes
        simp at h4; subst h4
        simp at h3; subst h3
        exact q3
      · exact h6 hes

/-! ## Services -/

theorem checkMethods_ok [GoUnicode] {seen : List Str} {ms : List Method} {u : Unit} :
    checkMethods seen ms = .ok u ↔
    (∀ m ∈ ms, m.name ≠ [] ∧ toLower m.name ∉ seen) ∧
    ms.Pairwise (fun a b => toLower a.name ≠ toLower b.name) := by
  induction ms generalizing seen with
  | nil => simp [checkMethods]
  | cons e es ih =>
    simp only [checkMethods, Res.bind_ok, Res.failIf_ok, ih, decide_eq_false_iff_not]
    constructor
    · rintro ⟨_, h1, _, h2, h3, h4⟩
      simp at h2
      refine ⟨?_, List.pairwise_cons.2 ⟨?_, h4⟩⟩
      · intro x hx
        rcases List.mem_cons.1 hx with rfl | hx
        · exact ⟨h1, h2⟩
        · have := h3 x hx; simp at this; exact ⟨this.1, this.2.2⟩
      · intro x hx q
        have := h3 x hx
        simp at this
        exact this.2.1 q.symm
    · rintro ⟨h1, h2⟩
      obtain ⟨h3, h4⟩ := List.pairwise_cons.1 h2
      have h0 := h1 e (by simp)
      refine ⟨(), h0.1, (), by simp [h0.2], ?_, h4⟩
      intro x hx
      have q := h3 x hx
      have r := h1 x (by simp [hx])
      simp
      exact ⟨r.1, fun z => q z.symm, r.2⟩

theorem argParse_ok [GoUnicode] {ts : List TypeDecl} {a a' : Argument} :
    argParse ts a = .ok a' ↔ a.name ≠ [] ∧ ∃ vt, varTypeParse ts a.type = .ok vt ∧
      a' = { a with type := some vt } := by
  simp only [argParse, Res.bind_ok, Res.failIf_ok, decide_eq_false_iff_not, Res.ok.injEq]
  constructor
  · rintro ⟨_, h1, vt, h2, rfl⟩; exact ⟨h1, vt, h2, rfl⟩
  · rintro ⟨h1, vt, h2, rfl⟩; exact ⟨(), h1, vt, h2, rfl⟩

theorem methodParse_ok [GoUnicode] {ts : List TypeDecl} {es : List ErrorDecl} {m m' : Method} :
    methodParse ts es m = .ok m' ↔
      (m.succinct = true → m.inputs.length ≤ 1 ∧ m.outputs.length ≤ 1) ∧
      (∀ n ∈ m.errors, ∃ e ∈ es, e.name = n) ∧
      ∃ ins outs, Pointwise (fun a b => argParse ts a = .ok b) m.inputs ins ∧
        Pointwise (fun a b => argParse ts a = .ok b) m.outputs outs ∧
        m' = { m with inputs := ins, outputs := outs } := by
  simp only [methodParse, Res.bind_ok, Res.failIf_ok, decide_eq_false_iff_not, Res.ok.injEq, each_ok]
  have herr : (∃ us : List Unit, Pointwise (fun (n : Str) (_ : Unit) =>
      (!es.any fun e => decide (e.name = n)) = false) m.errors us) ↔ ∀ n ∈ m.errors, ∃ e ∈ es, e.name = n := by
    generalize m.errors = ns
    induction ns with
    | nil => simp; exact ⟨[], .nil⟩
    | cons n ns ih =>
      constructor
      · rintro ⟨us, h⟩
        cases h with
        | cons h1 h2 =>
          intro x hx
          rcases List.mem_cons.1 hx with rfl | hx
          · simpa using h1
          · exact ih.1 ⟨_, h2⟩ x hx
      · intro h
        obtain ⟨us, hus⟩ := ih.2 (fun x hx => h x (by simp [hx]))
        exact ⟨() :: us, .cons (by simpa using h n (by simp)) hus⟩
  constructor
  · rintro ⟨_, h1, ins, h2, _, h3, outs, h4, us, h5, rfl⟩
    refine ⟨?_, herr.1 ⟨us, h5⟩, ins, outs, h2, h4, rfl⟩
    intro hs
    simp [hs] at h1 h3
    exact ⟨by omega, by omega⟩
  · rintro ⟨h1, h5, ins, outs, h2, h4, rfl⟩
    obtain ⟨us, hus⟩ := herr.2 h5
    refine ⟨(), ?_, ins, h2, (), ?_, outs, h4, us, hus, rfl⟩
    · rintro ⟨a, b⟩; have := h1 b; omega
    · rintro ⟨a, b⟩; have := h1 b; omega

theorem serviceParse_ok [GoUnicode] {ts : List TypeDecl} {es : List ErrorDecl} {ss : List Service}
    {s s' : Service} :
    serviceParse ts es ss s = .ok s' ↔
      s.name ≠ [] ∧ (∀ m ∈ ss, m.ptr ≠ s.ptr → toLower s.name ≠ toLower m.name) ∧
      s.methods ≠ [] ∧ (∀ m ∈ s.methods, m.name ≠ []) ∧
      s.methods.Pairwise (fun a b => toLower a.name ≠ toLower b.name) ∧
      ∃ ms, Pointwise (fun m m' => methodParse ts es m = .ok m') s.methods ms ∧
        s' = { s with methods := ms } := by
  simp only [serviceParse, Res.bind_ok, Res.failIf_ok, decide_eq_false_iff_not, Res.ok.injEq, each_ok,
    checkMethods_ok]
  constructor
  · rintro ⟨_, h1, _, h2, _, h3, _, ⟨h4, h5⟩, ms, h6, rfl⟩
    simp at h2 h3
    exact ⟨h1, h2, h3, fun m hm => (h4 m hm).1, h5, ms, h6, rfl⟩
  · rintro ⟨h1, h2, h3, h4, h5, ms, h6, rfl⟩
    refine ⟨(), h1, (), by simpa using h2, (), by simpa using h3, (), ⟨fun m hm => ⟨h4 m hm, by simp⟩, h5⟩,
      ms, h6, rfl⟩

/-! ## The whole schema -/

theorem validate_ok [GoUnicode] {s s' : Schema} :
    validate s = .ok s' ↔
      s.webrpcVersion = S "v1" ∧ (s.services ≠ [] → s.schemaVersion ≠ []) ∧
      ∃ b ts es ss, normBasePath s.basePath = .ok b ∧
        Pointwise (fun t t' => typeParse s.types t = .ok t') s.types ts ∧
        errorsParse [] s.errors = .ok es ∧
        Pointwise (fun v v' => serviceParse ts es s.services v = .ok v') s.services ss ∧
        s' = { s with basePath := b, types := ts, errors := es, services := ss } := by
  simp only [validate, Res.bind_ok, Res.failIf_ok, decide_eq_false_iff_not, Res.ok.injEq, each_ok]
  constructor
  · rintro ⟨_, h1, _, h2, b, h3, ts, h4, es, h5, ss, h6, rfl⟩
    refine ⟨?_, ?_, b, ts, es, ss, h3, h4, h5, h6, rfl⟩
    · simpa using h1
    · intro hs hv; simp [hs, hv] at h2
  · rintro ⟨h1, h2, b, ts, es, ss, h3, h4, h5, h6, rfl⟩
    refine ⟨(), by simpa using h1, (), ?_, b, h3, ts, h4, es, h5, ss, h6, rfl⟩
    rintro ⟨a, b⟩
    simp at a
    exact h2 a b

end Verif.Schema
