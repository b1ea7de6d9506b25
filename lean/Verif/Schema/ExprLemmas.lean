import Verif.Spec.TypeExpr
/-! # Lemmas on type expressions -/

namespace Verif.Schema
open Verif.Spec

theorem lookup_mem {α β : Type} [BEq α] [LawfulBEq α] {l : List (α × β)} {a : α} {b : β}
    (h : l.lookup a = some b) : (a, b) ∈ l := by
  induction l with
  | nil => simp at h
  | cons p l ih =>
    obtain ⟨x, y⟩ := p
    rw [List.lookup_cons] at h
    split at h
    · next he => simp at h; simp at he; simp [h, he]
    · exact List.mem_cons_of_mem _ (ih h)

theorem lookup_none_not_mem {α β : Type} [BEq α] [LawfulBEq α] {l : List (α × β)} {a : α}
    (h : l.lookup a = none) : ∀ p ∈ l, p.1 ≠ a := by
  induction l with
  | nil => simp
  | cons p l ih =>
    obtain ⟨x, y⟩ := p
    rw [List.lookup_cons] at h
    split at h
    · simp at h
    · next he =>
      intro q hq
      rcases List.mem_cons.1 hq with rfl | hq
      · intro hx; simp at hx; simp [hx] at he
      · exact ih h q hq

theorem core_table_ok : ∀ p ∈ coreTable, coreFromString p.1 = some p.2 := by decide +kernel
theorem core_table_list : ∀ p ∈ coreTable, isListExpr p.1 = true → p.2 = .list := by decide +kernel
theorem core_table_map : ∀ p ∈ coreTable, isMapExpr p.1 = false := by decide +kernel
theorem core_table_split : ∀ p ∈ coreTable,
    p ∈ scalarNames ∨ p = (S "map", .map) ∨ p = (S "[]", .list) := by decide +kernel
theorem core_table_reserved : ∀ p ∈ coreTable, p.1 ∈ reserved := by decide +kernel
theorem reserved_core : ∀ n ∈ reserved, (coreFromString n).isSome := by decide +kernel
theorem scalar_core : ∀ p ∈ scalarNames, p ∈ coreTable := by decide +kernel
theorem scalar_kind : ∀ p ∈ scalarNames, p.2 ≠ .list ∧ p.2 ≠ .map ∧ p.2 ≠ .enum ∧ p.2 ≠ .unknown
    ∧ p.1 ≠ [] ∧ p.2.str = p.1 := by decide +kernel
theorem key_names : ∀ n ∈ keyNames, isValidVarKeyType n = true := by decide +kernel
theorem key_names' : ∀ p ∈ coreTable, isValidVarKeyType p.1 = true → p.1 ∈ keyNames ∧ p ∈ scalarNames := by
  decide +kernel
theorem table_unique : ∀ p ∈ coreTable, ∀ q ∈ coreTable, p.1 = q.1 → p = q := by decide +kernel

theorem coreFromString_some {e : Str} {c : CoreType} : coreFromString e = some c ↔ (e, c) ∈ coreTable :=
  by
  constructor
  · intro h; exact lookup_mem h
  · intro h; exact core_table_ok (e, c) h

theorem coreFromString_none {e : Str} : coreFromString e = none ↔ e ∉ reserved := by
  constructor
  · intro h hr; have := reserved_core e hr; simp [h] at this
  · intro h
    cases hc : coreFromString e with
    | none => rfl
    | some c => exact absurd (core_table_reserved _ (coreFromString_some.1 hc)) h

theorem isListExpr_iff {e : Str} : isListExpr e = true ↔ ∃ x, e = S "[]" ++ x := by
  simp only [isListExpr, hasPrefix, List.isPrefixOf_iff_prefix, CoreType.str]
  constructor
  · rintro ⟨x, hx⟩; exact ⟨x, hx.symm⟩
  · rintro ⟨x, hx⟩; exact ⟨x, hx.symm⟩

theorem isMapExpr_iff {e : Str} : isMapExpr e = true ↔ ∃ x, e = S "map<" ++ x := by
  simp only [isMapExpr, hasPrefix, List.isPrefixOf_iff_prefix]
  have : CoreType.str .map ++ S "<" = S "map<" := by decide
  rw [this]
  constructor
  · rintro ⟨x, hx⟩; exact ⟨x, hx.symm⟩
  · rintro ⟨x, hx⟩; exact ⟨x, hx.symm⟩

theorem exprType_table {e : Str} {c : CoreType} (h : (e, c) ∈ coreTable) : exprType e = c := by
  simp [exprType, coreFromString_some.2 h]

theorem exprType_list {x : Str} : exprType (S "[]" ++ x) = .list := by
  unfold exprType
  cases hc : coreFromString (S "[]" ++ x) with
  | some c => exact core_table_list _ (coreFromString_some.1 hc) (isListExpr_iff.2 ⟨x, rfl⟩)
  | none => simp [isListExpr_iff.2 ⟨x, rfl⟩]

theorem not_list_of_map {x : Str} : isListExpr (S "map<" ++ x) = false := by
  simp [isListExpr, hasPrefix, CoreType.str, S, List.isPrefixOf]

theorem exprType_map {x : Str} : exprType (S "map<" ++ x) = .map := by
  unfold exprType
  cases hc : coreFromString (S "map<" ++ x) with
  | some c =>
    have := core_table_map _ (coreFromString_some.1 hc)
    simp [isMapExpr_iff.2 ⟨x, rfl⟩] at this
  | none => simp [isMapExpr_iff.2 ⟨x, rfl⟩, not_list_of_map]

theorem exprType_plain {n : Str} (h : Plain n) : exprType n = .unknown := by
  obtain ⟨-, h1, h2, h3⟩ := h
  have hl : isListExpr n = false := by
    cases hb : isListExpr n with
    | false => rfl
    | true => obtain ⟨x, hx⟩ := isListExpr_iff.1 hb; exact absurd ⟨x, hx.symm⟩ h2
  have hm : isMapExpr n = false := by
    cases hb : isMapExpr n with
    | false => rfl
    | true => obtain ⟨x, hx⟩ := isMapExpr_iff.1 hb; exact absurd ⟨x, hx.symm⟩ h3
  simp [exprType, coreFromString_none.2 h1, hl, hm]

/-- Case analysis on an expression. -/
theorem exprType_cases {e : Str} (he : e ≠ []) :
    (exprType e = .list ∧ ∃ x, e = S "[]" ++ x) ∨
    (exprType e = .map ∧ (e = S "map" ∨ ∃ x, e = S "map<" ++ x)) ∨
    (exprType e = .unknown ∧ Plain e) ∨
    (∃ c, (e, c) ∈ scalarNames ∧ exprType e = c) := by
  cases hc : coreFromString e with
  | some c =>
    have hm := coreFromString_some.1 hc
    rcases core_table_split _ hm with h | h | h
    · exact .inr (.inr (.inr ⟨c, h, exprType_table hm⟩))
    · simp at h
      refine .inr (.inl ⟨?_, .inl h.1⟩)
      rw [exprType_table hm, h.2]
    · simp at h
      refine .inl ⟨?_, [], by simp [h.1]⟩
      rw [exprType_table hm, h.2]
  | none =>
    by_cases hl : isListExpr e = true
    · obtain ⟨x, rfl⟩ := isListExpr_iff.1 hl; exact .inl ⟨exprType_list, x, rfl⟩
    · by_cases hm : isMapExpr e = true
      · obtain ⟨x, rfl⟩ := isMapExpr_iff.1 hm; exact .inr (.inl ⟨exprType_map, .inr ⟨x, rfl⟩⟩)
      · have hp : Plain e := by
          refine ⟨he, coreFromString_none.1 hc, ?_, ?_⟩
          · rintro ⟨x, hx⟩; exact hl (isListExpr_iff.2 ⟨x, hx.symm⟩)
          · rintro ⟨x, hx⟩; exact hm (isMapExpr_iff.2 ⟨x, hx.symm⟩)
        exact .inr (.inr (.inl ⟨exprType_plain hp, hp⟩))

theorem cutComma_iff {e k v : Str} : cutComma e = some (k, v) ↔ ',' ∉ k ∧ e = k ++ ',' :: v := by
  induction e generalizing k with
  | nil => simp [cutComma]
  | cons c cs ih =>
    by_cases hc : c = ','
    · subst hc
      simp only [cutComma, if_true]
      constructor
      · intro h; simp at h; have h' : k = [] ∧ cs = v := by simpa [eq_comm] using h
        simp [h'.1, h'.2]
      · rintro ⟨h1, h2⟩
        cases k with
        | nil => simp at h2; simp [h2]
        | cons a k => simp at h2; simp [← h2.1] at h1
    · simp only [cutComma, hc, if_false]
      constructor
      · intro h
        rw [Option.map_eq_some_iff] at h
        obtain ⟨⟨a, b⟩, h1, h2⟩ := h
        simp at h2
        obtain ⟨rfl, rfl⟩ := h2
        have := ih.1 h1
        refine ⟨?_, by simp [this.2]⟩
        intro hm
        rcases List.mem_cons.1 hm with h | h
        · exact hc h.symm
        · exact this.1 h
      · rintro ⟨h1, h2⟩
        cases k with
        | nil => simp at h2; exact absurd h2.1 hc
        | cons a k =>
          simp at h2 h1
          obtain ⟨rfl, h2⟩ := h2
          rw [ih.2 ⟨h1.2, h2⟩]; rfl

theorem Res.bind_ok {α β : Type} {r : Res α} {f : α → Res β} {b : β} :
    (r >>= f) = .ok b ↔ ∃ a, r = .ok a ∧ f a = .ok b := by
  cases r <;> simp [Bind.bind, Res.bind]

theorem Res.bind_ok' {α β : Type} {r : Res α} {f : α → Res β} {b : β} :
    r.bind f = .ok b ↔ ∃ a, r = .ok a ∧ f a = .ok b := Res.bind_ok

theorem Res.failIf_ok {b : Bool} {e : SErr} {u : Unit} : Res.failIf b e = .ok u ↔ b = false := by
  unfold Res.failIf; cases b <;> simp

@[simp] theorem Res.ok_bind {α β : Type} (a : α) (f : α → Res β) : ((Res.ok a) >>= f) = f a := rfl
@[simp] theorem Res.failIf_false (e : SErr) : Res.failIf false e = .ok () := rfl
@[simp] theorem Res.failIf_true (e : SErr) : Res.failIf true e = .err e := rfl

theorem parseMapExpr_iff {e k v : Str} :
    parseMapExpr e = .ok (k, v) ↔ ',' ∉ k ∧ e = S "map<" ++ k ++ S "," ++ v ++ S ">" := by
  have hS : S "map<" = ['m','a','p','<'] := by decide
  have hC : S "," = [','] := by decide
  have hG : S ">" = ['>'] := by decide
  have hl : (CoreType.str .map).length = 3 := by decide
  constructor
  · intro h
    simp only [parseMapExpr, Res.bind_ok, Res.failIf_ok, Res.failIf_ok] at h
    obtain ⟨_, h0, h⟩ := h
    simp at h0
    obtain ⟨x, rfl⟩ := isMapExpr_iff.1 h0
    rw [hl, hS] at h
    obtain ⟨_, -, _, h2, h⟩ := h
    simp at h2 h
    have hx : x ≠ [] := by
      rintro rfl; simp at h2
    have hgl : x.getLast? = some '>' := by
      rw [List.getLast?_cons] at h2
      cases hq : x.getLast? with
      | none => simp at hq; exact absurd hq hx
      | some q => simp [hq] at h2; simp [h2]
    obtain ⟨ys, hys⟩ := List.getLast?_eq_some_iff.1 hgl
    subst hys
    simp at h
    cases hcc : cutComma ys with
    | none => rw [hcc] at h; simp at h
    | some kv =>
      rw [hcc] at h
      simp at h; subst h
      have := cutComma_iff.1 hcc
      refine ⟨this.1, ?_⟩
      simp [this.2, hS, hC, hG]
  · rintro ⟨h1, rfl⟩
    have h0 : isMapExpr (S "map<" ++ k ++ S "," ++ v ++ S ">") = true :=
      isMapExpr_iff.2 ⟨k ++ S "," ++ v ++ S ">", by simp⟩
    simp only [parseMapExpr, h0, hl]
    rw [hS, hC, hG]
    have hcc : cutComma (k ++ ',' :: v) = some (k, v) := cutComma_iff.2 ⟨h1, rfl⟩
    have e1 : (k ++ ',' :: (v ++ ['>'])).dropLast = k ++ ',' :: v := by
      rw [show k ++ ',' :: (v ++ ['>']) = (k ++ ',' :: v) ++ ['>'] from by simp, List.dropLast_concat]
    have e2 : ('<' :: (k ++ ',' :: (v ++ ['>']))).getLast? = some '>' := by
      rw [show '<' :: (k ++ ',' :: (v ++ ['>'])) = ('<' :: (k ++ ',' :: v)) ++ ['>'] from by simp, List.getLast?_concat]
    simp [e1, e2, hcc]

theorem find_first {ts : List TypeDecl} {p : TypeDecl → Prop} [DecidablePred p] {d : TypeDecl} :
    ts.find? (fun t => decide (p t)) = some d ↔ FirstDecl ts p d := by
  rw [List.find?_eq_some_iff_append]
  simp only [decide_eq_true_eq, FirstDecl]
  constructor
  · rintro ⟨h, l, r, he, hn⟩
    exact ⟨l, r, he, h, fun x hx => by simpa using hn x hx⟩
  · rintro ⟨l, r, he, h, hn⟩
    exact ⟨h, l, r, he, fun x hx => by simpa using hn x hx⟩

theorem getType_iff {ts : List TypeDecl} {e : Str} {d : TypeDecl} :
    getType ts e = some d ↔ FirstDecl ts (fun d => d.name = e) d := by
  rw [← find_first]
  unfold getType
  simp only [eq_comm]

theorem getTypeByName_iff [GoUnicode] {ts : List TypeDecl} {e : Str} {d : TypeDecl} :
    getTypeByName ts e = some d ↔ FirstDecl ts (fun d => toLower d.name = toLower e) d :=
  find_first (p := fun d => toLower d.name = toLower e)

theorem parseRef_iff {ts : List TypeDecl} {n : Str} {vt : VarType} :
    parseRef ts n = .ok vt ↔ ∃ d, FirstDecl ts (fun d => d.name = n) d ∧ RefersTo n d vt := by
  have k1 : S "struct" ≠ S "enum" := by decide
  have k2 : S "struct" ≠ S "alias" := by decide
  have k3 : S "enum" ≠ S "alias" := by decide
  unfold parseRef RefersTo
  simp only [← getType_iff]
  cases hg : getType ts n with
  | none => simp
  | some d =>
    simp only [Option.some.injEq, exists_eq_left']
    by_cases h1 : d.kind = S "struct"
    · simp [h1, k1, k2, eq_comm]
    · by_cases h2 : d.kind = S "enum"
      · simp [h2, k1.symm, k3, eq_comm]
      · by_cases h3 : d.kind = S "alias"
        · simp [h3, k2.symm, k3.symm, eq_comm]
        · simp [h1, h2, h3]

theorem parseMapKey_iff [GoUnicode] {ts : List TypeDecl} {k : Str} {vt : VarType} :
    parseMapKey ts k = .ok vt ↔ KeyTree ts k vt := by
  unfold parseMapKey KeyTree
  cases hc : coreFromString k with
  | some c =>
    have hm := coreFromString_some.1 hc
    simp only [Res.bind_ok, Res.failIf_ok]
    have hr : k ∈ reserved := core_table_reserved _ hm
    constructor
    · rintro ⟨_, h1, h2⟩
      simp at h1 h2
      have := key_names' _ hm h1
      exact .inl ⟨this.1, c, this.2, h2.symm⟩
    · rintro (⟨h1, c', h2, h3⟩ | h)
      · have : c' = c := by
          have := table_unique _ (scalar_core _ h2) _ hm rfl
          simpa using this
        subst this
        exact ⟨(), by simp [key_names _ h1], by simp [h3]⟩
      · exact absurd hr h.1
  | none =>
    have hr := coreFromString_none.1 hc
    have hk : k ∉ keyNames := by
      intro h
      have := key_names k h
      simp [isValidVarKeyType, isValidVarType, hc] at this
    simp only [hk, false_and, false_or, hr, not_false_iff, true_and, ← getTypeByName_iff]
    cases hg : getTypeByName ts k with
    | none => simp
    | some d =>
      simp only [Option.some.injEq, exists_eq_left']
      by_cases he : d.kind = S "enum"
      · simp [he, eq_comm]
      · simp only [ne_eq, he, not_false_iff, if_true, false_or]
        cases ht : d.type with
        | none => simp
        | some u =>
          by_cases hu : u.type = .enum
          · simp [hu, eq_comm]
          · simp [hu]

theorem denotes_expr [GoUnicode] {ts : List TypeDecl} {t : Ty} {vt : VarType} (h : Denotes ts t vt) :
    vt.expr = t.text := by
  cases h <;> try rfl
  next hr =>
    rcases hr with ⟨_, rfl⟩ | ⟨_, rfl⟩ | ⟨_, rfl⟩ <;> rfl

theorem parseExprN_sound [GoUnicode] {ts : List TypeDecl} {n : Nat} {e : Str} {vt : VarType}
    (h : parseExprN ts n e = .ok vt) : ∃ t, Denotes ts t vt ∧ t.text = e := by
  induction n generalizing e vt with
  | zero => simp [parseExprN] at h
  | succ n ih =>
    by_cases he : e = []
    · subst he
      simp [parseExprN] at h; subst h
      exact ⟨.omitted, .omitted, rfl⟩
    · simp only [parseExprN, he, if_false] at h
      rcases exprType_cases he with ⟨ht, x, rfl⟩ | ⟨ht, hx⟩ | ⟨ht, hp⟩ | ⟨c, hc, ht⟩
      · simp only [ht, isListExpr_iff.2 ⟨x, rfl⟩, if_true, Res.bind_ok] at h
        obtain ⟨el, h1, h2⟩ := h
        rw [show (S "[]" ++ x).drop 2 = x by simp [S]] at h1
        obtain ⟨t, hd, rfl⟩ := ih h1
        simp at h2; subst h2
        exact ⟨.list t, .list hd, rfl⟩
      · simp only [ht, Res.bind_ok] at h
        obtain ⟨⟨k, v⟩, h1, kt, h2, w, h3, h4⟩ := h
        obtain ⟨hk, rfl⟩ := parseMapExpr_iff.1 h1
        obtain ⟨t, hd, hte⟩ := ih h3
        dsimp only at hte
        subst hte
        simp only [Res.ok.injEq] at h4; subst h4
        exact ⟨.map k t, .map hk (parseMapKey_iff.1 h2) hd, rfl⟩
      · simp only [ht] at h
        obtain ⟨d, hd, hr⟩ := parseRef_iff.1 h
        exact ⟨.named e, .named hp hd hr, rfl⟩
      · have := scalar_kind _ hc
        have hh : (parseExprN ts (n+1) e) = .ok (.leaf e c) := by
          simp only [parseExprN, he, if_false, ht]
          have := this
          cases c <;> first | rfl | simp at this
        have h' : parseExprN ts (n+1) e = .ok vt := by
          simp only [parseExprN, he, if_false]; exact h
        rw [hh] at h'
        simp at h'; subst h'
        exact ⟨.scalar e, .scalar hc, rfl⟩

theorem parseExprN_complete [GoUnicode] {ts : List TypeDecl} {t : Ty} {vt : VarType}
    (h : Denotes ts t vt) : ∀ n, t.text.length < n → parseExprN ts n t.text = .ok vt := by
  induction h with
  | omitted => intro n hn; cases n with
    | zero => simp at hn
    | succ n => simp [parseExprN, Ty.text]
  | @scalar m c hc =>
    intro n hn; cases n with
    | zero => simp at hn
    | succ n =>
      have hk := scalar_kind _ hc
      have ht := exprType_table (scalar_core _ hc)
      simp only [parseExprN, Ty.text, hk.2.2.2.2.1, if_false, ht]
      cases c <;> first | rfl | simp at hk
  | @list t vt _ ih =>
    intro n hn; cases n with
    | zero => simp at hn
    | succ n =>
      have hne : (Ty.list t).text ≠ [] := by simp [Ty.text, S]
      simp only [parseExprN, hne, if_false]
      have ht : exprType (Ty.list t).text = .list := exprType_list
      have hl : isListExpr (Ty.list t).text = true := isListExpr_iff.2 ⟨_, rfl⟩
      have hdr : (Ty.list t).text.drop 2 = t.text := by simp [Ty.text, S]
      have := ih n (by simp [Ty.text, S] at hn; omega)
      simp [ht, hl, hdr, this]
  | @map k v kt vt hk hkt _ ih =>
    intro n hn; cases n with
    | zero => simp at hn
    | succ n =>
      have hne : (Ty.map k v).text ≠ [] := by simp [Ty.text, S]
      have ht : exprType (Ty.map k v).text = .map := by
        have : (Ty.map k v).text = S "map<" ++ (k ++ S "," ++ v.text ++ S ">") := by
          simp [Ty.text]
        rw [this]; exact exprType_map
      have hm : parseMapExpr (Ty.map k v).text = .ok (k, v.text) := parseMapExpr_iff.2 ⟨hk, rfl⟩
      have := ih n (by simp [Ty.text, S] at hn; omega)
      simp [parseExprN, hne, ht, hm, parseMapKey_iff.2 hkt, this]
  | @named m d vt hp hd hr =>
    intro n hn; cases n with
    | zero => simp at hn
    | succ n =>
      simp only [parseExprN, Ty.text, hp.1, if_false, exprType_plain hp]
      exact parseRef_iff.2 ⟨d, hd, hr⟩

/-- Exactness of the type expression parser. -/
theorem parseExpr_iff [GoUnicode] {ts : List TypeDecl} {e : Str} {vt : VarType} :
    parseExpr ts e = .ok vt ↔ ∃ t, Denotes ts t vt ∧ t.text = e := by
  constructor
  · exact parseExprN_sound
  · rintro ⟨t, hd, rfl⟩
    exact parseExprN_complete hd _ (by omega)

/-- The recursion of `ParseVarTypeExpr` is bounded by the length of the expression. -/
theorem parseExprN_total [GoUnicode] {ts : List TypeDecl} {n : Nat} {e : Str} (h : e.length < n) :
    parseExprN ts n e ≠ .fuel := by
  induction n generalizing e with
  | zero => simp at h
  | succ n ih =>
    intro hf
    have hb : ∀ {α β : Type} {r : Res α} {f : α → Res β}, (r >>= f) = .fuel →
        r = .fuel ∨ ∃ a, r = .ok a ∧ f a = .fuel := by
      intro α β r f h; cases r <;> simp [Bind.bind, Res.bind] at h ⊢; exact h
    by_cases he : e = []
    · simp [parseExprN, he] at hf
    · simp only [parseExprN, he, if_false] at hf
      rcases exprType_cases he with ⟨ht, x, rfl⟩ | ⟨ht, hx⟩ | ⟨ht, hp⟩ | ⟨c, hc, ht⟩
      · simp only [ht, isListExpr_iff.2 ⟨x, rfl⟩, if_true] at hf
        rcases hb hf with h1 | ⟨a, _, h2⟩
        · refine ih ?_ h1
          simp [S] at h ⊢; omega
        · simp at h2
      · simp only [ht] at hf
        rcases hb hf with h1 | ⟨⟨k, v⟩, h1, h2⟩
        · unfold parseMapExpr at h1
          have ff : ∀ b e, Res.failIf b e ≠ .fuel := by intro b e; cases b <;> simp [Res.failIf]
          rcases hb h1 with h1 | ⟨_, _, h1⟩
          · exact ff _ _ h1
          rcases hb h1 with h1 | ⟨_, _, h1⟩
          · exact ff _ _ h1
          rcases hb h1 with h1 | ⟨_, _, h1⟩
          · exact ff _ _ h1
          dsimp only at h1
          split at h1 <;> simp at h1
        · rcases hb h2 with h2 | ⟨kt, _, h2⟩
          · unfold parseMapKey at h2
            split at h2
            · rcases hb h2 with h2 | ⟨_, _, h2⟩
              · unfold Res.failIf at h2; split at h2 <;> simp at h2
              · simp at h2
            · split at h2
              · simp at h2
              · split at h2
                · split at h2
                  · simp at h2
                  · split at h2 <;> simp at h2
                · simp at h2
          · rcases hb h2 with h3 | ⟨_, _, h3⟩
            · obtain ⟨_, rfl⟩ := parseMapExpr_iff.1 h1
              refine ih ?_ h3
              simp [S] at h ⊢; omega
            · simp at h3
      · simp only [ht, parseRef] at hf
        split at hf
        · simp at hf
        · split at hf
          · simp at hf
          · split at hf
            · simp at hf
            · split at hf <;> simp at hf
      · have hk := scalar_kind _ hc
        rw [ht] at hf
        cases c <;> first | (simp at hk; done) | simp at hf

theorem parseExpr_total [GoUnicode] (ts : List TypeDecl) (e : Str) : parseExpr ts e ≠ .fuel :=
  parseExprN_total (by omega)

theorem keyTree_expr [GoUnicode] {ts : List TypeDecl} {k : Str} {vt : VarType} (h : KeyTree ts k vt) :
    vt.expr = k := by
  rcases h with ⟨_, c, _, rfl⟩ | ⟨_, d, _, _, rfl⟩ <;> rfl

theorem denotes_resolved [GoUnicode] {ts : List TypeDecl} {t : Ty} {vt : VarType}
    (h : Denotes ts t vt) : vt.Resolved ↔ t.Complete := by
  induction h with
  | omitted => simp [VarType.Resolved, Ty.Complete]
  | scalar hc => simp [VarType.Resolved, Ty.Complete, (scalar_kind _ hc).2.2.2.1]
  | list _ ih => simpa [VarType.Resolved, Ty.Complete] using ih
  | map _ _ _ ih => simpa [VarType.Resolved, Ty.Complete] using ih
  | named _ _ hr => rcases hr with ⟨_, rfl⟩ | ⟨_, rfl⟩ | ⟨_, rfl⟩ <;> simp [VarType.Resolved, Ty.Complete]

theorem build_denotes [GoUnicode] {ts : List TypeDecl} {t : Ty} {vt : VarType}
    (h : Denotes ts t vt) (hc : t.Complete) : buildExpr vt [] = t.text := by
  induction h with
  | omitted => simp [Ty.Complete] at hc
  | @scalar n c hs =>
    have hk := scalar_kind _ hs
    have : buildExpr (.leaf n c) [] = c.str := by
      cases c <;> first | rfl | simp at hk
    rw [this, hk.2.2.2.2.2]; rfl
  | list _ ih => simp [buildExpr, Ty.text, ih hc]
  | map _ hk _ ih => simp [buildExpr, Ty.text, ih hc, keyTree_expr hk, S]
  | named _ _ hr => rcases hr with ⟨_, rfl⟩ | ⟨_, rfl⟩ | ⟨_, rfl⟩ <;> simp [buildExpr, Ty.text]

theorem setExpr_self (vt : VarType) : vt.setExpr vt.expr = vt := by cases vt <;> rfl

theorem firstDecl_unique {ts : List TypeDecl} {p : TypeDecl → Prop} {d d' : TypeDecl}
    (h : FirstDecl ts p d) (h' : FirstDecl ts p d') : d = d' := by
  haveI : DecidablePred p := fun _ => Classical.propDecidable _
  have := find_first.2 h
  rw [find_first.2 h'] at this
  simpa using this.symm

end Verif.Schema
