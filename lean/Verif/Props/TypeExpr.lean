import Verif.Schema.ExprLemmas
/-!
# Type expressions (C13–C16)
-/

namespace Verif.Props
open Verif.Schema Verif.Spec

/-- Case tables that leave non-ASCII characters alone, for the examples. -/
@[reducible] def asciiOnly : GoUnicode := ⟨id, id⟩

/-- Example declarations: a struct, an enum, an alias for a string, an alias for the enum. -/
def exTypes : List TypeDecl :=
  [ { ptr := ([], 0), kind := S "struct", name := S "User" },
    { ptr := ([], 1), kind := S "enum", name := S "Kind", type := some (.leaf (S "uint32") .uint32) },
    { ptr := ([], 2), kind := S "alias", name := S "ID", type := some (.leaf (S "string") .string) },
    { ptr := ([], 3), kind := S "alias", name := S "K2",
      type := some (.enum (S "Kind") (S "Kind") ([], 1)) } ]

/-! ## C13: print then parse -/

/-- C13. Printing a well-formed type expression of any depth and parsing the text gives the tree of
that very expression, and the normalised text of the tree is the printed text. -/
theorem C13_print_parse [GoUnicode] (ts : List TypeDecl) (t : Ty) (vt : VarType)
    (h : Denotes ts t vt) :
    parseExpr ts t.text = .ok vt ∧ (t.Complete → buildExpr vt [] = t.text) :=
  ⟨parseExpr_iff.2 ⟨t, h, rfl⟩, build_denotes h⟩

/-- C13. Two well-formed expressions written the same way are the same expression. -/
theorem C13_unambiguous [GoUnicode] (ts : List TypeDecl) (t₁ t₂ : Ty)
    (h₁ : WellFormed ts t₁) (h₂ : WellFormed ts t₂) (he : t₁.text = t₂.text) : t₁ = t₂ := by
  obtain ⟨v₁, d₁⟩ := h₁
  obtain ⟨v₂, d₂⟩ := h₂
  have e₁ := (C13_print_parse ts t₁ v₁ d₁).1
  have e₂ := (C13_print_parse ts t₂ v₂ d₂).1
  rw [he, e₂] at e₁
  simp at e₁; subst e₁
  clear e₂ he
  induction d₁ generalizing t₂ with
  | omitted =>
    cases d₂ with
    | omitted => rfl
    | scalar h => exact absurd rfl (scalar_kind _ h).2.2.2.1
    | named _ _ hr => rcases hr with ⟨_, h⟩ | ⟨_, h⟩ | ⟨_, h⟩ <;> cases h
  | scalar h =>
    cases d₂ with
    | omitted => exact absurd rfl (scalar_kind _ h).2.2.2.1
    | scalar _ => rfl
    | named _ _ hr => rcases hr with ⟨_, h⟩ | ⟨_, h⟩ | ⟨_, h⟩ <;> cases h
  | @list t vt hd ih =>
    generalize hT : (Ty.list t).text = T at d₂
    cases d₂ with
    | list h => rw [ih _ h]
    | named _ _ hr => rcases hr with ⟨_, h⟩ | ⟨_, h⟩ | ⟨_, h⟩ <;> cases h
  | @map k v kt vt hk hkt hd ih =>
    generalize hT : (Ty.map k v).text = T at d₂
    cases d₂ with
    | map _ hk' h =>
      rw [ih _ h]
      rw [← keyTree_expr hkt, ← keyTree_expr hk']
    | named _ _ hr => rcases hr with ⟨_, h⟩ | ⟨_, h⟩ | ⟨_, h⟩ <;> cases h
  | @named n d vt hp _ hr =>
    cases d₂ with
    | omitted => rcases hr with ⟨_, h⟩ | ⟨_, h⟩ | ⟨_, h⟩ <;> cases h
    | scalar _ => rcases hr with ⟨_, h⟩ | ⟨_, h⟩ | ⟨_, h⟩ <;> cases h
    | list _ => rcases hr with ⟨_, h⟩ | ⟨_, h⟩ | ⟨_, h⟩ <;> cases h
    | map _ _ _ => rcases hr with ⟨_, h⟩ | ⟨_, h⟩ | ⟨_, h⟩ <;> cases h
    | named _ _ hr' =>
      rcases hr with ⟨_, rfl⟩ | ⟨_, rfl⟩ | ⟨_, rfl⟩ <;>
        rcases hr' with ⟨_, h⟩ | ⟨_, h⟩ | ⟨_, h⟩ <;> simp at h <;> simp [h.1]

/-- A nested expression, its text and its tree. -/
theorem C13_example :
    let _ := asciiOnly
    let t := Ty.map (S "Kind") (.list (.map (S "uint8") (.named (S "User"))))
    t.text = S "map<Kind,[]map<uint8,User>>" ∧
    parseExpr exTypes t.text =
      .ok (.map (S "map<Kind,[]map<uint8,User>>") (.enum (S "Kind") (S "Kind") ([], 1))
        (.list (S "[]map<uint8,User>")
          (.map (S "map<uint8,User>") (.leaf (S "uint8") .uint8)
            (.struct (S "User") (S "User") ([], 0))))) := by
  decide +kernel

/-! ## C14: normal form -/

/-- C14. Whatever parses, completely, is already in normal form: the text stored in the schema is
the text that was written. -/
theorem C14_normal_form [GoUnicode] (ts : List TypeDecl) (v v' : VarType)
    (h : varTypeParse ts (some v) = .ok v') (hr : v'.Resolved) :
    v'.expr = v.expr ∧ varTypeParse ts (some v') = .ok v' ∧
      ∃ t : Ty, t.Complete ∧ t.text = v.expr ∧ Denotes ts t v' := by
  simp only [varTypeParse, Res.bind_ok, Res.failIf_ok, decide_eq_false_iff_not, Res.ok.injEq] at h
  obtain ⟨_, hne, w, hw, rfl⟩ := h
  obtain ⟨t, hd, ht⟩ := parseExpr_iff.1 hw
  have hrw : w.Resolved := by cases w <;> first | trivial | simpa [VarType.setExpr, VarType.Resolved] using hr
  have hc := (denotes_resolved hd).1 hrw
  have hb := build_denotes hd hc
  have hs : w.setExpr (buildExpr w []) = w := by rw [hb, ← denotes_expr hd, setExpr_self]
  have hx : w.expr = v.expr := by rw [denotes_expr hd, ht]
  rw [hs]
  refine ⟨hx, ?_, t, hc, ht, hd⟩
  simp [varTypeParse, hx, hne, hw, hs]

/-- Writing `<unknown>` for an unresolved part somewhere in the text. -/
theorem build_unresolved (v : VarType) (h : ¬ v.Resolved) : S "<unknown>" <:+: buildExpr v [] := by
  induction v with
  | leaf e c =>
    simp [VarType.Resolved] at h; subst h
    exact List.infix_refl _
  | list e t ih =>
    have := ih h
    simp only [buildExpr, List.nil_append]
    exact this.trans (List.suffix_append _ _).isInfix
  | map e k v _ ih =>
    have := ih h
    simp only [buildExpr, List.nil_append]
    obtain ⟨a, b, hab⟩ := this
    exact ⟨S "map<" ++ k.expr ++ S "," ++ a, b ++ S ">", by simp [← hab]⟩
  | struct | enum | alias => simp [VarType.Resolved] at h

/-- C14 is false of the code when an element type is left out: such an expression is accepted,
and what is stored contains `<unknown>`... -/
theorem C14_omitted_part [GoUnicode] (ts : List TypeDecl) (v v' : VarType)
    (h : varTypeParse ts (some v) = .ok v') (hr : ¬ v'.Resolved) : S "<unknown>" <:+: v'.expr := by
  simp only [varTypeParse, Res.bind_ok, Res.failIf_ok, decide_eq_false_iff_not, Res.ok.injEq] at h
  obtain ⟨_, hne, w, hw, rfl⟩ := h
  have he : (w.setExpr (buildExpr w [])).expr = buildExpr w [] := by cases w <;> rfl
  rw [he]
  apply build_unresolved
  intro hw; apply hr
  cases w <;> first | trivial | simpa [VarType.setExpr, VarType.Resolved] using hw

/-- ... so that `[]` and `map<string,>` are accepted, stored as `[]<unknown>` and
`map<string,<unknown>>`, and rejected when validated again. -/
theorem C14_omitted_example :
    let _ := asciiOnly
    varTypeParse exTypes (some (.leaf (S "[]") .unknown)) =
      .ok (.list (S "[]<unknown>") (.leaf [] .unknown)) ∧
    varTypeParse exTypes (some (.list (S "[]<unknown>") (.leaf [] .unknown))) = .err .invalidType ∧
    varTypeParse exTypes (some (.leaf (S "map<string,>") .unknown)) =
      .ok (.map (S "map<string,<unknown>>") (.leaf (S "string") .string) (.leaf [] .unknown)) := by
  decide +kernel

/-! ## C15: map keys -/

/-- Every map in the tree, at any depth, has a key satisfying `p`. -/
def AllKeys (p : VarType → Prop) : VarType → Prop
  | .list _ t => AllKeys p t
  | .map _ k v => p k ∧ AllKeys p v
  | _ => True

/-- C15. In a parsed type every map, at any depth, is keyed by a string or integer core type, or by
a name that (ignoring case) is the first declaration of an enum or of an alias for an enum. -/
theorem C15_key_allowed [GoUnicode] (ts : List TypeDecl) (e : Str) (vt : VarType)
    (h : parseExpr ts e = .ok vt) : AllKeys (fun k => KeyTree ts k.expr k) vt := by
  obtain ⟨t, hd, -⟩ := parseExpr_iff.1 h
  induction hd generalizing e with
  | omitted | scalar _ => trivial
  | @list t vt hd ih => exact ih _ (parseExpr_iff.2 ⟨_, hd, rfl⟩)
  | @map k v kt vt _ hk hd ih =>
    refine ⟨?_, ih _ (parseExpr_iff.2 ⟨_, hd, rfl⟩)⟩
    show KeyTree ts kt.expr kt
    rw [keyTree_expr hk]; exact hk
  | named _ _ hr => rcases hr with ⟨_, rfl⟩ | ⟨_, rfl⟩ | ⟨_, rfl⟩ <;> trivial

/-- The key is (ignoring case) a declared type that is not an enum and has no underlying type:
a struct. -/
def StructKey [GoUnicode] (ts : List TypeDecl) (k : Str) : Prop :=
  k ∉ reserved ∧ ∃ d, FirstDecl ts (fun d => toLower d.name = toLower k) d ∧
    d.kind ≠ S "enum" ∧ d.type = none

theorem parseMapKey_panic [GoUnicode] {ts : List TypeDecl} {k : Str} :
    parseMapKey ts k = .panic ↔ StructKey ts k := by
  unfold parseMapKey StructKey
  cases hc : coreFromString k with
  | some c =>
    have hr : k ∈ reserved := core_table_reserved _ (coreFromString_some.1 hc)
    cases hv : isValidVarKeyType k <;> simp [hr, Res.failIf, Bind.bind, Res.bind]
  | none =>
    have hr := coreFromString_none.1 hc
    simp only [hr, not_false_iff, true_and, ← getTypeByName_iff]
    cases hg : getTypeByName ts k with
    | none => simp
    | some d =>
      simp only [Option.some.injEq, exists_eq_left']
      by_cases he : d.kind = S "enum"
      · simp [he]
      · cases ht : d.type with
        | none => simp [he]
        | some u => by_cases hu : u.type = .enum <;> simp [he, hu]

/-- C15 (partial: see `C15_struct_key_crashes`).  A map expression whose key is neither allowed nor
the name of a struct is reported as an error. -/
theorem C15_other_key_rejected_partial [GoUnicode] (ts : List TypeDecl) (k v : Str) (hk : ',' ∉ k)
    (hno : ∀ kt, ¬ KeyTree ts k kt) (hs : ¬ StructKey ts k) :
    ∃ err, parseExpr ts (S "map<" ++ k ++ S "," ++ v ++ S ">") = .err err := by
  have hne : (S "map<" ++ k ++ S "," ++ v ++ S ">") ≠ [] := by simp [S]
  have ht : exprType (S "map<" ++ k ++ S "," ++ v ++ S ">") = .map := by
    have : S "map<" ++ k ++ S "," ++ v ++ S ">" = S "map<" ++ (k ++ S "," ++ v ++ S ">") := by simp
    rw [this]; exact exprType_map
  have hm := (parseMapExpr_iff (e := S "map<" ++ k ++ S "," ++ v ++ S ">") (k := k) (v := v)).2 ⟨hk, rfl⟩
  simp only [parseExpr, parseExprN, hne, if_false, ht, hm, Res.ok_bind]
  cases hp : parseMapKey ts k with
  | ok kt => exact absurd (parseMapKey_iff.1 hp) (hno kt)
  | err e => exact ⟨e, rfl⟩
  | panic => exact absurd (parseMapKey_panic.1 hp) hs
  | fuel =>
    exfalso
    unfold parseMapKey at hp
    split at hp
    · cases hv : isValidVarKeyType k <;> simp [hv, Res.failIf, Bind.bind, Res.bind] at hp
    · split at hp
      · simp at hp
      · split at hp
        · split at hp
          · simp at hp
          · split at hp <;> simp at hp
        · simp at hp

/-- C15 is false of the code for struct keys: the process crashes instead of reporting an error. -/
theorem C15_struct_key_crashes [GoUnicode] (ts : List TypeDecl) (k v : Str) (hk : ',' ∉ k)
    (hs : StructKey ts k) : parseExpr ts (S "map<" ++ k ++ S "," ++ v ++ S ">") = .panic := by
  have hne : (S "map<" ++ k ++ S "," ++ v ++ S ">") ≠ [] := by simp [S]
  have ht : exprType (S "map<" ++ k ++ S "," ++ v ++ S ">") = .map := by
    have : S "map<" ++ k ++ S "," ++ v ++ S ">" = S "map<" ++ (k ++ S "," ++ v ++ S ">") := by simp
    rw [this]; exact exprType_map
  have hm := (parseMapExpr_iff (e := S "map<" ++ k ++ S "," ++ v ++ S ">") (k := k) (v := v)).2 ⟨hk, rfl⟩
  simp only [parseExpr, parseExprN, hne, if_false, ht, hm, Res.ok_bind, parseMapKey_panic.2 hs]
  rfl

/-- C15. A struct key is the only thing in a type expression that can crash the process. -/
theorem C15_only_crash [GoUnicode] (ts : List TypeDecl) (e : Str) (h : parseExpr ts e = .panic) :
    ∃ k, StructKey ts k ∧ S "map<" ++ k ++ S "," <:+: e := by
  unfold parseExpr at h
  generalize e.length + 1 = n at h
  have hb : ∀ {α β : Type} {r : Res α} {f : α → Res β}, (r >>= f) = .panic →
      r = .panic ∨ ∃ a, r = .ok a ∧ f a = .panic := by
    intro α β r f h; cases r <;> simp [Bind.bind, Res.bind] at h ⊢; exact h
  induction n generalizing e with
  | zero => simp [parseExprN] at h
  | succ n ih =>
    by_cases he : e = []
    · simp [parseExprN, he] at h
    · simp only [parseExprN, he, if_false] at h
      rcases exprType_cases he with ⟨ht, x, rfl⟩ | ⟨ht, hx⟩ | ⟨ht, hp⟩ | ⟨c, hc, ht⟩
      · simp only [ht, isListExpr_iff.2 ⟨x, rfl⟩, if_true] at h
        rcases hb h with h1 | ⟨a, _, h2⟩
        · rw [show (S "[]" ++ x).drop 2 = x by simp [S]] at h1
          obtain ⟨k, hk, hi⟩ := ih _ h1
          exact ⟨k, hk, hi.trans (List.suffix_append _ _).isInfix⟩
        · simp at h2
      · simp only [ht] at h
        rcases hb h with h1 | ⟨⟨k, v⟩, h1, h2⟩
        · exfalso
          unfold parseMapExpr at h1
          have ff : ∀ b e, Res.failIf b e ≠ .panic := by intro b e; cases b <;> simp [Res.failIf]
          rcases hb h1 with h1 | ⟨_, _, h1⟩
          · exact ff _ _ h1
          rcases hb h1 with h1 | ⟨_, _, h1⟩
          · exact ff _ _ h1
          rcases hb h1 with h1 | ⟨_, _, h1⟩
          · exact ff _ _ h1
          dsimp only at h1
          split at h1 <;> simp at h1
        · obtain ⟨_, rfl⟩ := parseMapExpr_iff.1 h1
          rcases hb h2 with h2 | ⟨kt, _, h2⟩
          · refine ⟨k, parseMapKey_panic.1 h2, ?_⟩
            exact ⟨[], v ++ S ">", by simp⟩
          · rcases hb h2 with h3 | ⟨_, _, h3⟩
            · obtain ⟨k', hk', hi⟩ := ih _ h3
              refine ⟨k', hk', hi.trans ?_⟩
              exact ⟨S "map<" ++ k ++ S ",", S ">", rfl⟩
            · simp at h3
      · simp only [ht, parseRef] at h
        split at h
        · simp at h
        · split at h
          · simp at h
          · split at h
            · simp at h
            · split at h <;> simp at h
      · have hk := scalar_kind _ hc
        rw [ht] at h
        cases c <;> first | (simp at hk; done) | simp at h

/-- Keys in practice: an enum, an alias of an enum (accepted), an alias of a string (rejected),
`bool` (rejected), a struct (crash). -/
theorem C15_example :
    let _ := asciiOnly
    (parseExpr exTypes (S "map<Kind,string>") =
      .ok (.map (S "map<Kind,string>") (.enum (S "Kind") (S "Kind") ([], 1)) (.leaf (S "string") .string))) ∧
    (parseExpr exTypes (S "map<K2,string>") =
      .ok (.map (S "map<K2,string>") (.enum (S "K2") (S "K2") ([], 3)) (.leaf (S "string") .string))) ∧
    parseExpr exTypes (S "map<ID,string>") = .err .mapKey ∧
    parseExpr exTypes (S "map<bool,string>") = .err .mapKey ∧
    parseExpr exTypes (S "map<User,string>") = .panic := by
  decide +kernel

/-! ## C16: references -/

/-- The references to declared types in value position of a tree: name, kind, pointer. -/
def valueRefs : VarType → List (Str × Str × Ptr)
  | .leaf _ _ => []
  | .list _ t => valueRefs t
  | .map _ _ v => valueRefs v
  | .struct _ n p => [(n, S "struct", p)]
  | .enum _ n p => [(n, S "enum", p)]
  | .alias _ n p => [(n, S "alias", p)]

/-- C16. Every name in a parsed type expression (outside map keys) is that of a declared type; the
tree points to the first declaration of exactly that name and has that declaration's kind. -/
theorem C16_refs_resolve [GoUnicode] (ts : List TypeDecl) (e : Str) (vt : VarType)
    (h : parseExpr ts e = .ok vt) (n kind : Str) (p : Ptr) (hm : (n, kind, p) ∈ valueRefs vt) :
    ∃ d, FirstDecl ts (fun d => d.name = n) d ∧ d.kind = kind ∧ d.ptr = p := by
  obtain ⟨t, hd, -⟩ := parseExpr_iff.1 h
  induction hd generalizing e with
  | omitted | scalar _ => simp [valueRefs] at hm
  | list hd ih => exact ih _ (parseExpr_iff.2 ⟨_, hd, rfl⟩) hm
  | map _ _ hd ih => exact ih _ (parseExpr_iff.2 ⟨_, hd, rfl⟩) hm
  | named _ hf hr =>
    rcases hr with ⟨hk, rfl⟩ | ⟨hk, rfl⟩ | ⟨hk, rfl⟩ <;>
    · simp [valueRefs] at hm
      obtain ⟨rfl, rfl, rfl⟩ := hm
      exact ⟨_, hf, hk, rfl⟩

/-- C16. A name that no declaration carries is rejected, wherever it stands alone. -/
theorem C16_undeclared_rejected [GoUnicode] (ts : List TypeDecl) (n : Str) (hp : Plain n)
    (hn : ∀ d ∈ ts, d.name ≠ n) : parseExpr ts n = .err .invalidType := by
  have hg : getType ts n = none := by
    simp only [getType, List.find?_eq_none, decide_eq_true_eq]
    intro d hd he; exact hn d hd he.symm
  simp [parseExpr, parseExprN, hp.1, exprType_plain hp, parseRef, hg]

/-- C16, map keys: the name is matched ignoring case, unlike everywhere else, so `map<kind,User>`
is accepted although no type is called `kind`, while `kind` and `[]kind` are rejected. -/
theorem C16_key_case :
    let _ := asciiOnly
    parseExpr exTypes (S "map<kind,User>") =
      .ok (.map (S "map<kind,User>") (.enum (S "kind") (S "kind") ([], 1))
        (.struct (S "User") (S "User") ([], 0))) ∧
    parseExpr exTypes (S "kind") = .err .invalidType ∧
    parseExpr exTypes (S "[]kind") = .err .invalidType := by
  decide +kernel

end Verif.Props
