import Verif.Compile.Ids
import Verif.Spec.Declarations
/-! Declarations of a file and the objects they become. -/

namespace Verif.Compile
open Verif.Schema Verif.Spec
open Verif.Ridl hiding Str

variable [GoUnicode]

omit [GoUnicode] in
theorem _root_.Verif.Schema.Pointwise.comp {α β γ : Type} {R : α → β → Prop} {Q : β → γ → Prop} {W : α → γ → Prop}
    {xs : List α} {ys : List β} {zs : List γ} (h : Pointwise R xs ys) (h' : Pointwise Q ys zs)
    (hi : ∀ x y z, R x y → Q y z → W x z) : Pointwise W xs zs := by
  induction h generalizing zs with
  | nil => cases h'; exact .nil
  | cons hr _ ih =>
    cases h' with
    | cons hq hqs => exact .cons (hi _ _ _ hr hq) (ih hqs)

/-- The imported objects come from other files. -/
theorem merged_owned {fs : Files} {path : Str} {ns : List Node} {s0 : Schema} {ps : List (ImportNode × Schema)}
    (h1 : readNodes fs path = .ok ns) (h2 : foldRes applyDef {} (definitions ns) = .ok s0)
    (h3 : ps.map Prod.fst = imports ns) (h4 : ∀ p ∈ ps, Compiled fs (importPath path p.1) p.2) :
    Owned (fun f => f ≠ path) (mergeAll s0 ps) := by
  obtain ⟨e1, e2, e3⟩ := defs_empty h2
  refine owned_merge ⟨by simp [e1], by simp [e2], by simp [e1], by simp [e2], by simp [e3]⟩ ?_
  intro p hp
  have ho := compiled_owned (h4 p hp)
  have hi : Imports fs path (importPath path p.1) := ⟨ns, h1, p.1, by rw [← h3]; exact List.mem_map_of_mem hp, rfl⟩
  have hacc := compiled_acc (h4 p hp)
  have hr : ∀ f, Reach (Imports fs) (importPath path p.1) f → f ≠ path := by
    rintro f hf rfl
    have : Path (Imports fs) (importPath f p.1) (importPath f p.1) := by
      rcases hf with hf | hf
      · have := Path.edge hi
        rw [← hf] at this
        rw [hf] at this ⊢
        exact .edge (by rw [← hf]; rw [hf]; rw [hf] at hi; exact hi)
      · exact Path.snoc hf hi
    exact acc_no_cycle hacc this
  exact ⟨fun t ht => hr _ (ho.typesFrom t ht), fun t ht => hr _ (ho.errorsFrom t ht),
    fun t ht => hr _ (ho.servicesFrom t ht)⟩

omit [GoUnicode] in
/-- The three kinds of declared types. -/
theorem declaredTypes_split (path : Str) (ns : List Node) :
    ∃ A E T, declaredTypes path ns = A ++ E ++ T ∧
      Pointwise (fun (n : AliasNode) d => d.kind = S "alias" ∧ d.name = n.name.val ∧ d.type = none ∧ d.fields = [] ∧
        d.metas = [] ∧ d.comments = parseComment n.comment) (aliases ns) A ∧
      Pointwise (fun (n : EnumNode) d => d.kind = S "enum" ∧ d.name = n.name.val ∧ d.type = none ∧ d.fields = [] ∧
        d.metas = [] ∧ d.comments = []) (enums ns) E ∧
      Pointwise (fun (n : StructNode) d => d.kind = S "struct" ∧ d.name = n.name.val ∧ d.type = none ∧ d.fields = [] ∧
        d.metas = [] ∧ d.comments = parseComment n.comment) (structs ns) T := by
  have key : ∀ {α : Type} (R : α → TypeDecl → Prop) (mk : α → Ptr → TypeDecl) (k : Nat) (xs : List α),
      (∀ x p, R x (mk x p)) → Pointwise R xs ((xs.map mk).mapIdx fun i m => m (path, i + k)) := by
    intro α R mk k xs h
    induction xs generalizing k with
    | nil => exact .nil
    | cons x xs ih =>
      simp only [List.map_cons, List.mapIdx_cons]
      refine .cons (h _ _) ?_
      have := ih (k + 1)
      simpa [Nat.add_assoc, Nat.add_comm 1 k] using this
  unfold declaredTypes
  dsimp only
  rw [List.mapIdx_append, List.mapIdx_append]
  refine ⟨_, _, _, rfl, key _ _ 0 _ ?_, key _ _ _ _ ?_, key _ _ _ _ ?_⟩ <;> intro x p <;>
    exact ⟨rfl, rfl, rfl, rfl, rfl, rfl⟩

omit [GoUnicode] in
theorem declaredServices_split (path : Str) (ns : List Node) :
    Pointwise (fun (n : ServiceNode) v => v.name = n.name.val ∧ v.comments = parseComment n.comment)
      (services ns) (declaredServices path ns) := by
  have key : ∀ (k : Nat) (xs : List ServiceNode),
      Pointwise (fun (n : ServiceNode) (v : Service) => v.name = n.name.val ∧ v.comments = parseComment n.comment) xs
        (xs.mapIdx fun i n => { ptr := (path, i + k), name := n.name.val, comments := parseComment n.comment }) := by
    intro k xs
    induction xs generalizing k with
    | nil => exact .nil
    | cons x xs ih =>
      simp only [List.mapIdx_cons]
      refine .cons ⟨rfl, rfl⟩ ?_
      have := ih (k + 1)
      simpa [Nat.add_assoc, Nat.add_comm 1 k] using this
  exact key 0 _

/-- Different names, ignoring case. -/
abbrev NamesDiffer (l : List TypeDecl) : Prop := l.Pairwise fun a b => toLower a.name ≠ toLower b.name

theorem namesDiffer_ident {l l' : List TypeDecl} (h : l.map TypeDecl.ident = l'.map TypeDecl.ident)
    (hl : NamesDiffer l) : NamesDiffer l' := by
  have : (l.map TypeDecl.ident).Pairwise fun a b => toLower a.2.2 ≠ toLower b.2.2 := by
    rw [List.pairwise_map]; exact hl
  rw [h, List.pairwise_map] at this
  exact this

/-- A validated schema of different objects has different names. -/
theorem namesDiffer_of_valid {s s' : Schema} (h : validate s = .ok s') (hn : (s.types.map (·.ptr)).Nodup) :
    NamesDiffer s.types := by
  obtain ⟨-, -, b, ts, es, ss, -, hts, -, -, rfl⟩ := validate_ok.1 h
  rw [List.nodup_iff_pairwise_ne, List.pairwise_map] at hn
  refine List.Pairwise.imp_of_mem ?_ hn
  intro a b ha hb hab
  obtain ⟨y, _, hy⟩ := hts.mem_left ha
  exact (typeParse_ok hy).2.2.1 b hb (Ne.symm hab)

theorem namesDiffer_split {a b c : List TypeDecl} (h : NamesDiffer (a ++ b ++ c)) :
    (∀ x ∈ a, ∀ y ∈ b, toLower x.name ≠ toLower y.name) ∧ NamesDiffer b := by
  unfold NamesDiffer at h
  rw [List.pairwise_append, List.pairwise_append] at h
  exact ⟨h.1.2.2, h.1.2.1⟩

omit [GoUnicode] in
theorem Zip3.left {α β γ : Type} {R : α → β → γ → Prop} {Q : α → β → Prop} {W : α → γ → Prop} {xs : List α}
    {ys : List β} {zs : List γ} (h : Zip3 R xs ys zs) (hq : Pointwise Q xs ys)
    (hi : ∀ x y z, Q x y → R x y z → W x z) : Pointwise W xs zs := by
  induction h with
  | nil => exact .nil
  | cons hr _ ih =>
    cases hq with
    | cons hq1 hq2 => exact .cons (hi _ _ _ hq1 hr) (ih hq2)

/-- The types after `declare`, the names being different. -/
theorem declare_types {path : Str} {ns : List Node} {m s1 : Schema} (h : declare path ns m = .ok s1)
    (hd : NamesDiffer s1.types) :
    ∃ A E T, s1.types = m.types ++ A ++ E ++ T ∧
      Pointwise (fun (n : AliasNode) d => d.kind = S "alias" ∧ d.name = n.name.val ∧ d.fields = [] ∧
        d.metas = n.metas.map metaOf ∧ d.comments = parseComment n.comment ∧
        ∃ vt, d.type = some vt ∧ parseExpr s1.types n.aliasType.val = .ok vt) (aliases ns) A ∧
      Pointwise (fun (n : EnumNode) d => d.kind = S "enum" ∧ d.name = n.name.val ∧
        d.metas = [] ∧ d.comments = [] ∧ ∃ vt, d.type = some vt ∧ parseExpr s1.types n.enumType.val = .ok vt ∧
          d.fields = n.values.mapIdx (enumField vt)) (enums ns) E ∧
      Pointwise (fun (n : StructNode) d => d.kind = S "struct" ∧ d.name = n.name.val ∧ d.type = none ∧
        d.metas = [] ∧ d.comments = parseComment n.comment ∧
        ∃ ts, LeList ts s1.types ∧ Res.each (makeField ts) n.fields = .ok d.fields) (structs ns) T := by
  have hids := (declare_ids h).2.1
  obtain ⟨sa, sb, es, sc, h1, h2, h3, h4, h5⟩ := declare_steps h
  obtain ⟨A0, E0, T0, hsplit, hA, hE, hT⟩ := declaredTypes_split path ns
  have e1 := foldRes_inv (g := typeFrame) (fun _ _ _ => alias_frame) h1
  have e2 := foldRes_inv (g := typeFrame) (fun _ _ _ => enum_frame) h2
  have e5 := foldRes_inv (g := serviceFrame) (fun _ _ _ => service_frame) h5
  have hfin : s1.types = sc.types := (noServices_eq (congrArg Prod.fst e5)).2.2.2.2.1
  have e1' := congrArg Prod.snd e1
  have e2' := congrArg Prod.snd e2
  simp only [typeFrame] at e1' e2'
  -- aliases
  have t0 : (declared path ns m).types = m.types ++ A0 ++ (E0 ++ T0) := by
    simp [declared, hsplit]
  have n0 : NamesDiffer (m.types ++ A0 ++ (E0 ++ T0)) := by
    rw [← t0]; exact namesDiffer_ident hids hd
  obtain ⟨g1, A1, ta, zA⟩ := stage (get := Schema.types) (rest := noTypes) (nm := fun n : AliasNode => n.name.val)
    (nameOf := TypeDecl.name) (P := fun d => d.type = none) (L := Le) (R := fun t n d d' => AliasR t.types n d d')
    Le.refl (fun a b hab => hab.2.2.1)
    (fun s x s' hs => by
      obtain ⟨q1, f, q2, _, q3⟩ := resolveAlias_ok hs
      exact ⟨q1, f, q2, q3⟩)
    (aliases ns) _ sa m.types A0 (E0 ++ T0) t0 (hA.imp fun _ _ q => q.2.1.symm)
    (fun d hd => by obtain ⟨x, _, q⟩ := hA.mem_right hd; exact q.2.2.1)
    (namesDiffer_split n0).1 (namesDiffer_split n0).2 h1
  -- enums
  have tb0 : sa.types = (m.types ++ A1) ++ E0 ++ T0 := by simp [ta]
  have n1 : NamesDiffer ((m.types ++ A1) ++ E0 ++ T0) := by
    rw [← tb0]; exact namesDiffer_ident (by rw [e1']; rfl) (namesDiffer_ident hids hd)
  obtain ⟨g2, E1, tb, zE⟩ := stage (get := Schema.types) (rest := noTypes) (nm := fun n : EnumNode => n.name.val)
    (nameOf := TypeDecl.name) (P := fun d => d.type = none) (L := Le) (R := fun t n d d' => EnumR t.types n d d')
    Le.refl (fun a b hab => hab.2.2.1)
    (fun s x s' hs => by
      obtain ⟨q1, f, q2, _, q3⟩ := resolveEnum_ok hs
      exact ⟨q1, f, q2, q3⟩)
    (enums ns) _ sb (m.types ++ A1) E0 T0 tb0 (hE.imp fun _ _ q => q.2.1.symm)
    (fun d hd => by obtain ⟨x, _, q⟩ := hE.mem_right hd; exact q.2.2.1)
    (namesDiffer_split n1).1 (namesDiffer_split n1).2 h2
  -- structs
  have tc0 : ({ sb with errors := sb.errors ++ es } : Schema).types = (m.types ++ A1 ++ E1) ++ T0 ++ [] := by
    simp [tb]
  have n2 : NamesDiffer ((m.types ++ A1 ++ E1) ++ T0 ++ []) := by
    rw [← tc0]
    exact namesDiffer_ident (by show _ = sb.types.map _; rw [e2', e1']; rfl) (namesDiffer_ident hids hd)
  obtain ⟨g3, T1, tc, zT⟩ := stage (get := Schema.types) (rest := noTypes) (nm := fun n : StructNode => n.name.val)
    (nameOf := TypeDecl.name) (P := fun _ => True) (L := Le) (R := fun t n d d' => StructR t.types n d d')
    Le.refl (fun a b hab => hab.2.2.1)
    (fun s x s' hs => by
      obtain ⟨q1, f, q2, _, q3⟩ := resolveStruct_ok hs
      exact ⟨q1, f, q2, q3⟩)
    (structs ns) _ sc (m.types ++ A1 ++ E1) T0 [] tc0 (hT.imp fun _ _ q => q.2.1.symm)
    (fun _ _ => trivial)
    (namesDiffer_split n2).1 (namesDiffer_split n2).2 h4
  have lT : LeList T0 T1 := zT.right fun _ _ _ q => q.1
  have lE : LeList E0 E1 := zE.right fun _ _ _ q => q.1
  have lb : LeList sb.types s1.types := by
    rw [hfin, tb, tc]
    have := (LeList.refl (m.types ++ A1 ++ E1)).append lT
    simpa using this
  have la : LeList sa.types s1.types := by
    rw [hfin, tb0, tc]
    have := ((LeList.refl (m.types ++ A1)).append lE).append lT
    simpa using this
  refine ⟨A1, E1, T1, by rw [hfin, tc]; simp, ?_, ?_, ?_⟩
  · refine zA.left hA ?_
    rintro n d d' ⟨q1, q2, q3, q4, q5, q6⟩ ⟨hle, t, -, ht, vt, hp, rfl⟩
    refine ⟨q1, q2, q4, by simp [q5], q6, vt, rfl, ?_⟩
    exact parseExpr_le (LeList.trans ht la) hp
  · refine zE.left hE ?_
    rintro n d d' ⟨q1, q2, q3, q4, q5, q6⟩ ⟨hle, t, -, ht, vt, hp, rfl⟩
    refine ⟨q1, q2, q5, q6, vt, rfl, ?_, by simp [q4]⟩
    exact parseExpr_le (LeList.trans ht lb) hp
  · refine zT.left hT ?_
    rintro n d d' ⟨q1, q2, q3, q4, q5, q6⟩ ⟨hle, t, -, ht, fs, hp, rfl⟩
    refine ⟨q1, q2, q3, q5, q6, t.types, ?_, by simpa [q4] using hp⟩
    rw [hfin]; exact ht

/-- The services after `declare`, the names of the declared ones being different from all others. -/
theorem declare_services {path : Str} {ns : List Node} {m s1 : Schema} (h : declare path ns m = .ok s1)
    (hd : ∀ e ∈ m.services, ∀ d ∈ declaredServices path ns, toLower e.name ≠ toLower d.name)
    (hp : (declaredServices path ns).Pairwise fun a b => toLower a.name ≠ toLower b.name) :
    ∃ V, s1.services = m.services ++ V ∧
      Pointwise (fun (n : ServiceNode) (v : Service) => v.name = n.name.val ∧ v.comments = parseComment n.comment ∧
        Res.each (makeMethod s1.types) n.methods = .ok v.methods) (services ns) V := by
  obtain ⟨sa, sb, es, sc, h1, h2, h3, h4, h5⟩ := declare_steps h
  have e1 := foldRes_inv (g := typeFrame) (fun _ _ _ => alias_frame) h1
  have e2 := foldRes_inv (g := typeFrame) (fun _ _ _ => enum_frame) h2
  have e4 := foldRes_inv (g := typeFrame) (fun _ _ _ => struct_frame) h4
  have e5 := foldRes_inv (g := serviceFrame) (fun _ _ _ => service_frame) h5
  have hfin : s1.types = sc.types := (noServices_eq (congrArg Prod.fst e5)).2.2.2.2.1
  have hs : sc.services = m.services ++ declaredServices path ns ++ [] := by
    have a := (noTypes_eq (congrArg Prod.fst e4)).2.2.2.2.2.1
    have b := (noTypes_eq (congrArg Prod.fst e2)).2.2.2.2.2.1
    have c := (noTypes_eq (congrArg Prod.fst e1)).2.2.2.2.2.1
    rw [a, List.append_nil]
    exact b.trans c
  have hV := declaredServices_split path ns
  obtain ⟨g1, V, tv, z⟩ := stage (get := Schema.services) (rest := noServices) (nm := fun n : ServiceNode => n.name.val)
    (nameOf := Service.name) (P := fun _ => True) (L := SvcLe) (R := fun t n d d' => ServiceR t.types n d d')
    (fun _ => ⟨rfl, rfl⟩) (fun a b hab => hab.2)
    (fun s x s' hs => by
      obtain ⟨q1, f, q2, _, q3⟩ := resolveService_ok hs
      exact ⟨q1, f, q2, q3⟩)
    (services ns) _ s1 m.services (declaredServices path ns) [] hs (hV.imp fun _ _ q => q.1.symm)
    (fun _ _ => trivial) hd hp h5
  refine ⟨V, by simpa using tv, ?_⟩
  refine z.left hV ?_
  rintro n d d' ⟨q1, q2⟩ ⟨hle, t, ht, -, ms, hm, rfl⟩
  refine ⟨q1, q2, ?_⟩
  have : t.types = sc.types := (noServices_eq ht).2.2.2.2.1
  rw [hfin, ← this]; exact hm

/-! ### Through validation -/

/-- A tree parsed from a text, and parsed again by `Validate`. -/
theorem treeOf_valid {ts ts' : List TypeDecl} {text : Str} {vt vt' : VarType} (h : parseExpr ts text = .ok vt)
    (h' : varTypeParse ts' (some vt) = .ok vt') : TreeOf ts' text (some vt') := by
  obtain ⟨t0, hd0, he0⟩ := parseExpr_iff.1 h
  have hx : vt.expr = text := by rw [denotes_expr hd0, he0]
  simp only [varTypeParse, Res.bind_ok, Res.failIf_ok, Res.ok.injEq] at h'
  obtain ⟨_, _, u, h1, rfl⟩ := h'
  rw [hx] at h1
  obtain ⟨t, hd, he⟩ := parseExpr_iff.1 h1
  refine ⟨t, u, _, he, hd, rfl, ?_⟩
  intro hc
  rw [build_denotes hd hc, ← denotes_expr hd, setExpr_self]

theorem denotes_sig {ts ts' : List TypeDecl} (h : ts.map TypeDecl.sig = ts'.map TypeDecl.sig) {t : Ty} {vt : VarType}
    (hd : Denotes ts t vt) : ∃ t', t'.text = t.text ∧ Denotes ts' t' vt ∧ (t'.Complete ↔ t.Complete) := by
  have hp : parseExpr ts t.text = .ok vt := parseExpr_iff.2 ⟨t, hd, rfl⟩
  rw [parseExpr_sig h] at hp
  obtain ⟨t', hd', he⟩ := parseExpr_iff.1 hp
  exact ⟨t', he, hd', (denotes_resolved hd').symm.trans (denotes_resolved hd)⟩

theorem treeOf_sig {ts ts' : List TypeDecl} (h : ts.map TypeDecl.sig = ts'.map TypeDecl.sig) {text : Str}
    {o : Option VarType} (ht : TreeOf ts text o) : TreeOf ts' text o := by
  obtain ⟨t, vt, vt', rfl, hd, rfl, hc⟩ := ht
  obtain ⟨t', h1, h2, h3⟩ := denotes_sig h hd
  exact ⟨t', vt, vt', h1, h2, rfl, fun c => hc (h3.1 c)⟩

omit [GoUnicode] in
theorem mapSet_lookup {β : Type} (k : Str) (v : β) (m : List (Str × β)) (k' : Str) :
    (mapSet k v m).lookup k' = if k' = k then some v else m.lookup k' := by
  induction m with
  | nil =>
    by_cases h : k' = k
    · simp [mapSet, h]
    · have : (k' == k) = false := by simpa using h
      simp [mapSet, List.lookup_cons, this, h]
  | cons a m ih =>
    obtain ⟨a1, a2⟩ := a
    simp only [mapSet]
    by_cases h1 : a1 = k
    · subst h1
      simp only [if_true, List.lookup_cons]
      by_cases h : k' = a1
      · simp [h]
      · have : (k' == a1) = false := by simpa using h
        simp [this, h]
    · rw [if_neg h1]
      simp only [List.lookup_cons, ih]
      by_cases h : k' = a1
      · subst h
        simp [h1]
      · have : (k' == a1) = false := by simpa using h
        simp [this]

omit [GoUnicode] in
/-- The last annotation of a name counts. -/
theorem buildAnnotations_lookup (anns : List AnnNode) (k : Str) :
    (buildAnnotations anns).lookup k = ((anns.filter fun a => a.annType.val = k).getLast?).map
      fun a => { annotationType := k, value := textOf a.value } := by
  unfold buildAnnotations
  have key : ∀ (m : List (Str × Annotation)), (anns.foldl (fun m a =>
      mapSet a.annType.val { annotationType := a.annType.val, value := textOf a.value } m) m).lookup k =
      (((anns.filter fun a => a.annType.val = k).getLast?).map
        fun a => ({ annotationType := k, value := textOf a.value } : Annotation)).or (m.lookup k) := by
    induction anns with
    | nil => intro m; simp
    | cons a anns ih =>
      intro m
      simp only [List.foldl_cons, ih, mapSet_lookup]
      by_cases h : a.annType.val = k
      · have h' : k = a.annType.val := h.symm
        rw [if_pos h', List.filter_cons_of_pos (by simpa using h)]
        cases hl : (anns.filter fun a => decide (a.annType.val = k)).getLast? with
        | none =>
          rw [List.getLast?_eq_none_iff] at hl
          rw [hl]; simp [h]
        | some x =>
          have : (a :: anns.filter fun a => decide (a.annType.val = k)).getLast? = some x := by
            rw [List.getLast?_cons, hl]; rfl
          rw [this]; simp
      · rw [if_neg (fun e => h e.symm), List.filter_cons_of_neg (by simpa using h)]
  simpa using key []

theorem arg_means {ts ts' : List TypeDecl} {v : ArgNode} {a a' : Argument} (h : makeArg ts v = .ok a)
    (h' : argParse ts' a = .ok a') : ArgMeans ts' v a' := by
  simp only [makeArg, Res.bind_ok, orErr_ok, Res.ok.injEq] at h
  obtain ⟨vt, h1, rfl⟩ := h
  obtain ⟨-, u, h2, rfl⟩ := argParse_ok.1 h'
  exact ⟨rfl, rfl, treeOf_valid h1 h2⟩

theorem find_sig_name {ts ts' : List TypeDecl} (h : ts.map TypeDecl.sig = ts'.map TypeDecl.sig) {n : Str}
    {d : TypeDecl} (hd : getTypeByName ts n = some d) : ∃ d', getTypeByName ts' n = some d' ∧ d'.sig = d.sig := by
  have := find_sig h (p := fun t => decide (toLower t.name = toLower n)) (by
    intro a b hab
    simp only [TypeDecl.sig, Prod.mk.injEq] at hab
    rw [hab.2.2.1])
  unfold getTypeByName at hd ⊢
  rw [hd] at this
  cases hq : ts'.find? fun t => decide (toLower t.name = toLower n) with
  | none => rw [hq] at this; simp at this
  | some d' => rw [hq] at this; simp at this; exact ⟨d', rfl, this.symm⟩

theorem succinct_means {ts ts' : List TypeDecl} (hsig : ts.map TypeDecl.sig = ts'.map TypeDecl.sig) {n : Str}
    {a a' : Argument} (h : succinctArg ts n = .ok a) (h' : argParse ts' a = .ok a') : SuccinctMeans ts' n a' := by
  unfold succinctArg at h
  split at h
  · simp at h
  · next d hd =>
    simp only [Res.bind_ok, Res.failIf_ok, orErr_ok, Res.ok.injEq] at h
    obtain ⟨_, hk, vt, h1, rfl⟩ := h
    obtain ⟨-, u, h2, rfl⟩ := argParse_ok.1 h'
    obtain ⟨d', hd', hs⟩ := find_sig_name hsig hd
    simp only [TypeDecl.sig, Prod.mk.injEq] at hs
    refine ⟨rfl, d', getTypeByName_iff.1 hd', ?_, ?_, ?_⟩
    · rw [hs.2.1]; simpa using hk
    · rw [hs.2.2.1]
    · rw [hs.2.2.1]; exact treeOf_valid h1 h2

theorem args_mean {ts ts' : List TypeDecl} (hsig : ts.map TypeDecl.sig = ts'.map TypeDecl.sig) {vs : List ArgNode}
    {r : List Argument × Bool} {xs : List Argument} (h : buildArgs ts vs = .ok r)
    (h' : Pointwise (fun a a' => argParse ts' a = .ok a') r.1 xs) : ArgsMean ts' r.2 vs xs := by
  unfold buildArgs at h
  split at h
  · next tok hm =>
    simp only [Res.bind_ok, Res.ok.injEq] at h
    obtain ⟨a, h1, rfl⟩ := h
    unfold ArgsMean
    rw [if_pos rfl]
    cases vs with
    | nil => simp at hm
    | cons v vs =>
      simp only [List.map_cons, List.cons.injEq, List.map_eq_nil_iff] at hm
      obtain ⟨hv, rfl⟩ := hm
      cases h' with
      | cons h2 h3 =>
        cases h3
        exact ⟨v, tok, _, rfl, hv, rfl, succinct_means hsig h1 h2⟩
  · next hno =>
    simp only [Res.bind_ok, Res.ok.injEq] at h
    obtain ⟨ys, h1, rfl⟩ := h
    unfold ArgsMean
    rw [if_neg (by simp)]
    refine ⟨?_, ?_⟩
    · rintro v n rfl hv
      exact hno n (by simp [hv])
    · exact (each_ok.1 h1).comp h' fun _ _ _ => arg_means

theorem method_means {ts ts' : List TypeDecl} (hsig : ts.map TypeDecl.sig = ts'.map TypeDecl.sig) {es : List ErrorDecl}
    {n : MethodNode} {m m' : Method} (h : makeMethod ts n = .ok m) (h' : methodParse ts' es m = .ok m') :
    MethodMeans ts' n m' := by
  simp only [makeMethod, Res.bind_ok, Res.failIf_ok, Res.ok.injEq] at h
  obtain ⟨ins, h1, outs, h2, _, h3, rfl⟩ := h
  obtain ⟨-, -, xs, ys, h4, h5, rfl⟩ := methodParse_ok.1 h'
  have hb : ins.2 = outs.2 := by simpa using h3
  have hs : (ins.2 && outs.2) = ins.2 := by rw [hb]; cases outs.2 <;> rfl
  refine ⟨rfl, rfl, rfl, rfl, rfl, fun k => buildAnnotations_lookup _ k, ?_, ?_⟩
  · show ArgsMean ts' (ins.2 && outs.2) _ _
    rw [hs]; exact args_mean hsig h1 h4
  · show ArgsMean ts' (ins.2 && outs.2) _ _
    rw [hs, hb]; exact args_mean hsig h2 h5

theorem service_means {ts ts' : List TypeDecl} (hsig : ts.map TypeDecl.sig = ts'.map TypeDecl.sig)
    {es : List ErrorDecl} {ss : List Service} {n : ServiceNode} {v v' : Service} (hn : v.name = n.name.val)
    (hc : v.comments = parseComment n.comment) (h : Res.each (makeMethod ts) n.methods = .ok v.methods)
    (h' : serviceParse ts' es ss v = .ok v') : ServiceMeans ts' n v' := by
  obtain ⟨-, -, -, -, -, ms, h1, rfl⟩ := serviceParse_ok.1 h'
  exact ⟨hn, hc, (each_ok.1 h).comp h1 fun _ _ _ => method_means hsig⟩

theorem field_means {ts ts' : List TypeDecl} {v : DefNode} {f f' : Field} (h : makeField ts v = .ok f)
    (h' : structField ts' f = .ok f') : FieldMeans ts' v f' := by
  simp only [makeField, Res.bind_ok, orErr_ok, Res.ok.injEq] at h
  obtain ⟨vt, h1, rfl⟩ := h
  obtain ⟨u, h2, h3, rfl⟩ := structField_ok h'
  exact ⟨rfl, rfl, rfl, rfl, rfl, treeOf_valid h1 h2⟩

theorem fieldMeans_sig {ts ts' : List TypeDecl} (h : ts.map TypeDecl.sig = ts'.map TypeDecl.sig) {v : DefNode}
    {f : Field} (hf : FieldMeans ts v f) : FieldMeans ts' v f :=
  ⟨hf.name, hf.optional, hf.comments, hf.metas, hf.value, treeOf_sig h hf.type⟩

omit [GoUnicode] in
theorem members_mean {vt : VarType} (i : Nat) (vs : List DefNode) :
    Pointwise (fun (v : DefNode × Nat) f => MemberMeans vt.expr v.2 v.1 f) (vs.zipIdx i)
      (vs.mapIdx fun j => enumField vt (j + i)) := by
  induction vs generalizing i with
  | nil => exact .nil
  | cons v vs ih =>
    simp only [List.zipIdx_cons, List.mapIdx_cons]
    refine .cons ?_ (by simpa [Nat.add_assoc, Nat.add_comm 1 i] using ih (i + 1))
    refine ⟨rfl, rfl, rfl, ?_, ?_, ?_⟩
    · intro h; simp [enumField, h]
    · intro h h'; simp [enumField, h, h']
    · intro h h'; simp [enumField, h, h']

/-- The schema of a file: imported objects, then what its declarations mean. -/
theorem compiled_means {fs : Files} {path : Str} {ns : List Node} {s0 s1 s : Schema}
    {ps : List (ImportNode × Schema)} (h1 : readNodes fs path = .ok ns)
    (h2 : foldRes applyDef {} (definitions ns) = .ok s0) (h3 : ps.map Prod.fst = imports ns)
    (h4 : ∀ p ∈ ps, Compiled fs (importPath path p.1) p.2) (h5 : declare path ns (mergeAll s0 ps) = .ok s1)
    (h6 : validate s1 = .ok s) :
    (∃ I A E T, s.types = I ++ A ++ E ++ T ∧
      Pointwise (fun t t' => typeParse s1.types t = .ok t') (mergeAll s0 ps).types I ∧
      Pointwise (AliasMeans s.types) (aliases ns) A ∧ Pointwise (EnumMeans s.types) (enums ns) E ∧
      Pointwise (StructMeans s.types) (structs ns) T) ∧
    (∃ I V, s.services = I ++ V ∧
      Pointwise (fun v v' => serviceParse s.types s.errors s1.services v = .ok v') (mergeAll s0 ps).services I ∧
      Pointwise (ServiceMeans s.types) (services ns) V) := by
  have hown := merged_owned h1 h2 h3 h4
  have hown' := compiled_owned (Compiled.intro h1 h2 h3 h4 h5 h6)
  have hv := validate_ok.1 h6
  obtain ⟨-, -, b, ts, es, ss, -, hts, he, hss, rfl⟩ := hv
  have hsig : s1.types.map TypeDecl.sig = ts.map TypeDecl.sig := types_sig (each_ok.2 hts)
  obtain ⟨-, d2, d3, -⟩ := declare_ids h5
  constructor
  · -- types
    have hnd : (s1.types.map (·.ptr)).Nodup := by
      have : s1.types.map (·.ptr) = ts.map (·.ptr) := by
        have := congrArg (List.map Prod.fst) hsig
        simpa [TypeDecl.sig, Function.comp_def] using this
      rw [this]; exact hown'.types
    have hnames := namesDiffer_of_valid h6 hnd
    obtain ⟨A, E, T, ht, hA, hE, hT⟩ := declare_types h5 hnames
    have hts' := hts
    rw [ht] at hts'
    rw [← ht] at hts'
    have hts2 : Pointwise (fun t t' => typeParse s1.types t = .ok t')
        ((mergeAll s0 ps).types ++ A ++ E ++ T) ts := by rw [← ht]; exact hts
    obtain ⟨q1, T', rfl, k1, kT⟩ := hts2.append_inv
    obtain ⟨q2, E', rfl, k2, kE⟩ := k1.append_inv
    obtain ⟨I, A', rfl, kI, kA⟩ := k2.append_inv
    refine ⟨I, A', E', T', rfl, kI, ?_, ?_, ?_⟩
    · refine hA.comp kA ?_
      rintro n d d' ⟨g1, g2, g3, g4, g5, vt, g6, g7⟩ hp
      obtain ⟨-, -, -, -, hcase⟩ := typeParse_ok hp
      have k1 : S "alias" ≠ S "enum" := by decide
      have k2 : S "alias" ≠ S "struct" := by decide
      rcases hcase with ⟨_, rfl, _⟩ | ⟨hk, _⟩ | ⟨hk, _⟩
      · rw [parseExpr_sig hsig] at g7
        obtain ⟨t, e1, e2⟩ := parseExpr_iff.1 g7
        exact ⟨g1, g2, g5, g4, g3, t, vt, e2, e1, g6⟩
      · exact absurd (g1.symm.trans hk) k1
      · exact absurd (g1.symm.trans hk) k2
    · refine hE.comp kE ?_
      rintro n d d' ⟨g1, g2, g3, g4, vt, g5, g6, g7⟩ hp
      obtain ⟨-, -, -, -, hcase⟩ := typeParse_ok hp
      have k1 : S "enum" ≠ S "alias" := by decide
      have k2 : S "enum" ≠ S "struct" := by decide
      rcases hcase with ⟨hk, _⟩ | ⟨_, rfl, _⟩ | ⟨hk, _⟩
      · exact absurd (g1.symm.trans hk) k1
      · rw [parseExpr_sig hsig] at g6
        obtain ⟨t, e1, e2⟩ := parseExpr_iff.1 g6
        refine ⟨g1, g2, ⟨t, vt, e2, e1, g5⟩, ?_⟩
        rw [g7, show n.enumType.val = vt.expr by rw [denotes_expr e1, e2]]
        exact members_mean 0 n.values
      · exact absurd (g1.symm.trans hk) k2
    · refine hT.comp kT ?_
      rintro n d d' ⟨g1, g2, g3, g4, g5, ts0, -, g6⟩ hp
      obtain ⟨-, -, -, -, hcase⟩ := typeParse_ok hp
      have k1 : S "struct" ≠ S "alias" := by decide
      have k2 : S "struct" ≠ S "enum" := by decide
      rcases hcase with ⟨hk, _⟩ | ⟨hk, _⟩ | ⟨_, _, fs', rfl, hf⟩
      · exact absurd (g1.symm.trans hk) k1
      · exact absurd (g1.symm.trans hk) k2
      · refine ⟨g1, g2, g5, g3, ?_⟩
        exact (each_ok.1 g6).comp hf fun v f f' e1 e2 => fieldMeans_sig hsig (field_means e1 e2)
  · -- services
    obtain ⟨u1, u2⟩ := declaredServices_ptr path ns
    have hdiff : ∀ x ∈ (mergeAll s0 ps).services ++ declaredServices path ns,
        ∀ y ∈ (mergeAll s0 ps).services ++ declaredServices path ns, x.ptr ≠ y.ptr →
        toLower x.name ≠ toLower y.name := by
      intro x hx y hy hxy
      have hx' : x.ident ∈ s1.services.map Service.ident := by rw [d3]; exact List.mem_map_of_mem hx
      have hy' : y.ident ∈ s1.services.map Service.ident := by rw [d3]; exact List.mem_map_of_mem hy
      rw [List.mem_map] at hx' hy'
      obtain ⟨x', hx1, hx2⟩ := hx'
      obtain ⟨y', hy1, hy2⟩ := hy'
      simp only [Service.ident, Prod.mk.injEq] at hx2 hy2
      obtain ⟨z, _, hz⟩ := hss.mem_left hx1
      have := (serviceParse_ok.1 hz).2.1 y' hy1
      rw [hx2.1, hx2.2, hy2.1, hy2.2] at this
      exact this (Ne.symm hxy)
    obtain ⟨V, hV, hP⟩ := declare_services h5
      (fun e he d hd => hdiff e (by simp [he]) d (by simp [hd]) (by
        intro hp
        exact hown.servicesFrom e he (by rw [hp]; exact u2 d hd)))
      (by
        rw [List.nodup_iff_pairwise_ne, List.pairwise_map] at u1
        refine List.Pairwise.imp_of_mem ?_ u1
        intro a b ha hb hab
        exact hdiff a (by simp [ha]) b (by simp [hb]) hab)
    have hss2 : Pointwise (fun v v' => serviceParse ts es s1.services v = .ok v')
        ((mergeAll s0 ps).services ++ V) ss := by rw [← hV]; exact hss
    obtain ⟨I, V', rfl, kI, kV⟩ := hss2.append_inv
    refine ⟨I, V', rfl, kI, ?_⟩
    exact hP.comp kV fun n v v' g1 g2 => service_means hsig g1.1 g1.2.1 g1.2.2 g2

end Verif.Compile
