import Verif.Compile.Meaning
/-! Fields, members, errors and methods, as read and as built: both directions. -/

namespace Verif.Compile
open Verif.Schema Verif.Spec
open Verif.Ridl hiding Str

variable [GoUnicode]

theorem typeIs_iff {ts : List TypeDecl} {text : Str} {o : Option VarType} :
    TypeIs ts text o ↔ ∃ vt, parseExpr ts text = .ok vt ∧ o = some vt := by
  unfold TypeIs
  constructor
  · rintro ⟨t, vt, h1, h2, h3⟩; exact ⟨vt, parseExpr_iff.2 ⟨t, h2, h1⟩, h3⟩
  · rintro ⟨vt, h1, h2⟩
    obtain ⟨t, h3, h4⟩ := parseExpr_iff.1 h1
    exact ⟨t, vt, h4, h3, h2⟩

omit [GoUnicode] in
theorem textOf_eq (o : Option Token) : textOf o = (o.map Token.val).getD [] := by cases o <;> rfl

omit [GoUnicode] in
theorem metas_eq (ms : List (Token × Token)) : ms.map metaOf = metaList (ms.map fun m => (m.1.val, m.2.val)) := by
  simp [metaList, metaOf]

theorem makeField_iff {ts : List TypeDecl} {d : DefNode} {f : Field} : makeField ts d = .ok f ↔ IsField ts d.entry f := by
  simp only [makeField, Res.bind_ok, orErr_ok, Res.ok.injEq, IsField, typeIs_iff, docLines_iff, textOf_eq]
  constructor
  · rintro ⟨vt, h1, rfl⟩
    exact ⟨some vt, _, ⟨vt, h1, rfl⟩, rfl, by rw [metas_eq]; rfl⟩
  · rintro ⟨o, cs, ⟨vt, h1, rfl⟩, rfl, rfl⟩
    exact ⟨vt, h1, by rw [metas_eq]; rfl⟩

theorem makeArg_iff {ts : List TypeDecl} {d : ArgNode} {a : Argument} (h : d.inlineStruct = none) :
    makeArg ts d = .ok a ↔ IsArg ts d.entry a := by
  have he : d.entry = .one (d.name.map Token.val) (d.argType.map Token.val) d.optional := by
    unfold ArgNode.entry; rw [h]
  rw [he]
  simp only [makeArg, Res.bind_ok, orErr_ok, Res.ok.injEq, IsArg, typeIs_iff, textOf_eq]
  constructor
  · rintro ⟨vt, h1, rfl⟩
    exact ⟨some vt, ⟨vt, h1, rfl⟩, rfl⟩
  · rintro ⟨o, ⟨vt, h1, rfl⟩, rfl⟩
    exact ⟨vt, h1, rfl⟩

theorem smallFirst_eq (n : Str) : toLowerFirst n = smallFirst n := by cases n <;> rfl

theorem succinctArg_iff {ts : List TypeDecl} {n : Str} {a : Argument} : succinctArg ts n = .ok a ↔ IsWhole ts n a := by
  unfold succinctArg IsWhole
  simp only [typeIs_iff]
  constructor
  · intro h
    split at h
    · simp at h
    · next d hd =>
      simp only [Res.bind_ok, Res.failIf_ok, orErr_ok, Res.ok.injEq] at h
      obtain ⟨_, hk, vt, h1, rfl⟩ := h
      exact ⟨d, some vt, getTypeByName_iff.1 hd, by simpa using hk, ⟨vt, h1, rfl⟩, by rw [smallFirst_eq]⟩
  · rintro ⟨d, o, h1, h2, ⟨vt, h3, rfl⟩, rfl⟩
    have : getTypeByName ts n = some d := getTypeByName_iff.2 h1
    rw [this]
    simp only [Res.bind_ok, Res.failIf_ok, orErr_ok, Res.ok.injEq]
    exact ⟨(), by simp [h2], vt, h3, by rw [smallFirst_eq]⟩

omit [GoUnicode] in
theorem inline_none {l : List ArgNode} (h : ∀ a ∈ l.map ArgNode.entry, ∃ n t o, a = ArgEntry.one n t o) :
    ∀ a ∈ l, a.inlineStruct = none := by
  intro a ha
  obtain ⟨n, t, o, e⟩ := h _ (List.mem_map_of_mem ha)
  unfold ArgNode.entry at e
  split at e
  · cases e
  · next h => exact h

omit [GoUnicode] in
theorem pointwise_map_left {α β γ : Type} {R : β → γ → Prop} {f : α → β} {xs : List α} {ys : List γ} :
    Pointwise R (xs.map f) ys ↔ Pointwise (fun x y => R (f x) y) xs ys := by
  induction xs generalizing ys with
  | nil => constructor <;> (intro h; cases h; exact .nil)
  | cons x xs ih =>
    constructor
    · intro h
      rw [List.map_cons] at h
      cases h with
      | cons h1 h2 => exact .cons h1 (ih.1 h2)
    · intro h
      cases h with
      | cons h1 h2 => exact .cons h1 (ih.2 h2)

omit [GoUnicode] in
theorem pointwise_congr {α β : Type} {R R' : α → β → Prop} {xs : List α} {ys : List β}
    (h : ∀ x ∈ xs, ∀ y, R x y ↔ R' x y) : Pointwise R xs ys ↔ Pointwise R' xs ys := by
  induction xs generalizing ys with
  | nil => constructor <;> (intro h; cases h; exact .nil)
  | cons x xs ih =>
    have hx := h x (by simp)
    have hxs := fun y hy => h y (List.mem_cons_of_mem x hy)
    constructor
    · intro h
      cases h with
      | cons h1 h2 => exact .cons ((hx _).1 h1) ((ih hxs).1 h2)
    · intro h
      cases h with
      | cons h1 h2 => exact .cons ((hx _).2 h1) ((ih hxs).2 h2)

theorem buildArgs_iff {ts : List TypeDecl} {l : List ArgNode} (hs : ArgsShaped (l.map ArgNode.entry))
    {xs : List Argument} {b : Bool} : buildArgs ts l = .ok (xs, b) ↔ ArgsAre ts b (l.map ArgNode.entry) xs := by
  have hne : S "a" = S "a" := rfl
  unfold ArgsAre
  rcases hs with ⟨n, hs⟩ | hs
  · -- the succinct form
    cases l with
    | nil => simp at hs
    | cons d l =>
      rw [List.map_cons] at hs
      simp only [List.cons.injEq, List.map_eq_nil_iff] at hs
      obtain ⟨h1, rfl⟩ := hs
      obtain ⟨t, ht, rfl⟩ : ∃ t, d.inlineStruct = some t ∧ t.val = n := by
        unfold ArgNode.entry at h1
        split at h1
        · next t ht => exact ⟨t, ht, by simpa using h1⟩
        · cases h1
      rw [buildArgs]
      simp only [List.map_cons, List.map_nil, ht, h1]
      simp only [Res.bind_ok, Res.ok.injEq, Prod.mk.injEq, succinctArg_iff]
      constructor
      · rintro ⟨a, h2, rfl, rfl⟩
        exact ⟨t.val, a, rfl, h2, rfl⟩
      · intro h
        cases b with
        | true =>
          rw [if_pos rfl] at h
          obtain ⟨n, a, h3, h4, rfl⟩ := h
          simp only [List.cons.injEq, ArgEntry.whole.injEq, and_true] at h3
          exact ⟨a, h3 ▸ h4, rfl, rfl⟩
        | false =>
          rw [if_neg (by simp)] at h
          cases h with
          | cons h3 _ => exact absurd h3 (by simp [IsArg])
  · have hin := inline_none hs
    have hb : buildArgs ts l = (Res.each (makeArg ts) l >>= fun xs => .ok (xs, false)) := by
      rw [buildArgs]
      split
      · next tok hm =>
        cases l with
        | nil => simp at hm
        | cons d l =>
          simp only [List.map_cons, List.cons.injEq] at hm
          rw [hin d (by simp)] at hm
          simp at hm
      · rfl
    rw [hb]
    simp only [Res.bind_ok, Res.ok.injEq, Prod.mk.injEq, each_ok]
    have hp : ∀ {ys}, Pointwise (fun x y => makeArg ts x = .ok y) l ys ↔ Pointwise (IsArg ts) (l.map ArgNode.entry) ys := by
      intro ys
      rw [pointwise_map_left]
      exact pointwise_congr fun x hx y => makeArg_iff (hin x hx)
    constructor
    · rintro ⟨ys, h1, rfl, rfl⟩
      rw [if_neg (by simp)]
      exact hp.1 h1
    · intro h
      cases b with
      | true =>
        rw [if_pos rfl] at h
        obtain ⟨n, a, h3, -⟩ := h
        obtain ⟨_, _, _, e⟩ := hs (.whole n) (by rw [h3]; simp)
        cases e
      | false =>
        rw [if_neg (by simp)] at h
        exact ⟨xs, hp.2 h, rfl, rfl⟩

omit [GoUnicode] in
theorem mapSet_new {β : Type} {k : Str} {v : β} {m : List (Str × β)} (h : k ∉ m.map Prod.fst) : mapSet k v m = m ++ [(k, v)] := by
  induction m with
  | nil => rfl
  | cons a m ih =>
    obtain ⟨a1, a2⟩ := a
    simp only [List.map_cons, List.mem_cons, not_or] at h
    rw [mapSet, if_neg (Ne.symm h.1), ih h.2]
    rfl

omit [GoUnicode] in
theorem buildAnnotations_eq {anns : List AnnNode} (h : (anns.map fun a => a.annType.val).Nodup) :
    buildAnnotations anns = anns.map fun a => (a.annType.val, { annotationType := a.annType.val, value := (a.value.map Token.val).getD [] }) := by
  unfold buildAnnotations
  have key : ∀ (anns : List AnnNode) (m : List (Str × Annotation)), (anns.map fun a => a.annType.val).Nodup →
      (∀ a ∈ anns, a.annType.val ∉ m.map Prod.fst) →
      anns.foldl (fun m a => mapSet a.annType.val { annotationType := a.annType.val, value := textOf a.value } m) m =
        m ++ anns.map fun a => (a.annType.val, ({ annotationType := a.annType.val, value := (a.value.map Token.val).getD [] } : Annotation)) := by
    intro anns
    induction anns with
    | nil => intro m _ _; simp
    | cons a anns ih =>
      intro m hn hm
      rw [List.map_cons, List.nodup_cons] at hn
      rw [List.foldl_cons, mapSet_new (hm a (by simp)), ih _ hn.2]
      · simp [textOf_eq]
      · intro x hx
        rw [List.map_append, List.mem_append, not_or]
        refine ⟨hm x (by simp [hx]), ?_⟩
        simp only [List.map_cons, List.map_nil, List.mem_singleton]
        intro e
        exact hn.1 (by rw [← e]; exact List.mem_map_of_mem (f := fun a : AnnNode => a.annType.val) hx)
  simpa using key anns [] h (by simp)

theorem makeMethod_iff {ts : List TypeDecl} {n : MethodNode} {m : Method} (ha : (n.entry.anns.map Prod.fst).Nodup)
    (h1 : ArgsShaped n.entry.inputs) (h2 : ArgsShaped n.entry.outputs) : makeMethod ts n = .ok m ↔ IsMethod ts n.entry m := by
  have ha' : (n.annotations.map fun a => a.annType.val).Nodup := by
    simpa [MethodNode.entry, Function.comp_def] using ha
  have hann := buildAnnotations_eq ha'
  simp only [makeMethod, Res.bind_ok, Res.failIf_ok, Res.ok.injEq, IsMethod, docLines_iff]
  constructor
  · rintro ⟨⟨ins, b⟩, g1, ⟨outs, b'⟩, g2, _, g3, rfl⟩
    have e : b = b' := by simpa using g3
    subst e
    refine ⟨_, b, ins, outs, rfl, (buildArgs_iff h1).1 g1, (buildArgs_iff h2).1 g2, ?_⟩
    rw [hann]
    simp only [Bool.and_self, MethodNode.entry, List.map_map]
    rfl
  · rintro ⟨cs, b, ins, outs, rfl, g1, g2, rfl⟩
    refine ⟨(ins, b), (buildArgs_iff h1).2 g1, (outs, b), (buildArgs_iff h2).2 g2, (), by simp, ?_⟩
    rw [hann]
    simp only [Bool.and_self, MethodNode.entry, List.map_map]
    rfl

theorem makeMethods_iff {ts : List TypeDecl} {n : ServiceNode} {ms : List Method} (hs : (Node.service n).entry.Shaped) :
    Res.each (makeMethod ts) n.methods = .ok ms ↔ Pointwise (IsMethod ts) (n.methods.map MethodNode.entry) ms := by
  rw [each_ok, pointwise_map_left]
  refine pointwise_congr fun x hx y => ?_
  obtain ⟨a, b, c⟩ := hs x.entry (List.mem_map_of_mem hx)
  exact makeMethod_iff a b c

theorem makeFields_iff {ts : List TypeDecl} {ds : List DefNode} {fs : List Field} :
    Res.each (makeField ts) ds = .ok fs ↔ Pointwise (IsField ts) (ds.map DefNode.entry) fs := by
  rw [each_ok, pointwise_map_left]
  exact pointwise_congr fun x _ y => makeField_iff

omit [GoUnicode] in
theorem members_iff {vt : VarType} {ds : List DefNode} {fs : List Field} (h : ∀ d ∈ ds, ∀ v, d.right = some v → v.val ≠ []) :
    fs = ds.mapIdx (enumField vt) ↔ Pointwise (IsMember vt.expr) (ds.map DefNode.entry).zipIdx fs := by
  have hv : ∀ (d : DefNode) (i : Nat), (∀ v, d.right = some v → v.val ≠ []) → (enumField vt i d).value = memberValue vt.expr i d.entry := by
    intro d i hd
    unfold memberValue
    cases hr : d.right with
    | none => simp [enumField, hr, textOf, DefNode.entry]
    | some v =>
      have := hd v hr
      simp [enumField, hr, textOf, DefNode.entry, this]
  have key : ∀ (ds : List DefNode) (k : Nat) (fs : List Field), (∀ d ∈ ds, ∀ v, d.right = some v → v.val ≠ []) →
      (fs = ds.mapIdx (fun i => enumField vt (i + k)) ↔ Pointwise (IsMember vt.expr) ((ds.map DefNode.entry).zipIdx k) fs) := by
    intro ds
    induction ds with
    | nil =>
      intro k fs _
      constructor
      · rintro rfl; exact .nil
      · intro h; cases h; rfl
    | cons d ds ih =>
      intro k fs hd
      have hrec := fun fs => ih (k + 1) fs (fun x hx => hd x (by simp [hx]))
      have e : (fun i => enumField vt (i + 1 + k)) = fun i => enumField vt (i + (k + 1)) := by
        funext i; rw [Nat.add_assoc, Nat.add_comm 1 k]
      have hm : ∀ f, IsMember vt.expr (d.entry, k) f ↔ f = enumField vt k d := by
        intro f
        unfold IsMember
        simp only [docLines_iff]
        constructor
        · rintro ⟨cs, rfl, rfl⟩
          rw [← hv d k (hd d (by simp))]
          rfl
        · rintro rfl
          refine ⟨_, rfl, ?_⟩
          rw [← hv d k (hd d (by simp))]
          rfl
      rw [List.mapIdx_cons, List.map_cons, List.zipIdx_cons]
      simp only [Nat.zero_add]
      rw [e]
      constructor
      · rintro rfl
        exact .cons ((hm _).2 rfl) ((hrec _).1 rfl)
      · intro h
        cases h with
        | cons h1 h2 => rw [(hm _).1 h1, (hrec _).2 h2]
  simpa using key ds 0 fs h

omit [GoUnicode] in
theorem digits_number {t : Str} (h : Digits t) : ∀ c ∈ t, c ∈ "0123456789".toList := by
  intro c hc
  obtain ⟨h1, h2⟩ := h.2 c hc
  have h1' : 48 ≤ c.toNat := h1
  have h2' : c.toNat ≤ 57 := h2
  have hd : ∀ n : Fin 10, Char.ofNat (48 + n.val) ∈ "0123456789".toList := by decide
  have := hd ⟨c.toNat - 48, by omega⟩
  have e : 48 + (c.toNat - 48) = c.toNat := by omega
  simp only [e, Char.ofNat_toNat] at this
  exact this

omit [GoUnicode] in
theorem int32_eq {t : Str} (h : Digits t) : parseInt32 t = int32 t := by
  unfold parseInt32 int32
  rw [if_neg h.1, Verif.Props.decimal_val t 0 (digits_number h)]
  show (if numberOf t ≤ 2147483647 then _ else _) = _
  split
  · next hle => rw [Nat.min_eq_left hle]; rfl
  · next hle => rw [Nat.min_eq_right (by omega)]; rfl

omit [GoUnicode] in
theorem makeError_iff {path : Str} {i : Nat} {n : ErrorNode} {d : ErrorDecl} (hs : (Node.error n).entry.Shaped) :
    makeError path i n = .ok d ↔ IsError (path, i) (Node.error n).entry d := by
  obtain ⟨h1, -, h3⟩ := hs
  unfold makeError
  simp only [Node.entry, IsError]
  cases hm : n.message with
  | none => simp
  | some m =>
    simp only [Res.ok.injEq, Option.map_some, Option.some.injEq]
    rw [int32_eq h1]
    cases hh : n.httpStatus with
    | none =>
      simp only [Option.map_none]
      constructor
      · rintro rfl
        exact ⟨m.val, rfl, rfl⟩
      · rintro ⟨_, rfl, rfl⟩
        rfl
    | some t =>
      simp only [Option.map_some]
      rw [int32_eq (h3 t.val (by simp [hh]))]
      constructor
      · rintro rfl
        exact ⟨m.val, rfl, rfl⟩
      · rintro ⟨_, rfl, rfl⟩
        rfl

omit [GoUnicode] in
theorem zipIdx_map {α β : Type} (f : α → β) (l : List α) (k : Nat) : (l.map f).zipIdx k = (l.zipIdx k).map fun p => (f p.1, p.2) := by
  induction l generalizing k with
  | nil => rfl
  | cons x l ih => simp [List.zipIdx_cons, ih]

omit [GoUnicode] in
theorem makeErrors_iff {path : Str} {ns : List ErrorNode} {xs : List ErrorDecl} (hs : ∀ n ∈ ns, (Node.error n).entry.Shaped) :
    eachIdx (makeError path) 0 ns = .ok xs ↔
      Pointwise (fun e d => IsError (path, e.2) e.1 d) (ns.map fun n => (Node.error n).entry).zipIdx xs := by
  rw [eachIdx_ok, zipIdx_map, pointwise_map_left]
  refine pointwise_congr fun x hx y => ?_
  have : x.1 ∈ ns := by
    obtain ⟨a, b⟩ := x
    exact (List.mem_zipIdx hx).2.2 ▸ List.getElem_mem _
  exact makeError_iff (hs x.1 this)

end Verif.Compile
