import Verif.Spec.Mirror
import Verif.Props.TsBig
import Verif.Props.Accepts2
/-!
# C103: values of the schema's types mean the same in Go and in TypeScript
-/

namespace Verif.Ts
open Verif.Schema hiding Json Method
open Verif.Json Verif.Gen Verif.TsSpec Verif.Props Verif.Rpc Verif.RpcSpec Verif.Values
open Verif.Spec hiding FieldDecl
variable [JsEngine] [GoFloat]

omit [JsEngine] [GoFloat] in
theorem enum_tables {d : Decls} (hd : WellDeclared d) (n : Str) :
    EnumTables (d.members n) ((d.members n).map fun m => (m.2, m.1)) (d.members n) := ⟨hd.names n, hd.values n, rfl, rfl⟩

omit [JsEngine] [GoFloat] in
theorem keyName_text {d : Decls} (hd : WellDeclared d) {k : KeyType} {x : Key} {s : Str} (h : KeyName d k x s) :
    keyText d k x = some s ∧ decKey d k s = some x ∧ KeyOf d k x := by
  cases h with
  | str s => exact ⟨rfl, rfl, .str s⟩
  | int h => exact ⟨rfl, by rw [decKey, parseInt_text h]; rfl, .int h⟩
  | uint h => exact ⟨rfl, by rw [decKey, parseUint_text h]; rfl, .uint h⟩
  | enum h =>
    obtain ⟨h1, h2, -, -⟩ := C59_round_trip (enum_tables hd _) _ _ h
    exact ⟨by rw [keyText, h1], by rw [decKey, h2], .enum h⟩

omit [JsEngine] [GoFloat] in
theorem key_name {d : Decls} (hd : WellDeclared d) {k : KeyType} {x : Key} (h : KeyOf d k x) : ∃ s, KeyName d k x s := by
  cases h with
  | str s => exact ⟨_, .str s⟩
  | int h => exact ⟨_, .int h⟩
  | uint h => exact ⟨_, .uint h⟩
  | enum h => exact ⟨_, .enum h⟩

omit [JsEngine] [GoFloat] in
theorem finite_num {t : Str} (h : NumText t) : notFinite t = false := by
  unfold notFinite
  have no_num : ∀ {x : Str}, parse x = none → t ≠ x := by
    rintro x hx rfl
    have := parse_printed ⟨false, false⟩ (.num t) (by rw [Nums]; exact h) [] (by simp)
    rw [print, List.append_nil, hx] at this
    cases this
  have n1 : t ≠ S "NaN" := no_num (by decide +kernel)
  have n2 : t ≠ S "Infinity" := no_num (by decide +kernel)
  have n3 : t ≠ S "-Infinity" := no_num (by decide +kernel)
  simp [n1, n2, n3]

/-! ### From TypeScript to Go -/

/-- What is to be shown for a value. -/
def Back (d : Decls) (t : GoType) (v : GoVal) (x : Js) : Prop :=
  ∃ j, toJson x = some j ∧ Nums j ∧ (j = .null ↔ v = .nil) ∧
    ∃ w, decode d t (zero t) j = some w ∧ deepEqual v w = true

/-- What is to be shown for the fields of a struct. -/
def BackFields (d : Decls) (fs : List FieldDecl) (l : List GoVal) (ms : List (Str × Js)) : Prop :=
  NumsMembers (toMembers ms) ∧ ∃ ws, deepEqualList l ws = true ∧
    ∀ pre done, done.length = pre.length → ((pre ++ fs).filterMap (·.tag)).Pairwise (· ≠ ·) →
      decodeMembers d (pre ++ fs) (done ++ zeros fs) (toMembers ms) = some (done ++ ws)

omit [JsEngine] in
theorem back_elems {d : Decls} {t : GoType} {es : List (GoVal × Js)} (h : ∀ e ∈ es, Back d t e.1 e.2) :
    NumsList (toElems (es.map (·.2))) ∧
      ∃ ws, decodeElems d t [] (toElems (es.map (·.2))) = some ws ∧ deepEqualList (es.map (·.1)) ws = true := by
  induction es with
  | nil => exact ⟨trivial, [], rfl, rfl⟩
  | cons e es ih =>
    obtain ⟨j, h1, h2, -, w, h3, h4⟩ := h e (by simp)
    obtain ⟨i2, ws, i3, i4⟩ := ih fun x hx => h x (List.mem_cons_of_mem _ hx)
    rw [List.map_cons, List.map_cons, toElems, h1, Option.getD_some]
    refine ⟨⟨h2, i2⟩, w :: ws, ?_, ?_⟩
    · rw [decodeElems, List.head?_nil, Option.getD_none, List.tail_nil, h3, i3]
    · rw [deepEqualList, h4, i4]; rfl

omit [JsEngine] [GoFloat] in
theorem toMembers_filter (ms : List (Str × Js)) :
    toMembers ms = ms.filterMap fun p => (toJson p.2).map fun j => (p.1, j) := by
  induction ms with
  | nil => rfl
  | cons p ms ih =>
    obtain ⟨k, v⟩ := p
    rw [toMembers, List.filterMap_cons]
    cases h : toJson v with
    | none => simp only [Option.map_none]; exact ih
    | some j => simp only [Option.map_some]; rw [ih]

omit [JsEngine] [GoFloat] in
theorem toMembers_perm {a b : List (Str × Js)} (h : a.Perm b) : (toMembers a).Perm (toMembers b) := by
  rw [toMembers_filter, toMembers_filter]
  exact h.filterMap _

omit [JsEngine] in
theorem back_entries {d : Decls} (hd : WellDeclared d) {k : KeyType} {t : GoType} {es : List ((Key × GoVal) × (Str × Js))}
    (hk : ∀ e ∈ es, KeyName d k e.1.1 e.2.1) (h : ∀ e ∈ es, Back d t e.1.2 e.2.2) :
    NumsMembers (toMembers (es.map (·.2))) ∧
      (∀ p ∈ toMembers (es.map (·.2)), (decKey d k p.1).isSome = true ∧ (decode d t (zero t) p.2).isSome = true) ∧
      ((toMembers (es.map (·.2))).map (readEntry d k t)).map (·.1) = (es.map (·.1)).map (·.1) ∧
      (∀ p ∈ es.map (·.1), ∃ w, (p.1, w) ∈ (toMembers (es.map (·.2))).map (readEntry d k t) ∧ deepEqual p.2 w = true) := by
  induction es with
  | nil => exact ⟨trivial, by simp [toMembers], rfl, by simp⟩
  | cons e es ih =>
    obtain ⟨⟨x, v⟩, ⟨s, y⟩⟩ := e
    obtain ⟨j, h1, h2, -, w, h3, h4⟩ := h _ (List.mem_cons_self ..)
    obtain ⟨-, k2, -⟩ := keyName_text hd (hk _ (List.mem_cons_self ..))
    obtain ⟨i2, i3, i4, i5⟩ := ih (fun p hp => hk p (List.mem_cons_of_mem _ hp)) fun p hp => h p (List.mem_cons_of_mem _ hp)
    dsimp only at h1 h3 k2 h4
    have he : readEntry d k t (s, j) = (x, w) := by
      unfold readEntry; dsimp only; rw [k2, h3]; rfl
    rw [List.map_cons, List.map_cons, toMembers, h1]
    dsimp only
    refine ⟨⟨h2, i2⟩, ?_, ?_, ?_⟩
    · intro p hp
      rcases List.mem_cons.1 hp with rfl | hp
      · dsimp only; rw [k2, h3]; exact ⟨rfl, rfl⟩
      · exact i3 p hp
    · rw [List.map_cons, he, List.map_cons, i4]; rfl
    · intro p hp
      rw [List.map_cons, he]
      rcases List.mem_cons.1 hp with rfl | hp
      · exact ⟨w, by simp, h4⟩
      · obtain ⟨w', w1, w2⟩ := i5 p hp
        exact ⟨w', List.mem_cons_of_mem _ w1, w2⟩

omit [JsEngine] in
theorem back_map {d : Decls} (hd : WellDeclared d) {k : KeyType} {t : GoType} {es : List ((Key × GoVal) × (Str × Js))}
    {ms : List (Str × Js)} (hn : ((es.map (·.1)).map (·.1)).Pairwise (· ≠ ·)) (hk : ∀ e ∈ es, KeyName d k e.1.1 e.2.1)
    (h : ∀ e ∈ es, Back d t e.1.2 e.2.2) (hms : ms.Perm (es.map (·.2))) :
    Back d (.map k t) (.map (es.map (·.1))) (.obj ms) := by
  obtain ⟨h2, h3, h4, h5⟩ := back_entries hd hk h
  have hp := toMembers_perm hms
  have hr := hp.map (readEntry d k t)
  have hkeys : (((toMembers ms).map (readEntry d k t)).map (·.1)).Pairwise (· ≠ ·) := by
    have e : (((toMembers ms).map (readEntry d k t)).map (·.1)).Perm ((es.map (·.1)).map (·.1)) := by rw [← h4]; exact hr.map _
    rw [← List.nodup_iff_pairwise_ne] at hn ⊢
    exact e.nodup_iff.2 hn
  refine ⟨.obj (toMembers ms), by rw [toJson], ?_, ?_, .map ((toMembers ms).map (readEntry d k t)), ?_, ?_⟩
  · rw [Nums]; exact numsMembers_perm hp h2
  · exact ⟨fun h => (nomatch h), fun h => (nomatch h)⟩
  · rw [decode]
    show (decodeEntries d k t [] (toMembers ms)).map _ = _
    rw [decodeEntries_all d k t _ [] (fun p hp' => h3 p (hp.mem_iff.1 hp')) (by simpa using hkeys)]
    rfl
  · rw [deepEqual, Bool.and_eq_true]
    constructor
    · have e := congrArg List.length h4
      rw [List.length_map, List.length_map, List.length_map] at e
      rw [List.length_map (readEntry d k t), hp.length_eq, e]
      exact BEq.rfl
    · apply deepEqualMap_of
      intro p hp'
      obtain ⟨w, w1, w2⟩ := h5 p hp'
      exact ⟨w, lookup_key hkeys (hr.mem_iff.2 w1), w2⟩

omit [JsEngine] in
theorem back_skip {d : Decls} {f : FieldDecl} {fs : List FieldDecl} {v : GoVal} {l : List GoVal} {ms ms' : List (Str × Js)}
    (hv : v = zero f.type) (hm : toMembers ms' = toMembers ms) (h3 : BackFields d fs l ms) : BackFields d (f :: fs) (v :: l) ms' := by
  obtain ⟨i1, ws, i3, i4⟩ := h3
  subst hv
  refine ⟨by rw [hm]; exact i1, zero f.type :: ws, by rw [deepEqualList, deepEqual_zero, i3]; rfl, fun pre done hl hp => ?_⟩
  have := i4 (pre ++ [f]) (done ++ [zero f.type]) (by simp [hl]) (by simpa using hp)
  have e1 : pre ++ f :: fs = pre ++ [f] ++ fs := by simp
  have e2 : done ++ zeros (f :: fs) = done ++ [zero f.type] ++ zeros fs := by simp [zeros]
  rw [hm, e1, e2, this]
  simp

omit [JsEngine] in
theorem back_present {d : Decls} {f : FieldDecl} {fs : List FieldDecl} {v : GoVal} {l : List GoVal} {ms : List (Str × Js)} {tag : Str} {x : Js}
    (ht : f.tag = some tag) (h1 : Back d f.type v x) (h3 : BackFields d fs l ms) : BackFields d (f :: fs) (v :: l) ((tag, x) :: ms) := by
  obtain ⟨i1, ws, i3, i4⟩ := h3
  obtain ⟨j, a1, a2, -, w, a3, a4⟩ := h1
  have hm : toMembers ((tag, x) :: ms) = (tag, j) :: toMembers ms := by rw [toMembers, a1]
  refine ⟨by rw [hm]; exact ⟨a2, i1⟩, w :: ws, by rw [deepEqualList, a4, i3]; rfl, fun pre done hl hp => ?_⟩
  rw [hm, decodeMembers, fieldIndex_at ht hp]
  dsimp only
  rw [List.getElem?_append_right (Nat.le_refl _), Nat.sub_self]
  dsimp only [List.getElem?_cons_zero]
  have e2 : done ++ zeros (f :: fs) = done ++ zero f.type :: zeros fs := rfl
  rw [e2, ← hl, List.getElem?_append_right (Nat.le_refl _), Nat.sub_self]
  dsimp only [List.getElem?_cons_zero, Option.getD_some]
  rw [a3]
  dsimp only
  rw [List.set_append_right _ _ (Nat.le_refl _), Nat.sub_self, List.set_cons_zero]
  have := i4 (pre ++ [f]) (done ++ [w]) (by simp [hl]) (by simpa using hp)
  have e1 : pre ++ f :: fs = pre ++ [f] ++ fs := by simp
  have e3 : done ++ w :: zeros fs = done ++ [w] ++ zeros fs := by simp
  rw [e1, e3, this]
  simp

/-- The names of the members are JSON names of fields, in order. -/
theorem mirror_names {d : Decls} {fs : List FieldDecl} {l : List GoVal} {ms : List (Str × Js)} (h : MirrorsFields d fs l ms) :
    (ms.map (·.1)).Sublist (fs.filterMap (·.tag)) := by
  induction fs generalizing l ms with
  | nil => cases h; exact .slnil
  | cons f fs ih =>
    cases h with
    | hidden h1 _ h => rw [List.filterMap_cons, h1]; exact ih h
    | missing _ _ h =>
      rw [List.filterMap_cons]
      cases f.tag with
      | none => exact ih h
      | some _ => exact .cons _ (ih h)
    | undefined h1 _ _ h => rw [List.filterMap_cons, h1]; exact .cons_cons _ (ih h)
    | present h1 _ _ h => rw [List.filterMap_cons, h1]; exact .cons_cons _ (ih h)

omit [JsEngine] [GoFloat] in
theorem apart_names {fs : List FieldDecl} {ms : List (Str × Json)} (h : ∀ p ∈ ms, p.1 ∈ fs.filterMap (·.tag)) (hn : (ms.map (·.1)).Nodup) :
    ms.Pairwise (Apart fs) := by
  rw [List.nodup_iff_pairwise_ne, List.pairwise_map] at hn
  refine hn.imp_of_mem ?_
  intro p q hp hq hne f hf
  have key : ∀ r ∈ ms, FieldOf fs r.1 f → f.tag = some r.1 := by
    intro r hr hf
    cases hf with
    | exact _ h => exact h
    | folded h0 =>
      obtain ⟨g, hg, hgt⟩ := List.mem_filterMap.1 (h r hr)
      exact absurd hgt (h0 g hg)
  have a := key p hp hf.1
  rw [key q hq hf.2] at a
  exact hne (Option.some.inj a).symm

theorem back_struct {d : Decls} {fs : List FieldDecl} (hfs : (fs.filterMap (·.tag)).Pairwise (· ≠ ·)) {l : List GoVal} {ms ms' : List (Str × Js)}
    (hm : MirrorsFields d fs l ms) (hp : ms'.Perm ms) (h : BackFields d fs l ms) :
    NumsMembers (toMembers ms') ∧ ∃ ws, decodeMembers d fs (zeros fs) (toMembers ms') = some ws ∧ deepEqualList l ws = true := by
  obtain ⟨h1, ws, h2, h3⟩ := h
  have hq := toMembers_perm hp
  have hs := mirror_names hm
  have hsub : ((toMembers ms).map (·.1)).Sublist (ms.map (·.1)) := by
    rw [toMembers_filter]
    clear hs hm h1 h2 h3 hp hq
    induction ms with
    | nil => exact .slnil
    | cons p ms ih =>
      rw [List.filterMap_cons]
      cases toJson p.2 with
      | none => exact .cons _ ih
      | some j => exact .cons_cons _ ih
  have hs := hsub.trans hs
  rw [← List.nodup_iff_pairwise_ne] at hfs
  have hnd := hs.nodup hfs
  rw [List.nodup_iff_pairwise_ne] at hfs
  have hap : (toMembers ms).Pairwise (Apart fs) :=
    apart_names (fun p hp => hs.subset (List.mem_map_of_mem hp)) hnd
  refine ⟨numsMembers_perm hq h1, ws, ?_, h2⟩
  rw [← members_perm d hfs hq.symm hap]
  have := h3 [] [] rfl hfs
  rwa [List.nil_append, List.nil_append, List.nil_append] at this

theorem back {d : Decls} (hd : WellDeclared d) :
    (∀ t v x, Mirrors d t v x → Back d t v x) ∧ (∀ fs l ms, MirrorsFields d fs l ms → BackFields d fs l ms) := by
  have c1 : ∀ b : Bool, Back d .bool (.bool b) (.bool b) := fun b =>
    ⟨.bool b, by rw [toJson], trivial, by simp, .bool b, rfl, by simp [deepEqual]⟩
  have num : ∀ {i : Int}, toJson (.num (intText i)) = some (.num (intText i)) := fun {i} => by
    have : NumText (intText i) := by have := nums_int i; rwa [Nums] at this
    rw [toJson, finite_num this]; rfl
  have c2 : ∀ {bits : Nat} {i : Int}, FitsSigned bits i → i.natAbs ≤ 2 ^ 53 → Back d (.int bits) (.int i) (.num (intText i)) := fun {bits i} h _ =>
    ⟨.num (intText i), num, nums_int i, by simp, .int i, by
      rw [decode]
      show ((parseInt bits _).map GoVal.int).map _ = _
      rw [parseInt_text h]; rfl, by simp [deepEqual]⟩
  have c3 : ∀ {bits : Nat} {i : Int}, FitsUnsigned bits i → i.natAbs ≤ 2 ^ 53 → Back d (.uint bits) (.int i) (.num (intText i)) := fun {bits i} h _ =>
    ⟨.num (intText i), num, nums_int i, by simp, .int i, by
      rw [decode]
      show ((parseUint bits _).map GoVal.int).map _ = _
      rw [parseUint_text h]; rfl, by simp [deepEqual]⟩
  have c4 : ∀ {bits : Nat} {x : Str}, GoFloat.norm bits x = some x → JsEngine.canon x = x → Back d (.float bits) (.float x) (.num x) := fun {bits x} h _ =>
    ⟨.num x, by rw [toJson, finite_num (GoFloat.norm_num h)]; rfl, by rw [Nums]; exact GoFloat.norm_num h, by simp, .float x, by
      rw [decode]
      show ((GoFloat.norm bits _).map GoVal.float).map _ = _
      rw [h]; rfl, by simp [deepEqual]⟩
  have c5 : ∀ s : Str, Back d .string (.str s) (.str s) := fun s =>
    ⟨.ofStr false s, by rw [toJson], nums_ofStr false s, by simp [Json.ofStr], .str s, by
      rw [Json.ofStr, decode]
      show ((cook _).map GoVal.str).map _ = _
      rw [cook_escape]; rfl, by simp [deepEqual]⟩
  have c6 : ∀ i : Int, Back d .big (.big i) (.big i) := fun i =>
    ⟨.ofStr false (intText i), by rw [toJson], nums_ofStr false _, by simp [Json.ofStr], .big i, by
      have e : Json.ofStr false (intText i) = .str (bigString i) := by
        unfold Json.ofStr
        rw [plain_escape (BigNum.integer_chars (BigNum.integerText_int i)).2]; rfl
      rw [e, decode]
      show ((bigUnmarshalJSON 0 (bigMarshal i)).map GoVal.big).map _ = _
      rw [(BigNum.C77_json 0 i).1]; rfl, by simp [deepEqual]⟩
  have c7 : ∀ {n name : Str} {x : Nat}, (name, x) ∈ d.members n → Back d (.enum n) (.enum x) (.str name) := fun {n name x} h =>
    ⟨.ofStr false name, by rw [toJson], nums_ofStr false _, by simp [Json.ofStr], .enum x, by
      rw [Json.ofStr, decode]
      show ((cook _).map fun s => GoVal.enum (enumOf (d.members n) s)).map _ = _
      rw [cook_escape]
      show some (GoVal.enum (enumOf (d.members n) _)) = _
      rw [(C59_round_trip (enum_tables hd n) name x h).2.1], by simp [deepEqual]⟩
  have c8 : ∀ {t : GoType}, Nullable t → Back d t .nil .null := fun {t} h =>
    ⟨.null, by rw [toJson], trivial, by simp, .nil, by cases h <;> rfl, rfl⟩
  have c9 : ∀ {t : GoType} {v : GoVal} {x : Js}, Natural t → v ≠ .nil → Mirrors d t v x → Back d t v x → Back d .any (.dyn t v) x := by
    rintro t v x ht hv - ⟨j, h1, h2, h3, w, h4, h5⟩
    have hj : j ≠ .null := fun h => hv (h3.1 h)
    refine ⟨j, h1, h2, ⟨fun h => absurd h hj, fun h => (nomatch h)⟩, .dyn t w, ?_, ?_⟩
    · rw [decode_any]; exact natural_any d ht hj h4
    · rw [deepEqual, h5]; simp
  have c10 : ∀ {t : GoType} {v : GoVal} {x : Js}, v ≠ .nil → Mirrors d t v x → Back d t v x → Back d (.ptr t) (.ptr v) x := by
    rintro t v x hv - ⟨j, h1, h2, h3, w, h4, h5⟩
    have hj : j ≠ .null := fun h => hv (h3.1 h)
    refine ⟨j, h1, h2, ⟨fun h => absurd h hj, fun h => (nomatch h)⟩, .ptr w, ?_, ?_⟩
    · show decode d (.ptr t) .nil j = _
      rw [decode_ptr d t hj, h4]; rfl
    · rw [deepEqual, h5]
  have c11 : ∀ {n : Str} {l : List GoVal} {ms ms' : List (Str × Js)}, MirrorsFields d (d.fields n) l ms → ms'.Perm ms →
      BackFields d (d.fields n) l ms → Back d (.ref n) (.ptr (.struct l)) (.obj ms') := by
    intro n l ms ms' hm hp h
    obtain ⟨h1, ws, h2, h3⟩ := back_struct (hd.tags n) hm hp h
    refine ⟨.obj (toMembers ms'), by rw [toJson], h1, by simp, .ptr (.struct ws), ?_, ?_⟩
    · rw [decode]
      show (decodeMembers d (d.fields n) (zeros (d.fields n)) (toMembers ms')).map _ = _
      rw [h2]; rfl
    · rw [deepEqual, deepEqual, h3]
  have c12 : ∀ {t : GoType} (es : List (GoVal × Js)), t ≠ .uint 8 → (∀ e ∈ es, Mirrors d t e.1 e.2) → (∀ e ∈ es, Back d t e.1 e.2) →
      Back d (.list t) (.list (es.map (·.1))) (.arr (es.map (·.2))) := by
    intro t es ht _ h
    obtain ⟨h2, ws, h3, h4⟩ := back_elems h
    refine ⟨_, by rw [toJson], by rw [Nums]; exact h2, by simp, .list ws, ?_, ?_⟩
    · rw [decode]
      show (if t = .uint 8 then none else (decodeElems d t [] _).map _) = _
      rw [if_neg ht, h3]; rfl
    · rw [deepEqual, h4]
  have c14 : BackFields d [] [] [] := by
    refine ⟨trivial, [], rfl, ?_⟩
    intro pre done _ _
    rw [toMembers, decodeMembers]; simp [zeros]
  constructor
  · intro t v x h
    exact Mirrors.rec (d := d) (motive_1 := fun t v x _ => Back d t v x) (motive_2 := fun fs l ms _ => BackFields d fs l ms)
      c1 c2 c3 c4 c5 c6 c7 c8 c9 c10 c11 c12 (fun _ _ hn hk _ hp ih => back_map hd hn hk ih hp) c14
      (fun _ hv _ ih => back_skip hv rfl ih) (fun _ hv _ ih => back_skip hv rfl ih)
      (fun _ _ hv _ ih => back_skip hv (by rw [toMembers, toJson]) ih) (fun ht _ _ _ i1 i2 => back_present ht i1 i2) h
  · intro fs l ms h
    exact MirrorsFields.rec (d := d) (motive_1 := fun t v x _ => Back d t v x) (motive_2 := fun fs l ms _ => BackFields d fs l ms)
      c1 c2 c3 c4 c5 c6 c7 c8 c9 c10 c11 c12 (fun _ _ hn hk _ hp ih => back_map hd hn hk ih hp) c14
      (fun _ hv _ ih => back_skip hv rfl ih) (fun _ hv _ ih => back_skip hv rfl ih)
      (fun _ _ hv _ ih => back_skip hv (by rw [toMembers, toJson]) ih) (fun ht _ _ _ i1 i2 => back_present ht i1 i2) h

/-! ### From Go to TypeScript -/

/-- What is to be shown for a value. -/
def Forth (ts : List TypeDecl) (d : Decls) (t : GoType) (v : GoVal) : Prop :=
  Exact v → ∃ x j, Mirrors d t v x ∧ encode d t v = some j ∧ Nums j ∧ ofJson j = wire x ∧ Kept x ∧
    ((t = .any ∨ Natural t) → hasBig x = false) ∧ ∀ vt, GoFor ts vt t → OfType ts vt x

/-- What is to be shown for the fields of a struct. -/
def ForthFields (ts : List TypeDecl) (d : Decls) (fs : List FieldDecl) (l : List GoVal) : Prop :=
  (∀ v ∈ l, Exact v) → ∃ ms js, MirrorsFields d fs l ms ∧ encodeFields d fs l = some js ∧ NumsMembers js ∧
    js.map (fun p => (p.1, ofJson p.2)) = wireMembers ms ∧
    ∀ q ∈ ms, Kept q.2 ∧ ∃ f ∈ fs, f.tag = some q.1 ∧ ∀ vt, GoFor ts vt f.type → OfType ts vt q.2

omit [GoFloat] in
theorem goFor_direct {ts : List TypeDecl} {vt : VarType} {t : GoType} {x : Js} (hg : GoFor ts vt t) (hp : ∀ u, t ≠ .ptr u)
    (h : ∀ vt, GoFor ts vt t → (∀ e n p, vt ≠ .alias e n p) → OfType ts vt x) : OfType ts vt x := by
  induction hg with
  | alias hd ht _ ih => exact .alias hd ht (ih hp h)
  | core hc => exact h _ (.core hc) nofun
  | optional _ => exact absurd rfl (hp _)
  | list hg => exact h _ (.list hg) nofun
  | map hg => exact h _ (.map hg) nofun
  | enum => exact h _ (.enum ..) nofun
  | struct h1 h2 => exact h _ (.struct h1 h2) nofun

omit [JsEngine] [GoFloat] in
theorem goFor_ptr {ts : List TypeDecl} {vt : VarType} {t : GoType} (hg : GoFor ts vt (.ptr t)) : GoFor ts vt t := by
  generalize hu : GoType.ptr t = u at hg
  induction hg with
  | optional h _ => cases hu; exact h
  | alias hd ht _ ih => exact .alias hd ht (ih hu)
  | core hc => 
    subst hu
    rename_i c
    cases c <;> cases hc
  | _ => cases hu

omit [GoFloat] in
/-- The type of a core type or an enum. -/
theorem leaf_type {ts : List TypeDecl} {t : GoType} {x : Js} (hp : ∀ u, t ≠ .ptr u) (hl : ∀ u, t ≠ .list u) (hm : ∀ k u, t ≠ .map k u)
    (hr : ∀ n, t ≠ .ref n) (hb : t ≠ .big) (hk : Kept x) (hx : hasBig x = false) : ∀ vt, GoFor ts vt t → OfType ts vt x := by
  intro vt hg
  refine goFor_direct hg hp ?_
  intro vt hg hna
  cases hg with
  | core hc =>
    refine .core ?_ hk hx
    rintro rfl
    cases hc
    exact hb rfl
  | optional => exact absurd rfl (hp _)
  | list => exact absurd rfl (hl _)
  | map => exact absurd rfl (hm _ _)
  | enum => exact .enum hk hx
  | struct => exact absurd rfl (hr _)
  | alias => exact absurd rfl (hna _ _ _)

theorem forth_elems {ts : List TypeDecl} {d : Decls} {t : GoType} {l : List GoVal} (h : ∀ v ∈ l, Forth ts d t v) (hx : ∀ v ∈ l, Exact v) :
    ∃ (es : List (GoVal × Js)) (js : List Json), es.map (·.1) = l ∧ (∀ e ∈ es, Mirrors d t e.1 e.2 ∧ Kept e.2 ∧ ((t = .any ∨ Natural t) → hasBig e.2 = false) ∧
        ∀ vt, GoFor ts vt t → OfType ts vt e.2) ∧
      encodeElems d t l = some js ∧ NumsList js ∧ ofElems js = wireElems (es.map (·.2)) := by
  induction l with
  | nil => exact ⟨[], [], rfl, by simp, rfl, trivial, rfl⟩
  | cons v l ih =>
    obtain ⟨x, j, h1, h2, h3, h4, h5⟩ := h v (by simp) (hx v (by simp))
    obtain ⟨es, js, i1, i2, i3, i4, i5⟩ := ih (fun y hy => h y (List.mem_cons_of_mem _ hy)) fun y hy => hx y (List.mem_cons_of_mem _ hy)
    refine ⟨(v, x) :: es, j :: js, by rw [List.map_cons, i1], ?_, by rw [encodeElems, h2, i3], ⟨h3, i4⟩, ?_⟩
    · intro e he
      rcases List.mem_cons.1 he with rfl | he
      · exact ⟨h1, h5⟩
      · exact i2 e he
    · rw [ofElems, List.map_cons, wireElems, h4, i5]

theorem forth_entries {ts : List TypeDecl} {d : Decls} (hd : WellDeclared d) {k : KeyType} {t : GoType} {l : List (Key × GoVal)}
    (hk : ∀ p ∈ l, KeyOf d k p.1) (h : ∀ p ∈ l, Forth ts d t p.2) (hx : ∀ p ∈ l, Exact p.2) :
    ∃ (es : List (((Key × GoVal) × (Str × Js)) × (Str × Json))) (js : List (Str × Json)), (es.map (·.1)).map (·.1) = l ∧
      (∀ e ∈ es, KeyName d k e.1.1.1 e.1.2.1 ∧ Mirrors d t e.1.1.2 e.1.2.2 ∧ Kept e.1.2.2 ∧
        ((t = .any ∨ Natural t) → hasBig e.1.2.2 = false) ∧ (∀ vt, GoFor ts vt t → OfType ts vt e.1.2.2) ∧
        (e.2.1, ofJson e.2.2) = (e.1.2.1, wire e.1.2.2)) ∧
      encodeEntries d k t l = some js ∧ NumsMembers js ∧ es.map (·.2) = js := by
  induction l with
  | nil => exact ⟨[], [], rfl, by simp, rfl, trivial, rfl⟩
  | cons p l ih =>
    obtain ⟨x, v⟩ := p
    obtain ⟨y, j, h1, h2, h3, h4, h5, h6, h7⟩ := h _ (List.mem_cons_self ..) (hx _ (List.mem_cons_self ..))
    obtain ⟨s, k1⟩ := key_name hd (hk _ (List.mem_cons_self ..))
    have k2 := (keyName_text hd k1).1
    obtain ⟨es, js, i1, i2, i3, i4, i5⟩ := ih (fun y hy => hk y (List.mem_cons_of_mem _ hy)) (fun y hy => h y (List.mem_cons_of_mem _ hy)) fun y hy => hx y (List.mem_cons_of_mem _ hy)
    dsimp only at h1 h2 k1 k2
    refine ⟨(((x, v), (s, y)), (s, j)) :: es, (s, j) :: js, by rw [List.map_cons, List.map_cons, i1], ?_, by rw [encodeEntries, k2, h2, i3], ⟨h3, i4⟩, by rw [List.map_cons, i5]⟩
    intro e he
    rcases List.mem_cons.1 he with rfl | he
    · exact ⟨k1, h1, h5, h6, h7, by dsimp only; rw [h4]⟩
    · exact i2 e he

omit [JsEngine] [GoFloat] in
theorem perm_of_map {α β : Type} {f : α → β} {m r : List β} (h : m.Perm r) : ∀ l : List α, r = l.map f → ∃ l' : List α, l'.Perm l ∧ m = l'.map f := by
  induction h with
  | nil => intro l hl; exact ⟨l, .refl _, hl⟩
  | cons x _ ih =>
    intro l hl
    obtain ⟨a, l', rfl, rfl, rfl⟩ := List.map_eq_cons_iff.1 hl.symm
    obtain ⟨l'', h1, h2⟩ := ih l' rfl
    exact ⟨a :: l'', h1.cons a, by rw [List.map_cons, h2]⟩
  | swap x y l0 =>
    intro l hl
    obtain ⟨a, l', rfl, rfl, h2⟩ := List.map_eq_cons_iff.1 hl.symm
    obtain ⟨b, l'', rfl, rfl, rfl⟩ := List.map_eq_cons_iff.1 h2
    exact ⟨b :: a :: l'', .swap _ _ _, rfl⟩
  | trans _ _ i1 i2 =>
    intro l hl
    obtain ⟨l', h1, h2⟩ := i2 l hl
    obtain ⟨l'', h3, h4⟩ := i1 l' h2
    exact ⟨l'', h3.trans h1, h4⟩

omit [JsEngine] [GoFloat] in
theorem noBig_elems {l : List Js} (h : ∀ x ∈ l, hasBig x = false) : hasBigElem l = false := by
  induction l with
  | nil => rfl
  | cons x l ih => rw [hasBigElem, h x (by simp), ih fun y hy => h y (by simp [hy])]; rfl

omit [JsEngine] [GoFloat] in
theorem noBig_members {l : List (Str × Js)} (h : ∀ p ∈ l, hasBig p.2 = false) : hasBigMember l = false := by
  induction l with
  | nil => rfl
  | cons x l ih =>
    obtain ⟨k, v⟩ := x
    have h1 := h (k, v) (by simp)
    dsimp only at h1
    rw [hasBigMember, h1, ih fun y hy => h y (by simp [hy])]; rfl

theorem forth_map {ts : List TypeDecl} {d : Decls} (hd : WellDeclared d) {k : KeyType} {t : GoType} {l : List (Key × GoVal)}
    (hn : (l.map (·.1)).Pairwise (· ≠ ·)) (hk : ∀ p ∈ l, KeyOf d k p.1) (h : ∀ p ∈ l, Forth ts d t p.2) :
    Forth ts d (.map k t) (.map l) := by
  intro hx
  cases hx with
  | map hx =>
  obtain ⟨es, js, h1, h2, h3, h4, h5⟩ := forth_entries hd hk h hx
  obtain ⟨es', p1, p2⟩ := perm_of_map (sortKeys_spec js).1 es h5.symm
  have hperm : ((es'.map (·.1)).map (·.2)).Perm ((es.map (·.1)).map (·.2)) := (p1.map _).map _
  have hes : ∀ e ∈ es.map (·.1), KeyName d k e.1.1 e.2.1 ∧ Mirrors d t e.1.2 e.2.2 ∧ Kept e.2.2 ∧
        ((t = .any ∨ Natural t) → hasBig e.2.2 = false) ∧ (∀ vt, GoFor ts vt t → OfType ts vt e.2.2) := by
    intro e he
    obtain ⟨e', he', rfl⟩ := List.mem_map.1 he
    obtain ⟨a1, a2, a3, a4, a5, -⟩ := h2 e' he'
    exact ⟨a1, a2, a3, a4, a5⟩
  have hnames : (((es.map (·.1)).map (·.2)).map Prod.fst).Nodup := by
    rw [List.nodup_iff_pairwise_ne, List.pairwise_map, List.pairwise_map]
    rw [← h1, List.pairwise_map, List.pairwise_map] at hn
    refine hn.imp_of_mem ?_
    intro a b ha hb hab hs
    have ka := (keyName_text hd (hes a ha).1).2.1
    have kb := (keyName_text hd (hes b hb).1).2.1
    rw [hs, kb] at ka
    exact hab (Option.some.inj ka).symm
  have hnames' := ((hperm.map Prod.fst).nodup_iff.2 hnames)
  have hall : ∀ q ∈ (es'.map (·.1)).map (·.2), Kept q.2 ∧ ((t = .any ∨ Natural t) → hasBig q.2 = false) ∧ (∀ vt, GoFor ts vt t → OfType ts vt q.2) := by
    intro q hq
    obtain ⟨e, he, rfl⟩ := List.mem_map.1 (hperm.mem_iff.1 hq)
    exact (hes e he).2.2
  have hjs : (sortKeys js).map (fun p => (p.1, ofJson p.2)) = wireMembers ((es'.map (·.1)).map (·.2)) := by
    rw [p2, wireMembers_map, List.map_map, List.map_map, List.map_map]
    refine List.map_congr_left fun e he => ?_
    exact (h2 e (p1.mem_iff.1 he)).2.2.2.2.2
  have hjn : ((sortKeys js).map Prod.fst).Nodup := by
    have e : (sortKeys js).map Prod.fst = ((es'.map (·.1)).map (·.2)).map Prod.fst := by
      have := congrArg (List.map Prod.fst) hjs
      rw [wireMembers_map, List.map_map, List.map_map] at this
      exact this
    rw [e]; exact hnames'
  refine ⟨.obj ((es'.map (·.1)).map (·.2)), .obj (sortKeys js), ?_, by rw [encode, h3]; rfl, ?_, ?_, .obj hnames' fun q hq => (hall q hq).1, ?_, ?_⟩
  · rw [← h1]
    exact .map (es.map (·.1)) (by rw [h1]; exact hn) (fun e he => (hes e he).1) (fun e he => (hes e he).2.1) hperm
  · rw [Nums]; exact numsMembers_perm (sortKeys_spec js).1 h4
  · rw [ofJson, ofMembers_new _ _ (by simpa using hjn), hjs, wire]; rfl
  · rintro (h | h)
    · cases h
    · cases h
      exact noBig_members fun q hq => (hall q hq).2.1 (Or.inl rfl)
  · intro vt hg
    refine goFor_direct hg nofun ?_
    intro vt hg hna
    cases hg with
    | core hc => rename_i c; cases c <;> cases hc
    | map hg => exact .map hnames' fun q hq => (hall q hq).2.2 _ hg
    | alias => exact absurd rfl (hna _ _ _)

theorem forth_cons {ts : List TypeDecl} {d : Decls} {f : FieldDecl} {fs : List FieldDecl} {v : GoVal} {l : List GoVal}
    (h1 : Forth ts d f.type v) (h2 : f.tag = none ∨ (f.omitEmpty = true ∧ Rpc.isEmpty v = true) → v = zero f.type)
    (h3 : ForthFields ts d fs l) : ForthFields ts d (f :: fs) (v :: l) := by
  intro hx
  obtain ⟨ms, js, i1, i2, i3, i4, i5⟩ := h3 fun y hy => hx y (List.mem_cons_of_mem _ hy)
  have i5' : ∀ q ∈ ms, Kept q.2 ∧ ∃ g ∈ f :: fs, g.tag = some q.1 ∧ ∀ vt, GoFor ts vt g.type → OfType ts vt q.2 := fun q hq => by
    obtain ⟨a, g, b, c⟩ := i5 q hq
    exact ⟨a, g, List.mem_cons_of_mem _ b, c⟩
  by_cases hs : f.tag = none ∨ (f.omitEmpty = true ∧ Rpc.isEmpty v = true)
  · have hv := h2 hs
    refine ⟨ms, js, ?_, ?_, i3, i4, i5'⟩
    · rcases hs with hs' | hs'
      · exact .hidden hs' hv i1
      · exact .missing (Or.inl hs'.1) hv i1
    · rw [encodeFields]
      cases ht : f.tag with
      | none => exact i2
      | some tag =>
        dsimp only
        rcases hs with hs | ⟨e1, e2⟩
        · rw [hs] at ht; cases ht
        · rw [e1, e2]; exact i2
  · obtain ⟨x, j, a1, a2, a3, a4, a5, -, a7⟩ := h1 (hx v (List.mem_cons_self ..))
    cases ht : f.tag with
    | none => exact absurd (Or.inl ht) hs
    | some tag =>
      refine ⟨(tag, x) :: ms, (tag, j) :: js, .present ht (fun ho hv => hs (Or.inr ⟨ho, by rw [hv]; rfl⟩)) a1 i1, ?_, ⟨a3, i3⟩, ?_, ?_⟩
      · rw [encodeFields, ht]
        dsimp only
        rw [if_neg, a2, i2]
        intro hh
        rw [Bool.and_eq_true] at hh
        exact hs (Or.inr hh)
      · rw [List.map_cons, i4, wireMembers, a4]
      · intro q hq
        rcases List.mem_cons.1 hq with rfl | hq
        · exact ⟨a5, f, List.mem_cons_self .., ht, a7⟩
        · exact i5' q hq

/-- The members of a struct, put together. -/
theorem forth_struct {d : Decls} {fs : List FieldDecl} {l : List GoVal} {ms : List (Str × Js)} {js : List (Str × Json)}
    (hfs : (fs.filterMap (·.tag)).Pairwise (· ≠ ·)) (hm : MirrorsFields d fs l ms)
    (hj : js.map (fun p => (p.1, ofJson p.2)) = wireMembers ms) :
    (ms.map Prod.fst).Nodup ∧ ofJson (.obj js) = wire (.obj ms) := by
  rw [← List.nodup_iff_pairwise_ne] at hfs
  have hn : (ms.map Prod.fst).Nodup := (mirror_names hm).nodup hfs
  have hjn : (js.map Prod.fst).Nodup := by
    have e : js.map Prod.fst = ms.map Prod.fst := by
      have := congrArg (List.map Prod.fst) hj
      rw [wireMembers_map, List.map_map, List.map_map] at this
      exact this
    rw [e]; exact hn
  refine ⟨hn, ?_⟩
  rw [ofJson, ofMembers_new _ _ (by simpa using hjn), hj, wire]; rfl

theorem forth {ts : List TypeDecl} {d : Decls} (hd : WellDeclared d) (hs : StructsFor ts d) :
    (∀ t v, Carried d t v → Forth ts d t v) ∧ (∀ fs l, CarriedFields d fs l → ForthFields ts d fs l) := by
  have numText : ∀ i : Int, NumText (intText i) := fun i => by have := nums_int i; rwa [Nums] at this
  have c1 : ∀ b : Bool, Forth ts d .bool (.bool b) := fun b _ =>
    ⟨.bool b, .bool b, .bool b, by rw [encode]; rfl, trivial, rfl, .bool b, fun _ => rfl, leaf_type nofun nofun nofun nofun nofun (.bool b) rfl⟩
  have c2 : ∀ {bits : Nat} {i : Int}, FitsSigned bits i → Forth ts d (.int bits) (.int i) := by
    intro bits i h hx
    cases hx with
    | int hx =>
    have hk : Kept (.num (intText i)) := .num (numText i) (JsEngine.canon_int i hx)
    exact ⟨.num (intText i), .num (intText i), .int h hx, by rw [encode], nums_int i, by rw [ofJson, JsEngine.canon_int i hx]; rfl, hk, fun _ => rfl,
      leaf_type nofun nofun nofun nofun nofun hk rfl⟩
  have c3 : ∀ {bits : Nat} {i : Int}, FitsUnsigned bits i → Forth ts d (.uint bits) (.int i) := by
    intro bits i h hx
    cases hx with
    | int hx =>
    have hk : Kept (.num (intText i)) := .num (numText i) (JsEngine.canon_int i hx)
    exact ⟨.num (intText i), .num (intText i), .uint h hx, by rw [encode], nums_int i, by rw [ofJson, JsEngine.canon_int i hx]; rfl, hk, fun _ => rfl,
      leaf_type nofun nofun nofun nofun nofun hk rfl⟩
  have c4 : ∀ {bits : Nat} {x : Str}, GoFloat.norm bits x = some x → Forth ts d (.float bits) (.float x) := by
    intro bits x h hx
    cases hx with
    | float hx =>
    have hk : Kept (.num x) := .num (GoFloat.norm_num h) hx
    exact ⟨.num x, .num x, .float h hx, by rw [encode]; rw [if_pos h], by rw [Nums]; exact GoFloat.norm_num h, by rw [ofJson, hx]; rfl, hk, fun _ => rfl,
      leaf_type nofun nofun nofun nofun nofun hk rfl⟩
  have c5 : ∀ s : Str, Forth ts d .string (.str s) := fun s _ =>
    ⟨.str s, .ofStr true s, .str s, by rw [encode]; rfl, nums_ofStr true s, by unfold Json.ofStr; rw [ofJson, cook_escape]; rfl, .str s, fun _ => rfl,
      leaf_type nofun nofun nofun nofun nofun (.str s) rfl⟩
  have c6 : ∀ i : Int, Forth ts d .big (.big i) := by
    intro i _
    refine ⟨.big i, .str (bigString i), .big i, by rw [encode]; rfl, nums_big i, ?_, .big i, ?_, ?_⟩
    · have e : Json.Json.str (bigString i) = Json.ofStr true (intText i) := by
        unfold Json.ofStr
        rw [plain_escape (BigNum.integer_chars (BigNum.integerText_int i)).2]; rfl
      rw [e]
      unfold Json.ofStr; rw [ofJson, cook_escape]; rfl
    · rintro (h | h) <;> cases h
    · intro vt hg
      refine goFor_direct hg nofun ?_
      intro vt hg hna
      cases hg with
      | core hc => rename_i c; cases c <;> cases hc; exact .bigint _ _
      | alias => exact absurd rfl (hna _ _ _)
  have c7 : ∀ {n name : Str} {x : Nat}, (name, x) ∈ d.members n → Forth ts d (.enum n) (.enum x) := by
    intro n name x h _
    refine ⟨.str name, .ofStr true name, .enum h, ?_, nums_ofStr true _, by unfold Json.ofStr; rw [ofJson, cook_escape]; rfl, .str name, fun _ => rfl,
      leaf_type nofun nofun nofun nofun nofun (.str _) rfl⟩
    rw [encode]
    rw [(C59_round_trip (enum_tables hd n) name x h).1]
  have c8 : ∀ {t : GoType}, Nullable t → Forth ts d t .nil := fun {t} h _ =>
    ⟨.null, .null, .nil h, by cases h <;> rw [encode], trivial, rfl, .null, fun _ => rfl, fun vt _ => .null vt⟩
  have c9 : ∀ {t : GoType} {v : GoVal}, Natural t → v ≠ .nil → Carried d t v → Forth ts d t v → Forth ts d .any (.dyn t v) := by
    rintro t v ht hv - h hx
    cases hx with
    | dyn hx =>
    obtain ⟨x, j, h1, h2, h3, h4, h5, h6, -⟩ := h hx
    have hb := h6 (Or.inr ht)
    exact ⟨x, j, .dyn ht hv h1, by rw [encode, if_pos rfl]; exact h2, h3, h4, h5, fun _ => hb, leaf_type nofun nofun nofun nofun nofun h5 hb⟩
  have c10 : ∀ {t : GoType} {v : GoVal}, v ≠ .nil → Carried d t v → Forth ts d t v → Forth ts d (.ptr t) (.ptr v) := by
    rintro t v hv - h hx
    cases hx with
    | ptr hx =>
    obtain ⟨x, j, h1, h2, h3, h4, h5, -, h7⟩ := h hx
    refine ⟨x, j, .ptr hv h1, by rw [encode]; exact h2, h3, h4, h5, ?_, fun vt hg => h7 vt (goFor_ptr hg)⟩
    rintro (h | h) <;> cases h
  have c11 : ∀ {n : Str} {l : List GoVal}, CarriedFields d (d.fields n) l → ForthFields ts d (d.fields n) l →
      Forth ts d (.ref n) (.ptr (.struct l)) := by
    rintro n l - h hx
    cases hx with
    | ptr hx =>
    cases hx with
    | struct hx =>
    obtain ⟨ms, js, h1, h2, h3, h4, h5⟩ := h hx
    obtain ⟨k1, k2⟩ := forth_struct (hd.tags n) h1 h4
    refine ⟨.obj ms, .obj js, .ref h1 (.refl _), by rw [encode]; rw [h2]; rfl, h3, k2, .obj k1 fun q hq => (h5 q hq).1, ?_, ?_⟩
    · rintro (h | h) <;> cases h
    · intro vt hg
      refine goFor_direct hg nofun ?_
      intro vt hg hna
      cases hg with
      | core hc => rename_i c; cases c <;> cases hc
      | alias => exact absurd rfl (hna _ _ _)
      | struct hdec hkind =>
        rename_i e n p t
        have ht := declares_mem hdec
        refine .struct hdec hkind k1 ?_ ?_
        · intro q hq
          obtain ⟨-, f, hf, hft, -⟩ := h5 q hq
          obtain ⟨g, hg, hgn, hgt⟩ := (hs t ht hkind f hf q.1 hft).1
          exact ⟨g, hg, hgn, hgt⟩
        · intro q hq g hg vt hgn hgt
          obtain ⟨-, f, hf, hft, hty⟩ := h5 q hq
          exact hty vt ((hs t ht hkind f hf q.1 hft).2 g hg vt hgn hgt)
  have c12 : ∀ {t : GoType} {l : List GoVal}, t ≠ .uint 8 → (∀ v ∈ l, Carried d t v) → (∀ v ∈ l, Forth ts d t v) →
      Forth ts d (.list t) (.list l) := by
    intro t l ht _ h hx
    cases hx with
    | list hx =>
    obtain ⟨es, js, h1, h2, h3, h4, h5⟩ := forth_elems h hx
    have hall : ∀ x ∈ es.map (·.2), Kept x ∧ ((t = .any ∨ Natural t) → hasBig x = false) ∧ ∀ vt, GoFor ts vt t → OfType ts vt x := by
      intro x hx
      obtain ⟨e, he, rfl⟩ := List.mem_map.1 hx
      exact (h2 e he).2
    refine ⟨.arr (es.map (·.2)), .arr js, ?_, by rw [encode]; rw [h3]; rfl, h4, by rw [ofJson, h5, wire], .arr fun x hx => (hall x hx).1, ?_, ?_⟩
    · rw [← h1]; exact .list es ht fun e he => (h2 e he).1
    · rintro (h | h)
      · cases h
      · cases h
        exact noBig_elems fun x hx => (hall x hx).2.1 (Or.inl rfl)
    · intro vt hg
      refine goFor_direct hg nofun ?_
      intro vt hg hna
      cases hg with
      | core hc => rename_i c; cases c <;> cases hc
      | list hg => exact .list fun x hx => (hall x hx).2.2 _ hg
      | alias => exact absurd rfl (hna _ _ _)
  have c14 : ForthFields ts d [] [] := fun _ => ⟨[], [], .nil, rfl, trivial, rfl, by simp⟩
  constructor
  · intro t v h
    exact Carried.rec (d := d) (motive_1 := fun t v _ => Forth ts d t v) (motive_2 := fun fs l _ => ForthFields ts d fs l)
      c1 c2 c3 c4 c5 c6 c7 c8 c9 c10 c11 c12 (fun hn hk _ ih => forth_map hd hn hk ih) c14
      (fun _ h2 _ i1 i3 => forth_cons i1 h2 i3) h
  · intro fs l h
    exact CarriedFields.rec (d := d) (motive_1 := fun t v _ => Forth ts d t v) (motive_2 := fun fs l _ => ForthFields ts d fs l)
      c1 c2 c3 c4 c5 c6 c7 c8 c9 c10 c11 c12 (fun hn hk _ ih => forth_map hd hn hk ih) c14
      (fun _ h2 _ i1 i3 => forth_cons i1 h2 i3) h

end Verif.Ts
