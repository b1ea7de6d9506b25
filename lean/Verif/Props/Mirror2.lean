import Verif.Props.Mirror
import Verif.Props.TsGo
/-!
# C103, C104: typed values and typed calls between TypeScript and Go
-/

namespace Verif.Ts
open Verif.Schema hiding Json Method
open Verif.Json Verif.Gen Verif.TsSpec Verif.Props Verif.Rpc Verif.RpcSpec Verif.Values
open Verif.Spec hiding FieldDecl
variable [JsEngine] [GoFloat]

/-- C103. From TypeScript to Go: an object that a TypeScript program sends (with its members in any order, and with optional
ones missing or undefined) is read by the Go program as the same values. -/
theorem C103_to_go {d : Decls} (hd : WellDeclared d) {fs : List FieldDecl} (hfs : (fs.filterMap (·.tag)).Pairwise (· ≠ ·))
    {vals : List GoVal} {l l' : List (Str × Js)} (h : MirrorsFields d fs vals l) (hp : l'.Perm l) :
    ∃ text j vals', stringify (.obj l') = some text ∧ JsonText text j ∧ decodePayload d fs j = some vals' ∧
      deepEqualList vals vals' = true := by
  obtain ⟨h1, ws, h2, h3⟩ := back_struct hfs h hp ((back hd).2 _ _ _ h)
  refine ⟨_, .obj (toMembers l'), ws, by unfold stringify; rw [toJson]; rfl, ?_, h2, h3⟩
  rw [← parse_iff]
  have := parse_printed ⟨false, false⟩ (.obj (toMembers l')) (by rw [Nums]; exact h1) [] (by simp)
  rwa [List.append_nil] at this

/-- C103. The same for a single value. -/
theorem C103_value_to_go {d : Decls} (hd : WellDeclared d) {t : GoType} {v : GoVal} {x : Js} (h : Mirrors d t v x) :
    ∃ text j w, stringify x = some text ∧ JsonText text j ∧ decode d t (zero t) j = some w ∧ deepEqual v w = true := by
  obtain ⟨j, h1, h2, -, w, h3, h4⟩ := (back hd).1 _ _ _ h
  refine ⟨_, j, w, by unfold stringify; rw [h1]; rfl, ?_, h3, h4⟩
  rw [← parse_iff]
  have := parse_printed ⟨false, false⟩ j h2 [] (by simp)
  rwa [List.append_nil] at this

/-- C103. From Go to TypeScript: what a Go program sends arrives as the same values, for every schema whose bigints the
generated decoder can find (see C95), if the numbers are exact in JavaScript. -/
theorem C103_to_ts_partial [GoUnicode] (s s' : Schema) (h : validate s = .ok s') (hdo : DistinctObjects (s.types.map (·.ptr)))
    (compat : Bool) (hf : Findable s' compat) (c : TsClient) (hc : c.table = bigFields s' compat) (k : Str) (ms : List (Str × VarType))
    (ho : ObjectType s' compat k ms) {d : Decls} (hd : WellDeclared d) (hs : StructsFor s'.types d) {fs : List FieldDecl}
    (hfs : (fs.filterMap (·.tag)).Pairwise (· ≠ ·)) (hm : MembersFor s'.types ms fs) {vals : List GoVal} (hv : CarriedFields d fs vals)
    (hx : ∀ v ∈ vals, Exact v) :
    ∃ j data l, encodePayload d fs vals = some j ∧ Nums j ∧ jsonParse (print ⟨false, true⟩ 0 j) = some data ∧ data = ofJson j ∧
      c.decode k data = .ok (.obj l) ∧ MirrorsFields d fs vals l := by
  obtain ⟨l, js, h1, h2, h3, h4, h5⟩ := (forth hd hs).2 fs vals hv hx
  obtain ⟨k1, k2⟩ := forth_struct hfs h1 h4
  have hmem : HasMembers s'.types ms l := ⟨k1, fun q hq => by
    obtain ⟨-, f, hf, hft, hty⟩ := h5 q hq
    obtain ⟨vt, hvt, hg⟩ := hm f hf q.1 hft
    exact ⟨vt, hvt, hty vt hg⟩⟩
  obtain ⟨-, text, data, e1, e2, e3⟩ := C95_round_trip_partial s s' h hdo compat hf c hc k ms ho l hmem
  obtain ⟨text', t1, t2⟩ := kept_trip (Kept.obj k1 fun q hq => (h5 q hq).1)
  rw [t1] at e1
  cases e1
  rw [t2] at e2
  cases e2
  refine ⟨.obj js, _, l, by rw [encodePayload, h2]; rfl, h3, jsonParse_print (by rw [Nums]; exact h3) true, rfl, ?_, h1⟩
  rw [k2]
  exact e3

/-- C103. Different values stay different: if a JavaScript value is the same as two Go values, these are equal. -/
theorem C103_distinct {d : Decls} (hd : WellDeclared d) {t : GoType} {v v' : GoVal} {x : Js} (h : Mirrors d t v x)
    (h' : Mirrors d t v' x) : ∃ w, deepEqual v w = true ∧ deepEqual v' w = true := by
  obtain ⟨j, h1, -, -, w, h3, h4⟩ := (back hd).1 _ _ _ h
  obtain ⟨j', k1, -, -, w', k3, k4⟩ := (back hd).1 _ _ _ h'
  rw [h1] at k1
  cases k1
  rw [h3] at k3
  cases k3
  exact ⟨w, h4, k4⟩

/-! ### TypeScript types -/

theorem leftOut_typed {d : Decls} {t : GoType} {v : GoVal} {x : Js} (h : Mirrors d t v x) (hl : LeftOut v) (hn : v ≠ .nil) : TsTyped d t x := by
  cases h with
  | bool => exact .bool _
  | int => exact .int _ _
  | uint => exact .uint _ _
  | float => exact .float _ _
  | str => exact .str _
  | big => exact .big _
  | enum h => exact .enum h
  | nil => exact absurd rfl hn
  | dyn => cases hl
  | ptr => cases hl
  | ref => cases hl
  | list es _ h =>
    cases es with
    | nil => exact .list (by simp)
    | cons e es => cases hl
  | map es h1 h2 h3 h4 =>
    cases es with
    | nil =>
      rw [List.map_nil, List.perm_nil] at h4
      subst h4
      exact .map (by simp)
    | cons e es => cases hl

theorem typed {d : Decls} :
    (∀ t v x, Mirrors d t v x → Filled d t v → TsTyped d t x) ∧
    (∀ fs l ms, MirrorsFields d fs l ms → FilledFields d fs l → TsMembers d fs ms) := by
  have c8 : ∀ {t : GoType}, Nullable t → Filled d t .nil → TsTyped d t .null := by
    intro t hn hf
    cases hn <;> cases hf
    exact .any _
  have c10 : ∀ {t : GoType} {v : GoVal} {x : Js}, v ≠ .nil → Mirrors d t v x → (Filled d t v → TsTyped d t x) → Filled d (.ptr t) (.ptr v) → TsTyped d (.ptr t) x := by
    intro t v x _ _ ih hf
    cases hf with
    | ptr hf => exact .optional (ih hf)
  have c11 : ∀ {n : Str} {l : List GoVal} {ms ms' : List (Str × Js)}, MirrorsFields d (d.fields n) l ms → ms'.Perm ms →
      (FilledFields d (d.fields n) l → TsMembers d (d.fields n) ms) → Filled d (.ref n) (.ptr (.struct l)) → TsTyped d (.ref n) (.obj ms') := by
    intro n l ms ms' _ hp ih hf
    cases hf with
    | ref hf => exact .interface (ih hf) hp
  have c12 : ∀ {t : GoType} (es : List (GoVal × Js)), t ≠ .uint 8 → (∀ e ∈ es, Mirrors d t e.1 e.2) →
      (∀ e ∈ es, Filled d t e.1 → TsTyped d t e.2) → Filled d (.list t) (.list (es.map (·.1))) → TsTyped d (.list t) (.arr (es.map (·.2))) := by
    intro t es _ _ ih hf
    cases hf with
    | list hf =>
      refine .list fun x hx => ?_
      obtain ⟨e, he, rfl⟩ := List.mem_map.1 hx
      exact ih e he (hf _ (List.mem_map_of_mem he))
  have c13 : ∀ {k : KeyType} {t : GoType} (es : List ((Key × GoVal) × (Str × Js))) {ms : List (Str × Js)},
      ((es.map (·.1)).map (·.1)).Pairwise (· ≠ ·) → (∀ e ∈ es, KeyName d k e.1.1 e.2.1) → (∀ e ∈ es, Mirrors d t e.1.2 e.2.2) →
      ms.Perm (es.map (·.2)) → (∀ e ∈ es, Filled d t e.1.2 → TsTyped d t e.2.2) → Filled d (.map k t) (.map (es.map (·.1))) →
      TsTyped d (.map k t) (.obj ms) := by
    intro k t es ms _ _ _ hp ih hf
    cases hf with
    | map hf =>
      refine .map fun q hq => ?_
      obtain ⟨e, he, rfl⟩ := List.mem_map.1 (hp.mem_iff.1 hq)
      exact ih e he (hf _ (List.mem_map_of_mem he))
  have skip : ∀ {f : FieldDecl} {fs : List FieldDecl} {v : GoVal} {l : List GoVal}, FilledFields d (f :: fs) (v :: l) → FilledFields d fs l := by
    intro f fs v l h
    cases h with
    | unsent _ h => exact h
    | cons _ h => exact h
  have c18 : ∀ {f : FieldDecl} {fs : List FieldDecl} {v : GoVal} {l : List GoVal} {ms : List (Str × Js)} {tag : Str} {x : Js},
      f.tag = some tag → (f.omitEmpty = true → v ≠ .nil) → Mirrors d f.type v x → MirrorsFields d fs l ms →
      (Filled d f.type v → TsTyped d f.type x) → (FilledFields d fs l → TsMembers d fs ms) → FilledFields d (f :: fs) (v :: l) →
      TsMembers d (f :: fs) ((tag, x) :: ms) := by
    intro f fs v l ms tag x ht hn hm _ i1 i2 hf
    cases hf with
    | unsent h hf =>
      rcases h with h | ⟨h1, h2⟩
      · rw [h] at ht; cases ht
      · exact .present ht (leftOut_typed hm h2 (hn h1)) (i2 hf)
    | cons h hf => exact .present ht (i1 h) (i2 hf)
  constructor
  · intro t v x h
    exact Mirrors.rec (d := d) (motive_1 := fun t v x _ => Filled d t v → TsTyped d t x)
      (motive_2 := fun fs l ms _ => FilledFields d fs l → TsMembers d fs ms)
      (fun b _ => .bool b) (fun _ _ _ => .int ..) (fun _ _ _ => .uint ..) (fun _ _ _ => .float ..) (fun _ _ => .str _) (fun _ _ => .big _)
      (fun h _ => .enum h) c8 (fun _ _ _ _ _ => .any _) c10 c11 c12 c13 (fun _ => .nil)
      (fun h1 _ _ ih hf => .hidden h1 (ih (skip hf))) (fun h1 _ _ ih hf => .missing h1 (ih (skip hf)))
      (fun h1 h2 _ _ ih hf => .undefined h1 h2 (ih (skip hf))) c18 h
  · intro fs l ms h
    exact MirrorsFields.rec (d := d) (motive_1 := fun t v x _ => Filled d t v → TsTyped d t x)
      (motive_2 := fun fs l ms _ => FilledFields d fs l → TsMembers d fs ms)
      (fun b _ => .bool b) (fun _ _ _ => .int ..) (fun _ _ _ => .uint ..) (fun _ _ _ => .float ..) (fun _ _ => .str _) (fun _ _ => .big _)
      (fun h _ => .enum h) c8 (fun _ _ _ _ _ => .any _) c10 c11 c12 c13 (fun _ => .nil)
      (fun h1 _ _ ih hf => .hidden h1 (ih (skip hf))) (fun h1 _ _ ih hf => .missing h1 (ih (skip hf)))
      (fun h1 h2 _ _ ih hf => .undefined h1 h2 (ih (skip hf))) c18 h

/-- C103. What arrives in TypeScript has the types that TypeScript has been told, if no nil is sent (except in an `any`). -/
theorem C103_conforms_partial {d : Decls} {fs : List FieldDecl} {vals : List GoVal} {l : List (Str × Js)}
    (h : MirrorsFields d fs vals l) (hf : FilledFields d fs vals) : TsMembers d fs l := typed.2 _ _ _ h hf

/-- C103, why nil must not be sent: a nil slice, map or pointer arrives as null, which none of the TypeScript types has. -/
theorem C103_null {d : Decls} {t : GoType} (h : Nullable t) (ha : base t ≠ .any) :
    (∀ x, Mirrors d t .nil x ↔ x = .null) ∧ ¬ TsTyped d t .null := by
  constructor
  · intro x
    constructor
    · intro h
      cases h
      rfl
    · rintro rfl; exact .nil h
  · clear h
    intro h
    induction t with
    | ptr t ih =>
      cases h with
      | optional h => exact ih ha h
    | any => exact ha rfl
    | _ => cases h

/-- C103, why integers must be small: any integer that the engine rounds arrives as another number. -/
theorem C103_rounded (d : Decls) (bits : Nat) (i : Int) (y : Str) (hy : JsEngine.canon (intText i) = y) :
    ∃ j, encode d (.uint bits) (.int i) = some j ∧ jsonParse (print ⟨false, true⟩ 0 j) = some (.num y) := by
  refine ⟨.num (intText i), by rw [encode], ?_⟩
  rw [jsonParse_print (nums_int i) true, ofJson, hy]

/-! ### Calls -/

theorem mirror_ok {d : Decls} :
    (∀ t v x, Mirrors d t v x → JsOk x) ∧ (∀ fs l ms, MirrorsFields d fs l ms → ∀ p ∈ ms, JsOk p.2) := by
  have num : ∀ i : Int, JsOk (.num (intText i)) := fun i => .num (Or.inl (by have := nums_int i; rwa [Nums] at this))
  have c12 : ∀ {t : GoType} (es : List (GoVal × Js)), t ≠ .uint 8 → (∀ e ∈ es, Mirrors d t e.1 e.2) → (∀ e ∈ es, JsOk e.2) → JsOk (.arr (es.map (·.2))) := by
    intro t es _ _ ih
    refine .arr fun x hx => ?_
    obtain ⟨e, he, rfl⟩ := List.mem_map.1 hx
    exact ih e he
  have c13 : ∀ {k : KeyType} {t : GoType} (es : List ((Key × GoVal) × (Str × Js))) {ms : List (Str × Js)},
      ((es.map (·.1)).map (·.1)).Pairwise (· ≠ ·) → (∀ e ∈ es, KeyName d k e.1.1 e.2.1) → (∀ e ∈ es, Mirrors d t e.1.2 e.2.2) →
      ms.Perm (es.map (·.2)) → (∀ e ∈ es, JsOk e.2.2) → JsOk (.obj ms) := by
    intro k t es ms _ _ _ hp ih
    refine .obj fun q hq => ?_
    obtain ⟨e, he, rfl⟩ := List.mem_map.1 (hp.mem_iff.1 hq)
    exact ih e he
  have cons : ∀ {tag : Str} {x : Js} {ms : List (Str × Js)}, JsOk x → (∀ p ∈ ms, JsOk p.2) → ∀ p ∈ (tag, x) :: ms, JsOk p.2 := by
    intro tag x ms h1 h2 p hp
    rcases List.mem_cons.1 hp with rfl | hp
    · exact h1
    · exact h2 p hp
  constructor
  · intro t v x h
    exact Mirrors.rec (d := d) (motive_1 := fun t v x _ => JsOk x) (motive_2 := fun fs l ms _ => ∀ p ∈ ms, JsOk p.2)
      (fun b => .bool b) (fun _ _ => num _) (fun _ _ => num _) (fun h _ => .num (Or.inl (GoFloat.norm_num h))) (fun s => .str s) (fun i => .big i)
      (fun _ => .str _) (fun _ => .null) (fun _ _ _ ih => ih) (fun _ _ ih => ih) (fun _ hp ih => .obj fun q hq => ih q (hp.mem_iff.1 hq)) c12 c13
      (by simp) (fun _ _ _ ih => ih) (fun _ _ _ ih => ih) (fun _ _ _ _ ih => cons .undefined ih) (fun _ _ _ _ i1 i2 => cons i1 i2) h
  · intro fs l ms h
    exact MirrorsFields.rec (d := d) (motive_1 := fun t v x _ => JsOk x) (motive_2 := fun fs l ms _ => ∀ p ∈ ms, JsOk p.2)
      (fun b => .bool b) (fun _ _ => num _) (fun _ _ => num _) (fun h _ => .num (Or.inl (GoFloat.norm_num h))) (fun s => .str s) (fun i => .big i)
      (fun _ => .str _) (fun _ => .null) (fun _ _ _ ih => ih) (fun _ _ ih => ih) (fun _ hp ih => .obj fun q hq => ih q (hp.mem_iff.1 hq)) c12 c13
      (by simp) (fun _ _ _ ih => ih) (fun _ _ _ ih => ih) (fun _ _ _ _ ih => cons .undefined ih) (fun _ _ _ _ i1 i2 => cons i1 i2) h

/-- The arguments that a Go method gets for an object. -/
theorem taken {d : Decls} (hd : WellDeclared d) {mc : MethodCode} {given : List GoVal} {fs : List FieldDecl} {vals : List GoVal}
    (ht : Takes d mc.sig.args given fs vals) (hfs : (fs.filterMap (·.tag)).Pairwise (· ≠ ·)) {l l' : List (Str × Js)}
    (h : MirrorsFields d fs vals l) (hp : l'.Perm l) :
    ∃ args, TakenAs d mc (some (.obj l')) args ∧ deepEqualList given args = true := by
  obtain ⟨-, ws, h2, h3⟩ := back_struct hfs h hp ((back hd).2 _ _ _ h)
  have hok : JsOk (.obj l') := .obj fun q hq => mirror_ok.2 _ _ _ h q (hp.mem_iff.1 hq)
  unfold TakenAs
  generalize mc.sig.args = sh at ht
  cases ht with
  | list fs vals =>
    by_cases he : (Shape.list fs).some = true
    · refine ⟨ws, ?_, h3⟩
      rw [if_pos he]
      exact ⟨.obj l', .obj (toMembers l'), rfl, hok, by rw [toJson], h2⟩
    · have : fs = [] := by
        cases fs with
        | nil => rfl
        | cons => exact absurd rfl he
      subst this
      cases h
      exact ⟨[], by rw [if_neg he]; rfl, rfl⟩
  | whole n vals =>
    refine ⟨[.struct ws], ?_, ?_⟩
    · rw [if_pos (show (Shape.whole n).some = true from rfl)]
      refine ⟨.obj l', .obj (toMembers l'), rfl, hok, by rw [toJson], ?_⟩
      show (decodeMembers d (d.fields n) (zeros (d.fields n)) (toMembers l')).map _ = _
      rw [h2]; rfl
    · rw [deepEqualList, deepEqual, h3]; rfl

omit [JsEngine] in
/-- What a Go method writes for its results. -/
theorem written {d : Decls} {sh : Shape} {outs : List GoVal} {fs : List FieldDecl} {vals : List GoVal} (hg : Gives d sh outs fs vals)
    {j : Json} (h : encodePayload d fs vals = some j) : sh.writeResults d outs = some j := by
  cases hg with
  | list => exact h
  | whole n =>
    show encode d (.ref n) (.ptr (.struct vals)) = _
    rw [encode]
    exact h

/-- C104. A call from a generated TypeScript client to a generated Go server: the implementation is called once, with
arguments that are equal to the ones sent, and the promise resolves to an object that is the same as the results. -/
theorem C104_call_partial [GoUnicode] (s s' : Schema) (h : validate s = .ok s') (hdo : DistinctObjects (s.types.map (·.ptr)))
    (compat : Bool) (hf : Findable s' compat) (c : TsClient) (hc : c.table = bigFields s' compat) (hcodes : DistinctCodes c.errors)
    {d : Decls} (hd : WellDeclared d) (hs : StructsFor s'.types d)
    (m : TsMethod) (headers : List (Str × Str)) (origin : Str) (v : ServiceCode) (mc : MethodCode) (hw : Wired c m headers origin v mc)
    (header : Str) (impl : Impl) (hooks : Hooks)
    (given : List GoVal) (as : List FieldDecl) (vals : List GoVal) (ht : Takes d mc.sig.args given as vals)
    (has : (as.filterMap (·.tag)).Pairwise (· ≠ ·)) (l l' : List (Str × Js)) (hl : MirrorsFields d as vals l) (hp : l'.Perm l) :
    let handler := v.handler d header impl hooks
    ∃ r args, c.request m (some (.obj l')) headers = .ok r ∧ deepEqualList given args = true ∧
      (Lets hooks (goRequest origin r) →
        served d v (handler (goRequest origin r)).1 = [(mc.name, args)] ∧
        ∀ outs rs rvals ms, impl mc.name args = .results outs → Gives d mc.sig.results outs rs rvals →
          ObjectType s' compat m.response ms → MembersFor s'.types ms rs → (rs.filterMap (·.tag)).Pairwise (· ≠ ·) →
          CarriedFields d rs rvals → (∀ v ∈ rvals, Exact v) →
          ∃ out, c.call m (some (.obj l')) headers (overGo origin handler) = .ok (.obj out) ∧ MirrorsFields d rs rvals out) := by
  intro handler
  obtain ⟨args, hta, heq⟩ := taken hd ht has hl hp
  have hg := good_of_valid h hdo hf.named
  have htab : c.table ≠ none := by
    obtain ⟨table, ht, -⟩ := C41_exact_partial s' compat hg.types hf.unambiguous hf.acyclic
    rw [hc, ht]; nofun
  obtain ⟨r, hr, hall⟩ := C89_call d header c m headers origin v mc hw hcodes impl hooks (some (.obj l')) args hta
    (fun w hw => Or.inl htab)
  refine ⟨r, args, hr, heq, fun hlets => ?_⟩
  obtain ⟨k1, k2, k3, -⟩ := hall hlets
  refine ⟨k1, ?_⟩
  intro outs rs rvals ms himpl hgives hobj hmem hrs hcar hex
  obtain ⟨j, data, out, e1, e2, -, rfl, e4, e5⟩ := C103_to_ts_partial s s' h hdo compat hf c hc m.response ms hobj hd hs hrs hmem hcar hex
  refine ⟨out, ?_, e5⟩
  by_cases hsome : mc.sig.results.some = true
  · rw [k2 outs j himpl hsome (written hgives e1) e2]
    exact e4
  · have hsome : mc.sig.results.some = false := by simpa using hsome
    rw [k3 outs himpl hsome]
    generalize mc.sig.results = sh at hsome hgives
    cases hgives with
    | whole => cases hsome
    | list =>
      have : rs = [] := by
        cases rs with
        | nil => rfl
        | cons => cases hsome
      subst this
      cases hcar
      cases e1
      exact e4

end Verif.Ts
