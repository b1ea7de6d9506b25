import Verif.Props.Written
import Verif.Props.Validation
import Verif.Schema.FilterLemmas
import Verif.Spec.Aliases

/-! # C26, C115: what aliases stand for -/

namespace Verif.Props
open Verif.Schema Verif.Compile
open Verif.Ridl (Token Node ImportNode)
open Verif.Spec hiding advance

variable [GoUnicode]

/-! ### Expressions mean the same in a schema with the same declarations among others -/

theorem firstDecl_le {ts ts' : List TypeDecl} (hd : ts'.Pairwise fun a b => toLower a.name ≠ toLower b.name)
    (hle : ∀ d ∈ ts, ∃ d' ∈ ts', d'.bare = d.bare) {f : Str → Prop} (hf : ∀ a b, f a → f b → toLower a = toLower b)
    {d : TypeDecl} (h : FirstDecl ts (fun d => f d.name) d) : ∃ d', FirstDecl ts' (fun d => f d.name) d' ∧ d'.bare = d.bare := by
  obtain ⟨l, r, rfl, h1, -⟩ := h
  obtain ⟨d', hd', hb⟩ := hle d (by simp)
  have hn : d'.name = d.name := (congrArg TypeDecl.name hb :)
  obtain ⟨l', r', rfl⟩ := List.append_of_mem hd'
  refine ⟨d', ⟨l', r', rfl, by show f d'.name; rw [hn]; exact h1, fun x hx hfx => ?_⟩, hb⟩
  rw [List.pairwise_append] at hd
  exact hd.2.2 x hx d' (by simp) (hf _ _ hfx (by show f d'.name; rw [hn]; exact h1))

theorem denotes_le {ts ts' : List TypeDecl} (hd : ts'.Pairwise fun a b => toLower a.name ≠ toLower b.name)
    (hle : ∀ d ∈ ts, ∃ d' ∈ ts', d'.bare = d.bare) {t : Ty} {vt : VarType} (h : Denotes ts t vt) : Denotes ts' t vt := by
  induction h with
  | omitted => exact .omitted
  | scalar h => exact .scalar h
  | list _ ih => exact .list ih
  | @map k v kt vt h1 h2 _ ih =>
    refine .map h1 ?_ ih
    rcases h2 with h2 | ⟨h2, d, h3, h4, h5⟩
    · exact .inl h2
    · obtain ⟨d', h6, hb⟩ := firstDecl_le (f := fun n => toLower n = toLower k) hd hle (fun a b ha hb => ha.trans hb.symm) h3
      have hk : d'.kind = d.kind := (congrArg TypeDecl.kind hb :)
      have ht : d'.type = d.type := (congrArg TypeDecl.type hb :)
      have hp : d'.ptr = d.ptr := (congrArg TypeDecl.ptr hb :)
      exact .inr ⟨h2, d', h6, by rw [hk, ht]; exact h4, by rw [hp]; exact h5⟩
  | @named n d vt h1 h2 h3 =>
    obtain ⟨d', h6, hb⟩ := firstDecl_le (f := fun m => m = n) hd hle (fun a b ha hb => by rw [ha, hb]) h2
    have hk : d'.kind = d.kind := (congrArg TypeDecl.kind hb :)
    have hp : d'.ptr = d.ptr := (congrArg TypeDecl.ptr hb :)
    refine .named h1 h6 ?_
    unfold RefersTo at *
    rw [hk, hp]; exact h3

/-- The names of the types of an accepted schema differ, ignoring case. -/
theorem compiled_names {fs : Files} {path : Str} {s : Schema} (h : Compiled fs path s) :
    s.types.Pairwise fun a b => toLower a.name ≠ toLower b.name := by
  have hp := (C30_listed_once fs path s (compile_iff.2 h)).1
  cases h with
  | @intro _ ns s0 s1 _ ps h1 h2 h3 h4 h5 h6 =>
    obtain ⟨-, -, b, ts, es, ss, -, hts, -, -, rfl⟩ := validate_ok.1 h6
    rw [List.nodup_iff_pairwise_ne, List.pairwise_map] at hp
    refine List.Pairwise.imp_of_mem ?_ hp
    intro x y hx hy hxy
    obtain ⟨x0, hx0, ex⟩ := hts.mem_right hx
    obtain ⟨y0, hy0, ey⟩ := hts.mem_right hy
    have ex := typeParse_ok ex
    have ey := typeParse_ok ey
    have sx := ex.2.2.2.1
    have sy := ey.2.2.2.1
    simp only [TypeDecl.sig, Prod.mk.injEq] at sx sy
    have := ex.2.2.1 y0 hy0
    rw [sx.2.2.1, sy.2.2.1]
    refine this ?_
    intro hh
    exact hxy (by rw [sx.1, sy.1, hh])

/-- No file names what it wants from an import: everything is imported. -/
def WholeImports (fs : Files) (path : Str) : Prop :=
  ∀ f, Reach (Imports fs) path f → ∀ ns, readNodes fs f = .ok ns → ∀ n ∈ imports ns, n.members = []

/-- C115. If files are imported as a whole, then what an alias stands for is, in the schema that webrpc makes, a type
expression over the types of this schema: every name in it is that of a type in the schema, and refers to it. -/
theorem C115_alias_partial (fs : Files) (path : Str) (s : Schema) (h : compile fs path = .ok s) (hw : WholeImports fs path)
    (t : TypeDecl) (ht : t ∈ s.types) (hk : t.kind = S "alias") :
    ∃ ty vt, t.type = some vt ∧ ty.text = vt.expr ∧ Denotes s.types ty vt := by
  have key : ∀ {path s}, Compiled fs path s → WholeImports fs path → ∀ t ∈ s.types, t.kind = S "alias" →
      ∃ ty vt, t.type = some vt ∧ Denotes s.types ty vt := by
    clear ht hk h hw
    intro path s h
    induction h with
    | @intro path ns s0 s1 s ps h1 h2 h3 h4 h5 h6 ih =>
      intro hw t ht hk
      have hC : Compiled fs path s := Compiled.intro h1 h2 h3 h4 h5 h6
      have hc := compile_iff.2 hC
      by_cases hp : t.ptr.1 = path
      · obtain ⟨A, E, T, e, hA, hE, hT⟩ := C64_types fs path s ns hc h1
        have ht' : t ∈ A ++ E ++ T := by rw [← e]; simp [ht, hp]
        rw [List.mem_append, List.mem_append] at ht'
        rcases ht' with (ht' | ht') | ht'
        · obtain ⟨n, hn, hm⟩ := hA.mem_right ht'
          obtain ⟨ty, vt, -, k2, k3⟩ := hm.type
          exact ⟨ty, vt, k3, k2⟩
        · obtain ⟨n, hn, hm⟩ := hE.mem_right ht'
          rw [hm.kind] at hk; exact absurd hk (by decide)
        · obtain ⟨n, hn, hm⟩ := hT.mem_right ht'
          rw [hm.kind] at hk; exact absurd hk (by decide)
      · obtain ⟨n, hn, m, hm, -, u, hu, hb⟩ := (C31_types fs path s ns hc h1 t).1 ⟨t, ht, hp, rfl⟩
        have hn' := hn
        rw [← h3, List.mem_map] at hn
        obtain ⟨p, hpm, rfl⟩ := hn
        have hpe : p.2 = m := compiled_det (h4 p hpm) (compile_sound hm)
        have hkind : u.kind = t.kind := (congrArg TypeDecl.kind hb :)
        have htype : u.type = t.type := (congrArg TypeDecl.type hb :)
        obtain ⟨ty, vt, k1, k2⟩ := ih p hpm (fun f hf => hw f (reach_cons ⟨ns, h1, p.1, hn', rfl⟩ hf)) u (by rw [hpe]; exact hu)
          (by rw [hkind]; exact hk)
        refine ⟨ty, vt, by rw [← htype]; exact k1, denotes_le (compiled_names hC) (fun d hd => ?_) k2⟩
        obtain ⟨d', hd', -, hb'⟩ := (C31_types fs path s ns hc h1 d).2
          ⟨p.1, hn', m, hm, .inl (hw path (.inl rfl) ns h1 p.1 hn'), d, by rw [← hpe]; exact hd, rfl⟩
        exact ⟨d', hd', hb'⟩
  obtain ⟨ty, vt, h1, h2⟩ := key (compile_sound h) hw t ht hk
  exact ⟨ty, vt, h1, (denotes_expr h2).symm, h2⟩

/-! ### C26 -/

omit [GoUnicode] in
theorem standsFor_det {ts : List TypeDecl} (hn : (ts.map (·.ptr)).Nodup) {t u w : TypeDecl} (h1 : StandsFor ts t u) (h2 : StandsFor ts t w) :
    u = w := by
  obtain ⟨hu, e, n, h1⟩ := h1
  obtain ⟨hw, e', n', h2⟩ := h2
  rw [h1] at h2
  simp only [Option.some.injEq, VarType.alias.injEq] at h2
  exact nodup_ptr_eq hn hu hw h2.2.2

omit [GoUnicode] in
theorem ends_acyclic {ts : List TypeDecl} (hn : (ts.map (·.ptr)).Nodup) {t : TypeDecl} {v : VarType} (h : EndsIn ts t v) :
    ¬ ∃ u, Reach (StandsFor ts) t u ∧ Path (StandsFor ts) u u := by
  induction h with
  | @here t v h1 h2 =>
    have no : ∀ w, ¬ StandsFor ts t w := by
      rintro w ⟨-, e, n, h⟩
      rw [h1] at h
      simp only [Option.some.injEq] at h
      exact h2 _ _ _ h
    have no' : ∀ w, ¬ Path (StandsFor ts) t w := by
      intro w h
      cases h with
      | edge h => exact no _ h
      | step h _ => exact no _ h
    rintro ⟨u, rfl | h, hc⟩
    · exact no' _ hc
    · exact no' _ h
  | @step t u v h1 h2 ih =>
    have go : ∀ w, Path (StandsFor ts) t w → Reach (StandsFor ts) u w := by
      intro w h
      cases h with
      | edge h => exact .inl (standsFor_det hn h1 h)
      | step h h' => rw [standsFor_det hn h1 h]; exact .inr h'
    rintro ⟨w, rfl | h, hc⟩
    · exact ih ⟨t, go _ hc, hc⟩
    · exact ih ⟨w, go _ h, hc⟩

omit [GoUnicode] in
theorem path_snoc {α : Type} {E : α → α → Prop} {x y z : α} (h1 : Path E x y) (h2 : E y z) : Path E x z := by
  induction h1 with
  | edge h => exact .step h (.edge h2)
  | step h _ ih => exact .step h (ih h2)

omit [GoUnicode] in
theorem acyclic_ends {ts : List TypeDecl} (hn : (ts.map (·.ptr)).Nodup)
    (hs : ∀ t ∈ ts, t.kind = S "alias" → ∃ v, t.type = some v ∧ ∀ e n p, v = .alias e n p → ∃ u ∈ ts, u.ptr = p ∧ u.kind = S "alias") :
    ∀ (k : Nat) (vis : List Ptr) (t : TypeDecl), vis.Nodup → (∀ p ∈ vis, ∃ w ∈ ts, w.ptr = p ∧ Path (StandsFor ts) w t) →
      ts.length < vis.length + k → t ∈ ts → t.kind = S "alias" → (¬ ∃ u, Reach (StandsFor ts) t u ∧ Path (StandsFor ts) u u) →
      ∃ v, EndsIn ts t v
  | 0, vis, t, h1, h2, h3, _, _, _ => by
    have := nodup_le (k := ts.map (·.ptr)) h1 (fun p hp => by
      obtain ⟨w, hw, rfl, -⟩ := h2 p hp
      exact List.mem_map_of_mem hw)
    rw [List.length_map] at this
    omega
  | k + 1, vis, t, h1, h2, h3, ht, hk, hc => by
    obtain ⟨v, hv, hnext⟩ := hs t ht hk
    by_cases ha : ∃ e n p, v = .alias e n p
    · obtain ⟨e, n, p, rfl⟩ := ha
      obtain ⟨u, hu, rfl, huk⟩ := hnext e n p rfl
      have hstep : StandsFor ts t u := ⟨hu, e, n, hv⟩
      have hfresh : t.ptr ∉ vis := by
        intro h
        obtain ⟨w, hw, hp, hpath⟩ := h2 _ h
        rw [nodup_ptr_eq hn hw ht hp] at hpath
        exact hc ⟨t, .inl rfl, hpath⟩
      obtain ⟨v, hv⟩ := acyclic_ends hn hs k (t.ptr :: vis) u (List.nodup_cons.2 ⟨hfresh, h1⟩) (fun p hp => by
          rcases List.mem_cons.1 hp with rfl | hp
          · exact ⟨t, ht, rfl, .edge hstep⟩
          · obtain ⟨w, hw, e, hpath⟩ := h2 p hp
            exact ⟨w, hw, e, path_snoc hpath hstep⟩)
        (by simp only [List.length_cons]; omega) hu huk
        (fun ⟨w, hr, hw⟩ => hc ⟨w, reach_cons hstep hr, hw⟩)
      exact ⟨v, .step hstep hv⟩
    · exact ⟨v, .here hv fun e n p h => ha ⟨e, n, p, h⟩⟩

/-- C26 (partial: it is false of aliases of each other, C26_cycle_compiles, and of files that are not imported as a whole, C115_dangling).
If files are imported as a whole, following the definition of an alias ends in a type that is no alias exactly if no definition that
is met is (by way of others) that of itself: this is the only way in which it can fail. -/
theorem C26_ends_partial (fs : Files) (path : Str) (s : Schema) (h : compile fs path = .ok s) (hw : WholeImports fs path)
    (t : TypeDecl) (ht : t ∈ s.types) (hk : t.kind = S "alias") :
    (∃ v, EndsIn s.types t v) ↔ ¬ ∃ u, Reach (StandsFor s.types) t u ∧ Path (StandsFor s.types) u u := by
  have hn := (C30_listed_once fs path s h).1
  refine ⟨fun ⟨v, hv⟩ => ends_acyclic hn hv, fun hc => ?_⟩
  refine acyclic_ends hn (fun t ht hk => ?_) (s.types.length + 1) [] t .nil (by simp) (by simp) ht hk hc
  obtain ⟨ty, vt, h1, -, h2⟩ := C115_alias_partial fs path s h hw t ht hk
  refine ⟨vt, h1, ?_⟩
  rintro e n p rfl
  cases h2 with
  | named _ hd hr =>
    obtain ⟨l, r, e1, -⟩ := hd
    rcases hr with ⟨-, hr⟩ | ⟨-, hr⟩ | ⟨hkd, hr⟩
    · cases hr
    · cases hr
    · simp only [VarType.alias.injEq] at hr
      exact ⟨_, by rw [e1]; simp, hr.2.2.symm, hkd⟩

omit [GoUnicode] in
/-- The aliases of a schema with their definitions. -/
def aliasTrees (s : Schema) : List (Str × Option VarType) :=
  (s.types.filter fun t => t.kind = S "alias").map fun t => (t.name, t.type)

omit [GoUnicode] in
/-- C26 is false of the code: aliases that stand for each other, and for themselves, compile. -/
theorem C26_cycle_compiles : let _ := asciiOnly
    partOf aliasTrees (compile [(S "a.ridl", S "webrpc = v1\nname = a\nversion = v1\ntype A: B\ntype B: A\ntype C: C\n")] (S "a.ridl")) =
      some [(S "A", some (.alias (S "B") (S "B") (S "a.ridl", 1))), (S "B", some (.alias (S "A") (S "A") (S "a.ridl", 0))),
        (S "C", some (.alias (S "C") (S "C") (S "a.ridl", 2)))] := by decide +kernel

/-! ### C115 is false of imports that name what they want -/

omit [GoUnicode] in
/-- The file imported declares an alias of a struct; only the alias is imported. -/
def danglingFiles (own : Str) : Files := [
  (S "a.ridl", S "webrpc = v1\nname = a\nversion = v1\nimport b.ridl\n  - Id\nstruct T\n - id: Id\n" ++ own),
  (S "b.ridl", S "webrpc = v1\ntype Id: Key\nstruct Key\n - y: int32\n")]

omit [GoUnicode] in
/-- C115 is false of the code: when only an alias is imported, and not what it stands for, the schema is accepted, and no type in it has the
name that the alias stands for. (For a struct instead of the alias there would be an error.) -/
theorem C115_dangling : let _ := asciiOnly
    partOf (fun s => s.types.map fun t => (t.name, t.kind)) (compile (danglingFiles []) (S "a.ridl")) =
      some [(S "Id", S "alias"), (S "T", S "struct")] ∧
    partOf aliasTrees (compile (danglingFiles []) (S "a.ridl")) = some [(S "Id", some (.struct (S "Key") (S "Key") (S "b.ridl", 1)))] := by
  decide +kernel

omit [GoUnicode] in
/-- C115 is false of the code: when the importing file declares another type of this name, the alias stands for the type of the
imported file, which is not in the schema, by its tree, and for the other one by its name. -/
theorem C115_two_meanings : let _ := asciiOnly
    partOf (fun s => s.types.map fun t => (t.name, t.kind, t.ptr)) (compile (danglingFiles (S "enum Key: uint8\n - ONE\n")) (S "a.ridl")) =
      some [(S "Id", S "alias", S "b.ridl", 0), (S "Key", S "enum", S "a.ridl", 0), (S "T", S "struct", S "a.ridl", 1)] ∧
    partOf aliasTrees (compile (danglingFiles (S "enum Key: uint8\n - ONE\n")) (S "a.ridl")) =
      some [(S "Id", some (.struct (S "Key") (S "Key") (S "b.ridl", 1)))] := by
  decide +kernel

/-! ### A case that meets the hypotheses -/

omit [GoUnicode] in
def aliasFiles : Files := [
  (S "a.ridl", S "webrpc = v1\nname = a\nversion = v1\nimport b.ridl\ntype Ids: []Id\ntype Same: Id\n"),
  (S "b.ridl", S "webrpc = v1\ntype Id: Key\nstruct Key\n - y: int32\n")]

omit [GoUnicode] in
/-- C26, C115. An alias of an imported alias of a struct, and a list of it; the import is of the whole file. -/
theorem C115_example : let _ := asciiOnly
    WholeImports aliasFiles (S "a.ridl") ∧
    partOf aliasTrees (compile aliasFiles (S "a.ridl")) = some
      [(S "Id", some (.struct (S "Key") (S "Key") (S "b.ridl", 1))),
       (S "Ids", some (.list (S "[]Id") (.alias (S "Id") (S "Id") (S "b.ridl", 0)))),
       (S "Same", some (.alias (S "Id") (S "Id") (S "b.ridl", 0)))] := by
  intro _
  refine ⟨?_, by decide +kernel⟩
  have h1 : directImports aliasFiles (S "a.ridl") = [S "b.ridl"] := by decide +kernel
  have h2 : directImports aliasFiles (S "b.ridl") = [] := by decide +kernel
  have w1 : (match readNodes aliasFiles (S "a.ridl") with | .ok ns => (imports ns).all fun n => n.members.isEmpty | _ => true) = true := by
    decide +kernel
  have w2 : (match readNodes aliasFiles (S "b.ridl") with | .ok ns => (imports ns).all fun n => n.members.isEmpty | _ => true) = true := by
    decide +kernel
  have key : ∀ f, (match readNodes aliasFiles f with | .ok ns => (imports ns).all fun n => n.members.isEmpty | _ => true) = true →
      ∀ ns, readNodes aliasFiles f = .ok ns → ∀ n ∈ imports ns, n.members = [] := by
    intro f h ns hn n hm
    rw [hn] at h
    exact List.isEmpty_iff.1 (List.all_eq_true.1 h n hm)
  rintro f (rfl | h)
  · exact key _ w1
  · cases h with
    | edge h =>
      rw [directImports_iff, h1] at h
      rw [List.mem_singleton.1 h]; exact key _ w2
    | step h h' =>
      rw [directImports_iff, h1] at h
      rw [List.mem_singleton.1 h] at h'
      cases h' with
      | edge h => rw [directImports_iff, h2] at h; cases h
      | step h _ => rw [directImports_iff, h2] at h; cases h

end Verif.Props
