import Verif.Schema.ValidateLemmas
import Verif.Spec.SchemaValid
import Verif.Props.TypeExpr
/-!
# Validated schemas (C17–C26, C61)
-/

namespace Verif.Props
open Verif.Schema Verif.Spec

/-- A schema with a struct (with a renamed field), an enum, an alias, two errors and a service. -/
def exSchema : Schema :=
  { webrpcVersion := S "v1", schemaName := S "demo", schemaVersion := S "v1.0.0", basePath := S "rpc"
    types :=
      [ { ptr := ([], 0), kind := S "enum", name := S "Kind", type := some (.leaf (S "uint32") .unknown)
          fields := [{ name := S "USER", value := S "0" }, { name := S "ADMIN", value := S "1" }] },
        { ptr := ([], 1), kind := S "struct", name := S "User"
          fields :=
            [ { name := S "id", type := some (.leaf (S "uint64") .unknown) },
              { name := S "kinds", type := some (.leaf (S "map<Kind,[]User>") .unknown),
                metas := [[(S "json", .str (S "k"))]] } ] },
        { ptr := ([], 2), kind := S "alias", name := S "ID", type := some (.leaf (S "string") .unknown) } ]
    errors :=
      [ { ptr := ([], 3), code := 1, name := S " NotFound ", message := S "not found", httpStatus := 404 },
        { ptr := ([], 4), code := 2, name := S "Denied", message := S "no", httpStatus := 403 } ]
    services :=
      [ { ptr := ([], 5), name := S "API"
          methods :=
            [ { name := S "Ping" },
              { name := S "GetUser", inputs := [{ name := S "id", type := some (.leaf (S "ID") .unknown) }],
                outputs := [{ name := S "user", type := some (.leaf (S "User") .unknown) }],
                errors := [S "NotFound"] } ] } ] }

/-- Is the outcome `ok`? -/
def Res.isOk {α : Type} : Res α → Bool
  | .ok _ => true
  | _ => false

/-- The hypotheses of the theorems below are met: the example validates. -/
theorem exSchema_valid : let _ := asciiOnly; ∃ s', validate exSchema = .ok s' := by
  let _ := asciiOnly
  have h : Res.isOk (validate exSchema) = true := by decide +kernel
  cases hv : validate exSchema with
  | ok s' => exact ⟨s', hv⟩
  | err e => simp [hv, Res.isOk] at h
  | panic => simp [hv, Res.isOk] at h
  | fuel => simp [hv, Res.isOk] at h

/-! ## C17 -/

theorem pairwise_of_pointwise {α : Type} {ptr : α → Ptr} {R : α → α → Prop} :
    ∀ {l pre : List α}, (l.map ptr).Nodup → (∀ x ∈ pre ++ l, ∀ y ∈ l, ptr x ≠ ptr y → R x y) →
      l.Pairwise R := by
  intro l
  induction l with
  | nil => intros; exact .nil
  | cons a l ih =>
    intro pre hn h
    simp at hn
    refine List.pairwise_cons.2 ⟨?_, ih (pre := pre ++ [a]) hn.2 ?_⟩
    · intro b hb
      refine h a (by simp) b (by simp [hb]) ?_
      intro he
      exact hn.1 b hb he.symm
    · intro x hx y hy hp
      exact h x (by simpa using hx) y (by simp [hy]) hp

/-- C17. In a schema that validates no two types have the same name ignoring case, no name is
empty, and every name starts with an upper-case letter (byte).  Nothing is renamed or dropped. -/
theorem C17_type_names [GoUnicode] (s s' : Schema) (h : validate s = .ok s')
    (hd : DistinctObjects (s.types.map (·.ptr))) :
    DistinctNames (s'.types.map (·.name)) ∧
    (∀ t ∈ s'.types, t.name ≠ [] ∧ startsWithUpper t.name = true) ∧
    s'.types.map (fun t => (t.ptr, t.name, t.kind)) = s.types.map (fun t => (t.ptr, t.name, t.kind)) := by
  obtain ⟨-, -, b, ts, es, ss, -, ht, -, -, rfl⟩ := validate_ok.1 h
  have hsig : s.types.map TypeDecl.sig = ts.map TypeDecl.sig := types_sig (each_ok.2 ht)
  have hmap : ∀ {γ : Type} (g : Ptr × Str × Str × Option VarType → γ),
      ts.map (fun t => g t.sig) = s.types.map (fun t => g t.sig) := by
    intro γ g
    have := congrArg (List.map g) hsig.symm
    simpa [Function.comp_def] using this
  have hnames : ts.map (·.name) = s.types.map (·.name) := hmap (fun q => q.2.2.1)
  refine ⟨?_, ?_, hmap (fun q => (q.1, q.2.2.1, q.2.1))⟩
  · show DistinctNames (ts.map (·.name))
    rw [hnames]
    unfold DistinctNames
    rw [List.pairwise_map]
    refine pairwise_of_pointwise (ptr := TypeDecl.ptr) (pre := []) hd ?_
    intro x hx y hy hp he
    obtain ⟨y', _, hy'⟩ := ht.mem_left hy
    exact (typeParse_ok hy').2.2.1 x (by simpa using hx) hp he.symm
  · intro t ht'
    obtain ⟨x, hx, hxt⟩ := ht.mem_right ht'
    obtain ⟨h1, h2, _, h4, _⟩ := typeParse_ok hxt
    have hn : t.name = x.name := by simp [TypeDecl.sig] at h4; exact h4.2.2.1
    rw [hn]; exact ⟨h1, h2⟩

/-- C17, conversely: a schema with two types of the same name, ignoring case, is rejected whatever
else it contains (it may be rejected for another reason first, but never accepted). -/
theorem C17_duplicate_rejected [GoUnicode] (s s' : Schema) (t u : TypeDecl) (ht : t ∈ s.types) (hu : u ∈ s.types)
    (hp : t.ptr ≠ u.ptr) (hn : SameName t.name u.name) : validate s ≠ .ok s' := by
  intro h
  obtain ⟨-, -, b, ts, es, ss, -, hts, -, -, rfl⟩ := validate_ok.1 h
  obtain ⟨y', _, hy'⟩ := hts.mem_left ht
  exact (typeParse_ok hy').2.2.1 u hu hp.symm hn

/-! ## C18 -/

theorem isAlpha_eq (c : Char) : isAlpha c = c.isAlpha := by
  simp only [isAlpha, Char.isAlpha, Char.isUpper, Char.isLower]
  have : ∀ a b : Char, decide (a ≤ b) = decide (a.val ≤ b.val) := fun _ _ => rfl
  simp only [this]
  rw [Bool.or_comm]
  simp

theorem isAlnum_eq (c : Char) : isAlnum c = (c.isAlphanum || c == '_') := by
  simp only [isAlnum, isAlpha_eq, Char.isAlphanum]
  rfl

theorem identifier_iff (n : Str) : isValidArgName n = true ↔ Identifier n := by
  unfold Identifier
  cases n with
  | nil => simp [isValidArgName]
  | cons c cs =>
    simp only [isValidArgName, Bool.and_eq_true, List.all_eq_true, isAlpha_eq, isAlnum_eq, Bool.or_eq_true,
      beq_iff_eq]
    constructor
    · rintro ⟨h1, h2⟩; exact ⟨c, cs, rfl, h1, h2⟩
    · rintro ⟨c', cs', he, h1, h2⟩
      simp at he; obtain ⟨rfl, rfl⟩ := he
      exact ⟨h1, h2⟩

theorem jsonFieldName_eq {acc j : Str} {ms : List Meta} (h : jsonFieldName acc ms = .ok j) :
    j = ((ms.filterMap renames).getLast?).getD acc ∧
    (j ≠ acc → isValidArgName j = true) := by
  induction ms generalizing acc with
  | nil => simp [jsonFieldName] at h; simp [h]
  | cons m ms ih =>
    simp only [jsonFieldName] at h
    cases hl : m.lookup (S "json") with
    | none =>
      rw [hl] at h
      have : renames m = none := by simp [renames, hl]
      simp only [List.filterMap_cons, this]
      exact ih h
    | some v =>
      rw [hl] at h
      cases v with
      | str v =>
        simp only at h
        by_cases hd : v = S "-"
        · have : renames m = none := by simp [renames, hl, hd]
          simp only [hd, if_true] at h
          simp only [List.filterMap_cons, this]
          exact ih h
        · have : renames m = some v := by simp [renames, hl, hd]
          simp only [hd, if_false] at h
          cases hv : isValidArgName v with
          | false => simp [hv] at h
          | true =>
            simp only [hv] at h
            simp only [List.filterMap_cons, this]
            obtain ⟨h1, h2⟩ := ih h
            constructor
            · rw [h1, List.getLast?_cons]; simp
            · intro _
              by_cases hj : j = v
              · rw [hj]; exact hv
              · exact h2 hj
      | _ => simp at h

/-- What C18 says about the fields of one type. -/
structure FieldsOk [GoUnicode] (fs : List Field) : Prop where
  ident : ∀ f ∈ fs, Identifier f.name
  distinct : DistinctNames (fs.map (·.name))
  jsonIdent : ∀ f ∈ fs, Identifier (jsonNameOf f)
  jsonDistinct : DistinctNames (fs.map jsonNameOf)

theorem fieldsOk_of_check [GoUnicode] {fs : List Field} (h : checkFields [] [] fs = .ok ()) : FieldsOk fs := by
  obtain ⟨h1, h2, h3⟩ := checkFields_ok h
  have hj : ∀ f ∈ fs, jsonFieldName f.name f.metas = .ok (jsonNameOf f) := by
    intro f hf
    obtain ⟨_, _, j, q, _⟩ := h1 f hf
    rw [q, (jsonFieldName_eq q).1]; rfl
  constructor
  · intro f hf; exact (identifier_iff _).1 (h1 f hf).1
  · unfold DistinctNames; rw [List.pairwise_map]; exact h2
  · intro f hf
    rw [← identifier_iff]
    by_cases he : jsonNameOf f = f.name
    · rw [he]; exact (h1 f hf).1
    · exact (jsonFieldName_eq (hj f hf)).2 he
  · unfold DistinctNames; rw [List.pairwise_map]
    refine List.Pairwise.imp_of_mem ?_ h3
    intro a b ha hb hab
    exact hab _ _ (hj a ha) (hj b hb)

theorem fieldsOk_congr [GoUnicode] {fs gs : List Field}
    (h : fs.map (fun f => (f.name, f.metas)) = gs.map (fun f => (f.name, f.metas))) (hf : FieldsOk fs) :
    FieldsOk gs := by
  have hn : gs.map (·.name) = fs.map (·.name) := by
    have := congrArg (List.map Prod.fst) h.symm
    simpa [Function.comp_def] using this
  have hj : gs.map jsonNameOf = fs.map jsonNameOf := by
    have := congrArg (List.map (fun p : Str × List Meta => ((p.2.filterMap renames).getLast?).getD p.1)) h.symm
    rw [List.map_map, List.map_map] at this
    exact this
  refine ⟨?_, hn ▸ hf.distinct, ?_, hj ▸ hf.jsonDistinct⟩
  · intro g hg
    have : g.name ∈ fs.map (·.name) := hn ▸ List.mem_map_of_mem hg
    obtain ⟨f, hf', he⟩ := List.mem_map.1 this
    rw [← he]; exact hf.ident f hf'
  · intro g hg
    have : jsonNameOf g ∈ fs.map jsonNameOf := hj ▸ List.mem_map_of_mem hg
    obtain ⟨f, hf', he⟩ := List.mem_map.1 this
    rw [← he]; exact hf.jsonIdent f hf'

/-- C18. In a schema that validates, the fields of every struct and enum have identifiers as names,
distinct ignoring case, and the names they have in JSON are identifiers distinct ignoring case;
every struct field has a type. -/
theorem C18_fields [GoUnicode] (s s' : Schema) (h : validate s = .ok s') (t : TypeDecl) (ht : t ∈ s'.types)
    (hk : t.kind ≠ S "alias") :
    FieldsOk t.fields ∧ (t.kind = S "struct" → ∀ f ∈ t.fields, f.type.isSome ∧ f.value = []) := by
  obtain ⟨-, -, b, ts, es, ss, -, hts, -, -, rfl⟩ := validate_ok.1 h
  obtain ⟨x, hx, hxt⟩ := hts.mem_right ht
  obtain ⟨-, -, -, h4, h5⟩ := typeParse_ok hxt
  have hkk : t.kind = x.kind := by simp [TypeDecl.sig] at h4; exact h4.2.1
  have k1 : S "struct" ≠ S "enum" := by decide
  rcases h5 with ⟨q, _, _⟩ | ⟨q, rfl, q1, _⟩ | ⟨q, q1, fs, rfl, q2⟩
  · exact absurd (hkk.trans q) hk
  · exact ⟨fieldsOk_of_check q1, fun he => absurd (q ▸ he) k1.symm⟩
  · constructor
    · refine fieldsOk_congr ?_ (fieldsOk_of_check q1)
      refine q2.map_eq ?_
      intro f f' hf
      obtain ⟨vt, _, _, rfl⟩ := structField_ok hf
      rfl
    · intro _ f hf
      obtain ⟨g, _, hg⟩ := q2.mem_right hf
      obtain ⟨vt, _, hv, rfl⟩ := structField_ok hg
      exact ⟨rfl, hv⟩

/-! ## C19 -/

/-- C19. In a schema that validates, error codes are positive and pairwise distinct, names are
non-empty, start with an upper-case letter (byte), do not start with `webrpc` in any case, and are
distinct ignoring case; statuses are in 400..599 and messages are not empty.  Names are the given
ones without surrounding blanks; codes, messages and statuses are the given ones. -/
theorem C19_errors [GoUnicode] (s s' : Schema) (h : validate s = .ok s') :
    (s'.errors.map (·.code)).Pairwise (· ≠ ·) ∧ DistinctNames (s'.errors.map (·.name)) ∧
    (∀ e ∈ s'.errors, 0 < e.code ∧ e.name ≠ [] ∧ startsWithUpper e.name = true ∧
      ¬ S "webrpc" <+: toLower e.name ∧ e.message ≠ [] ∧ 400 ≤ e.httpStatus ∧ e.httpStatus ≤ 599) ∧
    s'.errors = s.errors.map (fun e => { e with name := trimSpace e.name }) := by
  obtain ⟨-, -, b, ts, es, ss, -, -, he, -, rfl⟩ := validate_ok.1 h
  obtain ⟨tl, h1, h2, h3, h4⟩ := errorsParse_ok he
  simp at h1; subst h1
  have hp : es.Pairwise (fun a b => toLower a.name ≠ toLower b.name ∧ a.code ≠ b.code) := by
    by_cases hz : s.errors = []
    · simp [hz] at h2; simp [h2]
    · exact h4 hz
  refine ⟨?_, ?_, ?_, h2⟩
  · rw [List.pairwise_map]; exact hp.imp fun hab => hab.2
  · unfold DistinctNames; rw [List.pairwise_map]; exact hp.imp fun hab => hab.1
  · intro e hem
    obtain ⟨q1, q2, q3, q4, q5, q6, q7⟩ := h3 e hem
    refine ⟨q2, q1, q3, ?_, q5, q6, q7⟩
    intro hpre
    have := List.isPrefixOf_iff_prefix.2 hpre
    simp [hasPrefix, this] at q4

/-! ## C20 -/

/-- C20. In a schema that validates, service names are non-empty and (when no service object is
listed twice) distinct ignoring case; every service has methods, with non-empty names distinct
ignoring case.  Nothing is renamed or dropped. -/
theorem C20_names [GoUnicode] (s s' : Schema) (h : validate s = .ok s') :
    (DistinctObjects (s.services.map (·.ptr)) → DistinctNames (s'.services.map (·.name))) ∧
    (∀ v ∈ s'.services, v.name ≠ [] ∧ v.methods ≠ [] ∧ (∀ m ∈ v.methods, m.name ≠ []) ∧
      DistinctNames (v.methods.map (·.name))) ∧
    s'.services.map (fun v => (v.ptr, v.name, v.methods.map (·.name))) =
      s.services.map (fun v => (v.ptr, v.name, v.methods.map (·.name))) := by
  obtain ⟨-, -, b, ts, es, ss, -, -, -, hs, rfl⟩ := validate_ok.1 h
  have hmn : ∀ {v v' : Service}, serviceParse ts es s.services v = .ok v' →
      v'.ptr = v.ptr ∧ v'.name = v.name ∧ v'.methods.map (·.name) = v.methods.map (·.name) := by
    intro v v' hv
    obtain ⟨_, _, _, _, _, ms, q, rfl⟩ := serviceParse_ok.1 hv
    refine ⟨rfl, rfl, ?_⟩
    refine (q.map_eq ?_).symm
    intro m m' hm
    obtain ⟨_, _, _, _, _, _, rfl⟩ := methodParse_ok.1 hm
    rfl
  have hmap : ss.map (fun v => (v.ptr, v.name, v.methods.map (·.name))) =
      s.services.map (fun v => (v.ptr, v.name, v.methods.map (·.name))) := by
    refine (hs.map_eq ?_).symm
    intro v v' hv
    obtain ⟨a, b, c⟩ := hmn hv
    rw [a, b, c]
  refine ⟨?_, ?_, hmap⟩
  · intro hd
    have hn : ss.map (·.name) = s.services.map (·.name) := by
      have := congrArg (List.map (fun p : Ptr × Str × List Str => p.2.1)) hmap
      simpa [Function.comp_def] using this
    show DistinctNames (ss.map (·.name))
    rw [hn]
    unfold DistinctNames
    rw [List.pairwise_map]
    refine pairwise_of_pointwise (ptr := Service.ptr) (pre := []) hd ?_
    intro x hx y hy hp he
    obtain ⟨y', _, hy'⟩ := hs.mem_left hy
    exact (serviceParse_ok.1 hy').2.1 x (by simpa using hx) hp he.symm
  · intro v' hv'
    obtain ⟨v, hv, hvv⟩ := hs.mem_right hv'
    obtain ⟨a, b, c⟩ := hmn hvv
    obtain ⟨h1, _, h3, h4, h5, _⟩ := serviceParse_ok.1 hvv
    refine ⟨b ▸ h1, ?_, ?_, ?_⟩
    · intro hz
      rw [hz] at c
      simp at c; exact h3 c
    · intro m hm
      have : m.name ∈ v.methods.map (·.name) := c ▸ List.mem_map_of_mem hm
      obtain ⟨m', hm', he⟩ := List.mem_map.1 this
      rw [← he]; exact h4 m' hm'
    · rw [c]; unfold DistinctNames; rw [List.pairwise_map]; exact h5

/-- A schema listing the same service object twice, as a diamond import produces (see C30). -/
def twiceListed : Schema :=
  { webrpcVersion := S "v1", schemaVersion := S "v1"
    services := [ { ptr := ([], 0), name := S "API", methods := [{ name := S "Ping" }] },
                  { ptr := ([], 0), name := S "API", methods := [{ name := S "Ping" }] } ] }

/-- C20 is false of the code when one service object is listed twice: the duplicate is accepted. -/
theorem C20_same_object_twice :
    let _ := asciiOnly
    ∃ s', validate twiceListed = .ok s' ∧ s'.services.map (·.name) = [S "API", S "API"] := by
  let _ := asciiOnly
  have h : (match validate twiceListed with
    | .ok s' => decide (s'.services.map (·.name) = [S "API", S "API"])
    | _ => false) = true := by decide +kernel
  cases hv : validate twiceListed with
  | ok s' => rw [hv] at h; exact ⟨s', hv, by simpa using h⟩
  | err e => simp [hv] at h
  | panic => simp [hv] at h
  | fuel => simp [hv] at h

/-! ## C21 -/

/-- C21. In a schema that validates, every error a method lists is the name of a declared error;
argument names are not empty, arguments have types, and a succinct method has at most one input and
one output. -/
theorem C21_method_errors [GoUnicode] (s s' : Schema) (h : validate s = .ok s') (v : Service) (hv : v ∈ s'.services)
    (m : Method) (hm : m ∈ v.methods) :
    (∀ n ∈ m.errors, ∃ e ∈ s'.errors, e.name = n) ∧
    (∀ a ∈ m.inputs ++ m.outputs, a.name ≠ [] ∧ a.type.isSome) ∧
    (m.succinct = true → m.inputs.length ≤ 1 ∧ m.outputs.length ≤ 1) := by
  obtain ⟨-, -, b, ts, es, ss, -, -, -, hs, rfl⟩ := validate_ok.1 h
  obtain ⟨v0, hv0, hvv⟩ := hs.mem_right hv
  obtain ⟨_, _, _, _, _, ms, q, rfl⟩ := serviceParse_ok.1 hvv
  obtain ⟨m0, hm0, hmm⟩ := q.mem_right hm
  obtain ⟨h1, h2, ins, outs, h3, h4, rfl⟩ := methodParse_ok.1 hmm
  refine ⟨h2, ?_, ?_⟩
  · intro a ha
    simp only [List.mem_append] at ha
    have key : ∀ {l l' : List Argument}, Pointwise (fun a b => argParse ts a = .ok b) l l' →
        ∀ a ∈ l', a.name ≠ [] ∧ a.type.isSome := by
      intro l l' hl a ha
      obtain ⟨a0, _, q⟩ := hl.mem_right ha
      obtain ⟨q1, vt, _, rfl⟩ := argParse_ok.1 q
      exact ⟨q1, rfl⟩
    rcases ha with ha | ha
    · exact key h3 a ha
    · exact key h4 a ha
  · intro hsu
    have := h1 hsu
    rw [h3.length, h4.length] at this
    exact this

/-! ## C22 -/

/-- The base path of a valid schema. -/
structure BasePathOk (b : Str) : Prop where
  lead : S "/" <+: b
  trail : S "/" <:+ b
  noBlank : ∀ c ∈ b, c ≠ ' ' ∧ c ≠ '\t' ∧ c ≠ '\r' ∧ c ≠ '\n' ∧ c ≠ '?' ∧ c ≠ '#'

theorem containsSub_iff {sub s : Str} : containsSub sub s = true ↔ sub <:+: s := by
  induction s with
  | nil =>
    simp [containsSub]
  | cons c cs ih =>
    simp only [containsSub, Bool.or_eq_true, List.isPrefixOf_iff_prefix, ih, List.infix_cons_iff]

theorem percentOk_slash {b : Str} (h : percentOk b = true) : percentOk (b ++ S "/") = true := by
  induction b with
  | nil => decide
  | cons c cs ih =>
    simp only [List.cons_append, percentOk] at h ⊢
    split at h
    · next hc =>
      simp only [hc, if_true]
      match cs, h, ih with
      | a :: b :: r, h, ih =>
        simp only [List.cons_append, Bool.and_eq_true] at h ⊢
        exact ⟨h.1, ih h.2⟩
    · next hc => simp only [hc, if_false]; exact ih h

theorem percentOk_cons_slash {b : Str} (h : percentOk b = true) : percentOk (S "/" ++ b) = true := by
  have : S "/" ++ b = '/' :: b := rfl
  rw [this]
  simp only [percentOk]
  rw [if_neg (by decide)]; exact h

theorem S_slash : S "/" = ['/'] := by decide

theorem infix_singleton_join {b : Str} (h : S "://" <:+: b ++ S "/") (hl : ¬ S "://" <:+: b) :
    ∃ r, b = r ++ S ":/" := by
  have h3 : S "://" = [':', '/', '/'] := by decide
  have h2 : S ":/" = [':', '/'] := by decide
  rw [h3] at h hl
  rw [S_slash] at h
  rw [h2]
  obtain ⟨x, y, hxy⟩ := h
  rcases List.eq_nil_or_concat y with rfl | ⟨y', c, rfl⟩
  · refine ⟨x, ?_⟩
    have : x ++ [':', '/'] ++ ['/'] = b ++ ['/'] := by simpa using hxy
    exact ((List.append_inj' this rfl).1).symm
  · exfalso
    apply hl
    refine ⟨x, y', ?_⟩
    have : (x ++ [':', '/', '/'] ++ y') ++ [c] = b ++ ['/'] := by simpa using hxy
    exact (List.append_inj' this rfl).1

theorem normBasePath_ok {b b' : Str} (hb : b ≠ []) (h : normBasePath b = .ok b') :
    BasePathOk b' ∧ ¬ S "://" <:+: b ∧ (b' = b ∨ b' = S "/" ++ b ∨ b' = b ++ S "/" ∨ b' = S "/" ++ b ++ S "/") ∧
    requestURIOk b' = true ∧ ¬ S "://" <:+: b' := by
  simp only [normBasePath, hb, if_false, Res.bind_ok, Res.failIf_ok, Res.ok.injEq] at h
  obtain ⟨_, h1, _, h2, _, h3, _, h4, h5⟩ := h
  simp at h1 h2 h4
  have h3' : ¬ S "://" <:+: b := by rw [← containsSub_iff]; simp [h3]
  have hchars : ∀ c ∈ b, c ≠ ' ' ∧ c ≠ '\t' ∧ c ≠ '\r' ∧ c ≠ '\n' ∧ c ≠ '?' ∧ c ≠ '#' := by
    intro c hc
    have q1 := h1 c hc
    have q2 := h2 c hc
    exact ⟨q1.1.1.1, q1.1.1.2, q1.1.2, q1.2, q2.1, q2.2⟩
  have hsl : ∀ c ∈ S "/", c ≠ ' ' ∧ c ≠ '\t' ∧ c ≠ '\r' ∧ c ≠ '\n' ∧ c ≠ '?' ∧ c ≠ '#' := by decide
  have hpre : S "/" <+: (if hasPrefix b (S "/") then b else S "/" ++ b) := by
    split
    · next hp => exact List.isPrefixOf_iff_prefix.1 hp
    · exact List.prefix_append _ _
  have hmid : ∀ c ∈ (if hasPrefix b (S "/") then b else S "/" ++ b),
      c ≠ ' ' ∧ c ≠ '\t' ∧ c ≠ '\r' ∧ c ≠ '\n' ∧ c ≠ '?' ∧ c ≠ '#' := by
    split
    · exact hchars
    · intro c hc
      rcases List.mem_append.1 hc with hc | hc
      · exact hsl c hc
      · exact hchars c hc
  have hdis : (if hasPrefix b (S "/") then b else S "/" ++ b) = b ∨
      (if hasPrefix b (S "/") then b else S "/" ++ b) = S "/" ++ b := by
    split
    · exact .inl rfl
    · exact .inr rfl
  have hnou : ¬ S "://" <:+: (if hasPrefix b (S "/") then b else S "/" ++ b) := by
    split
    · exact h3'
    · intro hq
      have h3 : S "://" = [':', '/', '/'] := by decide
      apply h3'
      rw [h3, S_slash] at hq
      rw [h3]
      obtain ⟨x, y, hxy⟩ := hq
      cases x with
      | nil => simp at hxy
      | cons a x => simp at hxy; exact ⟨x, y, by simpa using hxy.2⟩
  generalize (if hasPrefix b (S "/") then b else S "/" ++ b) = m at h4 h5 hpre hmid hdis hnou
  refine ⟨⟨?_, ?_, ?_⟩, h3', ?_, ?_, ?_⟩
  · subst h5
    split
    · exact hpre
    · exact hpre.trans (List.prefix_append _ _)
  · subst h5
    split
    · next hp => exact List.isSuffixOf_iff_suffix.1 hp
    · exact List.suffix_append _ _
  · subst h5
    split
    · exact hmid
    · intro c hc
      rcases List.mem_append.1 hc with hc | hc
      · exact hmid c hc
      · exact hsl c hc
  · subst h5
    split
    · rcases hdis with h | h <;> simp [h]
    · rcases hdis with h | h <;> simp [h]
  · subst h5
    split
    · exact h4
    · simp only [requestURIOk, Bool.and_eq_true] at h4 ⊢
      refine ⟨?_, percentOk_slash h4.2⟩
      rw [List.all_append, Bool.and_eq_true]
      exact ⟨h4.1, by decide⟩
  · subst h5
    split
    · exact hnou
    · next hs =>
      intro hq
      obtain ⟨r, hr⟩ := infix_singleton_join hq hnou
      apply hs
      rw [hr]
      refine List.isSuffixOf_iff_suffix.2 ?_
      have : S ":/" = S ":" ++ S "/" := by decide
      rw [this]
      exact ⟨r ++ S ":", by simp⟩

/-- C22. After validation a non-empty base path begins and ends with `/`, has no blanks, `?` or
`#`, and is the given one with at most a slash added at either end; an empty one stays empty. -/
theorem C22_base_path [GoUnicode] (s s' : Schema) (h : validate s = .ok s') :
    (s.basePath = [] → s'.basePath = []) ∧
    (s.basePath ≠ [] → BasePathOk s'.basePath ∧
      (s'.basePath = s.basePath ∨ s'.basePath = S "/" ++ s.basePath ∨
       s'.basePath = s.basePath ++ S "/" ∨ s'.basePath = S "/" ++ s.basePath ++ S "/")) := by
  obtain ⟨-, -, b, ts, es, ss, hb, -, -, -, rfl⟩ := validate_ok.1 h
  constructor
  · intro hz; simp [normBasePath, hz] at hb; exact hb
  · intro hz
    obtain ⟨h1, _, h3, _, _⟩ := normBasePath_ok hz hb
    exact ⟨h1, h3⟩

/-- Normalising a base path again changes nothing. -/
theorem normBasePath_idem {b b' : Str} (h : normBasePath b = .ok b') :
    normBasePath b' = .ok b' := by
  by_cases hb : b = []
  · subst hb; simp [normBasePath] at h; subst h; rfl
  · obtain ⟨⟨h1, h2, h3⟩, _, _, h5, hc⟩ := normBasePath_ok hb h
    have hne : b' ≠ [] := by
      rintro rfl
      have := h1.length_le
      simp [S_slash] at this
    have e1 : (b'.any fun c => c == ' ' || c == '\t' || c == '\r' || c == '\n') = false := by
      rw [List.any_eq_false]; intro c hc; have := h3 c hc; simp [this]
    have e2 : (b'.any fun c => c == '?' || c == '#') = false := by
      rw [List.any_eq_false]; intro c hc; have := h3 c hc; simp [this]
    have e3 : containsSub (S "://") b' = false := by
      cases hb : containsSub (S "://") b' with
      | false => rfl
      | true => exact absurd (containsSub_iff.1 hb) hc
    have e4 : hasPrefix b' (S "/") = true := List.isPrefixOf_iff_prefix.2 h1
    have e5 : hasSuffix b' (S "/") = true := List.isSuffixOf_iff_suffix.2 h2
    simp [normBasePath, hne, e1, e2, e3, e4, e5, h5]

/-- C22. Examples: slashes are added; a URL, a query and a bad percent escape are rejected. -/
theorem C22_example :
    normBasePath (S "api/v1") = .ok (S "/api/v1/") ∧ normBasePath (S "/rpc/") = .ok (S "/rpc/") ∧
    normBasePath (S "http://x/") = .err .basepathURL ∧ normBasePath (S "a?b") = .err .basepathQuery ∧
    normBasePath (S "a%2") = .err .basepathInvalid := by
  decide +kernel

/-! ## C23 -/

/-- C23. A schema that validates has webrpc version `v1`, and a version of its own if it has any
service; the header fields are the given ones. -/
theorem C23_header [GoUnicode] (s s' : Schema) (h : validate s = .ok s') :
    s'.webrpcVersion = S "v1" ∧ (s'.services ≠ [] → s'.schemaVersion ≠ []) ∧
    s'.schemaName = s.schemaName ∧ s'.schemaVersion = s.schemaVersion := by
  obtain ⟨h1, h2, b, ts, es, ss, -, -, -, hs, rfl⟩ := validate_ok.1 h
  refine ⟨h1, ?_, rfl, rfl⟩
  intro hn
  apply h2
  intro hz
  rw [hz] at hs
  cases hs
  exact hn rfl

/-- C23: the name is not required. -/
theorem C23_name_not_required :
    let _ := asciiOnly
    Res.isOk (validate { twiceListed with schemaName := [] }) = true := by decide +kernel

/-! ## C24 -/

/-- Nothing is left out in the types used by the schema. -/
def AllResolved (s : Schema) : Prop := ∀ vt ∈ usedTypes s, vt.Resolved

theorem reparse [GoUnicode] {ts ts' : List TypeDecl} (hsig : ts.map TypeDecl.sig = ts'.map TypeDecl.sig)
    {o : Option VarType} {vt : VarType} (h : varTypeParse ts o = .ok vt) (hr : vt.Resolved) :
    varTypeParse ts' (some vt) = .ok vt := by
  rw [← varTypeParse_sig hsig]
  cases o with
  | none => simp [varTypeParse] at h
  | some v => exact (C14_normal_form ts v vt h hr).2.1

theorem trimSpace_idem (s : Str) : trimSpace (trimSpace s) = trimSpace s := by
  have hd : ∀ (l : Str), (∀ x, l.head? = some x → isSpace x = false) → l.dropWhile isSpace = l := by
    intro l hl
    cases l with
    | nil => rfl
    | cons a l => simp [hl a rfl]
  have hh : ∀ (l : Str) x, (l.dropWhile isSpace).head? = some x → isSpace x = false := by
    intro l x hx
    cases hc : isSpace x with
    | false => rfl
    | true =>
      have := List.head?_dropWhile_not isSpace l
      simp [hx, hc] at this
  unfold trimSpace
  generalize hA : s.dropWhile isSpace = A
  have h1 : ∀ x, A.head? = some x → isSpace x = false := by subst hA; exact hh s
  generalize hB : A.reverse.dropWhile isSpace = B
  have h2 : ∀ x, B.head? = some x → isSpace x = false := by subst hB; exact hh _
  have h3 : B.reverse.dropWhile isSpace = B.reverse := by
    apply hd
    intro x hx
    have hsuf : B <:+ A.reverse := hB ▸ List.dropWhile_suffix _
    have hpre : B.reverse <+: A := by
      have := List.reverse_prefix.2 hsuf
      simpa using this
    obtain ⟨r, hr⟩ := hpre
    apply h1
    rw [← hr]
    cases hBr : B.reverse with
    | nil => simp [hBr] at hx
    | cons a l => simp [hBr] at hx; simp [hx]
  rw [h3]
  simp [hd B h2]

theorem errorsParse_fixed [GoUnicode] {all b es : List ErrorDecl} (hall : all = b ++ es)
    (h1 : ∀ e ∈ es, trimSpace e.name = e.name ∧ ErrorOk e)
    (h2 : all.Pairwise (fun a b => toLower a.name ≠ toLower b.name ∧ a.code ≠ b.code)) :
    errorsParse b es = .ok all := by
  induction es generalizing b with
  | nil => simp [errorsParse, hall]
  | cons e es ih =>
    have he := h1 e (by simp)
    have hp : errorParse b es e = .ok e := by
      rw [errorParse_ok]
      refine ⟨?_, he.2, hall ▸ h2⟩
      rw [he.1]
    simp only [errorsParse, hp, Res.ok_bind]
    exact ih (by simp [hall]) (fun x hx => h1 x (by simp [hx]))

/-- C24. Validating a validated schema succeeds and changes nothing at all (provided no element
type was left out, see `C24_omitted_not_idempotent`). -/
theorem C24_idempotent [GoUnicode] (s s' : Schema) (h : validate s = .ok s') (hr : AllResolved s') :
    validate s' = .ok s' := by
  obtain ⟨h1, h2, b, ts, es, ss, hb, hts, he, hs, rfl⟩ := validate_ok.1 h
  have hsig : s.types.map TypeDecl.sig = ts.map TypeDecl.sig := types_sig (each_ok.2 hts)
  rw [validate_ok]
  refine ⟨h1, ?_, b, ts, es, ss, normBasePath_idem hb, ?_, ?_, ?_, rfl⟩
  · intro hn
    exact (C23_header s _ h).2.1 hn
  · refine hts.self_right ?_
    intro t t' ht' htt
    obtain ⟨q1, q2, q3, q4, q5⟩ := typeParse_ok htt
    have e1 : t'.name = t.name := by simp [TypeDecl.sig] at q4; exact q4.2.2.1
    have e2 : t'.kind = t.kind := by simp [TypeDecl.sig] at q4; exact q4.2.1
    have e3 : t'.ptr = t.ptr := by simp [TypeDecl.sig] at q4; exact q4.1
    have hdup : ∀ m ∈ ts, m.ptr ≠ t'.ptr → toLower t'.name ≠ toLower m.name := by
      intro m hm a b
      obtain ⟨m0, hm0, hmm⟩ := hts.mem_right hm
      have q := (typeParse_ok hmm).2.2.2.1
      simp only [TypeDecl.sig, Prod.mk.injEq] at q
      rw [e3, q.1] at a
      rw [e1, q.2.2.1] at b
      exact q3 m0 hm0 a b
    refine typeParse_intro (e1 ▸ q1) (e1 ▸ q2) hdup ?_
    rcases q5 with ⟨hk, rfl, hn⟩ | ⟨hk, rfl, hc, hen⟩ | ⟨hk, hc, fs, rfl, hfs⟩
    · exact .inl ⟨hk, hn⟩
    · exact .inr (.inl ⟨hk, hc, hen⟩)
    · refine .inr (.inr ⟨hk, ?_, ?_⟩)
      · rw [← hc]
        refine checkFields_congr ?_ _ _
        refine (hfs.map_eq ?_).symm
        intro f f' hf
        obtain ⟨vt, _, _, rfl⟩ := structField_ok hf
        rfl
      · rw [each_ok]
        refine hfs.self_right ?_
        intro f f' hf' hff
        obtain ⟨vt, v1, v2, rfl⟩ := structField_ok hff
        have hres : vt.Resolved := by
          apply hr
          simp only [usedTypes, List.mem_append, List.mem_flatMap, List.mem_filter, List.mem_filterMap,
            decide_eq_true_eq]
          exact .inl ⟨_, ⟨ht', hk⟩, _, hf', rfl⟩
        simp [structField, reparse hsig v1 hres, v2]
  · obtain ⟨tl, a1, a2, a3, a4⟩ := errorsParse_ok he
    simp at a1; subst a1
    refine errorsParse_fixed rfl ?_ ?_
    · intro e hem
      refine ⟨?_, a3 e hem⟩
      rw [a2] at hem
      obtain ⟨e0, _, rfl⟩ := List.mem_map.1 hem
      exact trimSpace_idem _
    · by_cases hz : s.errors = []
      · simp [hz] at a2; simp [a2]
      · exact a4 hz
  · refine hs.self_right ?_
    intro v v' hv' hvv
    obtain ⟨w1, w2, w3, w4, w5, ms, w6, rfl⟩ := serviceParse_ok.1 hvv
    have hmn : ms.map (·.name) = v.methods.map (·.name) := by
      refine (w6.map_eq ?_).symm
      intro m m' hm
      obtain ⟨_, _, _, _, _, _, rfl⟩ := methodParse_ok.1 hm
      rfl
    rw [serviceParse_ok]
    refine ⟨w1, ?_, ?_, ?_, ?_, ms, ?_, rfl⟩
    · intro m hm hp
      obtain ⟨m0, hm0, hmm⟩ := hs.mem_right hm
      obtain ⟨_, _, _, _, _, _, _, rfl⟩ := serviceParse_ok.1 hmm
      exact w2 m0 hm0 hp
    · intro hz
      dsimp only at hz
      rw [hz] at hmn
      simp at hmn; exact w3 hmn
    · intro m hm
      obtain ⟨m0, hm0, hmm⟩ := w6.mem_right hm
      obtain ⟨_, _, _, _, _, _, rfl⟩ := methodParse_ok.1 hmm
      exact w4 m0 hm0
    · have := w5
      rw [← List.pairwise_map (f := Method.name) (R := fun a b => toLower a ≠ toLower b)] at this ⊢
      show List.Pairwise _ (ms.map Method.name)
      rw [show ms.map Method.name = v.methods.map Method.name from hmn]
      exact this
    · refine w6.self_right ?_
      intro m m' hm' hmm
      obtain ⟨x1, x2, ins, outs, x3, x4, rfl⟩ := methodParse_ok.1 hmm
      have hargs : ∀ {l l' : List Argument}, Pointwise (fun a b => argParse ts a = .ok b) l l' →
          (∀ a ∈ l', ∀ vt, a.type = some vt → vt.Resolved) →
          Pointwise (fun a b => argParse ts a = .ok b) l' l' := by
        intro l l' hl hres
        refine hl.self_right ?_
        intro a a' ha' haa
        obtain ⟨y1, vt, y2, rfl⟩ := argParse_ok.1 haa
        rw [argParse_ok]
        exact ⟨y1, vt, reparse rfl y2 (hres _ ha' vt rfl), rfl⟩
      have hres : ∀ a ∈ ins ++ outs, ∀ vt, a.type = some vt → vt.Resolved := by
        intro a ha vt hvt
        apply hr
        simp only [usedTypes, List.mem_append, List.mem_flatMap, List.mem_filterMap]
        exact .inr ⟨_, hv', _, hm', a, by simpa using ha, hvt⟩
      rw [methodParse_ok]
      refine ⟨?_, x2, ins, outs, hargs x3 (fun a ha => hres a (by simp [ha])),
        hargs x4 (fun a ha => hres a (by simp [ha])), rfl⟩
      intro hsu
      have := x1 hsu
      rw [x3.length, x4.length] at this
      exact this

/-- A schema whose struct field has type `[]`, with no element type. -/
def omittedElem : Schema :=
  { webrpcVersion := S "v1"
    types := [ { ptr := ([], 0), kind := S "struct", name := S "A"
                 fields := [{ name := S "xs", type := some (.leaf (S "[]") .unknown) }] } ] }

/-- C24 is false of the code when an element type is left out: validation succeeds once and fails
the second time. -/
theorem C24_omitted_not_idempotent :
    let _ := asciiOnly
    (match validate omittedElem with
      | .ok s' => decide (Res.isOk (validate s') = false)
      | _ => false) = true := by
  decide +kernel

/-- `VarType.Resolved` as a test, for the example. -/
def resolvedB : VarType → Bool
  | .leaf _ c => c ≠ .unknown
  | .list _ t => resolvedB t
  | .map _ _ v => resolvedB v
  | _ => true

/-- C24: the example schema meets the hypotheses. -/
theorem C24_example : let _ := asciiOnly; ∃ s', validate exSchema = .ok s' ∧ validate s' = .ok s' := by
  let _ := asciiOnly
  obtain ⟨s', h⟩ := exSchema_valid
  refine ⟨s', h, C24_idempotent _ _ h ?_⟩
  have hb : ∀ v, resolvedB v = true → v.Resolved := by
    intro v
    induction v with
    | leaf e c => simp [resolvedB, VarType.Resolved]
    | list e t ih => simpa [resolvedB, VarType.Resolved] using ih
    | map e k v _ ih => simpa [resolvedB, VarType.Resolved] using ih
    | struct | enum | alias => simp [VarType.Resolved]
  have hall : (match validate exSchema with
    | .ok s' => (usedTypes s').all resolvedB
    | _ => false) = true := by
    revert h; exact fun _ => by decide +kernel
  rw [h] at hall
  intro vt hvt
  exact hb vt (List.all_eq_true.1 hall vt hvt)

/-! ## C25 -/

/-- C25. In a schema that validates, every enum is over an integer type or `string`; its members
have distinct identifiers as names (C18), a non-empty value each and no type of their own. -/
theorem C25_enums [GoUnicode] (s s' : Schema) (h : validate s = .ok s') (t : TypeDecl) (ht : t ∈ s'.types)
    (hk : t.kind = S "enum") :
    (∃ vt, t.type = some vt ∧ (vt.expr ∈ integerNames ∨ vt.expr = S "string")) ∧
    FieldsOk t.fields ∧ ∀ f ∈ t.fields, f.value ≠ [] ∧ f.type = none := by
  have k1 : S "enum" ≠ S "alias" := by decide
  have hf := (C18_fields s s' h t ht (by rw [hk]; exact k1)).1
  obtain ⟨-, -, b, ts, es, ss, -, hts, -, -, rfl⟩ := validate_ok.1 h
  obtain ⟨x, hx, hxt⟩ := hts.mem_right ht
  obtain ⟨-, -, -, h4, h5⟩ := typeParse_ok hxt
  have hkk : t.kind = x.kind := by simp [TypeDecl.sig] at h4; exact h4.2.1
  rw [hkk] at hk
  have k2 : S "struct" ≠ S "enum" := by decide
  rcases h5 with ⟨q, _, _⟩ | ⟨q, rfl, _, q1⟩ | ⟨q, _⟩
  · exact absurd (hk.symm.trans q) k1
  · simp only [checkEnum, Res.bind_ok, Res.failIf_ok, each_ok] at q1
    obtain ⟨us, q2, q3⟩ := q1
    simp at q3
    have hnames : ∀ p ∈ coreTable, isValidVarType p.1 (varIntegerCoreTypes ++ [.string]) = true →
        p.1 ∈ integerNames ∨ p.1 = S "string" := by decide +kernel
    refine ⟨?_, hf, ?_⟩
    · cases hty : t.type with
      | none => rw [hty] at q3; revert q3; decide
      | some vt =>
        refine ⟨vt, rfl, ?_⟩
        rw [hty] at q3
        simp only [varTypeString] at q3
        cases hc : coreFromString vt.expr with
        | none => simp [isValidVarType, hc] at q3
        | some c => exact hnames _ (coreFromString_some.1 hc) q3
    · intro f hfm
      obtain ⟨u, _, hu⟩ := q2.mem_left hfm
      obtain ⟨_, a1, a2⟩ := hu
      simp at a1 a2
      exact ⟨a1, a2⟩
  · exact absurd (q.symm.trans hk) k2

/-! ## C26 -/

/-- Two aliases of each other, and an alias of a type that does not exist. -/
def badAliases : Schema :=
  { webrpcVersion := S "v1"
    types := [ { ptr := ([], 0), kind := S "alias", name := S "A", type := some (.leaf (S "B") .unknown) },
               { ptr := ([], 1), kind := S "alias", name := S "B", type := some (.leaf (S "A") .unknown) },
               { ptr := ([], 2), kind := S "alias", name := S "C", type := some (.leaf (S "[]Nope") .unknown) } ] }

/-- C26 is false of the code: aliases of each other, and aliases of undeclared types, validate. -/
theorem C26_cycle_accepted :
    let _ := asciiOnly
    Res.isOk (validate badAliases) = true := by decide +kernel

/-- C26 (partial: what holds is only that an underlying type is present). -/
theorem C26_has_underlying_partial [GoUnicode] (s s' : Schema) (h : validate s = .ok s') (t : TypeDecl)
    (ht : t ∈ s'.types) (hk : t.kind = S "alias") : t.type ≠ none := by
  obtain ⟨-, -, b, ts, es, ss, -, hts, -, -, rfl⟩ := validate_ok.1 h
  obtain ⟨x, hx, hxt⟩ := hts.mem_right ht
  obtain ⟨-, -, -, h4, h5⟩ := typeParse_ok hxt
  have hkk : t.kind = x.kind := by simp [TypeDecl.sig] at h4; exact h4.2.1
  rw [hkk] at hk
  have k1 : S "enum" ≠ S "alias" := by decide
  have k2 : S "struct" ≠ S "alias" := by decide
  rcases h5 with ⟨q, rfl, q2⟩ | ⟨q, _⟩ | ⟨q, _⟩
  · exact q2
  · exact absurd (q.symm.trans hk) k1
  · exact absurd (q.symm.trans hk) k2

/-! ## C16 for whole schemas -/

theorem valueRefs_setExpr (e : Str) (v : VarType) : valueRefs (v.setExpr e) = valueRefs v := by
  cases v <;> rfl

/-- C16. A validated schema is closed: every name in the type of a struct field or of a method
argument (outside map keys) is the name of a type of the same schema, and the reference points to
that type's first declaration and has its kind. -/
theorem C16_schema_closed [GoUnicode] (s s' : Schema) (h : validate s = .ok s') (vt : VarType)
    (hv : vt ∈ usedTypes s') (n kind : Str) (p : Ptr) (hm : (n, kind, p) ∈ valueRefs vt) :
    ∃ d, FirstDecl s'.types (fun d => d.name = n) d ∧ d.kind = kind ∧ d.ptr = p := by
  obtain ⟨-, -, b, ts, es, ss, -, hts, -, hs, rfl⟩ := validate_ok.1 h
  have hsig : s.types.map TypeDecl.sig = ts.map TypeDecl.sig := types_sig (each_ok.2 hts)
  have key : ∀ o, varTypeParse ts o = .ok vt →
      ∃ d, FirstDecl ts (fun d => d.name = n) d ∧ d.kind = kind ∧ d.ptr = p := by
    intro o ho
    cases o with
    | none => simp [varTypeParse] at ho
    | some v =>
      simp only [varTypeParse, Res.bind_ok, Res.ok.injEq] at ho
      obtain ⟨_, _, w, hw, rfl⟩ := ho
      rw [valueRefs_setExpr] at hm
      exact C16_refs_resolve ts _ w hw n kind p hm
  simp only [usedTypes, List.mem_append, List.mem_flatMap, List.mem_filter, List.mem_filterMap,
    decide_eq_true_eq] at hv
  rcases hv with ⟨t, ⟨ht, hk⟩, f, hf, hft⟩ | ⟨v, hv, m, hmm, a, ha, hat⟩
  · obtain ⟨x, hx, hxt⟩ := hts.mem_right ht
    obtain ⟨-, -, -, h4, h5⟩ := typeParse_ok hxt
    have hkk : t.kind = x.kind := by simp [TypeDecl.sig] at h4; exact h4.2.1
    rw [hkk] at hk
    have k1 : S "enum" ≠ S "struct" := by decide
    have k2 : S "alias" ≠ S "struct" := by decide
    rcases h5 with ⟨q, _⟩ | ⟨q, _⟩ | ⟨_, _, fs, rfl, q⟩
    · exact absurd (q.symm.trans hk) k2
    · exact absurd (q.symm.trans hk) k1
    · obtain ⟨f0, _, hff⟩ := q.mem_right hf
      obtain ⟨w, hw, _, rfl⟩ := structField_ok hff
      simp at hft; subst hft
      rw [varTypeParse_sig hsig] at hw
      exact key _ hw
  · obtain ⟨v0, _, hvv⟩ := hs.mem_right hv
    obtain ⟨_, _, _, _, _, ms, q, rfl⟩ := serviceParse_ok.1 hvv
    obtain ⟨m0, _, q2⟩ := q.mem_right hmm
    obtain ⟨_, _, ins, outs, h3, h4, rfl⟩ := methodParse_ok.1 q2
    have harg : ∃ o, varTypeParse ts o = .ok vt := by
      rcases ha with ha | ha
      · obtain ⟨a0, _, q⟩ := h3.mem_right ha
        obtain ⟨_, w, hw, rfl⟩ := argParse_ok.1 q
        simp at hat; subst hat; exact ⟨_, hw⟩
      · obtain ⟨a0, _, q⟩ := h4.mem_right ha
        obtain ⟨_, w, hw, rfl⟩ := argParse_ok.1 q
        simp at hat; subst hat; exact ⟨_, hw⟩
    obtain ⟨o, ho⟩ := harg
    exact key o ho

/-! ## C61 -/

theorem bind_panic {α β : Type} {r : Res α} {f : α → Res β} :
    (r >>= f) = .panic ↔ r = .panic ∨ ∃ a, r = .ok a ∧ f a = .panic := by
  cases r <;> simp [Bind.bind, Res.bind]

theorem bind_fuel {α β : Type} {r : Res α} {f : α → Res β} :
    (r >>= f) = .fuel ↔ r = .fuel ∨ ∃ a, r = .ok a ∧ f a = .fuel := by
  cases r <;> simp [Bind.bind, Res.bind]

theorem failIf_not_panic {b : Bool} {e : SErr} : Res.failIf b e ≠ .panic := by
  cases b <;> simp

theorem failIf_not_fuel {b : Bool} {e : SErr} : Res.failIf b e ≠ .fuel := by
  cases b <;> simp

theorem each_panic {α β : Type} {f : α → Res β} {xs : List α} (h : Res.each f xs = .panic) :
    ∃ x ∈ xs, f x = .panic := by
  induction xs with
  | nil => simp [Res.each] at h
  | cons x xs ih =>
    rcases bind_panic.1 h with h | ⟨a, _, h⟩
    · exact ⟨x, by simp, h⟩
    · rcases bind_panic.1 h with h | ⟨a, _, h⟩
      · obtain ⟨y, hy, h⟩ := ih h; exact ⟨y, by simp [hy], h⟩
      · simp at h

theorem each_fuel {α β : Type} {f : α → Res β} {xs : List α} (h : Res.each f xs = .fuel) :
    ∃ x ∈ xs, f x = .fuel := by
  induction xs with
  | nil => simp [Res.each] at h
  | cons x xs ih =>
    rcases bind_fuel.1 h with h | ⟨a, _, h⟩
    · exact ⟨x, by simp, h⟩
    · rcases bind_fuel.1 h with h | ⟨a, _, h⟩
      · obtain ⟨y, hy, h⟩ := ih h; exact ⟨y, by simp [hy], h⟩
      · simp at h

/-- The type is missing, or has a map keyed by a struct. -/
def CrashingType [GoUnicode] (ts : List TypeDecl) (o : Option VarType) : Prop :=
  o = none ∨ ∃ vt k, o = some vt ∧ StructKey ts k ∧ S "map<" ++ k ++ S "," <:+: vt.expr

theorem varTypeParse_panic [GoUnicode] {ts : List TypeDecl} {o : Option VarType}
    (h : varTypeParse ts o = .panic) : CrashingType ts o := by
  cases o with
  | none => exact .inl rfl
  | some v =>
    simp only [varTypeParse] at h
    rcases bind_panic.1 h with h | ⟨_, _, h⟩
    · exact absurd h failIf_not_panic
    · rcases bind_panic.1 h with h | ⟨_, _, h⟩
      · obtain ⟨k, hk, hi⟩ := C15_only_crash ts v.expr h
        exact .inr ⟨v, k, rfl, hk, hi⟩
      · simp at h

theorem varTypeParse_fuel [GoUnicode] {ts : List TypeDecl} {o : Option VarType} :
    varTypeParse ts o ≠ .fuel := by
  intro h
  cases o with
  | none => simp [varTypeParse] at h
  | some v =>
    simp only [varTypeParse] at h
    rcases bind_fuel.1 h with h | ⟨_, _, h⟩
    · exact failIf_not_fuel h
    · rcases bind_fuel.1 h with h | ⟨_, _, h⟩
      · exact parseExpr_total _ _ h
      · simp at h

theorem jsonFieldName_total {acc : Str} {ms : List Meta} :
    jsonFieldName acc ms ≠ .panic ∧ jsonFieldName acc ms ≠ .fuel := by
  induction ms generalizing acc with
  | nil => simp [jsonFieldName]
  | cons m ms ih =>
    simp only [jsonFieldName]
    cases hl : m.lookup (S "json") with
    | none => exact ih
    | some v =>
      cases v with
      | str v =>
        dsimp only
        split
        · exact ih
        · split
          · simp
          · exact ih
      | _ => simp

theorem checkFields_total [GoUnicode] {a b : List Str} {fs : List Field} :
    checkFields a b fs ≠ .panic ∧ checkFields a b fs ≠ .fuel := by
  induction fs generalizing a b with
  | nil => simp [checkFields]
  | cons f fs ih =>
    simp only [checkFields]
    constructor
    · intro h
      rcases bind_panic.1 h with h | ⟨_, _, h⟩
      · exact failIf_not_panic h
      rcases bind_panic.1 h with h | ⟨_, _, h⟩
      · exact failIf_not_panic h
      rcases bind_panic.1 h with h | ⟨_, _, h⟩
      · exact failIf_not_panic h
      rcases bind_panic.1 h with h | ⟨_, _, h⟩
      · exact jsonFieldName_total.1 h
      rcases bind_panic.1 h with h | ⟨_, _, h⟩
      · exact failIf_not_panic h
      exact ih.1 h
    · intro h
      rcases bind_fuel.1 h with h | ⟨_, _, h⟩
      · exact failIf_not_fuel h
      rcases bind_fuel.1 h with h | ⟨_, _, h⟩
      · exact failIf_not_fuel h
      rcases bind_fuel.1 h with h | ⟨_, _, h⟩
      · exact failIf_not_fuel h
      rcases bind_fuel.1 h with h | ⟨_, _, h⟩
      · exact jsonFieldName_total.2 h
      rcases bind_fuel.1 h with h | ⟨_, _, h⟩
      · exact failIf_not_fuel h
      exact ih.2 h

theorem checkEnum_total {t : TypeDecl} : checkEnum t ≠ .panic ∧ checkEnum t ≠ .fuel := by
  unfold checkEnum
  constructor
  · intro h
    rcases bind_panic.1 h with h | ⟨_, _, h⟩
    · obtain ⟨f, _, h⟩ := each_panic h
      rcases bind_panic.1 h with h | ⟨_, _, h⟩ <;> exact failIf_not_panic h
    · exact failIf_not_panic h
  · intro h
    rcases bind_fuel.1 h with h | ⟨_, _, h⟩
    · obtain ⟨f, _, h⟩ := each_fuel h
      rcases bind_fuel.1 h with h | ⟨_, _, h⟩ <;> exact failIf_not_fuel h
    · exact failIf_not_fuel h

theorem typeParse_panic [GoUnicode] {ts : List TypeDecl} {t : TypeDecl} (h : typeParse ts t = .panic) :
    t.kind = S "struct" ∧ ∃ f ∈ t.fields, CrashingType ts f.type := by
  simp only [typeParse] at h
  rcases bind_panic.1 h with h | ⟨_, _, h⟩
  · exact absurd h failIf_not_panic
  rcases bind_panic.1 h with h | ⟨_, _, h⟩
  · exact absurd h failIf_not_panic
  rcases bind_panic.1 h with h | ⟨_, _, h⟩
  · exact absurd h failIf_not_panic
  rcases bind_panic.1 h with h | ⟨_, hk, h⟩
  · exact absurd h failIf_not_panic
  rw [Res.failIf_ok] at hk
  split at h
  · rcases bind_panic.1 h with h | ⟨_, _, h⟩
    · exact absurd h failIf_not_panic
    · simp at h
  · next ha =>
    rcases bind_panic.1 h with h | ⟨_, _, h⟩
    · exact absurd h checkFields_total.1
    split at h
    · rcases bind_panic.1 h with h | ⟨_, _, h⟩
      · exact absurd h checkEnum_total.1
      · simp at h
    · next he =>
      rcases bind_panic.1 h with h | ⟨_, _, h⟩
      · refine ⟨?_, ?_⟩
        · simp [he, ha] at hk; exact hk
        · obtain ⟨f, hf, h⟩ := each_panic h
          simp only [structField] at h
          rcases bind_panic.1 h with h | ⟨_, _, h⟩
          · exact ⟨f, hf, varTypeParse_panic h⟩
          rcases bind_panic.1 h with h | ⟨_, _, h⟩
          · exact absurd h failIf_not_panic
          · simp at h
      · simp at h

theorem typeParse_fuel [GoUnicode] {ts : List TypeDecl} {t : TypeDecl} : typeParse ts t ≠ .fuel := by
  intro h
  simp only [typeParse] at h
  rcases bind_fuel.1 h with h | ⟨_, _, h⟩
  · exact failIf_not_fuel h
  rcases bind_fuel.1 h with h | ⟨_, _, h⟩
  · exact failIf_not_fuel h
  rcases bind_fuel.1 h with h | ⟨_, _, h⟩
  · exact failIf_not_fuel h
  rcases bind_fuel.1 h with h | ⟨_, hk, h⟩
  · exact failIf_not_fuel h
  split at h
  · rcases bind_fuel.1 h with h | ⟨_, _, h⟩
    · exact failIf_not_fuel h
    · simp at h
  · rcases bind_fuel.1 h with h | ⟨_, _, h⟩
    · exact checkFields_total.2 h
    split at h
    · rcases bind_fuel.1 h with h | ⟨_, _, h⟩
      · exact checkEnum_total.2 h
      · simp at h
    · rcases bind_fuel.1 h with h | ⟨_, _, h⟩
      · obtain ⟨f, hf, h⟩ := each_fuel h
        simp only [structField] at h
        rcases bind_fuel.1 h with h | ⟨_, _, h⟩
        · exact varTypeParse_fuel h
        rcases bind_fuel.1 h with h | ⟨_, _, h⟩
        · exact failIf_not_fuel h
        · simp at h
      · simp at h

theorem errorDups_total [GoUnicode] {a : List Str} {b : List Int} {es : List ErrorDecl} :
    errorDups a b es ≠ .panic ∧ errorDups a b es ≠ .fuel := by
  induction es generalizing a b with
  | nil => simp [errorDups]
  | cons e es ih =>
    simp only [errorDups]
    constructor
    · intro h
      rcases bind_panic.1 h with h | ⟨_, _, h⟩
      · exact failIf_not_panic h
      rcases bind_panic.1 h with h | ⟨_, _, h⟩
      · exact failIf_not_panic h
      exact ih.1 h
    · intro h
      rcases bind_fuel.1 h with h | ⟨_, _, h⟩
      · exact failIf_not_fuel h
      rcases bind_fuel.1 h with h | ⟨_, _, h⟩
      · exact failIf_not_fuel h
      exact ih.2 h

theorem errorsParse_total [GoUnicode] {b es : List ErrorDecl} :
    errorsParse b es ≠ .panic ∧ errorsParse b es ≠ .fuel := by
  induction es generalizing b with
  | nil => simp [errorsParse]
  | cons e es ih =>
    simp only [errorsParse]
    constructor
    · intro h
      rcases bind_panic.1 h with h | ⟨_, _, h⟩
      · simp only [errorParse] at h
        rcases bind_panic.1 h with h | ⟨_, _, h⟩
        · exact failIf_not_panic h
        rcases bind_panic.1 h with h | ⟨_, _, h⟩
        · exact failIf_not_panic h
        rcases bind_panic.1 h with h | ⟨_, _, h⟩
        · exact failIf_not_panic h
        rcases bind_panic.1 h with h | ⟨_, _, h⟩
        · exact failIf_not_panic h
        rcases bind_panic.1 h with h | ⟨_, _, h⟩
        · exact failIf_not_panic h
        rcases bind_panic.1 h with h | ⟨_, _, h⟩
        · exact failIf_not_panic h
        rcases bind_panic.1 h with h | ⟨_, _, h⟩
        · exact errorDups_total.1 h
        simp at h
      · exact ih.1 h
    · intro h
      rcases bind_fuel.1 h with h | ⟨_, _, h⟩
      · simp only [errorParse] at h
        rcases bind_fuel.1 h with h | ⟨_, _, h⟩
        · exact failIf_not_fuel h
        rcases bind_fuel.1 h with h | ⟨_, _, h⟩
        · exact failIf_not_fuel h
        rcases bind_fuel.1 h with h | ⟨_, _, h⟩
        · exact failIf_not_fuel h
        rcases bind_fuel.1 h with h | ⟨_, _, h⟩
        · exact failIf_not_fuel h
        rcases bind_fuel.1 h with h | ⟨_, _, h⟩
        · exact failIf_not_fuel h
        rcases bind_fuel.1 h with h | ⟨_, _, h⟩
        · exact failIf_not_fuel h
        rcases bind_fuel.1 h with h | ⟨_, _, h⟩
        · exact errorDups_total.2 h
        simp at h
      · exact ih.2 h

theorem checkMethods_total [GoUnicode] {a : List Str} {ms : List Method} :
    checkMethods a ms ≠ .panic ∧ checkMethods a ms ≠ .fuel := by
  induction ms generalizing a with
  | nil => simp [checkMethods]
  | cons e es ih =>
    simp only [checkMethods]
    constructor
    · intro h
      rcases bind_panic.1 h with h | ⟨_, _, h⟩
      · exact failIf_not_panic h
      rcases bind_panic.1 h with h | ⟨_, _, h⟩
      · exact failIf_not_panic h
      exact ih.1 h
    · intro h
      rcases bind_fuel.1 h with h | ⟨_, _, h⟩
      · exact failIf_not_fuel h
      rcases bind_fuel.1 h with h | ⟨_, _, h⟩
      · exact failIf_not_fuel h
      exact ih.2 h

theorem argParse_panic [GoUnicode] {ts : List TypeDecl} {a : Argument} (h : argParse ts a = .panic) :
    CrashingType ts a.type := by
  simp only [argParse] at h
  rcases bind_panic.1 h with h | ⟨_, _, h⟩
  · exact absurd h failIf_not_panic
  rcases bind_panic.1 h with h | ⟨_, _, h⟩
  · exact varTypeParse_panic h
  simp at h

theorem argParse_fuel [GoUnicode] {ts : List TypeDecl} {a : Argument} : argParse ts a ≠ .fuel := by
  intro h
  simp only [argParse] at h
  rcases bind_fuel.1 h with h | ⟨_, _, h⟩
  · exact failIf_not_fuel h
  rcases bind_fuel.1 h with h | ⟨_, _, h⟩
  · exact varTypeParse_fuel h
  simp at h

theorem methodParse_panic [GoUnicode] {ts : List TypeDecl} {es : List ErrorDecl} {m : Method}
    (h : methodParse ts es m = .panic) : ∃ a ∈ m.inputs ++ m.outputs, CrashingType ts a.type := by
  simp only [methodParse] at h
  rcases bind_panic.1 h with h | ⟨_, _, h⟩
  · exact absurd h failIf_not_panic
  rcases bind_panic.1 h with h | ⟨_, _, h⟩
  · obtain ⟨a, ha, h⟩ := each_panic h
    exact ⟨a, by simp [ha], argParse_panic h⟩
  rcases bind_panic.1 h with h | ⟨_, _, h⟩
  · exact absurd h failIf_not_panic
  rcases bind_panic.1 h with h | ⟨_, _, h⟩
  · obtain ⟨a, ha, h⟩ := each_panic h
    exact ⟨a, by simp [ha], argParse_panic h⟩
  rcases bind_panic.1 h with h | ⟨_, _, h⟩
  · obtain ⟨a, ha, h⟩ := each_panic h
    exact absurd h failIf_not_panic
  simp at h

theorem methodParse_fuel [GoUnicode] {ts : List TypeDecl} {es : List ErrorDecl} {m : Method} :
    methodParse ts es m ≠ .fuel := by
  intro h
  simp only [methodParse] at h
  rcases bind_fuel.1 h with h | ⟨_, _, h⟩
  · exact failIf_not_fuel h
  rcases bind_fuel.1 h with h | ⟨_, _, h⟩
  · obtain ⟨a, ha, h⟩ := each_fuel h
    exact argParse_fuel h
  rcases bind_fuel.1 h with h | ⟨_, _, h⟩
  · exact failIf_not_fuel h
  rcases bind_fuel.1 h with h | ⟨_, _, h⟩
  · obtain ⟨a, ha, h⟩ := each_fuel h
    exact argParse_fuel h
  rcases bind_fuel.1 h with h | ⟨_, _, h⟩
  · obtain ⟨a, ha, h⟩ := each_fuel h
    exact failIf_not_fuel h
  simp at h

theorem normBasePath_total {b : Str} : normBasePath b ≠ .panic ∧ normBasePath b ≠ .fuel := by
  unfold normBasePath
  split
  · simp
  · constructor
    · intro h
      rcases bind_panic.1 h with h | ⟨_, _, h⟩
      · exact failIf_not_panic h
      rcases bind_panic.1 h with h | ⟨_, _, h⟩
      · exact failIf_not_panic h
      rcases bind_panic.1 h with h | ⟨_, _, h⟩
      · exact failIf_not_panic h
      rcases bind_panic.1 h with h | ⟨_, _, h⟩
      · exact failIf_not_panic h
      simp at h
    · intro h
      rcases bind_fuel.1 h with h | ⟨_, _, h⟩
      · exact failIf_not_fuel h
      rcases bind_fuel.1 h with h | ⟨_, _, h⟩
      · exact failIf_not_fuel h
      rcases bind_fuel.1 h with h | ⟨_, _, h⟩
      · exact failIf_not_fuel h
      rcases bind_fuel.1 h with h | ⟨_, _, h⟩
      · exact failIf_not_fuel h
      simp at h

/-- C61 (partial: the code does crash, see `C61_crash_examples`).  Validation ends for every schema,
and the only things that can crash it are a struct field or argument without a type, or a type with
a map keyed by a struct. -/
theorem C61_only_crashes_partial [GoUnicode] (s : Schema) :
    validate s ≠ .fuel ∧
    (validate s = .panic →
      (∃ t ∈ s.types, t.kind = S "struct" ∧ ∃ f ∈ t.fields, CrashingType s.types f.type) ∨
      (∃ v ∈ s.services, ∃ m ∈ v.methods, ∃ a ∈ m.inputs ++ m.outputs, CrashingType s.types a.type)) := by
  constructor
  · intro h
    simp only [validate] at h
    rcases bind_fuel.1 h with h | ⟨_, _, h⟩
    · exact failIf_not_fuel h
    rcases bind_fuel.1 h with h | ⟨_, _, h⟩
    · exact failIf_not_fuel h
    rcases bind_fuel.1 h with h | ⟨_, _, h⟩
    · exact normBasePath_total.2 h
    rcases bind_fuel.1 h with h | ⟨_, _, h⟩
    · obtain ⟨t, _, h⟩ := each_fuel h; exact typeParse_fuel h
    rcases bind_fuel.1 h with h | ⟨_, _, h⟩
    · exact errorsParse_total.2 h
    rcases bind_fuel.1 h with h | ⟨_, _, h⟩
    · obtain ⟨v, _, h⟩ := each_fuel h
      simp only [serviceParse] at h
      rcases bind_fuel.1 h with h | ⟨_, _, h⟩
      · exact failIf_not_fuel h
      rcases bind_fuel.1 h with h | ⟨_, _, h⟩
      · exact failIf_not_fuel h
      rcases bind_fuel.1 h with h | ⟨_, _, h⟩
      · exact failIf_not_fuel h
      rcases bind_fuel.1 h with h | ⟨_, _, h⟩
      · exact checkMethods_total.2 h
      rcases bind_fuel.1 h with h | ⟨_, _, h⟩
      · obtain ⟨m, _, h⟩ := each_fuel h; exact methodParse_fuel h
      simp at h
    simp at h
  · intro h
    simp only [validate] at h
    rcases bind_panic.1 h with h | ⟨_, _, h⟩
    · exact absurd h failIf_not_panic
    rcases bind_panic.1 h with h | ⟨_, _, h⟩
    · exact absurd h failIf_not_panic
    rcases bind_panic.1 h with h | ⟨_, _, h⟩
    · exact absurd h normBasePath_total.1
    rcases bind_panic.1 h with h | ⟨ts, hts, h⟩
    · obtain ⟨t, ht, h⟩ := each_panic h
      exact .inl ⟨t, ht, typeParse_panic h⟩
    rcases bind_panic.1 h with h | ⟨_, _, h⟩
    · exact absurd h errorsParse_total.1
    rcases bind_panic.1 h with h | ⟨_, _, h⟩
    · obtain ⟨v, hv, h⟩ := each_panic h
      simp only [serviceParse] at h
      rcases bind_panic.1 h with h | ⟨_, _, h⟩
      · exact absurd h failIf_not_panic
      rcases bind_panic.1 h with h | ⟨_, _, h⟩
      · exact absurd h failIf_not_panic
      rcases bind_panic.1 h with h | ⟨_, _, h⟩
      · exact absurd h failIf_not_panic
      rcases bind_panic.1 h with h | ⟨_, _, h⟩
      · exact absurd h checkMethods_total.1
      rcases bind_panic.1 h with h | ⟨_, _, h⟩
      · obtain ⟨m, hm, h⟩ := each_panic h
        obtain ⟨a, ha, hc⟩ := methodParse_panic h
        refine .inr ⟨v, hv, m, hm, a, ha, ?_⟩
        have hsig := types_sig hts
        rcases hc with hc | ⟨vt, k, h1, ⟨h2, d, h3, h4, h5⟩, h6⟩
        · exact .inl hc
        · refine .inr ⟨vt, k, h1, ⟨h2, ?_⟩, h6⟩
          have hf := find_sig hsig (p := fun t => decide (toLower t.name = toLower k))
            (by intro a b hs; simp [TypeDecl.sig] at hs; simp [hs])
          have hg : ts.find? (fun t => decide (toLower t.name = toLower k)) = some d :=
            getTypeByName_iff.2 h3
          rw [hg] at hf
          cases hg0 : s.types.find? (fun t => decide (toLower t.name = toLower k)) with
          | none => simp [hg0] at hf
          | some d0 =>
            simp only [hg0, Option.map_some, Option.some.injEq, TypeDecl.sig, Prod.mk.injEq] at hf
            refine ⟨d0, getTypeByName_iff.1 hg0, hf.2.1 ▸ h4, hf.2.2.2.trans h5⟩
      simp at h
    simp at h

/-- C61: a struct field without a type, and a map keyed by a struct, crash validation. -/
theorem C61_crash_examples :
    let _ := asciiOnly
    validate { webrpcVersion := S "v1", types := [{ ptr := ([], 0), kind := S "struct", name := S "A",
                                                     fields := [{ name := S "x" }] }] } = .panic ∧
    validate { webrpcVersion := S "v1", types := [{ ptr := ([], 0), kind := S "struct", name := S "A",
                                                     fields := [{ name := S "x", type := some (.leaf (S "map<A,string>") .unknown) }] }] } = .panic := by
  let _ := asciiOnly
  have h : ∀ s : Schema, (match validate s with | .panic => true | _ => false) = true → validate s = .panic := by
    intro s hs
    cases hv : validate s <;> simp [hv] at hs ⊢
  exact ⟨h _ (by decide +kernel), h _ (by decide +kernel)⟩

end Verif.Props
