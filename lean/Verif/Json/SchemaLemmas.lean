import Verif.Json.SchemaJson
import Verif.Spec.SchemaJson
import Verif.Props.RpcTables
/-!
# Decoding the JSON form of a schema
-/

namespace Verif.Json
open Verif.Schema hiding Json
open Verif.Spec Verif.Props
open Verif.Rpc (fieldFor)
open Verif.Gen (strLt)

/-! ### Sorting -/

theorem insertKey_perm {α : Type} (x : Str × α) (l : List (Str × α)) : List.Perm (insertKey x l) (x :: l) := by
  induction l with
  | nil => exact .refl _
  | cons y ys ih =>
    unfold insertKey
    split
    · exact (List.Perm.cons y ih).trans (.swap x y ys)
    · exact .refl _

theorem insertKey_sorted {α : Type} (x : Str × α) (l : List (Str × α)) (h : l.Pairwise fun a b => a.1 ≤ b.1) :
    (insertKey x l).Pairwise fun a b => a.1 ≤ b.1 := by
  induction l with
  | nil => simp [insertKey]
  | cons y ys ih =>
    rw [List.pairwise_cons] at h
    unfold insertKey
    split
    · rename_i hlt
      rw [List.pairwise_cons]
      refine ⟨?_, ih h.2⟩
      intro z hz
      rcases List.mem_cons.1 ((insertKey_perm x ys).mem_iff.1 hz) with rfl | hz
      · exact List.le_of_lt ((strLt_iff _ _).1 hlt)
      · exact h.1 z hz
    · rename_i hlt
      rw [List.pairwise_cons]
      have hxy : x.1 ≤ y.1 := by
        rw [← List.not_lt]; exact fun h' => hlt ((strLt_iff _ _).2 h')
      refine ⟨?_, List.pairwise_cons.2 h⟩
      intro z hz
      rcases List.mem_cons.1 hz with rfl | hz
      · exact hxy
      · exact List.le_trans hxy (h.1 z hz)

theorem sortKeys_spec {α : Type} (l : List (Str × α)) :
    List.Perm (sortKeys l) l ∧ (sortKeys l).Pairwise fun a b => a.1 ≤ b.1 := by
  unfold sortKeys
  induction l with
  | nil => exact ⟨.refl _, .nil⟩
  | cons k ks ih =>
    exact ⟨(insertKey_perm k _).trans (ih.1.cons k), insertKey_sorted k _ ih.2⟩

theorem sortKeys_sorted {α : Type} (l : List (Str × α)) (h : l.Pairwise fun a b => a.1 ≤ b.1) : sortKeys l = l := by
  induction l with
  | nil => rfl
  | cons x l ih =>
    rw [List.pairwise_cons] at h
    have e : sortKeys (x :: l) = insertKey x (sortKeys l) := rfl
    rw [e, ih h.2]
    cases l with
    | nil => rfl
    | cons y l =>
      unfold insertKey
      rw [if_neg]
      intro hlt
      have := h.1 y (by simp)
      exact absurd ((strLt_iff _ _).1 hlt) (List.not_lt.2 this)

theorem sortKeys_idem {α : Type} (l : List (Str × α)) : sortKeys (sortKeys l) = sortKeys l :=
  sortKeys_sorted _ (sortKeys_spec l).2

theorem isMap_perm {α : Type} {l l' : List (Str × α)} (h : List.Perm l l') (hm : IsMap l) : IsMap l' :=
  (h.map _).nodup_iff.1 hm

theorem lookup_perm {α : Type} {l l' : List (Str × α)} (h : List.Perm l l') (hm : IsMap l) (k : Str) :
    l.lookup k = l'.lookup k := by
  have hm' := isMap_perm h hm
  apply Option.ext
  intro v
  rw [lookup_iff hm, lookup_iff hm']
  exact h.mem_iff

/-! ### Objects -/

theorem members_keys (l : List (Str × Option Json)) : ((members l).map (·.1)).Sublist (l.map (·.1)) := by
  unfold members
  induction l with
  | nil => exact .slnil
  | cons p l ih =>
    obtain ⟨k, o⟩ := p
    cases o with
    | none => exact .cons _ ih
    | some j => exact .cons_cons _ ih

theorem dupKeys_nodup {l : List (Str × Json)} (h : (l.map (·.1)).Nodup) : dupKeys l = false := by
  induction l with
  | nil => rfl
  | cons p l ih =>
    rw [List.map_cons, List.nodup_cons] at h
    unfold dupKeys
    rw [ih h.2, Bool.or_false, List.any_eq_false]
    intro q hq he
    rw [beq_iff_eq] at he
    exact h.1 (List.mem_map.2 ⟨q, hq, he⟩)

theorem resolve_members (tags : List Str) (l : List (Str × Option Json)) (hn : (l.map (·.1)).Nodup)
    (hs : ∀ k ∈ l.map (·.1), k ∈ tags) : resolve tags (.obj (members l)) = .ok (members l) := by
  have hk : ∀ p ∈ members l, p.1 ∈ tags := fun p hp => hs _ ((members_keys l).subset (List.mem_map.2 ⟨p, hp, rfl⟩))
  have he : (members l).filterMap (fun p => (fieldFor tags p.1).map fun t => (t, p.2)) = members l := by
    generalize members l = m at hk
    induction m with
    | nil => rfl
    | cons p m ih =>
      have : fieldFor tags p.1 = some p.1 := by
        unfold fieldFor
        rw [if_pos (by simpa using hk p (by simp))]
      rw [List.filterMap_cons, this]
      show _ :: _ = _
      rw [ih fun q hq => hk q (by simp [hq])]
  unfold resolve
  dsimp only
  rw [he, dupKeys_nodup ((members_keys l).nodup hn)]
  rfl

theorem lookup_members (l : List (Str × Option Json)) (hn : (l.map (·.1)).Nodup) (k : Str) :
    field (members l) k = ((l.lookup k).bind id).getD .null := by
  have : (members l).lookup k = (l.lookup k).bind id := by
    induction l with
    | nil => rfl
    | cons p l ih =>
      obtain ⟨k', o⟩ := p
      rw [List.map_cons, List.nodup_cons] at hn
      by_cases hk : k = k'
      · subst hk
        rw [List.lookup_cons_self]
        cases o with
        | none =>
          show (members l).lookup k = none
          rw [ih hn.2]
          have : l.lookup k = none := by
            rw [List.lookup_eq_none_iff]
            intro p hp
            simp only [bne_iff_ne, ne_eq]
            rintro rfl
            exact hn.1 (List.mem_map.2 ⟨p, hp, rfl⟩)
          rw [this]; rfl
        | some j =>
          show List.lookup k ((k, j) :: members l) = some j
          rw [List.lookup_cons_self]
      · have e : (k == k') = false := by simpa using hk
        rw [List.lookup_cons, e]
        cases o with
        | none => exact ih hn.2
        | some j =>
          show List.lookup k ((k', j) :: members l) = _
          rw [List.lookup_cons, e]
          exact ih hn.2
  unfold field
  rw [this]

/-! ### Scalars and lists -/

theorem decStr_enc (s : Str) : decStr (encStr s) = .ok s := by
  unfold encStr Json.ofStr
  rw [decStr, cook_escape]

theorem decStr_omit (s : Str) : decStr ((omitIf (s = []) (encStr s)).getD .null) = .ok s := by
  unfold omitIf
  by_cases h : s = []
  · simp [h, decStr]
  · simp [h, decStr_enc]

theorem decBool_omit (b : Bool) : decBool ((omitIf (!b) (.bool b)).getD .null) = .ok b := by
  cases b <;> rfl

theorem omit_list {α β : Type} (g : Nat → Json → Except DErr β) (f : α → Json) (l : List α) :
    decList g ((omitIf (l = []) (encList f l)).getD .null) = decList g (encList f l) := by
  unfold omitIf encList
  by_cases h : l = []
  · subst h; rfl
  · simp [h]

theorem omit_list' {α β : Type} (g : Nat → Json → Except DErr β) (f : α → Json) (l : List α) :
    decList g ((omitIf (l.length = 0) (encList f l)).getD .null) = decList g (encList f l) := by
  unfold omitIf encList
  by_cases h : l = []
  · subst h; rfl
  · simp [h]

theorem omit_type [GoPrint] (t : Option VarType) : (omitIf t.isNone (encType t)).getD .null = encType t := by
  cases t <;> rfl

/-- The elements with their number. -/
def numbered {α β : Type} (h : Nat → α → β) : Nat → List α → List β
  | _, [] => []
  | i, x :: l => h i x :: numbered h (i + 1) l

theorem numbered_map {α β : Type} (h : α → β) (i : Nat) (l : List α) : numbered (fun _ => h) i l = l.map h := by
  induction l generalizing i with
  | nil => rfl
  | cons x l ih => rw [numbered, ih]; rfl

theorem decElems_map {α β : Type} {f : Nat → Json → Except DErr β} {g : α → Json} {h : Nat → α → β} {l : List α}
    (hl : ∀ x ∈ l, ∀ i, f i (g x) = .ok (h i x)) (i : Nat) : decElems f i (l.map g) = .ok (numbered h i l) := by
  induction l generalizing i with
  | nil => rfl
  | cons x l ih =>
    rw [List.map_cons, decElems, hl x (by simp), ih fun y hy => hl y (by simp [hy])]
    rfl

theorem decList_enc {α β : Type} {f : Nat → Json → Except DErr β} {g : α → Json} {h : Nat → α → β} {l : List α}
    (hl : ∀ x ∈ l, ∀ i, f i (g x) = .ok (h i x)) : decList f (encList g l) = .ok (numbered h 0 l) := by
  rw [encList, decList, decElems_map hl]

theorem decList_map {α β : Type} {f : Json → Except DErr β} {g : α → Json} {h : α → β} {l : List α}
    (hl : ∀ x ∈ l, f (g x) = .ok (h x)) : decList (fun _ => f) (encList g l) = .ok (l.map h) := by
  rw [decList_enc (h := fun _ => h) fun x hx _ => hl x hx, numbered_map]

theorem decStrs (l : List Str) : decList (fun _ => decStr) (encList encStr l) = .ok l := by
  rw [decList_map (h := id) fun x _ => decStr_enc x, List.map_id]

theorem decSlice {α β : Type} (b : Bool) (g : Nat → Json → Except DErr β) (f : α → Json) (l : List α) :
    decList g (encSlice b f l) = decList g (encList f l) := by
  unfold encSlice
  split
  · rename_i h; rw [h.2]; rfl
  · rfl

theorem isNull_slice {α : Type} (b : Bool) (f : α → Json) (l : List α) : isNull (encSlice b f l) = (b && l.isEmpty) := by
  unfold encSlice
  split
  · rename_i h; rw [h.1, h.2]; rfl
  · rename_i h
    cases b with
    | false => rfl
    | true => cases l with
      | nil => exact absurd ⟨rfl, rfl⟩ h
      | cons => rfl

/-! ### Types -/

theorem flatMap_single {f : Char → Str} {e : Str} (h : ∀ c ∈ e, f c = [c]) : e.flatMap f = e := by
  induction e with
  | nil => rfl
  | cons c e ih => rw [List.flatMap_cons, h c (by simp), ih fun d hd => h d (by simp [hd])]; rfl

theorem plain_quote [GoPrint] {e : Str} (h : PlainText e) : goQuote e = e := by
  unfold goQuote
  have : ∀ c ∈ e, goQuoteChar c = [c] := by
    intro c hc
    obtain ⟨h1, h2, h3, h4⟩ := h.2 c hc
    unfold goQuoteChar
    dsimp only
    rw [if_neg (by simp [h3, h4]), if_pos]
    rw [if_pos (by omega)]
    simp only [decide_eq_true_eq]
    omega
  exact flatMap_single this

theorem plain_escape {e : Str} (h : PlainText e) : escape false e = e := by
  unfold escape
  have : ∀ c ∈ e, escChar false c = [c] := by
    intro c hc
    obtain ⟨h1, h2, h3, h4⟩ := h.2 c hc
    have hne : ∀ d : Char, d.toNat < 0x20 → c ≠ d := by
      rintro d hd rfl; omega
    unfold escChar
    rw [if_neg h3, if_neg h4, if_neg (hne _ (by decide)), if_neg (hne _ (by decide)), if_neg (hne _ (by decide)),
      if_neg (hne _ (by decide)), if_neg (hne _ (by decide)), if_neg]
    rintro (h | h | h | h)
    · omega
    · exact absurd h.1 (by simp)
    · omega
    · omega
  exact flatMap_single this

/-- A type as it is after decoding. -/
def reVar (v : VarType) : VarType := .leaf v.expr .unknown

theorem decType_enc [GoPrint] {t : Option VarType} (h : ∀ v, t = some v → PlainText v.expr) :
    decType (encType t) = .ok (t.map reVar) := by
  cases t with
  | none => rfl
  | some v =>
    have := h v rfl
    rw [encType, plain_quote this, decType, if_neg this.1]
    rfl

/-! ### Metas and annotations -/

theorem decMetaMembers_enc {l : List (Str × Schema.Json)} (h : ∀ p ∈ l, ∃ v, p.2 = .str v) :
    decMetaMembers (l.map fun p => (p.1, encMetaVal p.2)) = .ok l := by
  induction l with
  | nil => rw [List.map_nil, decMetaMembers]
  | cons p l ih =>
    obtain ⟨k, j⟩ := p
    obtain ⟨v, hv⟩ := h (k, j) (by simp)
    dsimp only at hv
    subst hv
    rw [List.map_cons]
    dsimp only
    rw [decMetaMembers, encMetaVal, encStr, Json.ofStr, decMetaVal, cook_escape, ih fun q hq => h q (by simp [hq])]
    rfl

theorem decMeta_enc {m : Meta} (h : StringMeta m) : decMeta (encMeta m) = .ok (sortKeys m) := by
  have hp := (sortKeys_spec m).1
  have hm : IsMap (sortKeys m) := isMap_perm hp.symm h.1
  unfold encMeta decMeta
  dsimp only
  rw [dupKeys_nodup (by
    rw [List.map_map]
    show ((sortKeys m).map fun p => p.1).Nodup
    exact hm)]
  exact decMetaMembers_enc fun p hp' => h.2 p (hp.mem_iff.1 hp')

/-- Decoding an object written with all its members in place. -/
theorem resolve_keys {tags keys : List Str} {l : List (Str × Option Json)} (hn : keys.Nodup)
    (hs : ∀ k ∈ keys, k ∈ tags) (he : l.map (·.1) = keys) : resolve tags (.obj (members l)) = .ok (members l) :=
  resolve_members tags l (he ▸ hn) (he ▸ hs)

theorem field_keys {keys : List Str} {l : List (Str × Option Json)} {k : Str} {o : Option Json} (hn : keys.Nodup)
    (he : l.map (·.1) = keys) (hk : l.lookup k = some o) : field (members l) k = o.getD .null := by
  rw [lookup_members l (he ▸ hn), hk]; rfl

theorem decAnnotation_enc (a : Annotation) : decAnnotation (encAnnotation a) = .ok a := by
  have hn : [S "annotationType", S "value"].Nodup := by decide +kernel
  obtain ⟨L, e, hk, h1, h2⟩ : ∃ L, encAnnotation a = .obj (members L) ∧
      L.map (·.1) = [S "annotationType", S "value"] ∧ L.lookup (S "annotationType") = some (some (encStr a.annotationType)) ∧
      L.lookup (S "value") = some (some (encStr a.value)) := ⟨_, rfl, rfl, rfl, rfl⟩
  unfold decAnnotation
  rw [e, resolve_keys hn (fun _ h => h) hk]
  simp only [bind, Except.bind, field_keys hn hk h1, field_keys hn hk h2, Option.getD_some, decStr_enc]

theorem decEntries_enc (l : List (Str × Annotation)) :
    decEntries (l.map fun p => (p.1, encAnnotation p.2)) = .ok l := by
  induction l with
  | nil => rfl
  | cons p l ih =>
    rw [List.map_cons, decEntries, decAnnotation_enc, ih]
    rfl

theorem isNull_annotations (b : Bool) (l : List (Str × Annotation)) : isNull (encAnnotations b l) = (b && l.isEmpty) := by
  unfold encAnnotations
  split
  · rename_i h; rw [h.1, h.2]; rfl
  · rename_i h
    cases b with
    | false => rfl
    | true => cases l with
      | nil => exact absurd ⟨rfl, rfl⟩ h
      | cons => rfl

theorem decAnnotations_enc {b : Bool} {l : List (Str × Annotation)} (h : IsMap l) :
    decAnnotations (encAnnotations b l) = .ok (sortKeys l) := by
  unfold encAnnotations
  by_cases hn : b ∧ l = []
  · rw [if_pos hn, hn.2]; rfl
  · have hm : IsMap (sortKeys l) := isMap_perm (sortKeys_spec l).1.symm h
    rw [if_neg hn, decAnnotations, dupKeys_nodup (by
      rw [List.map_map]
      show ((sortKeys l).map fun p => p.1).Nodup
      exact hm)]
    exact decEntries_enc _

/-! ### Records -/

/-- A field as it is after decoding. -/
def reField (f : Field) : Field := { f with type := f.type.map reVar, metas := f.metas.map sortKeys }

/-- A type as it is after decoding. -/
def reType (i : Nat) (t : TypeDecl) : TypeDecl :=
  { t with ptr := (S "json", i), type := t.type.map reVar, fields := t.fields.map reField, metas := t.metas.map sortKeys }

/-- An error as it is after decoding. -/
def reError (i : Nat) (e : ErrorDecl) : ErrorDecl := { e with ptr := (S "json", i) }

/-- An argument as it is after decoding. -/
def reArg (a : Argument) : Argument := { a with type := a.type.map reVar, metas := a.metas.map sortKeys }

/-- A method as it is after decoding. -/
def reMethod (m : Method) : Method :=
  { m with annotations := sortKeys m.annotations, inputs := m.inputs.map reArg, outputs := m.outputs.map reArg,
           nils := { annotations := m.nils.annotations && m.annotations.isEmpty, comments := m.nils.comments && m.comments.isEmpty,
                     inputs := m.nils.inputs && m.inputs.isEmpty, outputs := m.nils.outputs && m.outputs.isEmpty } }

/-- A service as it is after decoding. -/
def reService (i : Nat) (v : Service) : Service :=
  { v with ptr := (S "json", i), methods := v.methods.map reMethod,
           nils := { methods := v.nils.methods && v.methods.isEmpty, comments := v.nils.comments && v.comments.isEmpty } }

/-- A schema as it is after decoding. -/
def reload (s : Schema) : Schema :=
  { s with types := numbered reType 0 s.types, errors := numbered reError 0 s.errors, services := numbered reService 0 s.services,
           nils := { types := s.nils.types && s.types.isEmpty, errors := s.nils.errors && s.errors.isEmpty,
                     services := s.nils.services && s.services.isEmpty } }

theorem decField_enc [GoPrint] {f : Field} (ht : ∀ v, f.type = some v → PlainText v.expr) (hm : ∀ m ∈ f.metas, StringMeta m) :
    decField (encField f) = .ok (reField f) := by
  have hn : [S "comments", S "name", S "type", S "optional", S "value", S "meta"].Nodup := by decide +kernel
  obtain ⟨L, e, hk, h1, h2, h3, h4, h5, h6⟩ : ∃ L, encField f = .obj (members L) ∧
      L.map (·.1) = [S "comments", S "name", S "type", S "optional", S "value", S "meta"] ∧
      L.lookup (S "comments") = some (omitIf (f.comments = []) (encList encStr f.comments)) ∧
      L.lookup (S "name") = some (some (encStr f.name)) ∧
      L.lookup (S "type") = some (omitIf f.type.isNone (encType f.type)) ∧
      L.lookup (S "optional") = some (omitIf (!f.optional) (.bool f.optional)) ∧
      L.lookup (S "value") = some (omitIf (f.value = []) (encStr f.value)) ∧
      L.lookup (S "meta") = some (omitIf (f.metas = []) (encList encMeta f.metas)) :=
    ⟨_, rfl, rfl, rfl, rfl, rfl, rfl, rfl, rfl⟩
  unfold decField
  rw [e, resolve_keys hn (fun _ h => h) hk]
  simp only [bind, Except.bind, field_keys hn hk h1, field_keys hn hk h2, field_keys hn hk h3, field_keys hn hk h4,
    field_keys hn hk h5, field_keys hn hk h6, Option.getD_some, omit_list, omit_type, decStr_enc, decStrs, decType_enc ht,
    decBool_omit, decStr_omit, decList_map (fun m hm' => decMeta_enc (hm m hm'))]
  rfl

theorem decTypeDecl_enc [GoPrint] {t : TypeDecl} (ht : ∀ v, t.type = some v → PlainText v.expr)
    (hf : ∀ f ∈ t.fields, (∀ v, f.type = some v → PlainText v.expr) ∧ ∀ m ∈ f.metas, StringMeta m)
    (hm : ∀ m ∈ t.metas, StringMeta m) (i : Nat) : decTypeDecl i (encTypeDecl t) = .ok (reType i t) := by
  have hn : [S "kind", S "name", S "type", S "fields", S "optional", S "value", S "meta", S "comments"].Nodup := by
    decide +kernel
  obtain ⟨L, e, hk, h1, h2, h3, h4, h5, h6, h7, h8⟩ : ∃ L, encTypeDecl t = .obj (members L) ∧
      L.map (·.1) = [S "kind", S "name", S "type", S "fields", S "optional", S "value", S "meta", S "comments"] ∧
      L.lookup (S "kind") = some (some (encStr t.kind)) ∧
      L.lookup (S "name") = some (some (encStr t.name)) ∧
      L.lookup (S "type") = some (omitIf t.type.isNone (encType t.type)) ∧
      L.lookup (S "fields") = some (omitIf (t.fields.length = 0) (encList encField t.fields)) ∧
      L.lookup (S "optional") = some (omitIf (!t.optional) (.bool t.optional)) ∧
      L.lookup (S "value") = some (omitIf (t.value = []) (encStr t.value)) ∧
      L.lookup (S "meta") = some (omitIf (t.metas = []) (encList encMeta t.metas)) ∧
      L.lookup (S "comments") = some (omitIf (t.comments = []) (encList encStr t.comments)) :=
    ⟨_, rfl, rfl, rfl, rfl, rfl, rfl, rfl, rfl, rfl, rfl⟩
  unfold decTypeDecl
  rw [e, resolve_keys hn (fun _ h => h) hk]
  simp only [bind, Except.bind, field_keys hn hk h1, field_keys hn hk h2, field_keys hn hk h3, field_keys hn hk h4,
    field_keys hn hk h5, field_keys hn hk h6, field_keys hn hk h7, field_keys hn hk h8, Option.getD_some, omit_list,
    omit_list', omit_type, decStr_enc, decStrs, decType_enc ht, decBool_omit, decStr_omit,
    decList_map (fun m hm' => decMeta_enc (hm m hm')), decList_map (fun f hf' => decField_enc (hf f hf').1 (hf f hf').2)]
  rfl

theorem decInt_enc {i : Int} (h : -(2 ^ 63 : Int) ≤ i ∧ i < 2 ^ 63) : decInt (.num (intText i)) = .ok i := by
  unfold decInt
  rw [Verif.Rpc.decInt, atoi_int h.1 h.2]

theorem decError_enc {e : ErrorDecl} (h1 : -(2 ^ 63 : Int) ≤ e.code ∧ e.code < 2 ^ 63)
    (h2 : -(2 ^ 63 : Int) ≤ e.httpStatus ∧ e.httpStatus < 2 ^ 63) (i : Nat) : decError i (encError e) = .ok (reError i e) := by
  have hn : [S "code", S "name", S "message", S "httpStatus"].Nodup := by decide +kernel
  obtain ⟨L, he, hk, l1, l2, l3, l4⟩ : ∃ L, encError e = .obj (members L) ∧
      L.map (·.1) = [S "code", S "name", S "message", S "httpStatus"] ∧
      L.lookup (S "code") = some (some (.num (intText e.code))) ∧
      L.lookup (S "name") = some (some (encStr e.name)) ∧
      L.lookup (S "message") = some (some (encStr e.message)) ∧
      L.lookup (S "httpStatus") = some (some (.num (intText e.httpStatus))) := ⟨_, rfl, rfl, rfl, rfl, rfl, rfl⟩
  unfold decError
  rw [he, resolve_keys hn (fun _ h => h) hk]
  simp only [bind, Except.bind, field_keys hn hk l1, field_keys hn hk l2, field_keys hn hk l3, field_keys hn hk l4,
    Option.getD_some, decStr_enc, decInt_enc h1, decInt_enc h2]
  rfl

theorem decBool_some (b : Bool) : decBool (.bool b) = .ok b := rfl

theorem decArgument_enc [GoPrint] {a : Argument} (ht : ∀ v, a.type = some v → PlainText v.expr) (hm : ∀ m ∈ a.metas, StringMeta m) :
    decArgument (encArgument a) = .ok (reArg a) := by
  have hn : [S "name", S "type", S "optional", S "value", S "meta"].Nodup := by decide +kernel
  obtain ⟨L, he, hk, l1, l2, l3, l4, l5⟩ : ∃ L, encArgument a = .obj (members L) ∧
      L.map (·.1) = [S "name", S "type", S "optional", S "value", S "meta"] ∧
      L.lookup (S "name") = some (some (encStr a.name)) ∧
      L.lookup (S "type") = some (some (encType a.type)) ∧
      L.lookup (S "optional") = some (some (.bool a.optional)) ∧
      L.lookup (S "value") = some (omitIf (a.value = []) (encStr a.value)) ∧
      L.lookup (S "meta") = some (omitIf (a.metas = []) (encList encMeta a.metas)) := ⟨_, rfl, rfl, rfl, rfl, rfl, rfl, rfl⟩
  unfold decArgument
  rw [he, resolve_keys hn (fun _ h => h) hk]
  simp only [bind, Except.bind, field_keys hn hk l1, field_keys hn hk l2, field_keys hn hk l3, field_keys hn hk l4, field_keys hn hk l5,
    Option.getD_some, decStr_enc, decType_enc ht, decBool_some, omit_list, decStr_omit, decList_map (fun m hm' => decMeta_enc (hm m hm'))]
  rfl

theorem decMethod_enc [GoPrint] {m : Method} (ha : IsMap m.annotations)
    (ht : ∀ a ∈ m.inputs ++ m.outputs, (∀ v, a.type = some v → PlainText v.expr) ∧ ∀ x ∈ a.metas, StringMeta x) :
    decMethod (encMethod m) = .ok (reMethod m) := by
  have hn : [S "name", S "annotations", S "comments", S "succinct", S "streamInput", S "streamOutput",
    S "inputs", S "outputs", S "errors"].Nodup := by decide +kernel
  obtain ⟨L, he, hk, l1, l2, l3, l4, l5, l6, l7, l8, l9⟩ : ∃ L, encMethod m = .obj (members L) ∧
      L.map (·.1) = [S "name", S "annotations", S "comments", S "succinct", S "streamInput", S "streamOutput",
        S "inputs", S "outputs", S "errors"] ∧
      L.lookup (S "name") = some (some (encStr m.name)) ∧
      L.lookup (S "annotations") = some (some (encAnnotations m.nils.annotations m.annotations)) ∧
      L.lookup (S "comments") = some (some (encSlice m.nils.comments encStr m.comments)) ∧
      L.lookup (S "succinct") = some (omitIf (!m.succinct) (.bool m.succinct)) ∧
      L.lookup (S "streamInput") = some (omitIf (!m.streamInput) (.bool m.streamInput)) ∧
      L.lookup (S "streamOutput") = some (omitIf (!m.streamOutput) (.bool m.streamOutput)) ∧
      L.lookup (S "inputs") = some (some (encSlice m.nils.inputs encArgument m.inputs)) ∧
      L.lookup (S "outputs") = some (some (encSlice m.nils.outputs encArgument m.outputs)) ∧
      L.lookup (S "errors") = some (omitIf (m.errors = []) (encList encStr m.errors)) :=
    ⟨_, rfl, rfl, rfl, rfl, rfl, rfl, rfl, rfl, rfl, rfl, rfl⟩
  unfold decMethod
  rw [he, resolve_keys hn (fun _ h => h) hk]
  simp only [bind, Except.bind, field_keys hn hk l1, field_keys hn hk l2, field_keys hn hk l3, field_keys hn hk l4,
    field_keys hn hk l5, field_keys hn hk l6, field_keys hn hk l7, field_keys hn hk l8, field_keys hn hk l9,
    Option.getD_some, decStr_enc, omit_list, decSlice, isNull_slice, isNull_annotations, decStrs, decBool_omit, decAnnotations_enc ha,
    decList_map (l := m.inputs) (fun a ha' => decArgument_enc (ht a (by simp [ha'])).1 (ht a (by simp [ha'])).2),
    decList_map (l := m.outputs) (fun a ha' => decArgument_enc (ht a (by simp [ha'])).1 (ht a (by simp [ha'])).2)]
  rfl

theorem decService_enc [GoPrint] {v : Service}
    (hm : ∀ m ∈ v.methods, IsMap m.annotations ∧ ∀ a ∈ m.inputs ++ m.outputs, (∀ v, a.type = some v → PlainText v.expr) ∧ ∀ x ∈ a.metas, StringMeta x) (i : Nat) :
    decService i (encService v) = .ok (reService i v) := by
  have hn : [S "name", S "methods", S "comments"].Nodup := by decide +kernel
  obtain ⟨L, he, hk, l1, l2, l3⟩ : ∃ L, encService v = .obj (members L) ∧
      L.map (·.1) = [S "name", S "methods", S "comments"] ∧
      L.lookup (S "name") = some (some (encStr v.name)) ∧
      L.lookup (S "methods") = some (some (encSlice v.nils.methods encMethod v.methods)) ∧
      L.lookup (S "comments") = some (some (encSlice v.nils.comments encStr v.comments)) := ⟨_, rfl, rfl, rfl, rfl, rfl⟩
  unfold decService
  rw [he, resolve_keys hn (fun _ h => h) hk]
  simp only [bind, Except.bind, field_keys hn hk l1, field_keys hn hk l2, field_keys hn hk l3,
    Option.getD_some, decStr_enc, decSlice, isNull_slice, decStrs, decList_map (fun m hm' => decMethod_enc (hm m hm').1 (hm m hm').2)]
  rfl

/-- Decoding inverts encoding, up to object identities, the parsed form of types and the order of map entries. -/
theorem decSchema_enc [GoUnicode] [GoPrint] {s : Schema} (h : Portable s)
    (hst : ∀ e ∈ s.errors, -(2 ^ 63 : Int) ≤ e.httpStatus ∧ e.httpStatus < 2 ^ 63) :
    decSchema (encSchema s) = .ok (reload s) := by
  have hn : [S "webrpc", S "name", S "version", S "basepath", S "types", S "errors", S "services"].Nodup := by decide +kernel
  obtain ⟨L, he, hk, l1, l2, l3, l4, l5, l6, l7⟩ : ∃ L, encSchema s = .obj (members L) ∧
      L.map (·.1) = [S "webrpc", S "name", S "version", S "basepath", S "types", S "errors", S "services"] ∧
      L.lookup (S "webrpc") = some (some (encStr s.webrpcVersion)) ∧
      L.lookup (S "name") = some (some (encStr s.schemaName)) ∧
      L.lookup (S "version") = some (some (encStr s.schemaVersion)) ∧
      L.lookup (S "basepath") = some (some (encStr s.basePath)) ∧
      L.lookup (S "types") = some (some (encSlice s.nils.types encTypeDecl s.types)) ∧
      L.lookup (S "errors") = some (some (encSlice s.nils.errors encError s.errors)) ∧
      L.lookup (S "services") = some (some (encSlice s.nils.services encService s.services)) := ⟨_, rfl, rfl, rfl, rfl, rfl, rfl, rfl, rfl, rfl⟩
  have ht : ∀ t ∈ s.types, ∀ i, decTypeDecl i (encTypeDecl t) = .ok (reType i t) := by
    intro t ht i
    refine decTypeDecl_enc ?_ ?_ (h.metas t ht).1 i
    · intro v hv
      refine h.plain v ?_
      simp only [allTypes, List.mem_append, List.mem_flatMap]
      exact .inl ⟨t, ht, .inl (by simp [hv])⟩
    · intro f hf
      refine ⟨?_, (h.metas t ht).2 f hf⟩
      intro v hv
      refine h.plain v ?_
      simp only [allTypes, List.mem_append, List.mem_flatMap, List.mem_filterMap]
      exact .inl ⟨t, ht, .inr ⟨f, hf, hv⟩⟩
  have hse : ∀ v ∈ s.services, ∀ i, decService i (encService v) = .ok (reService i v) := by
    intro v hv i
    refine decService_enc ?_ i
    intro m hm
    refine ⟨h.annotations v hv m hm, ?_⟩
    intro a ha
    refine ⟨fun x hx => h.plain x ?_, h.argMetas v hv m hm a ha⟩
    simp only [allTypes, List.mem_append, List.mem_flatMap, List.mem_filterMap]
    exact .inr ⟨v, hv, m, hm, a, by simpa using ha, hx⟩
  unfold decSchema
  rw [he, resolve_keys hn (fun _ h => h) hk]
  simp only [bind, Except.bind, field_keys hn hk l1, field_keys hn hk l2, field_keys hn hk l3, field_keys hn hk l4,
    field_keys hn hk l5, field_keys hn hk l6, field_keys hn hk l7, Option.getD_some, decStr_enc, decSlice, isNull_slice,
    decList_enc ht, decList_enc hse, decList_enc (fun e he' i => decError_enc (h.ints e he') (hst e he') i)]
  rfl

/-! ### Well-formed output -/

theorem nums_members {l : List (Str × Option Json)} (h : ∀ p ∈ l, ∀ j, p.2 = some j → Nums j) : Nums (.obj (members l)) := by
  rw [Nums, NumsMembers_iff]
  intro p hp
  unfold members at hp
  rw [List.mem_filterMap] at hp
  obtain ⟨q, hq, he⟩ := hp
  rw [Option.map_eq_some_iff] at he
  obtain ⟨j, hj, rfl⟩ := he
  exact h q hq j hj

theorem nums_list {α : Type} {f : α → Json} {l : List α} (h : ∀ x ∈ l, Nums (f x)) : Nums (encList f l) := by
  rw [encList, Nums, NumsList_iff]
  intro j hj
  obtain ⟨x, hx, rfl⟩ := List.mem_map.1 hj
  exact h x hx

theorem nums_slice {α : Type} {b : Bool} {f : α → Json} {l : List α} (h : ∀ x ∈ l, Nums (f x)) : Nums (encSlice b f l) := by
  unfold encSlice
  split
  · rw [Nums]; trivial
  · exact nums_list h

theorem nums_str (s : Str) : Nums (encStr s) := nums_ofStr _ _

theorem nums_bool (b : Bool) : Nums (.bool b) := by rw [Nums]; trivial

theorem nums_int (i : Int) : Nums (.num (intText i)) := by rw [Nums]; exact numText_int i

theorem nums_type [GoPrint] {t : Option VarType} (h : ∀ v, t = some v → PlainText v.expr) : Nums (encType t) := by
  cases t with
  | none => rw [encType, Nums]; trivial
  | some v =>
    have := h v rfl
    rw [encType, Nums]
    exact ⟨false, v.expr, by rw [plain_quote this, plain_escape this]⟩

theorem nums_omit {b : Bool} {j k : Json} (h : Nums j) (hk : omitIf b j = some k) : Nums k := by
  unfold omitIf at hk
  split at hk
  · cases hk
  · cases hk; exact h

theorem nums_strs (l : List Str) : Nums (encList encStr l) := nums_list fun _ _ => nums_str _

theorem nums_meta {m : Meta} (h : StringMeta m) : Nums (encMeta m) := by
  unfold encMeta
  rw [Nums, NumsMembers_iff]
  intro p hp
  obtain ⟨q, hq, rfl⟩ := List.mem_map.1 hp
  obtain ⟨v, hv⟩ := h.2 q ((sortKeys_spec m).1.mem_iff.1 hq)
  dsimp only
  rw [hv, encMetaVal]
  exact nums_str v

theorem nums_annotations (b : Bool) (l : List (Str × Annotation)) : Nums (encAnnotations b l) := by
  unfold encAnnotations
  split
  · rw [Nums]; trivial
  · rw [Nums, NumsMembers_iff]
    intro p hp
    obtain ⟨q, hq, rfl⟩ := List.mem_map.1 hp
    refine nums_members ?_
    intro p hp j hj
    simp only [List.mem_cons, List.not_mem_nil, or_false] at hp
    rcases hp with rfl | rfl <;> cases hj <;> exact nums_str _

theorem nums_schema [GoUnicode] [GoPrint] {s : Schema} (h : Portable s) : Nums (encSchema s) := by
  have ht : ∀ t ∈ s.types, Nums (encTypeDecl t) := by
    intro t ht
    have h1 : ∀ v, t.type = some v → PlainText v.expr := by
      intro v hv
      refine h.plain v ?_
      simp only [allTypes, List.mem_append, List.mem_flatMap]
      exact .inl ⟨t, ht, .inl (by simp [hv])⟩
    have h2 : ∀ f ∈ t.fields, Nums (encField f) := by
      intro f hf
      have h3 : ∀ v, f.type = some v → PlainText v.expr := by
        intro v hv
        refine h.plain v ?_
        simp only [allTypes, List.mem_append, List.mem_flatMap, List.mem_filterMap]
        exact .inl ⟨t, ht, .inr ⟨f, hf, hv⟩⟩
      refine nums_members ?_
      intro p hp j hj
      simp only [List.mem_cons, List.not_mem_nil, or_false] at hp
      rcases hp with rfl | rfl | rfl | rfl | rfl | rfl
      · exact nums_omit (nums_strs _) hj
      · cases hj; exact nums_str _
      · exact nums_omit (nums_type h3) hj
      · exact nums_omit (nums_bool _) hj
      · exact nums_omit (nums_str _) hj
      · exact nums_omit (nums_list fun m hm => nums_meta ((h.metas t ht).2 f hf m hm)) hj
    refine nums_members ?_
    intro p hp j hj
    simp only [List.mem_cons, List.not_mem_nil, or_false] at hp
    rcases hp with rfl | rfl | rfl | rfl | rfl | rfl | rfl | rfl
    · cases hj; exact nums_str _
    · cases hj; exact nums_str _
    · exact nums_omit (nums_type h1) hj
    · exact nums_omit (nums_list h2) hj
    · exact nums_omit (nums_bool _) hj
    · exact nums_omit (nums_str _) hj
    · exact nums_omit (nums_list fun m hm => nums_meta ((h.metas t ht).1 m hm)) hj
    · exact nums_omit (nums_strs _) hj
  have he : ∀ e ∈ s.errors, Nums (encError e) := by
    intro e _
    refine nums_members ?_
    intro p hp j hj
    simp only [List.mem_cons, List.not_mem_nil, or_false] at hp
    rcases hp with rfl | rfl | rfl | rfl <;> cases hj
    · exact nums_int _
    · exact nums_str _
    · exact nums_str _
    · exact nums_int _
  have hv : ∀ v ∈ s.services, Nums (encService v) := by
    intro v hv
    have hm : ∀ m ∈ v.methods, Nums (encMethod m) := by
      intro m hm
      have ha : ∀ a ∈ m.inputs ++ m.outputs, Nums (encArgument a) := by
        intro a ha
        refine nums_members ?_
        intro p hp j hj
        simp only [List.mem_cons, List.not_mem_nil, or_false] at hp
        rcases hp with rfl | rfl | rfl | rfl | rfl
        · cases hj; exact nums_str _
        · cases hj
          refine nums_type fun x hx => h.plain x ?_
          simp only [allTypes, List.mem_append, List.mem_flatMap, List.mem_filterMap]
          exact .inr ⟨v, hv, m, hm, a, by simpa using ha, hx⟩
        · cases hj; exact nums_bool _
        · exact nums_omit (nums_str _) hj
        · exact nums_omit (nums_list fun x hx => nums_meta (h.argMetas v hv m hm a ha x hx)) hj
      refine nums_members ?_
      intro p hp j hj
      simp only [List.mem_cons, List.not_mem_nil, or_false] at hp
      rcases hp with rfl | rfl | rfl | rfl | rfl | rfl | rfl | rfl | rfl
      · cases hj; exact nums_str _
      · cases hj; exact nums_annotations _ _
      · cases hj; exact nums_slice fun _ _ => nums_str _
      · exact nums_omit (nums_bool _) hj
      · exact nums_omit (nums_bool _) hj
      · exact nums_omit (nums_bool _) hj
      · cases hj; exact nums_slice fun a ha' => ha a (by simp [ha'])
      · cases hj; exact nums_slice fun a ha' => ha a (by simp [ha'])
      · exact nums_omit (nums_strs _) hj
    refine nums_members ?_
    intro p hp j hj
    simp only [List.mem_cons, List.not_mem_nil, or_false] at hp
    rcases hp with rfl | rfl | rfl <;> cases hj
    · exact nums_str _
    · exact nums_slice hm
    · exact nums_slice fun _ _ => nums_str _
  refine nums_members ?_
  intro p hp j hj
  simp only [List.mem_cons, List.not_mem_nil, or_false] at hp
  rcases hp with rfl | rfl | rfl | rfl | rfl | rfl | rfl <;> cases hj
  · exact nums_str _
  · exact nums_str _
  · exact nums_str _
  · exact nums_str _
  · exact nums_slice ht
  · exact nums_slice he
  · exact nums_slice hv

end Verif.Json
