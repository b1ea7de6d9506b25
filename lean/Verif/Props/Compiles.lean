import Verif.Compile.MeaningDeclare
import Verif.Props.Complete
import Verif.Props.Imports
import Verif.Props.Document
/-!
# C67: the schema of a RIDL file is the one its text describes

`FileMeans` (Spec/Compiles.lean) says which schema a file describes, given what it says (C65) and the schemas of the
files it imports; `ValidSchema` and `Validated` (Spec/WellFormed.lean) are those of C66.
-/

namespace Verif.Compile
open Verif.Schema Verif.Spec
open Verif.Ridl hiding Str
open Verif.Props
variable [GoUnicode]

/-! ### Names of a valid schema differ -/

theorem own_services {path : Str} {ns : List Node} {m : Schema} (hm : ∀ e ∈ m.services, e.ptr.1 ≠ path)
    (h : (m.services ++ declaredServices path ns).Pairwise fun a b => a.ptr ≠ b.ptr → ¬ SameName a.name b.name) :
    (∀ e ∈ m.services, ∀ n ∈ services ns, toLower e.name ≠ toLower n.name.val) ∧
    (services ns).Pairwise fun a b => toLower a.name.val ≠ toLower b.name.val := by
  obtain ⟨hp, hq⟩ := declaredServices_ptr path ns
  rw [List.pairwise_append] at h
  obtain ⟨-, h2, h3⟩ := h
  have hd := hp
  rw [List.nodup_iff_pairwise_ne, List.pairwise_map] at hd
  have h2' := List.Pairwise.and h2 hd
  rw [declaredServices_eq] at h2' h3
  constructor
  · intro e he n hn
    obtain ⟨i, hi⟩ := mem_zipIdx_of_mem hn 0
    exact h3 e he (serviceDecl path (n, i)) (List.mem_map_of_mem hi) fun hh => hm e he (by rw [hh]; rfl)
  · rw [List.pairwise_map] at h2'
    have : ((services ns).zipIdx.map Prod.fst).Pairwise fun a b => toLower a.name.val ≠ toLower b.name.val := by
      rw [List.pairwise_map]
      exact h2'.imp fun {a b} hab => hab.1 hab.2
    rwa [List.zipIdx_map_fst] at this

/-- Same identities, hence the same names in the same places. -/
theorem apart_of_ids {path : Str} {ns : List Node} {m s1 : Schema}
    (ht : s1.types.map TypeDecl.ident = (m.types ++ declaredTypes path ns).map TypeDecl.ident)
    (hs : s1.services.map Service.ident = (m.services ++ declaredServices path ns).map Service.ident)
    (ho : Owned (fun f => f ≠ path) m) (hv : ValidSchema s1) : Apart path ns m := by
  obtain ⟨d1, d2⟩ := declaredTypes_ptr path ns
  have hnd : ((m.types ++ declaredTypes path ns).map (·.ptr)).Nodup := by
    rw [List.map_append, List.nodup_append]
    refine ⟨ho.types, d1, ?_⟩
    rintro a ha b hb rfl
    rw [List.mem_map] at ha hb
    obtain ⟨x, hx, rfl⟩ := ha
    obtain ⟨y, hy, e⟩ := hb
    exact ho.typesFrom x hx (by rw [← e]; exact d2 y hy)
  have hT : NamesDiffer s1.types := by
    have hnd1 : (s1.types.map (·.ptr)).Nodup := by
      have := congrArg (List.map fun i : _ => i.1) ht
      simp only [List.map_map] at this
      have e : s1.types.map (·.ptr) = (m.types ++ declaredTypes path ns).map (·.ptr) := this
      rw [e]; exact hnd
    rw [List.nodup_iff_pairwise_ne, List.pairwise_map] at hnd1
    refine List.Pairwise.imp_of_mem ?_ hnd1
    intro a b ha hb hab
    exact (hv.types a ha).unique b hb (Ne.symm hab)
  have hN : ∀ (l l' : List TypeDecl), l.map TypeDecl.ident = l'.map TypeDecl.ident → NamesDiffer l → NamesDiffer l' := by
    intro l l' h hn
    unfold NamesDiffer at hn ⊢
    have e : l.map (·.name) = l'.map (·.name) := by
      have := congrArg (List.map fun i : _ => i.2.2) h
      simpa [TypeDecl.ident, Function.comp_def] using this
    have : (l.map (·.name)).Pairwise fun a b => toLower a ≠ toLower b := by rw [List.pairwise_map]; exact hn
    rw [e, List.pairwise_map] at this
    exact this
  have hS : (m.services ++ declaredServices path ns).Pairwise fun a b => a.ptr ≠ b.ptr → ¬ SameName a.name b.name := by
    have h1 : s1.services.Pairwise fun a b => a.ptr ≠ b.ptr → ¬ SameName a.name b.name := by
      have : s1.services.Pairwise fun _ _ => True := by simp [List.pairwise_iff_getElem]
      refine List.Pairwise.imp_of_mem ?_ this
      intro a b ha hb _ hab
      exact (hv.services a ha).unique b hb (Ne.symm hab)
    have h2 : (s1.services.map Service.ident).Pairwise fun a b => a.1 ≠ b.1 → ¬ SameName a.2 b.2 := by
      rw [List.pairwise_map]; exact h1
    rw [hs, List.pairwise_map] at h2
    exact h2
  obtain ⟨k1, k2⟩ := own_services ho.servicesFrom hS
  exact ⟨hN _ _ ht hT, k1, k2⟩

theorem declares_ids {path : Str} {ns : List Node} {m s : Schema} (h : Declares path ns m s) :
    s.types.map TypeDecl.ident = (m.types ++ declaredTypes path ns).map TypeDecl.ident ∧
    s.services.map Service.ident = (m.services ++ declaredServices path ns).map Service.ident := by
  obtain ⟨-, ⟨A, E, T, ht, gA, gE, gT⟩, -, ⟨V, hV, gV⟩⟩ := h
  have leId : ∀ {a b : List TypeDecl}, LeList a b → b.map TypeDecl.ident = a.map TypeDecl.ident := by
    intro a b h
    induction h with
    | nil => rfl
    | cons h _ ih => simp only [List.map_cons, ih, TypeDecl.ident, h.1, h.2.1, h.2.2.1]
  have lA : LeList ((aliases ns).zipIdx.map (aliasDecl path)) A := by
    rw [aliasesOf_eq] at gA; exact aliasesAre_le gA
  have hlA : A.length = (aliases ns).length := by rw [← lA.length]; simp
  have lE : LeList (((enums ns).zipIdx (aliases ns).length).map (enumDecl path)) E := by
    rw [enumsOf_eq, hlA, zipIdx_map, pointwise_map_left] at gE
    unfold LeList
    rw [pointwise_map_left]
    exact gE.imp fun _ _ h => (isEnum_part h).1
  have hlE : E.length = (enums ns).length := by rw [← lE.length]; simp
  have lT : LeList (((structs ns).zipIdx ((aliases ns).length + (enums ns).length)).map (structDecl path)) T := by
    rw [structsOf_eq, hlA, hlE, zipIdx_map, pointwise_map_left] at gT
    unfold LeList
    rw [pointwise_map_left]
    exact gT.imp fun _ _ h => (isStruct_part h).1
  constructor
  · rw [ht, declaredTypes_eq]
    simp only [List.map_append, leId lA, leId lE, leId lT, List.append_assoc]
  · rw [hV, declaredServices_eq]
    simp only [List.map_append]
    congr 1
    rw [servicesOf_eq, zipIdx_map, pointwise_map_left] at gV
    generalize (services ns).zipIdx = l at gV
    clear hV
    induction gV with
    | nil => rfl
    | cons h _ ih =>
      rw [List.map_cons, List.map_cons, List.map_cons, ih]
      obtain ⟨_, _, -, -, e⟩ := h
      rw [e]
      rfl

/-! ### The file -/

theorem zip_map {α β γ : Type} (f : α → γ) : ∀ (l : List α) (m : List β), (l.map f).zip m = (l.zip m).map fun p => (f p.1, p.2)
  | [], _ => rfl
  | _ :: _, [] => rfl
  | a :: l, b :: m => by simp [zip_map f l m]

theorem fileMeans_iff {path : Str} {ns : List Node} {ms : List Schema} {s0 s1 : Schema} (he : s0.types = [] ∧ s0.errors = [] ∧ s0.services = []) :
    FileMeans path (ns.map Node.entry) ms s1 ∧ header s0 = header s1 ↔
      HeaderIs (ns.map Node.entry) s0 ∧ Declares path ns (mergeAll s0 ((imports ns).zip ms)) s1 := by
  obtain ⟨e1, e2, e3, -⟩ := mergeAll_eq ((imports ns).zip ms) s0 he
  rw [← zip_map, ← importsOf_eq] at e1 e2 e3
  have hh : header (mergeAll s0 ((imports ns).zip ms)) = header s0 := header_merge
  constructor
  · rintro ⟨h, hd⟩
    refine ⟨headerIs_congr (s := s1) ⟨h.keys, h.once, h.webrpc, h.name, h.version, h.basepath, h.lists⟩ hd, hh ▸ hd.symm, ?_, ?_, ?_⟩
    · rw [e1]; exact h.types
    · rw [e2]; exact h.errors
    · rw [e3]; exact h.services
  · rintro ⟨h, d⟩
    have hd : header s0 = header s1 := by rw [d.header, hh]
    have h' := headerIs_congr h hd.symm
    refine ⟨⟨h'.keys, h'.once, h'.webrpc, h'.name, h'.version, h'.basepath, h'.lists, ?_, ?_, ?_⟩, hd⟩
    · rw [← e1]; exact d.types
    · rw [← e2]; exact d.errors
    · rw [← e3]; exact d.services

/-- C67, for what the parser has read: a file is compiled to `s` exactly if each imported file compiles, and `s` is what
validation (C66) makes of the schema the file describes. -/
theorem C67_compiles (hcase : CaseKeepsBlanks) (fs : Files) (path : Str) (ns : List Node) (s : Schema)
    (hread : readNodes fs path = .ok ns) (hsh : ∀ e ∈ ns.map Node.entry, e.Shaped) :
    compile fs path = .ok s ↔
      ∃ ms s1, Pointwise (fun (e : Entry) m => compile fs (joinPath (dir path) e.name) = .ok m) (importsOf (ns.map Node.entry)) ms ∧
        FileMeans path (ns.map Node.entry) ms s1 ∧ ValidSchema s1 ∧ Validated s1 s := by
  have hsh' : ∀ n ∈ ns, n.entry.Shaped := fun n hn => hsh _ (List.mem_map_of_mem hn)
  have hv : ∀ d ∈ definitions ns, textOf d.right ≠ [] := by
    intro d hd
    obtain ⟨v, h1, h2⟩ := hsh' _ (mem_node (mk := Node.defn) (by intro n a h; cases n <;> simp_all) hd)
    cases hr : d.right with
    | none => simp [DefNode.entry, hr] at h1
    | some t =>
      simp only [DefNode.entry, hr, Option.map_some, Option.some.injEq] at h1
      simpa [textOf, h1] using h2
  have himp : ∀ ms, Pointwise (fun (e : Entry) m => compile fs (joinPath (dir path) e.name) = .ok m) (importsOf (ns.map Node.entry)) ms ↔
      Pointwise (fun n m => compile fs (importPath path n) = .ok m) (imports ns) ms := by
    intro ms
    rw [importsOf_eq, pointwise_map_left]
    exact Iff.rfl
  have hown : ∀ s0 ms, foldRes applyDef {} (definitions ns) = .ok s0 →
      Pointwise (fun n m => compile fs (importPath path n) = .ok m) (imports ns) ms →
      Owned (fun f => f ≠ path) (mergeAll s0 ((imports ns).zip ms)) := by
    intro s0 ms h0 hm
    refine merged_owned hread h0 (List.map_fst_zip (Nat.le_of_eq hm.length)) ?_
    generalize imports ns = l at hm
    induction hm with
    | nil => simp
    | cons h _ ih =>
      intro p hp
      rw [List.zip_cons_cons] at hp
      rcases List.mem_cons.1 hp with rfl | hp
      · exact compile_iff.1 h
      · exact ih p hp
  rw [C62_cache_transparent]
  constructor
  · rintro ⟨ns', s0, s1, ms, h1, h2, h3, h4, h5⟩
    rw [hread] at h1; cases h1
    obtain ⟨v1, v2⟩ := (C66_validates_exactly hcase s1 s).1 h5
    obtain ⟨-, i1, i2, -⟩ := declare_ids h4
    have hap := apart_of_ids i1 i2 (hown s0 ms h2 h3) v1
    refine ⟨ms, s1, (himp ms).2 h3, ?_, v1, v2⟩
    exact ((fileMeans_iff (defs_empty h2)).2 ⟨header_sound hv h2, (declare_iff hsh' hap).1 h4⟩).1
  · rintro ⟨ms, s1, h1, h2, h3, h4⟩
    rw [himp] at h1
    obtain ⟨s0, g1, g2⟩ := header_complete hv (s1 := s1) ⟨h2.keys, h2.once, h2.webrpc, h2.name, h2.version, h2.basepath, h2.lists⟩
    obtain ⟨-, hd⟩ := (fileMeans_iff (path := path) (ms := ms) (s1 := s1) (defs_empty g1)).1 ⟨h2, g2⟩
    obtain ⟨i1, i2⟩ := declares_ids hd
    have hap := apart_of_ids i1 i2 (hown s0 ms g1 h1) h3
    exact ⟨ns, s0, s1, ms, hread, g1, h1, (declare_iff hsh' hap).2 hd, (C66_validates_exactly hcase s1 s).2 ⟨h3, h4⟩⟩

/-! ### The text -/

omit [GoUnicode] in
theorem lit_ne {v : Lit} {b : Str → Prop} (h : v.Ok b) (hb : ∀ s, b s → s ≠ []) : v.value ≠ [] := by
  cases v with
  | bare s => exact hb s h
  | quoted s => exact h.1

omit [GoUnicode] in
theorem params_shaped (p : Params) : ArgsShaped p.entries := by
  cases p with
  | list ps =>
    right
    intro a ha
    simp only [Params.entries, List.mem_map] at ha
    obtain ⟨q, _, rfl⟩ := ha
    exact ⟨_, _, _, rfl⟩
  | whole n => exact .inl ⟨n, rfl⟩

omit [GoUnicode] in
/-- What is written in a document has the shape C67 needs. -/
theorem item_shaped {i : Item} (h : i.Ok) : ∀ e ∈ i.entries, e.Shaped := by
  intro e he
  cases i with
  | define doc key v =>
    simp only [Item.entries, List.mem_singleton] at he
    subst he
    exact ⟨_, rfl, lit_ne h.2.2 fun _ hs => hs.1⟩
  | importFiles paths =>
    simp only [Item.entries, List.mem_map] at he
    obtain ⟨_, _, rfl⟩ := he
    trivial
  | importFile path members =>
    simp only [Item.entries, List.mem_singleton] at he
    subst he; trivial
  | error code name msg status =>
    simp only [Item.entries, List.mem_singleton] at he
    subst he
    exact ⟨h.2.1, by simp, h.2.2.2.2⟩
  | enum doc name type members =>
    simp only [Item.entries, List.mem_singleton] at he
    subst he
    intro m hm v hv
    rw [List.mem_map] at hm
    obtain ⟨x, hx, rfl⟩ := hm
    simp only [Member.entry, Option.map_eq_some_iff] at hv
    obtain ⟨l, hl, rfl⟩ := hv
    exact lit_ne ((h.2.2.2 x hx).2.2 l hl) fun _ hs => hs.1
  | alias doc name type metas =>
    simp only [Item.entries, List.mem_singleton] at he
    subst he; trivial
  | struct doc name fields =>
    simp only [Item.entries, List.mem_singleton] at he
    subst he; trivial
  | service doc name methods =>
    simp only [Item.entries, List.mem_singleton] at he
    subst he
    intro m hm
    rw [List.mem_map] at hm
    obtain ⟨x, hx, rfl⟩ := hm
    have hx' := h.2.2.2 x hx
    refine ⟨?_, ?_, ?_⟩
    · have := hx'.2.2.1
      simpa [MethodDecl.entry, Function.comp_def] using this
    · simp only [MethodDecl.entry]
      cases x.sig with
      | none => exact .inr (by simp)
      | some s => exact params_shaped _
    · simp only [MethodDecl.entry]
      cases x.sig with
      | none => exact .inr (by simp)
      | some s =>
        cases hso : s.output with
        | none => exact .inr (by simp [hso])
        | some o => simp only [hso]; exact params_shaped _

/-- C67: the compiler takes the text of a document to exactly the schema the document describes: it accepts the file if
and only if the imported files are accepted and the described schema is valid, and then returns it, validated. -/
theorem C67_document (hcase : CaseKeepsBlanks) (fs : Files) (path : Str) (items : List Item) (s : Schema)
    (hp : validPath path = true) (hf : fs.lookup path = some (document items)) (hok : ∀ i ∈ items, i.Ok) :
    compile fs path = .ok s ↔
      ∃ ms s1, Pointwise (fun (e : Entry) m => compile fs (joinPath (dir path) e.name) = .ok m) (importsOf (items.flatMap Item.entries)) ms ∧
        FileMeans path (items.flatMap Item.entries) ms s1 ∧ ValidSchema s1 ∧ Validated s1 s := by
  obtain ⟨ns, h1, h2⟩ := C65_document items hok
  have hr : readNodes fs path = .ok ns := by
    unfold readNodes
    rw [hp, hf]
    show (match parseDoc (document items) with | .ok ns => Res.ok ns | .err _ _ _ _ => .err .syntaxError | .panic => .panic | .outOfFuel => .fuel) = _
    rw [h1]
  rw [← h2]
  refine C67_compiles hcase fs path ns s hr ?_
  rw [h2]
  intro e he
  obtain ⟨i, hi, he⟩ := List.mem_flatMap.1 he
  exact item_shaped (hok i hi) e he

/-! ### A document that meets the hypotheses -/

def mainItems : List Item := [
  .define [] "webrpc".toList (.bare "v1".toList),
  .define [] "name".toList (.bare "shop".toList),
  .define [] "version".toList (.bare "v0.1.0".toList),
  .define [] "basepath".toList (.bare "/api".toList),
  .importFile (.bare "../types.ridl".toList) [.bare "Id".toList],
  .error "404".toList "NotFound".toList (.quoted "no such user".toList) (some "404".toList),
  .struct ["a user".toList] "User".toList [⟨[], "ids".toList, true, .map "string".toList (.list (.named "Id".toList)), []⟩],
  .service [] "Users".toList
    [⟨["find".toList], [[⟨"auth".toList, some (.bare "jwt".toList)⟩]], "Find".toList,
        some ⟨false, .list [⟨"id".toList, false, .named "Id".toList⟩], some (true, .list [⟨"user".toList, false, .named "User".toList⟩]), ["NotFound".toList]⟩⟩]]

def typesItems : List Item := [
  .define [] "webrpc".toList (.bare "v1".toList),
  .alias [] "Id".toList (.scalar "string".toList) [],
  .alias [] "Unused".toList (.scalar "int".toList) []]

def exFiles : Files := [(S "api/main.ridl", document mainItems), (S "types.ridl", document typesItems)]

theorem mainItems_ok : ∀ i ∈ mainItems, i.Ok := by
  have word : ∀ s : Str, s ≠ [] → Clear s → IsWord s → (Lit.bare s).Plain := fun s h1 h2 h3 => ⟨h1, h2, [], s, rfl, by simp, .inr h3⟩
  intro i hi
  simp only [mainItems, List.mem_cons, List.not_mem_nil, or_false] at hi
  rcases hi with rfl | rfl | rfl | rfl | rfl | rfl | rfl | rfl
  · exact ⟨by simp, by decide, word _ (by decide) (by decide +kernel) (by decide +kernel)⟩
  · exact ⟨by simp, by decide, word _ (by decide) (by decide +kernel) (by decide +kernel)⟩
  · exact ⟨by simp, by decide, word _ (by decide) (by decide +kernel) (by decide +kernel)⟩
  · exact ⟨by simp, by decide, by decide, by decide +kernel, ['/'], "api".toList, rfl, by decide, .inr (by decide +kernel)⟩
  · refine ⟨⟨by decide, by decide +kernel, ['.', '.', '/'], "types.ridl".toList, rfl, by decide, .inr (by decide +kernel)⟩, ?_⟩
    intro m hm
    rw [List.mem_singleton.1 hm]
    exact word _ (by decide) (by decide +kernel) (by decide +kernel)
  · exact ⟨by decide +kernel, by decide +kernel, by decide +kernel, (by decide +kernel : Quotable _), by
      intro s hs; cases hs; decide +kernel⟩
  · refine ⟨by decide +kernel, by decide +kernel, ?_⟩
    intro m hm
    rw [List.mem_singleton.1 hm]
    exact ⟨by simp, by decide +kernel, ⟨by decide +kernel, (by decide +kernel : IsTypeWord _)⟩, by simp⟩
  · refine ⟨by simp, by decide +kernel, by decide +kernel, ?_⟩
    intro m hm
    rw [List.mem_singleton.1 hm]
    refine ⟨by decide +kernel, ?_, by decide, by decide +kernel, by decide, by decide, ?_⟩
    · intro l hl
      rw [List.mem_singleton.1 hl]
      refine ⟨by simp, ?_⟩
      intro a ha
      rw [List.mem_singleton.1 ha]
      exact ⟨by decide +kernel, by intro v hv; cases hv; exact (by decide +kernel : IsWord "jwt".toList)⟩
    · intro s hs
      cases hs
      refine ⟨?_, ?_, by decide +kernel⟩
      · intro p hp
        rw [List.mem_singleton.1 hp]
        exact ⟨by decide +kernel, (by decide +kernel : IsTypeWord _)⟩
      · intro o ho; cases ho
        intro p hp
        rw [List.mem_singleton.1 hp]
        exact ⟨by decide +kernel, (by decide +kernel : IsTypeWord _)⟩

mutual
/-- Equality of values in metas can be decided. -/
def decMetaEq : (a b : Verif.Schema.Json) → Decidable (a = b)
  | .null, b => match b with
    | .null => isTrue rfl
    | .bool _ | .num _ | .str _ | .arr _ | .obj _ => isFalse nofun
  | .bool x, b => match b with
    | .bool y => if h : x = y then isTrue (by rw [h]) else isFalse (by intro e; cases e; exact h rfl)
    | .null | .num _ | .str _ | .arr _ | .obj _ => isFalse nofun
  | .num x, b => match b with
    | .num y => if h : x = y then isTrue (by rw [h]) else isFalse (by intro e; cases e; exact h rfl)
    | .null | .bool _ | .str _ | .arr _ | .obj _ => isFalse nofun
  | .str x, b => match b with
    | .str y => if h : x = y then isTrue (by rw [h]) else isFalse (by intro e; cases e; exact h rfl)
    | .null | .bool _ | .num _ | .arr _ | .obj _ => isFalse nofun
  | .arr x, b => match b with
    | .arr y => match decMetaEqs x y with
      | isTrue h => isTrue (by rw [h])
      | isFalse h => isFalse (by intro e; cases e; exact h rfl)
    | .null | .bool _ | .num _ | .str _ | .obj _ => isFalse nofun
  | .obj x, b => match b with
    | .obj y => match decMetaEqMembers x y with
      | isTrue h => isTrue (by rw [h])
      | isFalse h => isFalse (by intro e; cases e; exact h rfl)
    | .null | .bool _ | .num _ | .str _ | .arr _ => isFalse nofun
/-- The same for lists. -/
def decMetaEqs : (a b : List Verif.Schema.Json) → Decidable (a = b)
  | [], [] => isTrue rfl
  | [], _ :: _ => isFalse nofun
  | _ :: _, [] => isFalse nofun
  | x :: l, y :: k => match decMetaEq x y, decMetaEqs l k with
    | isTrue h, isTrue h' => isTrue (by rw [h, h'])
    | isFalse h, _ => isFalse (by intro e; cases e; exact h rfl)
    | _, isFalse h => isFalse (by intro e; cases e; exact h rfl)
/-- The same for entries. -/
def decMetaEqMembers : (a b : List (Str × Verif.Schema.Json)) → Decidable (a = b)
  | [], [] => isTrue rfl
  | [], _ :: _ => isFalse nofun
  | _ :: _, [] => isFalse nofun
  | (i, x) :: l, (j, y) :: k => match decMetaEq x y, decMetaEqMembers l k with
    | isTrue h, isTrue h' => if e : i = j then isTrue (by rw [h, h', e]) else isFalse (by intro e'; cases e'; exact e rfl)
    | isFalse h, _ => isFalse (by intro e; cases e; exact h rfl)
    | _, isFalse h => isFalse (by intro e; cases e; exact h rfl)
end

instance : DecidableEq Verif.Schema.Json := decMetaEq

deriving instance DecidableEq for VarType
deriving instance DecidableEq for Argument
deriving instance DecidableEq for Method
deriving instance DecidableEq for Service

/-- The schema of a file, if it is accepted. -/
def schemaOf (fs : Files) (path : Str) : Option Schema :=
  match compile fs path with
  | .ok s => some s
  | _ => none

/-- Everything C67 asks for holds of this file, and the compiler accepts it with the expected contents. -/
theorem C67_example : let _ := asciiOnly
    CaseKeepsBlanks ∧ validPath (S "api/main.ridl") = true ∧ exFiles.lookup (S "api/main.ridl") = some (document mainItems) ∧ (∀ i ∈ mainItems, i.Ok) ∧
    (schemaOf exFiles (S "api/main.ridl")).map (fun s => (s.basePath, s.types.map TypeDecl.name, s.errors.map ErrorDecl.httpStatus)) =
      some (S "/api/", [S "Id", S "User"], [404]) ∧
    (schemaOf exFiles (S "api/main.ridl")).map Schema.services =
      some [{ ptr := (S "api/main.ridl", 0), name := S "Users", comments := [], methods := [{
        name := S "Find", annotations := [(S "auth", { annotationType := S "auth", value := S "jwt" })], comments := [S "find"],
        streamInput := false, streamOutput := true,
        inputs := [{ name := S "id", type := some (.alias (S "Id") (S "Id") (S "types.ridl", 0)), optional := false }],
        outputs := [{ name := S "user", type := some (.struct (S "User") (S "User") (S "api/main.ridl", 0)), optional := false }],
        succinct := false, errors := [S "NotFound"] }] }] := by
  refine ⟨caseKeepsBlanks_ascii, by decide +kernel, by decide +kernel, mainItems_ok, by decide +kernel, by decide +kernel⟩

/-- C67: that a method is proxied is in the document but not in the schema. -/
theorem C67_proxy_lost : let _ := asciiOnly
    (schemaOf [(S "a.ridl", "webrpc = v1\nversion = v1\nservice A\n  - proxy P\n".toList)] (S "a.ridl")).map Schema.services =
      (schemaOf [(S "a.ridl", "webrpc = v1\nversion = v1\nservice A\n  - P()\n".toList)] (S "a.ridl")).map Schema.services ∧
    (schemaOf [(S "a.ridl", "webrpc = v1\nversion = v1\nservice A\n  - proxy P\n".toList)] (S "a.ridl")).map Schema.services ≠ none ∧
    entriesOf "service A\n  - proxy P\n".toList ≠ entriesOf "service A\n  - P()\n".toList := by
  intro _
  refine ⟨by decide +kernel, by decide +kernel, by decide +kernel⟩

end Verif.Compile
