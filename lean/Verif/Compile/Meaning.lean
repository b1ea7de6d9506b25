import Verif.Compile.Declared
import Verif.Spec.Compiles
import Verif.Props.Declarations
/-! The declarations of a file, as read and as built: both directions. -/

namespace Verif.Compile
open Verif.Schema Verif.Spec
open Verif.Ridl hiding Str

/-! ### Doc comments -/

theorem join_cons_ne {a : Str} {b : Str} {l : List Str} : join ['\n'] (a :: b :: l) = a ++ '\n' :: join ['\n'] (b :: l) := by
  simp [join]

theorem splitNewline_ne (c : Str) : splitNewline c ≠ [] := by
  cases c with
  | nil => simp [splitNewline]
  | cons a c =>
    unfold splitNewline
    split
    · simp
    · split <;> simp

theorem splitNewline_append {a : Str} (h : '\n' ∉ a) (b : Str) :
    splitNewline (a ++ b) = match splitNewline b with | [] => [a] | x :: xs => (a ++ x) :: xs := by
  induction a with
  | nil =>
    cases hb : splitNewline b with
    | nil => exact absurd hb (splitNewline_ne b)
    | cons x xs => simp [hb]
  | cons c a ih =>
    simp only [List.mem_cons, not_or] at h
    rw [List.cons_append, splitNewline, if_neg (Ne.symm h.1), ih h.2]
    cases hb : splitNewline b with
    | nil => rfl
    | cons x xs => rfl

theorem splitNewline_join {ls : List Str} (h : ls ≠ []) (hn : ∀ l ∈ ls, '\n' ∉ l) : splitNewline (join ['\n'] ls) = ls := by
  induction ls with
  | nil => exact absurd rfl h
  | cons a ls ih =>
    cases ls with
    | nil =>
      have := splitNewline_append (hn a (by simp)) []
      simpa [join, splitNewline] using this
    | cons b ls =>
      rw [join_cons_ne, splitNewline_append (hn a (by simp)), splitNewline, if_pos rfl]
      simp only [List.append_nil]
      rw [ih (by simp) (fun l hl => hn l (by simp [hl]))]

theorem join_splitNewline (c : Str) : join ['\n'] (splitNewline c) = c ∧ ∀ l ∈ splitNewline c, '\n' ∉ l := by
  induction c with
  | nil => simp [splitNewline, join]
  | cons a c ih =>
    unfold splitNewline
    split
    · next h =>
      subst h
      cases hc : splitNewline c with
      | nil => exact absurd hc (splitNewline_ne c)
      | cons x xs =>
        rw [hc] at ih
        refine ⟨by rw [join_cons_ne, ih.1]; rfl, ?_⟩
        intro l hl
        rcases List.mem_cons.1 hl with rfl | hl
        · simp
        · exact ih.2 l hl
    · next h =>
      cases hc : splitNewline c with
      | nil => exact absurd hc (splitNewline_ne c)
      | cons x xs =>
        rw [hc] at ih
        dsimp only
        constructor
        · cases xs with
          | nil => rw [← ih.1]; simp [join]
          | cons y ys => rw [← ih.1, join_cons_ne, join_cons_ne]; rfl
        · intro l hl
          rcases List.mem_cons.1 hl with rfl | hl
          · have := ih.2 x (by simp)
            simp only [List.mem_cons, not_or]
            exact ⟨Ne.symm h, this⟩
          · exact ih.2 l (by simp [hl])

theorem docLines_iff {c : Str} {ls : List Str} : DocLines c ls ↔ ls = parseComment c := by
  unfold DocLines parseComment
  by_cases h : c = []
  · rw [if_pos h, if_pos h]
  · rw [if_neg h, if_neg h]
    constructor
    · rintro ⟨h1, h2, h3⟩
      rw [← h2, splitNewline_join h1 h3]
    · rintro rfl
      exact ⟨splitNewline_ne c, (join_splitNewline c).1, (join_splitNewline c).2⟩

/-! ### Imports -/

theorem wanted_allowed (n : Str) (ms : List Str) : isImportAllowed n ms = Wanted ms n := by
  unfold isImportAllowed Wanted
  cases ms <;> simp

theorem addNew_eq {α : Type} {ptr : α → Ptr} {name : α → Str} {members : List Str} (acc xs : List α) :
    addNew ptr name members acc xs =
      acc ++ (firsts ptr (xs.filter fun x => Wanted members (name x))).filter fun y => decide (ptr y ∉ acc.map ptr) := by
  induction xs generalizing acc with
  | nil => simp [addNew, firsts]
  | cons x xs ih =>
    have hstep : addNew ptr name members acc (x :: xs) = addNew ptr name members
        (if !(acc.any fun y => ptr y = ptr x) && isImportAllowed (name x) members then acc ++ [x] else acc) xs := rfl
    rw [hstep, wanted_allowed, ih]
    by_cases hw : Wanted members (name x) = true
    · rw [List.filter_cons_of_pos (p := fun x => Wanted members (name x)) hw, hw, firsts, Bool.and_true]
      by_cases hm : ptr x ∈ acc.map ptr
      · have ha : (acc.any fun y => decide (ptr y = ptr x)) = true := by
          rw [List.mem_map] at hm
          obtain ⟨y, hy, e⟩ := hm
          rw [List.any_eq_true]
          exact ⟨y, hy, by simpa using e⟩
        rw [ha]
        simp only [Bool.not_true, Bool.false_eq_true, if_false]
        rw [List.filter_cons_of_neg (by simpa using hm), List.filter_filter]
        congr 1
        apply List.filter_congr
        intro y _
        by_cases hy : ptr y = ptr x
        · simp [hy] at hm ⊢
          exact hm
        · simp [hy]
      · have ha : (acc.any fun y => decide (ptr y = ptr x)) = false := by
          rw [List.any_eq_false]
          intro y hy e
          simp only [decide_eq_true_eq] at e
          exact hm (e ▸ List.mem_map_of_mem hy)
        rw [ha]
        simp only [Bool.not_false, if_true]
        rw [List.filter_cons_of_pos (by simpa using hm), List.filter_filter, List.append_assoc]
        congr 1
        rw [List.singleton_append]
        congr 1
        apply List.filter_congr
        intro y _
        by_cases hy : ptr y = ptr x <;> simp [hy]
    · rw [List.filter_cons_of_neg (p := fun x => Wanted members (name x)) hw]
      have : Wanted members (name x) = false := by simpa using hw
      rw [this]
      simp

theorem firsts_append {α : Type} {ptr : α → Ptr} (a b : List α) :
    firsts ptr (a ++ b) = firsts ptr a ++ (firsts ptr b).filter fun y => decide (ptr y ∉ a.map ptr) := by
  induction a with
  | nil =>
    simp only [List.nil_append, firsts, List.map_nil, List.not_mem_nil, not_false_eq_true, decide_true]
    exact (List.filter_eq_self.2 (by simp)).symm
  | cons x a ih =>
    rw [List.cons_append, firsts, firsts, ih, List.filter_append, List.filter_filter]
    rw [List.cons_append]
    congr 2
    apply List.filter_congr
    intro y _
    by_cases hy : ptr y = ptr x <;> simp [hy]

theorem firsts_ptrs {α : Type} {ptr : α → Ptr} (a : List α) (p : Ptr) : p ∈ (firsts ptr a).map ptr ↔ p ∈ a.map ptr := by
  induction a with
  | nil => simp [firsts]
  | cons x a ih =>
    rw [firsts, List.map_cons, List.map_cons, List.mem_cons, List.mem_cons, ← ih]
    by_cases h : p = ptr x
    · simp [h]
    · simp only [h, false_or, List.mem_map, List.mem_filter]
      constructor
      · rintro ⟨y, ⟨h1, -⟩, h2⟩; exact ⟨y, h1, h2⟩
      · rintro ⟨y, h1, h2⟩; exact ⟨y, ⟨h1, by subst h2; simpa using h⟩, h2⟩

theorem addNew_firsts {α : Type} {ptr : α → Ptr} {name : α → Str} {members : List Str} (l xs : List α) :
    addNew ptr name members (firsts ptr l) xs = firsts ptr (l ++ xs.filter fun x => Wanted members (name x)) := by
  rw [addNew_eq, firsts_append]
  congr 1
  apply List.filter_congr
  intro y _
  simp only [firsts_ptrs]

/-- What an import line says. -/
def importEntry (n : ImportNode) : Entry := Node.entry (.import_ n)

theorem mergeAll_eq (ps : List (ImportNode × Schema)) (s : Schema) (hs : s.types = [] ∧ s.errors = [] ∧ s.services = []) :
    (mergeAll s ps).types = importedTypes (ps.map fun p => (importEntry p.1, p.2)) ∧
    (mergeAll s ps).errors = importedErrors (ps.map fun p => (importEntry p.1, p.2)) ∧
    (mergeAll s ps).services = importedServices (ps.map fun p => (importEntry p.1, p.2)) ∧
    noServices (noTypes { mergeAll s ps with errors := [] }) = noServices (noTypes { s with errors := [] }) := by
  have key : ∀ (ps : List (ImportNode × Schema)) (s : Schema) (a : List TypeDecl) (b : List ErrorDecl) (c : List Service),
      s.types = firsts TypeDecl.ptr a → s.errors = firsts ErrorDecl.ptr b → s.services = c →
      (mergeAll s ps).types = firsts TypeDecl.ptr (a ++ ps.flatMap fun i => i.2.types.filter fun t => Wanted (importEntry i.1).members t.name) ∧
      (mergeAll s ps).errors = firsts ErrorDecl.ptr (b ++ ps.flatMap fun i => i.2.errors.filter fun t => Wanted (importEntry i.1).members t.name) ∧
      (mergeAll s ps).services = c ++ ps.flatMap (fun i => i.2.services.filter fun t => Wanted (importEntry i.1).members t.name) ∧
      noServices (noTypes { mergeAll s ps with errors := [] }) = noServices (noTypes { s with errors := [] }) := by
    intro ps
    induction ps with
    | nil => intro s a b c h1 h2 h3; simp [mergeAll, h1, h2, h3]
    | cons p ps ih =>
      intro s a b c h1 h2 h3
      have hm : mergeAll s (p :: ps) = mergeAll (takeImport s p.2 (p.1.members.map (·.val))) ps := rfl
      rw [hm]
      have hmem : (importEntry p.1).members = p.1.members.map (·.val) := rfl
      obtain ⟨g1, g2, g3, g4⟩ := ih (takeImport s p.2 (p.1.members.map (·.val)))
        (a ++ p.2.types.filter fun t => Wanted (importEntry p.1).members t.name)
        (b ++ p.2.errors.filter fun t => Wanted (importEntry p.1).members t.name)
        (c ++ p.2.services.filter fun t => Wanted (importEntry p.1).members t.name)
        (by simp only [takeImport, h1, hmem]; exact addNew_firsts _ _)
        (by simp only [takeImport, h2, hmem]; exact addNew_firsts _ _)
        (by simp only [takeImport, h3, hmem, wanted_allowed])
      refine ⟨by rw [g1]; simp, by rw [g2]; simp, by rw [g3]; simp, by rw [g4]; rfl⟩
  obtain ⟨g1, g2, g3, g4⟩ := key ps s [] [] [] hs.1 hs.2.1 hs.2.2
  refine ⟨?_, ?_, ?_, g4⟩
  · rw [g1, importedTypes, List.flatMap_map]; simp
  · rw [g2, importedErrors, List.flatMap_map]; simp
  · rw [g3, importedServices, List.flatMap_map]; simp

/-! ### Selecting entries -/

section Select
open Verif.Compile

theorem select {α : Type} (sel : Node → Option α) (p : Entry → Bool) (mk : α → Node)
    (h : ∀ n, (p n.entry = true ∧ ∃ a, sel n = some a ∧ n = mk a) ∨ (p n.entry = false ∧ sel n = none)) (ns : List Node) :
    (ns.map Node.entry).filter p = (ns.filterMap sel).map fun a => (mk a).entry := by
  induction ns with
  | nil => rfl
  | cons n ns ih =>
    rw [List.map_cons]
    rcases h n with ⟨h1, a, h2, h3⟩ | ⟨h1, h2⟩
    · rw [List.filter_cons_of_pos h1, List.filterMap_cons, h2]
      simp only [List.map_cons]
      rw [ih, ← h3]
    · rw [List.filter_cons_of_neg (by simp [h1]), List.filterMap_cons, h2]
      exact ih

theorem definesOf_eq (ns : List Node) : definesOf (ns.map Node.entry) = (definitions ns).map fun a => (Node.defn a).entry := by
  refine select _ _ Node.defn ?_ ns
  intro n; cases n <;> simp [Node.entry, Entry.isDefine]
theorem importsOf_eq (ns : List Node) : importsOf (ns.map Node.entry) = (imports ns).map importEntry := by
  refine select _ _ Node.import_ ?_ ns
  intro n; cases n <;> simp [Node.entry, Entry.isImport]
theorem errorsOf_eq (ns : List Node) : errorsOf (ns.map Node.entry) = (errors ns).map fun a => (Node.error a).entry := by
  refine select _ _ Node.error ?_ ns
  intro n; cases n <;> simp [Node.entry, Entry.isError]
theorem enumsOf_eq (ns : List Node) : enumsOf (ns.map Node.entry) = (enums ns).map fun a => (Node.enum a).entry := by
  refine select _ _ Node.enum ?_ ns
  intro n; cases n <;> simp [Node.entry, Entry.isEnum]
theorem aliasesOf_eq (ns : List Node) : aliasesOf (ns.map Node.entry) = (aliases ns).map fun a => (Node.alias a).entry := by
  refine select _ _ Node.alias ?_ ns
  intro n; cases n <;> simp [Node.entry, Entry.isAlias]
theorem structsOf_eq (ns : List Node) : structsOf (ns.map Node.entry) = (structs ns).map fun a => (Node.struct a).entry := by
  refine select _ _ Node.struct ?_ ns
  intro n; cases n <;> simp [Node.entry, Entry.isStruct]
theorem servicesOf_eq (ns : List Node) : servicesOf (ns.map Node.entry) = (services ns).map fun a => (Node.service a).entry := by
  refine select _ _ Node.service ?_ ns
  intro n; cases n <;> simp [Node.entry, Entry.isService]

end Select

/-! ### Header -/

open Verif.Props (headerKeys headerField applyDef_ok applyDefs_ok)

theorem applyDef_can {s : Schema} {d : DefNode} (hk : d.left.val ∈ headerKeys) (he : headerField d.left.val s = []) :
    ∃ s', applyDef s d = .ok s' := by
  simp only [headerKeys, List.mem_cons, List.not_mem_nil, or_false] at hk
  unfold applyDef
  rcases hk with hk | hk | hk | hk <;> rw [hk] at he ⊢
  · rw [show headerField (S "webrpc") s = s.webrpcVersion from rfl] at he
    simp [he]
  · rw [show headerField (S "name") s = s.schemaName from rfl] at he
    have k1 : S "name" ≠ S "webrpc" := by decide
    simp [he, k1]
  · rw [show headerField (S "version") s = s.schemaVersion from rfl] at he
    have k1 : S "version" ≠ S "webrpc" := by decide
    have k2 : S "version" ≠ S "name" := by decide
    have k3 : S "version" ≠ S "basepath" := by decide
    simp [he, k1, k2, k3]
  · rw [show headerField (S "basepath") s = s.basePath from rfl] at he
    have k1 : S "basepath" ≠ S "webrpc" := by decide
    have k2 : S "basepath" ≠ S "name" := by decide
    simp [he, k1, k2]

theorem applyDefs_can {s : Schema} {ds : List DefNode} (hk : ∀ d ∈ ds, d.left.val ∈ headerKeys ∧ headerField d.left.val s = [])
    (hn : (ds.map fun d => d.left.val).Nodup) : ∃ s', foldRes applyDef s ds = .ok s' := by
  induction ds generalizing s with
  | nil => exact ⟨s, rfl⟩
  | cons d ds ih =>
    obtain ⟨s1, h1⟩ := applyDef_can (hk d (by simp)).1 (hk d (by simp)).2
    rw [List.map_cons, List.nodup_cons] at hn
    obtain ⟨-, -, h2⟩ := applyDef_ok h1
    obtain ⟨s', h3⟩ := ih (s := s1) (by
      intro x hx
      refine ⟨(hk x (by simp [hx])).1, ?_⟩
      rw [h2 _ (hk x (by simp [hx])).1, if_neg]
      · exact (hk x (by simp [hx])).2
      · intro e
        exact hn.1 (by rw [← e]; exact List.mem_map_of_mem (f := fun d : DefNode => d.left.val) hx)) hn.2
    exact ⟨s', by rw [foldRes, h1]; exact h3⟩

theorem headerValue_eq (ns : List Node) (k : Str) :
    headerValue (ns.map Node.entry) k = match (definitions ns).filter fun d => d.left.val = k with
      | [] => [] | d :: _ => textOf d.right := by
  have : (ns.map Node.entry).filter (Entry.defines k) =
      ((definitions ns).filter fun d => d.left.val = k).map fun d => Entry.define d.entry := by
    induction ns with
    | nil => rfl
    | cons n ns ih =>
      rw [List.map_cons]
      cases n with
      | defn d =>
        have hd : definitions (.defn d :: ns) = d :: definitions ns := rfl
        rw [hd]
        by_cases h : d.left.val = k
        · rw [List.filter_cons_of_pos (by simpa [Node.entry, DefNode.entry, Entry.defines] using h), List.filter_cons_of_pos (by simpa using h), ih]
          rfl
        · rw [List.filter_cons_of_neg (by simpa [Node.entry, DefNode.entry, Entry.defines] using h), List.filter_cons_of_neg (by simpa using h), ih]
      | _ =>
        rw [List.filter_cons_of_neg (by simp [Node.entry, Entry.defines])]
        exact ih
  unfold headerValue
  rw [this]
  cases (definitions ns).filter fun d => d.left.val = k with
  | nil => rfl
  | cons d l =>
    simp only [List.map_cons]
    cases hr : d.right <;> simp [DefNode.entry, hr, textOf]

/-- The header of a file. -/
structure HeaderIs (es : List Entry) (s : Schema) : Prop where
  keys : ∀ e ∈ definesOf es, e.name ∈ [S "webrpc", S "name", S "version", S "basepath"]
  once : ((definesOf es).map Entry.name).Nodup
  webrpc : s.webrpcVersion = headerValue es (S "webrpc")
  name : s.schemaName = headerValue es (S "name")
  version : s.schemaVersion = headerValue es (S "version")
  basepath : s.basePath = headerValue es (S "basepath")
  lists : s.nils = {}

theorem headerIs_congr {es : List Entry} {s s' : Schema} (h : HeaderIs es s) (he : header s' = header s) : HeaderIs es s' := by
  simp only [header, Prod.mk.injEq] at he
  exact ⟨h.keys, h.once, he.1 ▸ h.webrpc, he.2.1 ▸ h.name, he.2.2.1 ▸ h.version, he.2.2.2.1 ▸ h.basepath, he.2.2.2.2 ▸ h.lists⟩

theorem headerIs_unique {es : List Entry} {s s' : Schema} (h : HeaderIs es s) (h' : HeaderIs es s') : header s = header s' := by
  simp only [header, Prod.mk.injEq]
  exact ⟨h.webrpc.trans h'.webrpc.symm, h.name.trans h'.name.symm, h.version.trans h'.version.symm, h.basepath.trans h'.basepath.symm, h.lists.trans h'.lists.symm⟩

theorem applyDef_nils {s s' : Schema} {d : DefNode} (h : applyDef s d = .ok s') : s'.nils = s.nils := by
  unfold applyDef at h
  simp only at h
  have key : ∀ {c : Prop} [Decidable c] {e} {t : Schema}, (do Res.failIf c e; Res.ok t) = Res.ok s' → s' = t := by
    intro c _ e t hh
    by_cases hc : c
    · simp [Res.failIf, hc, Bind.bind, Res.bind] at hh
    · simp [Res.failIf, hc, Bind.bind, Res.bind] at hh
      exact hh.symm
  by_cases e1 : d.left.val = S "webrpc"
  · rw [if_pos e1] at h; rw [key h]
  rw [if_neg e1] at h
  by_cases e2 : d.left.val = S "name"
  · rw [if_pos e2] at h; rw [key h]
  rw [if_neg e2] at h
  by_cases e3 : d.left.val = S "basepath"
  · rw [if_pos e3] at h; rw [key h]
  rw [if_neg e3] at h
  by_cases e4 : d.left.val = S "version"
  · rw [if_pos e4] at h; rw [key h]
  rw [if_neg e4] at h
  cases h

theorem header_sound {ns : List Node} {s0 : Schema} (hv : ∀ d ∈ definitions ns, textOf d.right ≠ [])
    (h : foldRes applyDef {} (definitions ns) = .ok s0) : HeaderIs (ns.map Node.entry) s0 := by
  obtain ⟨h1, h2⟩ := applyDefs_ok h hv
  have hval : ∀ k ∈ headerKeys, headerField k s0 = headerValue (ns.map Node.entry) k := by
    intro k hk
    rw [headerValue_eq]
    rcases h2 k hk with ⟨a, b⟩ | ⟨_, d, a, b⟩
    · rw [a, b]
      simp only [headerKeys, List.mem_cons, List.not_mem_nil, or_false] at hk
      rcases hk with rfl | rfl | rfl | rfl <;> rfl
    · rw [a, b]
  refine ⟨?_, ?_, hval (S "webrpc") (by simp [headerKeys]), hval (S "name") (by simp [headerKeys]), hval (S "version") (by simp [headerKeys]), hval (S "basepath") (by simp [headerKeys]), foldRes_inv (g := Schema.nils) (fun _ _ _ => applyDef_nils) h⟩
  · intro e he
    rw [definesOf_eq, List.mem_map] at he
    obtain ⟨d, hd, rfl⟩ := he
    exact h1 d hd
  · rw [definesOf_eq, List.map_map]
    have : ∀ k ∈ headerKeys, ((definitions ns).filter fun d => d.left.val = k).length ≤ 1 := by
      intro k hk
      rcases h2 k hk with ⟨a, _⟩ | ⟨_, d, a, _⟩ <;> rw [a] <;> simp
    show ((definitions ns).map fun d => d.left.val).Nodup
    generalize definitions ns = ds at h1 this
    clear h2 hv h
    induction ds with
    | nil => simp
    | cons d ds ih =>
      rw [List.map_cons, List.nodup_cons]
      refine ⟨?_, ih (fun x hx => h1 x (by simp [hx])) ?_⟩
      · intro hm
        rw [List.mem_map] at hm
        obtain ⟨x, hx, e⟩ := hm
        have := this d.left.val (h1 d (by simp))
        rw [List.filter_cons_of_pos (by simp)] at this
        have hx' : x ∈ ds.filter fun y => decide (y.left.val = d.left.val) := by simp [hx, e]
        cases hf : ds.filter fun y => decide (y.left.val = d.left.val) with
        | nil => rw [hf] at hx'; simp at hx'
        | cons _ _ => rw [hf] at this; simp at this
      · intro k hk
        refine Nat.le_trans ?_ (this k hk)
        by_cases h : d.left.val = k
        · rw [List.filter_cons_of_pos (by simpa using h)]; simp
        · rw [List.filter_cons_of_neg (by simpa using h)]; exact Nat.le_refl _

theorem header_complete {ns : List Node} {s1 : Schema} (hv : ∀ d ∈ definitions ns, textOf d.right ≠ [])
    (h : HeaderIs (ns.map Node.entry) s1) : ∃ s0, foldRes applyDef {} (definitions ns) = .ok s0 ∧ header s0 = header s1 := by
  have hk := h.keys
  have hn := h.once
  rw [definesOf_eq] at hk hn
  rw [List.map_map] at hn
  have hk' : ∀ d ∈ definitions ns, d.left.val ∈ headerKeys := fun d hd => hk _ (List.mem_map_of_mem hd)
  obtain ⟨s0, h0⟩ := applyDefs_can (s := {}) (ds := definitions ns) (fun d hd => ⟨hk' d hd, by
    have := hk' d hd
    simp only [headerKeys, List.mem_cons, List.not_mem_nil, or_false] at this
    rcases this with e | e | e | e <;> rw [e] <;> rfl⟩) hn
  exact ⟨s0, h0, headerIs_unique (header_sound hv h0) h⟩

end Verif.Compile
