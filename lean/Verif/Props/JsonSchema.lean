import Verif.Spec.JsonSchema
import Verif.Props.JsonText
import Verif.Props.Accepts
import Verif.Json.SchemaLemmas
import Verif.Props.Complete
/-!
# C105: a JSON schema means what its members say
-/

namespace Verif.JsonSchema
open Verif.Schema hiding Json
open Verif.Json Verif.Spec Verif.JsonSpec Verif.Props
open Verif.RpcSpec (FitsSigned)
open Verif.Rpc (foldChar fieldFor)

theorem exc_bind {α β ε : Type} {x : Except ε α} {f : α → Except ε β} {y : β} :
    (x >>= f) = .ok y ↔ ∃ a, x = .ok a ∧ f a = .ok y := by
  cases x with
  | error e => exact ⟨fun h => (by cases h), fun ⟨a, h, _⟩ => by cases h⟩
  | ok a => exact ⟨fun h => ⟨a, rfl, h⟩, fun ⟨b, h, h'⟩ => by cases h; exact h'⟩

/-! ### Members -/

/-- Tags that differ in more than case. -/
def Distinct (tags : List Str) : Prop := tags.Pairwise fun a b => ¬ SameKey a b

instance (tags : List Str) : Decidable (Distinct tags) := by unfold Distinct SameKey; infer_instance

theorem distinct_eq {tags : List Str} (h : Distinct tags) {a b : Str} (ha : a ∈ tags) (hb : b ∈ tags) (hs : SameKey a b) : a = b := by
  induction h with
  | nil => cases ha
  | cons h _ ih =>
    rcases List.mem_cons.1 ha with rfl | ha'
    · rcases List.mem_cons.1 hb with rfl | hb
      · rfl
      · exact absurd hs (h b hb)
    · rcases List.mem_cons.1 hb with rfl | hb
      · exact absurd hs.symm (h a (by assumption))
      · exact ih (by assumption) hb

theorem fieldFor_iff {tags : List Str} (h : Distinct tags) {key t : Str} : fieldFor tags key = some t ↔ t ∈ tags ∧ SameKey key t := by
  unfold fieldFor
  by_cases hc : tags.contains key = true
  · rw [if_pos hc]
    have hm : key ∈ tags := by simpa using hc
    constructor
    · rintro ⟨⟩; exact ⟨hm, rfl⟩
    · rintro ⟨h1, h2⟩; rw [distinct_eq h hm h1 h2]
  · rw [if_neg hc]
    constructor
    · intro hf
      refine ⟨List.mem_of_find?_eq_some hf, ?_⟩
      have := List.find?_some hf
      rw [beq_iff_eq] at this
      exact this.symm
    · rintro ⟨h1, h2⟩
      cases hf : tags.find? fun t => t.map foldChar == key.map foldChar with
      | none =>
        rw [List.find?_eq_none] at hf
        exact absurd (beq_iff_eq.2 h2.symm) (hf t h1)
      | some u =>
        have := List.find?_some hf
        rw [beq_iff_eq] at this
        rw [distinct_eq h (List.mem_of_find?_eq_some hf) h1 (this.trans h2)]

/-- The members that matter, by their tags. -/
def picked (tags : List Str) (l : List (Str × Json)) : List (Str × Json) :=
  l.filterMap fun p => (fieldFor tags p.1).map fun t => (t, p.2)

theorem mem_picked {tags : List Str} (h : Distinct tags) {l : List (Str × Json)} {k : Str} {j : Json} :
    (k, j) ∈ picked tags l ↔ k ∈ tags ∧ ∃ key, (key, j) ∈ l ∧ SameKey key k := by
  unfold picked
  rw [List.mem_filterMap]
  constructor
  · rintro ⟨p, hp, he⟩
    cases hf : fieldFor tags p.1 with
    | none => rw [hf] at he; cases he
    | some t =>
      rw [hf] at he
      cases he
      obtain ⟨h1, h2⟩ := (fieldFor_iff h).1 hf
      exact ⟨h1, p.1, hp, h2⟩
  · rintro ⟨h1, key, h2, h3⟩
    exact ⟨(key, j), h2, by rw [(fieldFor_iff h).2 ⟨h1, h3⟩]; rfl⟩

theorem dupKeys_iff (l : List (Str × Json)) : dupKeys l = false ↔ IsMap l := by
  unfold IsMap
  induction l with
  | nil => simp [dupKeys]
  | cons p l ih =>
    rw [dupKeys, Bool.or_eq_false_iff, ih, List.map_cons, List.nodup_cons, List.any_eq_false]
    refine and_congr_left fun _ => ?_
    constructor
    · intro h hm
      obtain ⟨q, hq, he⟩ := List.mem_map.1 hm
      exact h q hq (by simpa using he)
    · intro h q hq he
      exact h (List.mem_map.2 ⟨q, hq, by simpa using he⟩)

theorem once_iff {tags : List Str} (h : Distinct tags) (l : List (Str × Json)) : IsMap (picked tags l) ↔ Once tags l := by
  unfold IsMap Once
  induction l with
  | nil => simp [picked]
  | cons p l ih =>
    have hstep : (∀ k ∈ tags, (p :: l).Pairwise fun p q => ¬ (SameKey p.1 k ∧ SameKey q.1 k)) ↔
        (∀ k ∈ tags, SameKey p.1 k → ∀ q ∈ l, ¬ SameKey q.1 k) ∧ ∀ k ∈ tags, l.Pairwise fun p q => ¬ (SameKey p.1 k ∧ SameKey q.1 k) := by
      constructor
      · intro hk
        exact ⟨fun k hk' hp q hq hs => (List.pairwise_cons.1 (hk k hk')).1 q hq ⟨hp, hs⟩, fun k hk' => (List.pairwise_cons.1 (hk k hk')).2⟩
      · rintro ⟨h1, h2⟩ k hk
        exact List.pairwise_cons.2 ⟨fun q hq hs => h1 k hk hs.1 q hq hs.2, h2 k hk⟩
    rw [hstep, ← ih]
    cases hf : fieldFor tags p.1 with
    | none =>
      have : picked tags (p :: l) = picked tags l := by unfold picked; rw [List.filterMap_cons, hf]; rfl
      rw [this]
      refine ⟨fun h' => ⟨fun k hk hp => ?_, h'⟩, fun h' => h'.2⟩
      rw [(fieldFor_iff h).2 ⟨hk, hp⟩] at hf
      cases hf
    | some t =>
      have : picked tags (p :: l) = (t, p.2) :: picked tags l := by unfold picked; rw [List.filterMap_cons, hf]; rfl
      rw [this, List.map_cons, List.nodup_cons]
      refine and_congr_left fun _ => ?_
      obtain ⟨ht, hs⟩ := (fieldFor_iff h).1 hf
      constructor
      · intro hn k hk hp q hq hqs
        have : k = t := distinct_eq h hk ht (hp.symm.trans hs)
        subst this
        exact hn (List.mem_map.2 ⟨(k, q.2), (mem_picked h).2 ⟨hk, q.1, hq, hqs⟩, rfl⟩)
      · intro hn hm
        obtain ⟨⟨k, j⟩, hq, rfl⟩ := List.mem_map.1 hm
        obtain ⟨hk, key, h1, h2⟩ := (mem_picked h).1 hq
        exact hn k hk hs _ h1 h2

theorem resolve_iff {tags : List Str} (h : Distinct tags) {j : Json} {r : List (Str × Json)} :
    resolve tags j = .ok r ↔ ∃ l, j = .obj l ∧ Once tags l ∧ r = picked tags l := by
  cases j with
  | obj l =>
    unfold resolve
    dsimp only
    show (if dupKeys (picked tags l) = true then Except.error DErr.unmodelled else Except.ok (picked tags l)) = _ ↔ _
    by_cases hd : dupKeys (picked tags l) = true
    · rw [if_pos hd]
      refine ⟨fun h => (by cases h), ?_⟩
      rintro ⟨_, ⟨⟩, ho, -⟩
      rw [(dupKeys_iff _).2 ((once_iff h l).2 ho)] at hd
      cases hd
    · rw [if_neg hd]
      have ho : Once tags l := (once_iff h l).1 ((dupKeys_iff _).1 (by simpa using hd))
      constructor
      · rintro ⟨⟩; exact ⟨l, rfl, ho, rfl⟩
      · rintro ⟨_, ⟨⟩, -, rfl⟩; rfl
  | _ => exact ⟨fun h => (by cases h), fun ⟨_, h, _⟩ => by cases h⟩

theorem about_iff {tags : List Str} (h : Distinct tags) {l : List (Str × Json)} (ho : Once tags l) {k : Str} (hk : k ∈ tags) (j : Json) :
    About l k j ↔ field (picked tags l) k = j := by
  have hm := (once_iff h l).2 ho
  unfold field
  cases hl : (picked tags l).lookup k with
  | none =>
    have hno : ∀ p ∈ l, ¬ SameKey p.1 k := by
      intro p hp hs
      rw [List.lookup_eq_none_iff] at hl
      have := hl (k, p.2) ((mem_picked h).2 ⟨hk, p.1, hp, hs⟩)
      simp at this
    constructor
    · intro ha
      cases ha with
      | said hin hs => exact absurd hs (hno _ hin)
      | silent => rfl
    · rintro rfl; exact .silent hno
  | some v =>
    have hv := (lookup_iff hm _ _).1 hl
    constructor
    · intro ha
      cases ha with
      | said hin hs =>
        have := (lookup_iff hm _ _).2 ((mem_picked h).2 ⟨hk, _, hin, hs⟩)
        rw [this] at hl
        cases hl; rfl
      | silent hno =>
        obtain ⟨-, key, h1, h2⟩ := (mem_picked h).1 hv
        exact absurd h2 (hno _ h1)
    · rintro rfl
      obtain ⟨-, key, h1, h2⟩ := (mem_picked h).1 hv
      exact .said h1 h2

theorem says_iff {tags : List Str} (h : Distinct tags) {l : List (Str × Json)} (ho : Once tags l) {k : Str} (hk : k ∈ tags) {α : Type}
    {R : Json → α → Prop} {x : α} : Says l k R x ↔ R (field (picked tags l) k) x := by
  unfold Says
  constructor
  · rintro ⟨j, h1, h2⟩; rwa [(about_iff h ho hk j).1 h1]
  · intro h1; exact ⟨_, (about_iff h ho hk _).2 rfl, h1⟩

theorem null_iff {tags : List Str} (h : Distinct tags) {l : List (Str × Json)} (ho : Once tags l) {k : Str} (hk : k ∈ tags) :
    Null l k ↔ isNull (field (picked tags l) k) = true := by
  unfold Null
  rw [about_iff h ho hk]
  cases field (picked tags l) k <;> simp [isNull]

/-! ### Values -/

theorem decStr_iff {j : Json} {s : Str} : decStr j = .ok s ↔ IsText j s := by
  cases j with
  | str raw =>
    unfold decStr
    dsimp only
    cases hc : cook raw with
    | none =>
      refine ⟨fun h => (by cases h), fun h => ?_⟩
      cases h with
      | str h => rw [(C74_strings _ _).2 h] at hc; cases hc
    | some t =>
      constructor
      · intro h
        cases h
        exact .str ((C74_strings _ _).1 hc)
      · intro h
        cases h with
        | str h => rw [(C74_strings _ _).2 h] at hc; cases hc; rfl
  | null => exact ⟨fun h => (by cases h; exact .null), fun h => by cases h; rfl⟩
  | _ => exact ⟨fun h => (by cases h), fun h => by cases h⟩

theorem decBool_iff {j : Json} {b : Bool} : decBool j = .ok b ↔ IsFlag j b := by
  cases j with
  | bool b => exact ⟨fun h => (by cases h; exact .bool _), fun h => by cases h; rfl⟩
  | null => exact ⟨fun h => (by cases h; exact .null), fun h => by cases h; rfl⟩
  | _ => exact ⟨fun h => (by cases h), fun h => by cases h⟩

theorem decInt_iff {j : Json} {i : Int} : decInt j = .ok i ↔ IsInt j i := by
  cases j with
  | num t =>
    unfold decInt Verif.Rpc.decInt
    dsimp only
    cases ha : Gen.atoi t with
    | none =>
      refine ⟨fun h => (by cases h), fun h => ?_⟩
      cases h with
      | num h1 h2 => rw [(Verif.Values.atoi_iff _ _).2 ⟨h1, h2⟩] at ha; cases ha
    | some x =>
      constructor
      · rintro ⟨⟩
        obtain ⟨h1, h2⟩ := (Verif.Values.atoi_iff _ _).1 ha
        exact .num h1 h2
      · intro h
        cases h with
        | num h1 h2 => rw [(Verif.Values.atoi_iff _ _).2 ⟨h1, h2⟩] at ha; cases ha; rfl
  | null => exact ⟨fun h => (by cases h; exact .null), fun h => by cases h; rfl⟩
  | _ => exact ⟨fun h => (by cases h), fun h => by cases h⟩

theorem decType_iff {j : Json} {t : Option VarType} : decType j = .ok t ↔ IsTypeExpr j t := by
  cases j with
  | str raw =>
    unfold decType
    dsimp only
    by_cases hr : raw = []
    · rw [if_pos hr]
      refine ⟨fun h => (by cases h), fun h => ?_⟩
      cases h with
      | str h => exact absurd hr h
    · rw [if_neg hr]
      exact ⟨fun h => (by cases h; exact .str hr), fun h => by cases h; rfl⟩
  | null => exact ⟨fun h => (by cases h; exact .null), fun h => by cases h; rfl⟩
  | _ => exact ⟨fun h => (by cases h), fun h => by cases h⟩

theorem decElems_iff {α : Type} {f : Nat → Json → Except DErr α} {R : Nat → Json → α → Prop} (h : ∀ i j x, f i j = .ok x ↔ R i j x)
    {i : Nat} {l : List Json} {xs : List α} : decElems f i l = .ok xs ↔ Numbers R i l xs := by
  induction l generalizing i xs with
  | nil => exact ⟨fun h => (by cases h; exact .nil), fun h => by cases h; rfl⟩
  | cons j l ih =>
    simp only [decElems, exc_bind, h, ih]
    constructor
    · rintro ⟨x, h1, xs, h2, ⟨⟩⟩; exact .cons h1 h2
    · intro h
      cases h with
      | cons h1 h2 => exact ⟨_, h1, _, h2, rfl⟩

theorem decNumbered_iff {α : Type} {f : Nat → Json → Except DErr α} {R : Nat → Json → α → Prop} (h : ∀ i j x, f i j = .ok x ↔ R i j x)
    {j : Json} {xs : List α} : decList f j = .ok xs ↔ IsNumbered R j xs := by
  cases j with
  | arr l =>
    unfold decList
    rw [decElems_iff h]
    exact ⟨.arr, fun h => by cases h with | arr h => exact h⟩
  | null => exact ⟨fun h => (by cases h; exact .null), fun h => by cases h; rfl⟩
  | _ => exact ⟨fun h => (by cases h), fun h => by cases h⟩

theorem numbers_pointwise {α : Type} {R : Json → α → Prop} {i : Nat} {l : List Json} {xs : List α} :
    Numbers (fun _ => R) i l xs ↔ Pointwise R l xs := by
  constructor
  · intro h
    induction h with
    | nil => exact .nil
    | cons h _ ih => exact .cons h ih
  · intro h
    induction h generalizing i with
    | nil => exact .nil
    | cons h _ ih => exact .cons h ih

theorem decList_iff {α : Type} {f : Json → Except DErr α} {R : Json → α → Prop} (h : ∀ j x, f j = .ok x ↔ R j x)
    {j : Json} {xs : List α} : decList (fun _ => f) j = .ok xs ↔ IsList R j xs := by
  rw [decNumbered_iff (R := fun _ => R) fun _ => h]
  constructor
  · intro h
    cases h with
    | null => exact .null
    | arr h => exact .arr (numbers_pointwise.1 h)
  · intro h
    cases h with
    | null => exact .null
    | arr h => exact .arr (numbers_pointwise.2 h)

theorem decMetaVals_iff {l : List Json} {xs : List Schema.Json} : decMetaVals l = .ok xs ↔
    ∃ es : List (Json × Schema.Json), l = es.map (·.1) ∧ xs = es.map (·.2) ∧ ∀ e ∈ es, decMetaVal e.1 = .ok e.2 := by
  induction l generalizing xs with
  | nil =>
    constructor
    · intro h; cases h; exact ⟨[], rfl, rfl, by simp⟩
    · rintro ⟨es, h1, rfl, -⟩
      cases es with
      | nil => rfl
      | cons => cases h1
  | cons j l ih =>
    simp only [decMetaVals, exc_bind, ih]
    constructor
    · rintro ⟨x, h1, xs, ⟨es, rfl, rfl, h2⟩, ⟨⟩⟩
      exact ⟨(j, x) :: es, rfl, rfl, by simpa using ⟨h1, fun a b => h2 (a, b)⟩⟩
    · rintro ⟨es, h1, rfl, h2⟩
      cases es with
      | nil => cases h1
      | cons e es =>
        cases h1
        exact ⟨e.2, h2 e (by simp), es.map (·.2), ⟨es, rfl, rfl, fun e he => h2 e (by simp [he])⟩, rfl⟩

theorem decMetaMembers_iff {l : List (Str × Json)} {xs : List (Str × Schema.Json)} : decMetaMembers l = .ok xs ↔
    ∃ es : List (Str × Json × Schema.Json), l = es.map (fun e => (e.1, e.2.1)) ∧ xs = es.map (fun e => (e.1, e.2.2)) ∧
      ∀ e ∈ es, decMetaVal e.2.1 = .ok e.2.2 := by
  induction l generalizing xs with
  | nil =>
    constructor
    · intro h; cases h; exact ⟨[], rfl, rfl, by simp⟩
    · rintro ⟨es, h1, rfl, -⟩
      cases es with
      | nil => rfl
      | cons => cases h1
  | cons p l ih =>
    obtain ⟨k, j⟩ := p
    simp only [decMetaMembers, exc_bind, ih]
    constructor
    · rintro ⟨x, h1, xs, ⟨es, rfl, rfl, h2⟩, ⟨⟩⟩
      exact ⟨(k, j, x) :: es, rfl, rfl, by simpa using ⟨h1, fun a b c => h2 (a, b, c)⟩⟩
    · rintro ⟨es, h1, rfl, h2⟩
      cases es with
      | nil => cases h1
      | cons e es =>
        cases h1
        exact ⟨e.2.2, h2 e (by simp), es.map (fun e => (e.1, e.2.2)), ⟨es, rfl, rfl, fun e he => h2 e (by simp [he])⟩, rfl⟩

theorem isMap_map {α β : Type} {es : List (Str × α)} (f : α → β) : IsMap (es.map fun e => (e.1, f e.2)) ↔ IsMap es := by
  unfold IsMap
  rw [List.map_map]
  rfl

theorem decMetaVal_iff {j : Json} {x : Schema.Json} : decMetaVal j = .ok x ↔ IsAny j x := by
  constructor
  · have : ∀ n (j : Json), sizeOf j < n → ∀ x, decMetaVal j = .ok x → IsAny j x := by
      intro n
      induction n with
      | zero => intro j h; exact absurd h (Nat.not_lt_zero _)
      | succ n ih =>
        intro j hn x h
        cases j with
        | null => cases h; exact .null
        | bool b => cases h; exact .bool b
        | num t => cases h; exact .num t
        | str raw =>
          rw [decMetaVal] at h
          cases hc : cook raw with
          | none => rw [hc] at h; cases h
          | some s => rw [hc] at h; cases h; exact .str ((C74_strings _ _).1 hc)
        | arr l =>
          rw [decMetaVal, exc_bind] at h
          obtain ⟨xs, h1, ⟨⟩⟩ := h
          obtain ⟨es, rfl, rfl, h2⟩ := decMetaVals_iff.1 h1
          refine .arr es fun e he => ih _ ?_ _ (h2 e he)
          have := List.sizeOf_lt_of_mem (List.mem_map_of_mem (f := (·.1)) he)
          simp only [Json.Json.arr.sizeOf_spec] at hn
          omega
        | obj l =>
          rw [decMetaVal, exc_bind] at h
          obtain ⟨xs, h1, h2⟩ := h
          by_cases hd : dupKeys l = true
          · rw [if_pos hd] at h2; cases h2
          · rw [if_neg hd] at h2
            cases h2
            obtain ⟨es, rfl, rfl, h2⟩ := decMetaMembers_iff.1 h1
            refine .obj es ((isMap_map (·.1)).1 ((dupKeys_iff _).1 (by simpa using hd))) fun e he => ih _ ?_ _ (h2 e he)
            have := List.sizeOf_lt_of_mem (List.mem_map_of_mem (f := fun e => (e.1, e.2.1)) he)
            simp only [Json.Json.obj.sizeOf_spec, Prod.mk.sizeOf_spec] at hn this
            omega
    exact this _ j (Nat.lt_succ_self _) x
  · intro h
    induction h with
    | null => rfl
    | bool => rfl
    | num => rfl
    | str h => rw [decMetaVal, (C74_strings _ _).2 h]
    | arr es h ih =>
      rw [decMetaVal, decMetaVals_iff.2 ⟨es, rfl, rfl, ih⟩]
      rfl
    | obj es h1 h2 ih =>
      rw [decMetaVal, decMetaMembers_iff.2 ⟨es, rfl, rfl, ih⟩]
      show (if _ then _ else _) = _
      rw [if_neg (by rw [(dupKeys_iff _).2 ((isMap_map (·.1)).2 h1)]; decide)]

theorem decMeta_iff {j : Json} {m : Meta} : decMeta j = .ok m ↔ IsMeta j m := by
  cases j with
  | obj l =>
    unfold decMeta
    dsimp only
    by_cases hd : dupKeys l = true
    · rw [if_pos hd]
      refine ⟨fun h => (by cases h), fun h => ?_⟩
      cases h with
      | obj es h1 h2 =>
        rw [(dupKeys_iff _).2 ((isMap_map (·.1)).2 h1)] at hd
        cases hd
    · rw [if_neg hd, decMetaMembers_iff]
      constructor
      · rintro ⟨es, rfl, rfl, h⟩
        exact .obj es ((isMap_map (·.1)).1 ((dupKeys_iff _).1 (by simpa using hd))) fun e he => decMetaVal_iff.1 (h e he)
      · intro h
        cases h with
        | obj es h1 h2 => exact ⟨es, rfl, rfl, fun e he => decMetaVal_iff.2 (h2 e he)⟩
  | _ => exact ⟨fun h => (by cases h), fun h => by cases h⟩

/-! ### Parts of the schema -/

theorem decField_iff {j : Json} {f : Field} : decField j = .ok f ↔ IsFieldOf j f := by
  have hd : Distinct [S "comments", S "name", S "type", S "optional", S "value", S "meta"] := by decide +kernel
  simp only [decField, exc_bind, resolve_iff hd, decStr_iff, decBool_iff, decType_iff, decList_iff (fun _ _ => decStr_iff),
    decList_iff (fun _ _ => decMeta_iff)]
  constructor
  · rintro ⟨_, ⟨l, rfl, ho, rfl⟩, x1, h1, x2, h2, x3, h3, x4, h4, x5, h5, x6, h6, ⟨⟩⟩
    exact .obj ho ((says_iff hd ho (by simp)).2 h1) ((says_iff hd ho (by simp)).2 h2) ((says_iff hd ho (by simp)).2 h3)
      ((says_iff hd ho (by simp)).2 h4) ((says_iff hd ho (by simp)).2 h5) ((says_iff hd ho (by simp)).2 h6)
  · intro h
    cases h with
    | obj ho h1 h2 h3 h4 h5 h6 =>
      exact ⟨_, ⟨_, rfl, ho, rfl⟩, _, (says_iff hd ho (by simp)).1 h1, _, (says_iff hd ho (by simp)).1 h2, _, (says_iff hd ho (by simp)).1 h3,
        _, (says_iff hd ho (by simp)).1 h4, _, (says_iff hd ho (by simp)).1 h5, _, (says_iff hd ho (by simp)).1 h6, rfl⟩

theorem decTypeDecl_iff {i : Nat} {j : Json} {t : TypeDecl} : decTypeDecl i j = .ok t ↔ IsTypeDecl i j t := by
  have hd : Distinct [S "kind", S "name", S "type", S "fields", S "optional", S "value", S "meta", S "comments"] := by decide +kernel
  simp only [decTypeDecl, exc_bind, resolve_iff hd, decStr_iff, decBool_iff, decType_iff, decList_iff (fun _ _ => decStr_iff),
    decList_iff (fun _ _ => decMeta_iff), decList_iff (fun _ _ => decField_iff)]
  constructor
  · rintro ⟨_, ⟨l, rfl, ho, rfl⟩, x1, h1, x2, h2, x3, h3, x4, h4, x5, h5, x6, h6, x7, h7, x8, h8, ⟨⟩⟩
    exact .obj ho rfl ((says_iff hd ho (by simp)).2 h1) ((says_iff hd ho (by simp)).2 h2) ((says_iff hd ho (by simp)).2 h3)
      ((says_iff hd ho (by simp)).2 h4) ((says_iff hd ho (by simp)).2 h5) ((says_iff hd ho (by simp)).2 h6)
      ((says_iff hd ho (by simp)).2 h7) ((says_iff hd ho (by simp)).2 h8)
  · intro h
    cases h with
    | obj ho hp h1 h2 h3 h4 h5 h6 h7 h8 =>
      refine ⟨_, ⟨_, rfl, ho, rfl⟩, _, (says_iff hd ho (by simp)).1 h1, _, (says_iff hd ho (by simp)).1 h2, _, (says_iff hd ho (by simp)).1 h3,
        _, (says_iff hd ho (by simp)).1 h4, _, (says_iff hd ho (by simp)).1 h5, _, (says_iff hd ho (by simp)).1 h6,
        _, (says_iff hd ho (by simp)).1 h7, _, (says_iff hd ho (by simp)).1 h8, ?_⟩
      rw [← hp]

theorem decError_iff {i : Nat} {j : Json} {e : ErrorDecl} : decError i j = .ok e ↔ IsErrorDecl i j e := by
  have hd : Distinct [S "code", S "name", S "message", S "httpStatus"] := by decide +kernel
  simp only [decError, exc_bind, resolve_iff hd, decStr_iff, decInt_iff]
  constructor
  · rintro ⟨_, ⟨l, rfl, ho, rfl⟩, x1, h1, x2, h2, x3, h3, x4, h4, ⟨⟩⟩
    exact .obj ho rfl ((says_iff hd ho (by simp)).2 h1) ((says_iff hd ho (by simp)).2 h2) ((says_iff hd ho (by simp)).2 h3)
      ((says_iff hd ho (by simp)).2 h4)
  · intro h
    cases h with
    | obj ho hp h1 h2 h3 h4 =>
      refine ⟨_, ⟨_, rfl, ho, rfl⟩, _, (says_iff hd ho (by simp)).1 h1, _, (says_iff hd ho (by simp)).1 h2, _, (says_iff hd ho (by simp)).1 h3,
        _, (says_iff hd ho (by simp)).1 h4, ?_⟩
      rw [← hp]

theorem decAnnotation_iff {j : Json} {a : Annotation} : decAnnotation j = .ok a ↔ IsAnnotation j a := by
  have hd : Distinct [S "annotationType", S "value"] := by decide +kernel
  simp only [decAnnotation, exc_bind, resolve_iff hd, decStr_iff]
  constructor
  · rintro ⟨_, ⟨l, rfl, ho, rfl⟩, x1, h1, x2, h2, ⟨⟩⟩
    exact .obj ho ((says_iff hd ho (by simp)).2 h1) ((says_iff hd ho (by simp)).2 h2)
  · intro h
    cases h with
    | obj ho h1 h2 =>
      exact ⟨_, ⟨_, rfl, ho, rfl⟩, _, (says_iff hd ho (by simp)).1 h1, _, (says_iff hd ho (by simp)).1 h2, rfl⟩

theorem decEntries_iff {l : List (Str × Json)} {xs : List (Str × Annotation)} : decEntries l = .ok xs ↔
    ∃ es : List (Str × Json × Annotation), l = es.map (fun e => (e.1, e.2.1)) ∧ xs = es.map (fun e => (e.1, e.2.2)) ∧
      ∀ e ∈ es, IsAnnotation e.2.1 e.2.2 := by
  induction l generalizing xs with
  | nil =>
    constructor
    · intro h; cases h; exact ⟨[], rfl, rfl, by simp⟩
    · rintro ⟨es, h1, rfl, -⟩
      cases es with
      | nil => rfl
      | cons => cases h1
  | cons p l ih =>
    obtain ⟨k, j⟩ := p
    simp only [decEntries, exc_bind, ih, decAnnotation_iff]
    constructor
    · rintro ⟨x, h1, xs, ⟨es, rfl, rfl, h2⟩, ⟨⟩⟩
      exact ⟨(k, j, x) :: es, rfl, rfl, by simpa using ⟨h1, fun a b c => h2 (a, b, c)⟩⟩
    · rintro ⟨es, h1, rfl, h2⟩
      cases es with
      | nil => cases h1
      | cons e es =>
        cases h1
        exact ⟨e.2.2, h2 e (by simp), es.map (fun e => (e.1, e.2.2)), ⟨es, rfl, rfl, fun e he => h2 e (by simp [he])⟩, rfl⟩

theorem decAnnotations_iff {j : Json} {m : List (Str × Annotation)} : decAnnotations j = .ok m ↔ IsAnnotations j m := by
  cases j with
  | obj l =>
    unfold decAnnotations
    dsimp only
    by_cases hd : dupKeys l = true
    · rw [if_pos hd]
      refine ⟨fun h => (by cases h), fun h => ?_⟩
      cases h with
      | obj es h1 h2 =>
        rw [(dupKeys_iff _).2 ((isMap_map (·.1)).2 h1)] at hd
        cases hd
    · rw [if_neg hd, decEntries_iff]
      constructor
      · rintro ⟨es, rfl, rfl, h⟩
        exact .obj es ((isMap_map (·.1)).1 ((dupKeys_iff _).1 (by simpa using hd))) h
      · intro h
        cases h with
        | obj es h1 h2 => exact ⟨es, rfl, rfl, h2⟩
  | null => exact ⟨fun h => (by cases h; exact .null), fun h => by cases h; rfl⟩
  | _ => exact ⟨fun h => (by cases h), fun h => by cases h⟩

theorem decArgument_iff {j : Json} {a : Argument} : decArgument j = .ok a ↔ IsArgument j a := by
  have hd : Distinct [S "name", S "type", S "optional", S "value", S "meta"] := by decide +kernel
  simp only [decArgument, exc_bind, resolve_iff hd, decStr_iff, decBool_iff, decType_iff, decList_iff (fun _ _ => decMeta_iff)]
  constructor
  · rintro ⟨_, ⟨l, rfl, ho, rfl⟩, x1, h1, x2, h2, x3, h3, x4, h4, x5, h5, ⟨⟩⟩
    exact .obj ho ((says_iff hd ho (by simp)).2 h1) ((says_iff hd ho (by simp)).2 h2) ((says_iff hd ho (by simp)).2 h3)
      ((says_iff hd ho (by simp)).2 h4) ((says_iff hd ho (by simp)).2 h5)
  · intro h
    cases h with
    | obj ho h1 h2 h3 h4 h5 =>
      exact ⟨_, ⟨_, rfl, ho, rfl⟩, _, (says_iff hd ho (by simp)).1 h1, _, (says_iff hd ho (by simp)).1 h2, _, (says_iff hd ho (by simp)).1 h3,
        _, (says_iff hd ho (by simp)).1 h4, _, (says_iff hd ho (by simp)).1 h5, rfl⟩

theorem flag_eq {a b : Bool} {p : Prop} (h : a = true ↔ p) (h' : p ↔ b = true) : b = a := by
  have := h.trans h'
  cases a <;> cases b <;> simp_all

theorem decMethod_iff {j : Json} {m : Method} : decMethod j = .ok m ↔ IsMethod j m := by
  have hd : Distinct [S "name", S "annotations", S "comments", S "succinct", S "streamInput", S "streamOutput", S "inputs", S "outputs",
    S "errors"] := by decide +kernel
  simp only [decMethod, exc_bind, resolve_iff hd, decStr_iff, decBool_iff, decList_iff (fun _ _ => decStr_iff), decAnnotations_iff,
    decList_iff (fun _ _ => decArgument_iff)]
  constructor
  · rintro ⟨_, ⟨l, rfl, ho, rfl⟩, x1, h1, x2, h2, x3, h3, x4, h4, x5, h5, x6, h6, x7, h7, x8, h8, x9, h9, ⟨⟩⟩
    exact .obj ho ((says_iff hd ho (by simp)).2 h1) ((says_iff hd ho (by simp)).2 h2) ((says_iff hd ho (by simp)).2 h3)
      ((says_iff hd ho (by simp)).2 h4) ((says_iff hd ho (by simp)).2 h5) ((says_iff hd ho (by simp)).2 h6)
      ((says_iff hd ho (by simp)).2 h7) ((says_iff hd ho (by simp)).2 h8) ((says_iff hd ho (by simp)).2 h9)
      (null_iff hd ho (by simp)).symm (null_iff hd ho (by simp)).symm (null_iff hd ho (by simp)).symm (null_iff hd ho (by simp)).symm
  · intro h
    cases h with
    | obj ho h1 h2 h3 h4 h5 h6 h7 h8 h9 n1 n2 n3 n4 =>
      refine ⟨_, ⟨_, rfl, ho, rfl⟩, _, (says_iff hd ho (by simp)).1 h1, _, (says_iff hd ho (by simp)).1 h2, _, (says_iff hd ho (by simp)).1 h3,
        _, (says_iff hd ho (by simp)).1 h4, _, (says_iff hd ho (by simp)).1 h5, _, (says_iff hd ho (by simp)).1 h6,
        _, (says_iff hd ho (by simp)).1 h7, _, (says_iff hd ho (by simp)).1 h8, _, (says_iff hd ho (by simp)).1 h9, ?_⟩
      rw [flag_eq n1 (null_iff hd ho (by simp)), flag_eq n2 (null_iff hd ho (by simp)), flag_eq n3 (null_iff hd ho (by simp)),
        flag_eq n4 (null_iff hd ho (by simp))]

theorem decService_iff {i : Nat} {j : Json} {v : Service} : decService i j = .ok v ↔ IsService i j v := by
  have hd : Distinct [S "name", S "methods", S "comments"] := by decide +kernel
  simp only [decService, exc_bind, resolve_iff hd, decStr_iff, decList_iff (fun _ _ => decStr_iff), decList_iff (fun _ _ => decMethod_iff)]
  constructor
  · rintro ⟨_, ⟨l, rfl, ho, rfl⟩, x1, h1, x2, h2, x3, h3, ⟨⟩⟩
    exact .obj ho rfl ((says_iff hd ho (by simp)).2 h1) ((says_iff hd ho (by simp)).2 h2) ((says_iff hd ho (by simp)).2 h3)
      (null_iff hd ho (by simp)).symm (null_iff hd ho (by simp)).symm
  · intro h
    cases h with
    | obj ho hp h1 h2 h3 n1 n2 =>
      refine ⟨_, ⟨_, rfl, ho, rfl⟩, _, (says_iff hd ho (by simp)).1 h1, _, (says_iff hd ho (by simp)).1 h2, _, (says_iff hd ho (by simp)).1 h3, ?_⟩
      rw [flag_eq n1 (null_iff hd ho (by simp)), flag_eq n2 (null_iff hd ho (by simp)), ← hp]

theorem decSchema_iff {j : Json} {s : Schema} : decSchema j = .ok s ↔ IsSchema j s := by
  have hd : Distinct [S "webrpc", S "name", S "version", S "basepath", S "types", S "errors", S "services"] := by decide +kernel
  simp only [decSchema, exc_bind, resolve_iff hd, decStr_iff, decNumbered_iff (fun _ _ _ => decTypeDecl_iff),
    decNumbered_iff (fun _ _ _ => decError_iff), decNumbered_iff (fun _ _ _ => decService_iff)]
  constructor
  · rintro ⟨_, ⟨l, rfl, ho, rfl⟩, x1, h1, x2, h2, x3, h3, x4, h4, x5, h5, x6, h6, x7, h7, ⟨⟩⟩
    exact .obj ho ((says_iff hd ho (by simp)).2 h1) ((says_iff hd ho (by simp)).2 h2) ((says_iff hd ho (by simp)).2 h3)
      ((says_iff hd ho (by simp)).2 h4) ((says_iff hd ho (by simp)).2 h5) ((says_iff hd ho (by simp)).2 h6)
      ((says_iff hd ho (by simp)).2 h7)
      (null_iff hd ho (by simp)).symm (null_iff hd ho (by simp)).symm (null_iff hd ho (by simp)).symm
  · intro h
    cases h with
    | obj ho h1 h2 h3 h4 h5 h6 h7 n1 n2 n3 =>
      refine ⟨_, ⟨_, rfl, ho, rfl⟩, _, (says_iff hd ho (by simp)).1 h1, _, (says_iff hd ho (by simp)).1 h2, _, (says_iff hd ho (by simp)).1 h3,
        _, (says_iff hd ho (by simp)).1 h4, _, (says_iff hd ho (by simp)).1 h5, _, (says_iff hd ho (by simp)).1 h6,
        _, (says_iff hd ho (by simp)).1 h7, ?_⟩
      rw [flag_eq n1 (null_iff hd ho (by simp)), flag_eq n2 (null_iff hd ho (by simp)), flag_eq n3 (null_iff hd ho (by simp))]

/-! ### C105 -/

/-- C105. A JSON schema is loaded exactly if it is a JSON text that says a valid schema; this schema is what is loaded, with
types as trees. -/
theorem C105_loads [GoUnicode] (hcase : CaseKeepsBlanks) (text : Str) (s' : Schema) :
    parseSchemaJSON text = .ok s' ↔ ∃ j s, JsonText text j ∧ IsSchema j s ∧ ValidSchema s ∧ Validated s s' := by
  have key : parseSchemaJSON text = .ok s' ↔ ∃ j s, parse text = some j ∧ decSchema j = .ok s ∧ validate s = .ok s' := by
    unfold parseSchemaJSON
    cases hp : parse text with
    | none => exact ⟨fun h => (by cases h), fun ⟨_, _, h, _⟩ => by cases h⟩
    | some j =>
      have h' : (match decSchema j with
          | .error .bad => Loaded.badJson
          | .error .unmodelled => .unmodelled
          | .ok s => match validate s with
            | .ok s' => .ok s'
            | .err e => .invalid e
            | .panic => .panic
            | .fuel => .unmodelled) = .ok s' ↔ ∃ s, decSchema j = .ok s ∧ validate s = .ok s' := by
        cases hd : decSchema j with
        | error e => cases e <;> exact ⟨fun h => (by cases h), fun ⟨_, h, _⟩ => by cases h⟩
        | ok s =>
          dsimp only
          cases hv : validate s with
          | ok t =>
            constructor
            · rintro ⟨⟩; exact ⟨s, rfl, hv⟩
            · rintro ⟨_, ⟨⟩, h⟩; rw [hv] at h; cases h; rfl
          | _ => exact ⟨fun h => (by cases h), fun ⟨_, h, h'⟩ => by cases h; rw [hv] at h'; cases h'⟩
      have hn : (∃ j' s, some j = some j' ∧ decSchema j' = .ok s ∧ validate s = .ok s') ↔ ∃ s, decSchema j = .ok s ∧ validate s = .ok s' :=
        ⟨fun ⟨_, s, h, h'⟩ => (by cases h; exact ⟨s, h'⟩), fun ⟨s, h⟩ => ⟨j, s, rfl, h⟩⟩
      rw [hn, ← h']
      cases j with
      | null =>
        have : decSchema .null = .error .unmodelled := rfl
        rw [this]
        exact ⟨fun h => (by cases h), fun h => by cases h⟩
      | _ => exact Iff.rfl
  rw [key]
  simp only [parse_iff, decSchema_iff, C66_validates_exactly hcase]

/-- C105. A JSON value says at most one schema. -/
theorem C105_one (j : Json) (s s' : Schema) (h : IsSchema j s) (h' : IsSchema j s') : s = s' := by
  have := decSchema_iff.2 h
  rw [decSchema_iff.2 h'] at this
  cases this; rfl

/-- C105. The order of the members of an object does not matter. -/
theorem C105_order {l l' : List (Str × Json)} (h : l'.Perm l) (tags : List Str) :
    (Once tags l ↔ Once tags l') ∧ ∀ k j, About l k j ↔ About l' k j := by
  constructor
  · unfold Once
    refine forall_congr' fun k => forall_congr' fun _ => ?_
    exact (h.pairwise_iff (R := fun (p q : Str × Json) => ¬ (SameKey p.1 k ∧ SameKey q.1 k)) fun {a b} h1 h2 => h1 ⟨h2.2, h2.1⟩).symm
  · intro k j
    have gen : ∀ {l l' : List (Str × Json)}, l'.Perm l → About l k j → About l' k j := by
      intro l l' h ha
      cases ha with
      | said h1 h2 => exact .said (h.mem_iff.2 h1) h2
      | silent h1 => exact .silent fun p hp => h1 p (h.mem_iff.1 hp)
    exact ⟨gen h, gen h.symm⟩

/-- C105. Members with other names do not matter. -/
theorem C105_unknown (key : Str) (v : Json) (l : List (Str × Json)) (tags : List Str) (h : ∀ k ∈ tags, ¬ SameKey key k) :
    (Once tags ((key, v) :: l) ↔ Once tags l) ∧ ∀ k ∈ tags, ∀ j, About ((key, v) :: l) k j ↔ About l k j := by
  constructor
  · unfold Once
    refine forall_congr' fun k => forall_congr' fun hk => ?_
    rw [List.pairwise_cons]
    exact ⟨fun h => h.2, fun h' => ⟨fun q _ hs => h k hk hs.1, h'⟩⟩
  · intro k hk j
    constructor
    · intro ha
      cases ha with
      | said h1 h2 =>
        rcases List.mem_cons.1 h1 with h1 | h1
        · cases h1; exact absurd h2 (h k hk)
        · exact .said h1 h2
      | silent h1 => exact .silent fun p hp => h1 p (List.mem_cons_of_mem _ hp)
    · intro ha
      cases ha with
      | said h1 h2 => exact .said (List.mem_cons_of_mem _ h1) h2
      | silent h1 =>
        refine .silent fun p hp => ?_
        rcases List.mem_cons.1 hp with rfl | hp
        · exact h k hk
        · exact h1 p hp

/-- C105. A member that is null may as well be left out. -/
theorem C105_null (key : Str) (l : List (Str × Json)) (tags : List Str) (hd : tags.Pairwise fun a b => ¬ SameKey a b)
    (ho : Once tags ((key, .null) :: l)) :
    Once tags l ∧ ∀ k ∈ tags, ∀ j, About ((key, .null) :: l) k j ↔ About l k j := by
  have ho' : Once tags l := fun k hk => (List.pairwise_cons.1 (ho k hk)).2
  refine ⟨ho', fun k hk j => ?_⟩
  by_cases hs : SameKey key k
  · have h1 : About ((key, .null) :: l) k .null := .said (List.mem_cons_self ..) hs
    have h2 : About l k .null := .silent fun p hp hps => (List.pairwise_cons.1 (ho k hk)).1 p hp ⟨hs, hps⟩
    rw [about_iff hd ho hk] at h1
    rw [about_iff hd ho' hk] at h2
    rw [about_iff hd ho hk, about_iff hd ho' hk, h1, h2]
  · constructor
    · intro ha
      cases ha with
      | said h1 h2 =>
        rcases List.mem_cons.1 h1 with h1 | h1
        · cases h1; exact absurd h2 hs
        · exact .said h1 h2
      | silent h1 => exact .silent fun p hp => h1 p (List.mem_cons_of_mem _ hp)
    · intro ha
      cases ha with
      | said h1 h2 => exact .said (List.mem_cons_of_mem _ h1) h2
      | silent h1 =>
        refine .silent fun p hp => ?_
        rcases List.mem_cons.1 hp with rfl | hp
        · exact hs
        · exact h1 p hp

/-- What a text is loaded as. -/
def loadedAs [GoUnicode] (text : Str) (p : Schema → Bool) : Bool :=
  match parseSchemaJSON text with
  | .ok s => p s
  | _ => false

/-- C105. A text written by hand, with members in another order, in other case, missing, null and unknown ones. -/
theorem C105_example : let _ := asciiOnly
    loadedAs (S "{\"errors\": [{\"Name\": \"Gone\", \"code\": 7, \"httpStatus\": 410, \"message\": \"gone\"}], \"WEBRPC\": \"v1\", \"x\": [null], \"version\": \"v1\", \"basepath\": null,\n \"services\": [{\"methods\": [{\"outputs\": [{\"type\": \"[]string\", \"name\": \"l\"}], \"inputs\": null, \"name\": \"List\"}], \"name\": \"A\"}]}")
      (fun s => decide (s.errors.map (fun e => (e.code, e.name, e.message, e.httpStatus)) = [(7, S "Gone", S "gone", 410)]) &&
        decide (s.services.map (·.name) = [S "A"]) &&
        decide ((s.services.flatMap (·.methods)).map (fun m => (m.name, m.inputs.length, m.outputs.length)) = [(S "List", 0, 1)]) &&
        decide (((s.services.flatMap (·.methods)).flatMap (·.outputs)).map (fun a => (a.name, a.type.map (·.expr), a.optional)) =
          [(S "l", some (S "[]string"), false)])) = true := by
  decide +kernel

end Verif.JsonSchema
