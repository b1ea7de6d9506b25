import Verif.Spec.Values
import Verif.Json.SchemaLemmas
import Verif.Props.RpcTables
import Verif.Props.BigNum
import Verif.Rpc.TestSuite
/-!
# Properties of Go values sent as JSON (C78)
-/

namespace Verif.Values
open Verif.Schema hiding Json Method
open Verif.Json Verif.Gen Verif.Rpc Verif.RpcSpec Verif.Props
open Verif.Compile (decimal?)

/-! ### Leaves -/

theorem parseInt_text {bits : Nat} {i : Int} (h : FitsSigned bits i) : parseInt bits (intText i) = some i := by
  obtain ⟨h0, h1, h2, h3⟩ := h
  have hp : (2 : Int) ^ (bits - 1) ≤ 2 ^ 63 := by
    have : (2 : Nat) ^ (bits - 1) ≤ 2 ^ 63 := Nat.pow_le_pow_right (by decide) (by omega)
    exact_mod_cast this
  unfold parseInt
  rw [atoi_int (by omega) (by omega)]
  dsimp only
  rw [if_pos ⟨h2, h3⟩]

theorem parseUint_text {bits : Nat} {i : Int} (h : FitsUnsigned bits i) : parseUint bits (intText i) = some i := by
  obtain ⟨h1, h2, h3⟩ := h
  obtain ⟨hne, hd⟩ := numeral_digits i.natAbs
  have hv : decimal? 0 (Spec.numeral i.natAbs) = some i.natAbs := by
    rw [decimal_val _ 0 hd]
    exact congrArg some (decimalValue_repr _)
  have ht : intText i = Spec.numeral i.natAbs := by unfold intText; rw [if_neg (by omega)]
  unfold parseUint
  rw [ht, if_neg hne, hv]
  dsimp only
  have : i.natAbs < 2 ^ bits := by
    have h4 : ((i.natAbs : Nat) : Int) < ((2 ^ bits : Nat) : Int) := by
      rw [show ((i.natAbs : Nat) : Int) = i by omega]
      exact_mod_cast h3
    exact_mod_cast h4
  rw [if_pos this]
  congr 1; omega

theorem enum_round {d : Decls} (hd : WellDeclared d) {n name : Str} {x : Nat} (h : (name, x) ∈ d.members n) :
    enumOf (d.members n) (enumText ((d.members n).map fun m => (m.2, m.1)) x) = x :=
  (C59_round_trip (members := d.members n) ⟨hd.names n, hd.values n, rfl, rfl⟩ name x h).2.2.1

theorem key_round {d : Decls} (hd : WellDeclared d) {k : KeyType} {x : Key} (h : KeyOf d k x) :
    ∃ s, keyText d k x = some s ∧ decKey d k s = some x := by
  cases h with
  | str s => exact ⟨s, rfl, rfl⟩
  | int h => exact ⟨_, rfl, by rw [decKey, parseInt_text h]; rfl⟩
  | uint h => exact ⟨_, rfl, by rw [decKey, parseUint_text h]; rfl⟩
  | enum h => exact ⟨_, rfl, by rw [decKey, enum_round hd h]⟩

theorem plain_escape {html : Bool} {s : Str} (h : ∀ c ∈ s, c ∈ "+-0123456789".toList) : escape html s = s := by
  unfold escape
  induction s with
  | nil => rfl
  | cons c s ih =>
    rw [List.flatMap_cons, ih fun x hx => h x (List.mem_cons_of_mem _ hx)]
    have h2 : c ∈ ['+', '-', '0', '1', '2', '3', '4', '5', '6', '7', '8', '9'] := h c (by simp)
    simp only [List.mem_cons, List.not_mem_nil, or_false] at h2
    have : escChar html c = [c] := by
      cases html <;> rcases h2 with rfl | rfl | rfl | rfl | rfl | rfl | rfl | rfl | rfl | rfl | rfl | rfl <;> decide
    rw [this]; rfl

theorem nums_big (i : Int) : Nums (.str (bigString i)) := by
  rw [Nums]
  exact ⟨true, bigString i, (plain_escape (BigNum.integer_chars (BigNum.integerText_int i)).2).symm⟩

theorem inside_zero (t : GoType) : inside t (zero t) = zero (base t) := by
  cases t <;> rfl

theorem deepEqual_zero (t : GoType) : deepEqual (zero t) (zero t) = true := by
  cases t <;> simp [zero, deepEqual]

/-! ### `any` -/

variable [GoFloat]

theorem decode_any (d : Decls) (old : GoVal) (j : Json) : decode d .any old j = decodeAny j := by
  cases j with
  | null => rfl
  | bool b => rfl
  | num x => rw [decode, decodeAny]; show ((GoFloat.norm 64 x).map _).map _ = _; cases GoFloat.norm 64 x <;> rfl
  | str raw => rw [decode, decodeAny]; show ((cook raw).map _).map _ = _; cases cook raw <;> rfl
  | arr l => rw [decode, decodeAny]; rfl
  | obj l => rw [decode, decodeAny]; rfl

theorem decodeElems_any (d : Decls) (olds : List GoVal) (l : List Json) : decodeElems d .any olds l = decodeAnys l := by
  induction l generalizing olds with
  | nil => rfl
  | cons j l ih => rw [decodeElems, decodeAnys, decode_any, ih]

theorem decodeEntries_any (d : Decls) (m : List (Key × GoVal)) (l : List (Str × Json)) :
    decodeEntries d .string .any m l = decodeAnyMembers m l := by
  induction l generalizing m with
  | nil => rfl
  | cons p l ih =>
    obtain ⟨k, j⟩ := p
    rw [decodeEntries, decodeAnyMembers, decode_any]
    show (match some (Key.str k), decodeAny j with | some x, some v => _ | _, _ => none) = _
    cases decodeAny j with
    | none => rfl
    | some v => exact ih _

theorem natural_any (d : Decls) {t : GoType} (ht : Natural t) {j : Json} {w : GoVal} (hj : j ≠ .null)
    (h : decode d t (zero t) j = some w) : decodeAny j = some (.dyn t w) := by
  cases ht with
  | bool =>
    cases j with
    | null => exact absurd rfl hj
    | bool b => rw [decode] at h; cases h; rfl
    | _ => rw [decode] at h; cases h
  | float =>
    cases j with
    | null => exact absurd rfl hj
    | num x =>
      rw [decode] at h
      have h' : ((GoFloat.norm 64 x).map GoVal.float).map (wrap (.float 64)) = some w := h
      rw [decodeAny]
      cases hn : GoFloat.norm 64 x with
      | none => rw [hn] at h'; cases h'
      | some u => rw [hn] at h'; cases h'; rfl
    | _ => rw [decode] at h; cases h
  | string =>
    cases j with
    | null => exact absurd rfl hj
    | str x =>
      rw [decode] at h
      have h' : ((cook x).map GoVal.str).map (wrap .string) = some w := h
      rw [decodeAny]
      cases hn : cook x with
      | none => rw [hn] at h'; cases h'
      | some u => rw [hn] at h'; cases h'; rfl
    | _ => rw [decode] at h; cases h
  | list =>
    cases j with
    | null => exact absurd rfl hj
    | arr l =>
      rw [decode] at h
      have h' : (decodeElems d .any [] l).map (fun l => GoVal.list l) = some w := h
      rw [decodeElems_any] at h'
      rw [decodeAny]
      cases hn : decodeAnys l with
      | none => rw [hn] at h'; cases h'
      | some u => rw [hn] at h'; cases h'; rfl
    | _ => rw [decode] at h; cases h
  | map =>
    cases j with
    | null => exact absurd rfl hj
    | obj l =>
      rw [decode] at h
      have h' : (decodeEntries d .string .any [] l).map (fun l => GoVal.map l) = some w := h
      rw [decodeEntries_any] at h'
      rw [decodeAny]
      cases hn : decodeAnyMembers [] l with
      | none => rw [hn] at h'; cases h'
      | some u => rw [hn] at h'; cases h'; rfl
    | _ => rw [decode] at h; cases h

theorem decode_ptr (d : Decls) (t : GoType) {j : Json} (hj : j ≠ .null) :
    decode d (.ptr t) .nil j = (decode d t (zero t) j).map .ptr := by
  have hw : wrap (.ptr t) = GoVal.ptr ∘ wrap t := rfl
  have hi : inside (.ptr t) .nil = inside t (zero t) := by rw [inside_zero]; rfl
  have hb : base (.ptr t) = base t := rfl
  cases j with
  | null => exact absurd rfl hj
  | bool b => rw [decode, decode, hb, hw, Option.map_map]
  | num x => rw [decode, decode, hb, hi, hw, Option.map_map]
  | str x => rw [decode, decode, hb, hi, hw, Option.map_map]
  | arr l =>
    rw [decode, decode, hb, hi, hw]
    cases base t with
    | list e =>
      dsimp only
      split
      · rfl
      · rw [Option.map_map]; rfl
    | any => dsimp only; rw [Option.map_map]; rfl
    | _ => rfl
  | obj l =>
    rw [decode, decode, hb, hi, hw]
    cases base t with
    | map k e => dsimp only; rw [Option.map_map]; rfl
    | ref n => dsimp only; rw [Option.map_map]; rfl
    | any => dsimp only; rw [Option.map_map]; rfl
    | _ => rfl

/-! ### Maps -/

omit [GoFloat] in
theorem lookup_key {β : Type} {l : List (Key × β)} (h : (l.map (·.1)).Pairwise (· ≠ ·)) {k : Key} {v : β} (hm : (k, v) ∈ l) :
    l.lookup k = some v := by
  induction l with
  | nil => cases hm
  | cons p l ih =>
    obtain ⟨k', v'⟩ := p
    rw [List.map_cons, List.pairwise_cons] at h
    rw [List.lookup_cons]
    by_cases hk : k = k'
    · subst hk
      simp only [BEq.rfl]
      rcases List.mem_cons.1 hm with e | hm
      · cases e; rfl
      · exact absurd rfl (h.1 k (List.mem_map.2 ⟨_, hm, rfl⟩))
    · have : (k == k') = false := by simpa using hk
      rw [this]
      rcases List.mem_cons.1 hm with e | hm
      · cases e; exact absurd rfl hk
      · exact ih h.2 hm

omit [GoFloat] in
theorem putKey_new {k : Key} {v : GoVal} {m : List (Key × GoVal)} (h : k ∉ m.map (·.1)) : putKey k v m = m ++ [(k, v)] := by
  induction m with
  | nil => rfl
  | cons p m ih =>
    obtain ⟨k', v'⟩ := p
    rw [List.map_cons, List.mem_cons] at h
    rw [putKey, if_neg (fun hh => h (Or.inl hh.symm)), ih fun hh => h (Or.inr hh)]
    rfl

/-- What an entry of a map is read as. -/
def readEntry (d : Decls) (k : KeyType) (t : GoType) (p : Str × Json) : Key × GoVal :=
  ((decKey d k p.1).getD (.int 0), (decode d t (zero t) p.2).getD .nil)

theorem decodeEntries_all (d : Decls) (k : KeyType) (t : GoType) (ms : List (Str × Json)) (acc : List (Key × GoVal))
    (h : ∀ p ∈ ms, (decKey d k p.1).isSome = true ∧ (decode d t (zero t) p.2).isSome = true)
    (hk : ((acc ++ ms.map (readEntry d k t)).map (·.1)).Pairwise (· ≠ ·)) :
    decodeEntries d k t acc ms = some (acc ++ ms.map (readEntry d k t)) := by
  induction ms generalizing acc with
  | nil => rw [decodeEntries]; simp
  | cons p ms ih =>
    obtain ⟨s, j⟩ := p
    obtain ⟨h1, h2⟩ := h (s, j) (by simp)
    obtain ⟨x, hx⟩ := Option.isSome_iff_exists.1 h1
    obtain ⟨w, hw⟩ := Option.isSome_iff_exists.1 h2
    have he : readEntry d k t (s, j) = (x, w) := by
      unfold readEntry
      dsimp only at hx hw ⊢
      rw [hx, hw]; rfl
    rw [List.map_cons, he] at hk ⊢
    have hnew : x ∉ acc.map (·.1) := by
      intro hm
      rw [List.map_append, List.pairwise_append] at hk
      exact hk.2.2 x hm x (by simp) rfl
    rw [decodeEntries]
    dsimp only at hx hw
    rw [hx, hw]
    dsimp only
    rw [putKey_new hnew]
    rw [ih (acc ++ [(x, w)]) (fun p hp => h p (List.mem_cons_of_mem _ hp)) (by simpa using hk)]
    simp

/-! ### The round trip -/

/-- What is to be shown for a value. -/
def Trip (d : Decls) (t : GoType) (v : GoVal) : Prop :=
  ∃ j, encode d t v = some j ∧ Nums j ∧ (j = .null ↔ v = .nil) ∧
    ∃ w, decode d t (zero t) j = some w ∧ deepEqual v w = true ∧ Carried d t w

/-- What is to be shown for the fields of a struct. -/
def TripFields (d : Decls) (fs : List FieldDecl) (l : List GoVal) : Prop :=
  ∃ ms, encodeFields d fs l = some ms ∧ NumsMembers ms ∧ ∃ ws, deepEqualList l ws = true ∧ CarriedFields d fs ws ∧
    ∀ pre done, done.length = pre.length → ((pre ++ fs).filterMap (·.tag)).Pairwise (· ≠ ·) →
      decodeMembers d (pre ++ fs) (done ++ zeros fs) ms = some (done ++ ws)

theorem trip_elems {d : Decls} {t : GoType} {l : List GoVal} (h : ∀ v ∈ l, Trip d t v) :
    ∃ js, encodeElems d t l = some js ∧ NumsList js ∧
      ∃ ws, decodeElems d t [] js = some ws ∧ deepEqualList l ws = true ∧ ∀ w ∈ ws, Carried d t w := by
  induction l with
  | nil => exact ⟨[], rfl, trivial, [], rfl, rfl, by simp⟩
  | cons v l ih =>
    obtain ⟨j, h1, h2, -, w, h3, h4, h5⟩ := h v (by simp)
    obtain ⟨js, i1, i2, ws, i3, i4, i5⟩ := ih fun x hx => h x (List.mem_cons_of_mem _ hx)
    refine ⟨j :: js, ?_, ⟨h2, i2⟩, w :: ws, ?_, ?_, ?_⟩
    · rw [encodeElems, h1, i1]
    · rw [decodeElems, List.head?_nil, Option.getD_none, List.tail_nil, h3, i3]
    · rw [deepEqualList, h4, i4]; rfl
    · intro x hx
      rcases List.mem_cons.1 hx with rfl | hx
      · exact h5
      · exact i5 x hx

theorem trip_entries {d : Decls} (hd : WellDeclared d) {k : KeyType} {t : GoType} {l : List (Key × GoVal)}
    (hk : ∀ p ∈ l, KeyOf d k p.1) (h : ∀ p ∈ l, Trip d t p.2) :
    ∃ ms, encodeEntries d k t l = some ms ∧ NumsMembers ms ∧
      (∀ p ∈ ms, (decKey d k p.1).isSome = true ∧ (decode d t (zero t) p.2).isSome = true) ∧
      (ms.map (readEntry d k t)).map (·.1) = l.map (·.1) ∧
      (∀ p ∈ l, ∃ w, (p.1, w) ∈ ms.map (readEntry d k t) ∧ deepEqual p.2 w = true) ∧
      ∀ p ∈ ms.map (readEntry d k t), KeyOf d k p.1 ∧ Carried d t p.2 := by
  induction l with
  | nil => exact ⟨[], rfl, trivial, by simp, rfl, by simp, by simp⟩
  | cons p l ih =>
    obtain ⟨x, v⟩ := p
    obtain ⟨j, h1, h2, -, w, h3, h4, h5⟩ := h (x, v) (by simp)
    obtain ⟨s, k1, k2⟩ := key_round hd (hk (x, v) (by simp))
    obtain ⟨ms, i1, i2, i3, i4, i5, i6⟩ := ih (fun p hp => hk p (List.mem_cons_of_mem _ hp)) fun p hp => h p (List.mem_cons_of_mem _ hp)
    dsimp only at h1 h3 k1 k2
    have he : readEntry d k t (s, j) = (x, w) := by
      unfold readEntry; dsimp only; rw [k2, h3]; rfl
    refine ⟨(s, j) :: ms, ?_, ⟨h2, i2⟩, ?_, ?_, ?_, ?_⟩
    · rw [encodeEntries, k1, h1, i1]
    · intro p hp
      rcases List.mem_cons.1 hp with rfl | hp
      · dsimp only; rw [k2, h3]; exact ⟨rfl, rfl⟩
      · exact i3 p hp
    · rw [List.map_cons, he, List.map_cons, i4]; rfl
    · intro p hp
      rw [List.map_cons, he]
      rcases List.mem_cons.1 hp with rfl | hp
      · exact ⟨w, by simp, h4⟩
      · obtain ⟨w', w1, w2⟩ := i5 p hp
        exact ⟨w', List.mem_cons_of_mem _ w1, w2⟩
    · rw [List.map_cons, he]
      intro p hp
      rcases List.mem_cons.1 hp with rfl | hp
      · exact ⟨hk (x, v) (by simp), h5⟩
      · exact i6 p hp

omit [GoFloat] in
theorem deepEqualMap_of {l r : List (Key × GoVal)} (h : ∀ p ∈ l, ∃ w, r.lookup p.1 = some w ∧ deepEqual p.2 w = true) :
    deepEqualMap l r = true := by
  induction l with
  | nil => rfl
  | cons p l ih =>
    obtain ⟨k, a⟩ := p
    obtain ⟨w, h1, h2⟩ := h (k, a) (by simp)
    dsimp only at h1 h2
    rw [deepEqualMap, h1, ih fun p hp => h p (List.mem_cons_of_mem _ hp)]
    dsimp only
    rw [h2]; rfl

omit [GoFloat] in
theorem numsMembers_perm {a b : List (Str × Json)} (h : a.Perm b) (hb : NumsMembers b) : NumsMembers a :=
  NumsMembers_iff.2 fun p hp => NumsMembers_iff.1 hb p (h.mem_iff.1 hp)

theorem trip_map {d : Decls} (hd : WellDeclared d) {k : KeyType} {t : GoType} {l : List (Key × GoVal)}
    (hn : (l.map (·.1)).Pairwise (· ≠ ·)) (hk : ∀ p ∈ l, KeyOf d k p.1) (h : ∀ p ∈ l, Trip d t p.2) :
    Trip d (.map k t) (.map l) := by
  obtain ⟨ms, h1, h2, h3, h4, h5, h6⟩ := trip_entries hd hk h
  have hp := (sortKeys_spec ms).1
  have hr : ((sortKeys ms).map (readEntry d k t)).Perm (ms.map (readEntry d k t)) := hp.map _
  have hkeys : (((sortKeys ms).map (readEntry d k t)).map (·.1)).Pairwise (· ≠ ·) := by
    have e : (((sortKeys ms).map (readEntry d k t)).map (·.1)).Perm (l.map (·.1)) := by rw [← h4]; exact hr.map _
    rw [← List.nodup_iff_pairwise_ne] at hn ⊢
    exact e.nodup_iff.2 hn
  refine ⟨.obj (sortKeys ms), by rw [encode, h1]; rfl, ?_, ?_, .map ((sortKeys ms).map (readEntry d k t)), ?_, ?_, ?_⟩
  · rw [Nums]; exact numsMembers_perm hp h2
  · exact ⟨fun h => (nomatch h), fun h => (nomatch h)⟩
  · rw [decode]
    show (decodeEntries d k t [] (sortKeys ms)).map _ = _
    rw [decodeEntries_all d k t _ [] (fun p hp' => h3 p (hp.mem_iff.1 hp')) (by simpa using hkeys)]
    rfl
  · rw [deepEqual, Bool.and_eq_true]
    constructor
    · have e := congrArg List.length h4
      rw [List.length_map, List.length_map, List.length_map] at e
      rw [List.length_map, hp.length_eq, e]
      exact BEq.rfl
    · apply deepEqualMap_of
      intro p hp'
      obtain ⟨w, w1, w2⟩ := h5 p hp'
      exact ⟨w, lookup_key hkeys (hr.mem_iff.2 w1), w2⟩
  · exact .map hkeys (fun p hp' => (h6 p (hr.mem_iff.1 hp')).1) fun p hp' => (h6 p (hr.mem_iff.1 hp')).2

omit [GoFloat] in
theorem isEmpty_equal {v w : GoVal} (h : deepEqual v w = true) : Rpc.isEmpty w = Rpc.isEmpty v := by
  cases v <;> cases w <;> simp only [deepEqual, Bool.false_eq_true, beq_iff_eq] at h <;> simp only [Rpc.isEmpty]
  all_goals first
    | (subst h; rfl)
    | skip
  · rename_i a b
    cases a <;> cases b <;> simp_all [deepEqualList]
  · rename_i a b
    rw [Bool.and_eq_true, beq_iff_eq] at h
    have := h.1
    cases a <;> cases b <;> simp_all

omit [GoFloat] in
theorem fieldIndex_at {pre fs : List FieldDecl} {f : FieldDecl} {tag : Str} (ht : f.tag = some tag)
    (h : ((pre ++ f :: fs).filterMap (·.tag)).Pairwise (· ≠ ·)) : fieldIndex (pre ++ f :: fs) tag = some pre.length := by
  unfold fieldIndex
  have hm : ((pre ++ f :: fs).filterMap (·.tag)).contains tag = true := by
    rw [List.contains_iff_mem, List.mem_filterMap]
    exact ⟨f, by simp, ht⟩
  unfold fieldFor
  rw [if_pos hm]
  dsimp only
  rw [List.findIdx?_append]
  have hpre : pre.findIdx? (fun f => f.tag == some tag) = none := by
    rw [List.findIdx?_eq_none_iff]
    intro x hx
    rw [beq_eq_false_iff_ne]
    intro hxt
    rw [List.filterMap_append, List.pairwise_append] at h
    refine h.2.2 tag (List.mem_filterMap.2 ⟨x, hx, hxt⟩) tag ?_ rfl
    rw [List.filterMap_cons, ht]
    simp
  rw [hpre, List.findIdx?_cons, ht]
  simp

theorem trip_cons {d : Decls} {f : FieldDecl} {fs : List FieldDecl} {v : GoVal} {l : List GoVal} (h0 : Carried d f.type v)
    (h1 : Trip d f.type v)
    (h2 : f.tag = none ∨ (f.omitEmpty = true ∧ isEmpty v = true) → v = zero f.type) (h3 : TripFields d fs l) :
    TripFields d (f :: fs) (v :: l) := by
  obtain ⟨ms, i1, i2, ws, i3, i5, i4⟩ := h3
  have hskip : ∀ pre done, done.length = pre.length → ((pre ++ f :: fs).filterMap (·.tag)).Pairwise (· ≠ ·) →
      decodeMembers d (pre ++ f :: fs) (done ++ zeros (f :: fs)) ms = some (done ++ zero f.type :: ws) := by
    intro pre done hl hp
    have := i4 (pre ++ [f]) (done ++ [zero f.type]) (by simp [hl]) (by simpa using hp)
    have e1 : pre ++ f :: fs = pre ++ [f] ++ fs := by simp
    have e2 : done ++ zeros (f :: fs) = done ++ [zero f.type] ++ zeros fs := by simp [zeros]
    rw [e1, e2, this]
    simp
  by_cases hs : f.tag = none ∨ (f.omitEmpty = true ∧ isEmpty v = true)
  · have hv := h2 hs
    refine ⟨ms, ?_, i2, v :: ws, ?_, .cons h0 h2 i5, ?_⟩
    · rw [encodeFields]
      cases ht : f.tag with
      | none => exact i1
      | some tag =>
        dsimp only
        rcases hs with hs | ⟨e1, e2⟩
        · rw [hs] at ht; cases ht
        · rw [e1, e2]; exact i1
    · rw [deepEqualList, i3, hv, deepEqual_zero]; rfl
    · rw [hv]; exact hskip
  · obtain ⟨j, a1, a2, -, w, a3, a4, a5⟩ := h1
    cases ht : f.tag with
    | none => exact absurd (Or.inl ht) hs
    | some tag =>
      refine ⟨(tag, j) :: ms, ?_, ⟨a2, i2⟩, w :: ws, ?_, .cons a5 ?_ i5, ?_⟩
      · rw [encodeFields, ht]
        dsimp only
        rw [if_neg, a1, i1]
        intro hh
        rw [Bool.and_eq_true] at hh
        exact hs (Or.inr hh)
      · rw [deepEqualList, a4, i3]; rfl
      · intro hh
        rw [isEmpty_equal a4] at hh
        exact absurd hh hs
      · intro pre done hl hp
        rw [decodeMembers, fieldIndex_at ht hp]
        dsimp only
        rw [List.getElem?_append_right (Nat.le_refl _), Nat.sub_self]
        dsimp only [List.getElem?_cons_zero]
        have e2 : done ++ zeros (f :: fs) = done ++ zero f.type :: zeros fs := rfl
        rw [e2, ← hl, List.getElem?_append_right (Nat.le_refl _), Nat.sub_self]
        dsimp only [List.getElem?_cons_zero, Option.getD_some]
        rw [a3]
        dsimp only
        rw [List.set_append_right _ _ (Nat.le_refl _), Nat.sub_self, List.set_cons_zero]
        have := i4 (pre ++ [f]) (done ++ [w]) (by simp [hl]) (by simpa using hp)
        have e1 : pre ++ f :: fs = pre ++ [f] ++ fs := by simp
        have e3 : done ++ w :: zeros fs = done ++ [w] ++ zeros fs := by simp
        rw [e1, e3, this]
        simp

omit [GoFloat] in
theorem notNil {v w : GoVal} (h : deepEqual v w = true) (hv : v ≠ .nil) : w ≠ .nil := by
  rintro rfl
  cases v <;> simp [deepEqual] at h hv

theorem trip {d : Decls} (hd : WellDeclared d) :
    (∀ t v, Carried d t v → Trip d t v) ∧ (∀ fs l, CarriedFields d fs l → TripFields d fs l) := by
  have c1 : ∀ b : Bool, Trip d .bool (.bool b) := fun b =>
    ⟨.bool b, by rw [encode]; rfl, trivial, by simp, .bool b, rfl, by simp [deepEqual], .bool b⟩
  have c2 : ∀ {bits : Nat} {i : Int}, FitsSigned bits i → Trip d (.int bits) (.int i) := fun {bits i} h =>
    ⟨.num (intText i), by rw [encode], nums_int i, by simp, .int i, by
      rw [decode]
      show ((parseInt bits _).map GoVal.int).map _ = _
      rw [parseInt_text h]; rfl, by simp [deepEqual], .int h⟩
  have c3 : ∀ {bits : Nat} {i : Int}, FitsUnsigned bits i → Trip d (.uint bits) (.int i) := fun {bits i} h =>
    ⟨.num (intText i), by rw [encode], nums_int i, by simp, .int i, by
      rw [decode]
      show ((parseUint bits _).map GoVal.int).map _ = _
      rw [parseUint_text h]; rfl, by simp [deepEqual], .uint h⟩
  have c4 : ∀ {bits : Nat} {x : Str}, GoFloat.norm bits x = some x → Trip d (.float bits) (.float x) := fun {bits x} h =>
    ⟨.num x, by rw [encode]; rw [if_pos h], by rw [Nums]; exact GoFloat.norm_num h, by simp, .float x, by
      rw [decode]
      show ((GoFloat.norm bits _).map GoVal.float).map _ = _
      rw [h]; rfl, by simp [deepEqual], .float h⟩
  have c5 : ∀ s : Str, Trip d .string (.str s) := fun s =>
    ⟨.ofStr true s, by rw [encode]; rfl, nums_ofStr true s, by simp [Json.ofStr], .str s, by
      rw [Json.ofStr, decode]
      show ((cook _).map GoVal.str).map _ = _
      rw [cook_escape]; rfl, by simp [deepEqual], .str s⟩
  have c6 : ∀ i : Int, Trip d .big (.big i) := fun i =>
    ⟨.str (bigString i), by rw [encode]; rfl, nums_big i, by simp, .big i, by
      rw [decode]
      show ((bigUnmarshalJSON 0 (bigMarshal i)).map GoVal.big).map _ = _
      rw [(BigNum.C77_json 0 i).1]; rfl, by simp [deepEqual], .big i⟩
  have c7 : ∀ {n name : Str} {x : Nat}, (name, x) ∈ d.members n → Trip d (.enum n) (.enum x) := fun {n name x} h =>
    ⟨_, by rw [encode], nums_ofStr true _, by simp [Json.ofStr], .enum x, by
      rw [Json.ofStr, decode]
      show ((cook _).map fun s => GoVal.enum (enumOf (d.members n) s)).map _ = _
      rw [cook_escape]
      show some (GoVal.enum (enumOf (d.members n) _)) = _
      rw [enum_round hd h], by simp [deepEqual], .enum h⟩
  have c8 : ∀ {t : GoType}, Nullable t → Trip d t .nil := fun {t} h =>
    ⟨.null, by cases h <;> rw [encode], trivial, by simp, .nil, by cases h <;> rfl, rfl, .nil h⟩
  have c9 : ∀ {t : GoType} {v : GoVal}, Natural t → v ≠ .nil → Carried d t v → Trip d t v → Trip d .any (.dyn t v) := by
    rintro t v ht hv - ⟨j, h1, h2, h3, w, h4, h5, h6⟩
    have hj : j ≠ .null := fun h => hv (h3.1 h)
    refine ⟨j, by rw [encode, if_pos rfl]; exact h1, h2, ⟨fun h => absurd h hj, fun h => (nomatch h)⟩, .dyn t w, ?_, ?_, .dyn ht (notNil h5 hv) h6⟩
    · rw [decode_any]; exact natural_any d ht hj h4
    · rw [deepEqual, h5]; simp
  have c10 : ∀ {t : GoType} {v : GoVal}, v ≠ .nil → Carried d t v → Trip d t v → Trip d (.ptr t) (.ptr v) := by
    rintro t v hv - ⟨j, h1, h2, h3, w, h4, h5, h6⟩
    have hj : j ≠ .null := fun h => hv (h3.1 h)
    refine ⟨j, by rw [encode]; exact h1, h2, ⟨fun h => absurd h hj, fun h => (nomatch h)⟩, .ptr w, ?_, ?_, .ptr (notNil h5 hv) h6⟩
    · show decode d (.ptr t) .nil j = _
      rw [decode_ptr d t hj, h4]; rfl
    · rw [deepEqual, h5]
  have c11 : ∀ {n : Str} {l : List GoVal}, CarriedFields d (d.fields n) l → TripFields d (d.fields n) l →
      Trip d (.ref n) (.ptr (.struct l)) := by
    rintro n l - ⟨ms, h1, h2, ws, h3, h5, h4⟩
    refine ⟨.obj ms, by rw [encode]; rw [h1]; rfl, h2, by simp, .ptr (.struct ws), ?_, ?_, .ref h5⟩
    · rw [decode]
      show (decodeMembers d (d.fields n) (zeros (d.fields n)) ms).map _ = _
      have := h4 [] [] rfl (hd.tags n)
      rw [List.nil_append, List.nil_append, List.nil_append] at this
      rw [this]; rfl
    · rw [deepEqual, deepEqual, h3]
  have c12 : ∀ {t : GoType} {l : List GoVal}, t ≠ .uint 8 → (∀ v ∈ l, Carried d t v) → (∀ v ∈ l, Trip d t v) →
      Trip d (.list t) (.list l) := by
    intro t l ht _ h
    obtain ⟨js, h1, h2, ws, h3, h4, h5⟩ := trip_elems h
    refine ⟨.arr js, by rw [encode]; rw [h1]; rfl, h2, by simp, .list ws, ?_, ?_, .list ht h5⟩
    · rw [decode]
      show (if t = .uint 8 then none else (decodeElems d t [] js).map _) = _
      rw [if_neg ht, h3]; rfl
    · rw [deepEqual, h4]
  have c14 : TripFields d [] [] := by
    refine ⟨[], rfl, trivial, [], rfl, .nil, ?_⟩
    intro pre done _ _
    rw [decodeMembers]; simp [zeros]
  constructor
  · intro t v h
    exact Carried.rec (d := d) (motive_1 := fun t v _ => Trip d t v) (motive_2 := fun fs l _ => TripFields d fs l)
      c1 c2 c3 c4 c5 c6 c7 c8 c9 c10 c11 c12 (fun hn hk _ ih => trip_map hd hn hk ih) c14
      (fun h0 h2 _ i1 i3 => trip_cons h0 i1 h2 i3) h
  · intro fs l h
    exact CarriedFields.rec (d := d) (motive_1 := fun t v _ => Trip d t v) (motive_2 := fun fs l _ => TripFields d fs l)
      c1 c2 c3 c4 c5 c6 c7 c8 c9 c10 c11 c12 (fun hn hk _ ih => trip_map hd hn hk ih) c14
      (fun h0 h2 _ i1 i3 => trip_cons h0 i1 h2 i3) h

/-- C78. Every value that JSON can carry survives: what `json.Marshal` writes for it is JSON, and `json.Unmarshal` reads
that into an equal value (in the sense of `reflect.DeepEqual`). -/
theorem C78_round_trip {d : Decls} (hd : WellDeclared d) {t : GoType} {v : GoVal} (h : Carried d t v) :
    ∃ j w, encode d t v = some j ∧ parse (print ⟨false, true⟩ 0 j) = some j ∧
      decode d t (zero t) j = some w ∧ deepEqual v w = true ∧ Carried d t w := by
  obtain ⟨j, h1, h2, -, w, h3, h4, h5⟩ := (trip hd).1 t v h
  refine ⟨j, w, h1, ?_, h3, h4, h5⟩
  have := parse_printed ⟨false, true⟩ j h2 [] (by simp)
  rwa [List.append_nil] at this

/-- C78. The same for the struct of the arguments or results of a method. -/
theorem C78_payload {d : Decls} (hd : WellDeclared d) {fs : List FieldDecl} {vals : List GoVal}
    (ht : (fs.filterMap (·.tag)).Pairwise (· ≠ ·)) (h : CarriedFields d fs vals) :
    ∃ j ws, encodePayload d fs vals = some j ∧ Nums j ∧ parse (print ⟨false, true⟩ 0 j) = some j ∧
      decodePayload d fs j = some ws ∧ deepEqualList vals ws = true ∧ CarriedFields d fs ws := by
  obtain ⟨ms, h1, h2, ws, h3, h5, h4⟩ := (trip hd).2 fs vals h
  refine ⟨.obj ms, ws, by rw [encodePayload, h1]; rfl, h2, ?_, ?_, h3, h5⟩
  · have := parse_printed ⟨false, true⟩ (.obj ms) h2 [] (by simp)
    rwa [List.append_nil] at this
  · have := h4 [] [] rfl ht
    rw [List.nil_append, List.nil_append, List.nil_append] at this
    exact this

/-! ### What does not survive -/

/-- C78, why an `any` must hold what JSON gives: an integer in an `any` comes back as a float64. -/
theorem C78_any_int (d : Decls) (bits : Nat) (i : Int) (j : Json) (w : GoVal)
    (he : encode d .any (.dyn (.int bits) (.int i)) = some j) (hw : decode d .any .nil j = some w) :
    ∃ x, w = .dyn (.float 64) (.float x) ∧ deepEqual (.dyn (.int bits) (.int i)) w = false := by
  rw [encode, if_pos rfl, encode] at he
  cases he
  rw [decode_any, decodeAny] at hw
  cases hn : GoFloat.norm 64 (intText i) with
  | none => rw [hn] at hw; cases hw
  | some u =>
    rw [hn] at hw; cases hw
    exact ⟨u, rfl, by simp [deepEqual]⟩

/-- C78, why enums must hold a member: any other value is sent as the empty string and arrives as 0, which is usually a
member. -/
theorem C78_unknown_member {d : Decls} (hd : WellDeclared d) (n : Str) (x : Nat) (hx : ∀ name, (name, x) ∉ d.members n)
    (he : ∀ y, ([], y) ∉ d.members n) :
    encode d (.enum n) (.enum x) = some (.str []) ∧ decode d (.enum n) (.enum 0) (.str []) = some (.enum 0) := by
  have hE : EnumTables (d.members n) ((d.members n).map fun m => (m.2, m.1)) (d.members n) :=
    ⟨hd.names n, hd.values n, rfl, rfl⟩
  constructor
  · rw [encode, (C59_unknown hE).2 x hx]; rfl
  · rw [decode]
    show some (GoVal.enum (enumOf (d.members n) [])) = _
    rw [(C59_unknown hE).1 [] he]

/-- C78, why pointers must not point to nil: a pointer to a nil slice arrives as nil. -/
theorem C78_pointer_to_nil (d : Decls) (t : GoType) :
    encode d (.ptr (.list t)) (.ptr .nil) = some .null ∧ decode d (.ptr (.list t)) .nil .null = some .nil := by
  constructor
  · rw [encode, encode]
  · rfl

/-- C78, why fields that are not sent must be zero: they arrive as zero. -/
theorem C78_not_sent (d : Decls) (f : FieldDecl) (hf : f.tag = none) (v : GoVal) :
    encodeFields d [f] [v] = some [] ∧ decodeMembers d [f] (zeros [f]) [] = some [zero f.type] := by
  constructor
  · rw [encodeFields, hf, encodeFields]
  · rfl

omit [GoFloat] in
theorem blank_iff (v : GoVal) : isEmpty v = true ↔ LeftOut v := by
  constructor
  · intro h
    cases v with
    | bool b => cases b with
      | true => cases h
      | false => exact .bool
    | int i => simp only [Rpc.isEmpty, beq_iff_eq] at h; subst h; exact .int
    | float x =>
      simp only [Rpc.isEmpty, Bool.or_eq_true, beq_iff_eq] at h
      rcases h with rfl | rfl
      · exact .float
      · exact .negative
    | str s => simp only [Rpc.isEmpty, List.isEmpty_iff] at h; subst h; exact .str
    | enum n => simp only [Rpc.isEmpty, beq_iff_eq] at h; subst h; exact .enum
    | nil => exact .nil
    | list l => simp only [Rpc.isEmpty, List.isEmpty_iff] at h; subst h; exact .list
    | map l => simp only [Rpc.isEmpty, List.isEmpty_iff] at h; subst h; exact .map
    | _ => cases h
  · intro h; cases h <;> rfl

/-- C78. What is written for a struct: one member for each field that is sent, in the order of the declaration. -/
theorem C78_members (d : Decls) (fs : List FieldDecl) (vals : List GoVal) (hl : fs.length = vals.length) (ms : List (Str × Json)) :
    encodeFields d fs vals = some ms ↔ Members d fs vals ms := by
  induction fs generalizing vals ms with
  | nil => cases vals with
    | nil =>
      rw [encodeFields]
      constructor
      · intro h; cases h; exact .nil
      · intro h; cases h; rfl
    | cons _ _ => simp at hl
  | cons f fs ih => cases vals with
    | nil => simp at hl
    | cons v l =>
      have ih := ih l (by simpa using hl)
      rw [encodeFields]
      cases ht : f.tag with
      | none =>
        dsimp only
        rw [ih]
        constructor
        · intro h; exact .unsent ht h
        · intro h
          cases h with
          | unsent _ h => exact h
          | omitted t _ _ _ => rw [ht] at t; cases t
          | sent t _ _ _ => rw [ht] at t; cases t
      | some tag =>
        dsimp only
        by_cases hb : f.omitEmpty = true ∧ LeftOut v
        · rw [if_pos (by rw [Bool.and_eq_true, blank_iff]; exact hb), ih]
          constructor
          · intro h; exact .omitted ht hb.1 hb.2 h
          · intro h
            cases h with
            | unsent t _ => rw [ht] at t; cases t
            | omitted _ _ _ h => exact h
            | sent _ n _ _ => exact absurd hb.2 (n hb.1)
        · rw [if_neg (by rw [Bool.and_eq_true, blank_iff]; exact hb)]
          constructor
          · intro h
            cases he : encode d f.type v with
            | none => rw [he] at h; cases h
            | some j => cases hr : encodeFields d fs l with
              | none => rw [he, hr] at h; cases h
              | some js =>
                rw [he, hr] at h
                cases h
                exact .sent ht (fun a b => hb ⟨a, b⟩) he ((ih js).1 hr)
          · intro h
            cases h with
            | unsent t _ => rw [ht] at t; cases t
            | omitted _ a b _ => exact absurd ⟨a, b⟩ hb
            | sent t _ he h =>
              rw [ht] at t
              cases t
              rw [he, (ih _).2 h]

/-! ### An example -/

/-- Whole numbers as floating point numbers. -/
@[instance_reducible] def wholeFloats : GoFloat where
  norm _ t := (setString10 t).map intText
  norm_idem := by
    intro b t u h
    cases hs : setString10 t with
    | none => rw [hs] at h; cases h
    | some i =>
      rw [hs] at h; cases h
      rw [(BigNum.setString_iff _ _).2 (BigNum.integerText_int i)]; rfl
  norm_num := by
    intro b t u h
    cases hs : setString10 t with
    | none => rw [hs] at h; cases h
    | some i => rw [hs] at h; cases h; exact numText_int i
  norm_zero := by intro b; decide +kernel

theorem enums_named {d : Decls} {P : List (Str × Nat) → Prop} (h0 : P []) (h : ∀ p ∈ d.enums, P p.2) (n : Str) :
    P (d.members n) := by
  unfold Decls.members
  cases hl : d.enums.lookup n with
  | none => exact h0
  | some l => exact h _ (lookup_mem hl)

theorem structs_named {d : Decls} {P : List FieldDecl → Prop} (h0 : P []) (h : ∀ p ∈ d.structs, P p.2) (n : Str) :
    P (d.fields n) := by
  unfold Decls.fields
  cases hl : d.structs.lookup n with
  | none => exact h0
  | some l => exact h _ (lookup_mem hl)

/-- The declarations of the test service are proper ones. -/
theorem testDecls_ok : WellDeclared testDecls where
  names := enums_named (P := fun l => (l.map (·.1)).Pairwise (· ≠ ·)) .nil (by decide +kernel)
  values := enums_named (P := fun l => (l.map (·.2)).Pairwise (· ≠ ·)) .nil (by decide +kernel)
  tags := structs_named (P := fun l => (l.filterMap (·.tag)).Pairwise (· ≠ ·)) .nil (by decide +kernel)

theorem fits_int (i : Int) (h : -(2 ^ 63) ≤ i ∧ i < 2 ^ 63 := by decide) : FitsSigned 64 i := by
  obtain ⟨h1, h2⟩ := h
  exact ⟨by decide, by decide, h1, h2⟩

theorem fits_uint32 (i : Int) (h : 0 ≤ i ∧ i < 2 ^ 32 := by decide) : FitsUnsigned 32 i := ⟨by decide, h.1, h.2⟩

theorem fits_uint64 (i : Int) (h : 0 ≤ i ∧ i < 2 ^ 64 := by decide) : FitsUnsigned 64 i := ⟨by decide, h.1, h.2⟩

theorem plainField {d : Decls} {tag : Str} {t : GoType} {v : GoVal} {fs : List FieldDecl} {l : List GoVal}
    (h : Carried d t v) (h2 : CarriedFields d fs l) : CarriedFields d (fld tag t :: fs) (v :: l) :=
  .cons h (by rintro (h | h); · cases h
              · exact absurd h.1 (by simp [fld])) h2

theorem user_carried : Carried testDecls (.ref (S "User")) fixtureUser :=
  .ref (plainField (.uint (fits_uint64 1)) (plainField (.str _) (plainField (.str _) .nil)))

theorem simple_carried (i : Int) (name : Str) (h : -(2 ^ 63) ≤ i ∧ i < 2 ^ 63 := by decide) :
    Carried testDecls (.ref (S "Simple")) (simple i name) :=
  .ref (plainField (.int (fits_int i h)) (plainField (.str _) .nil))

theorem complex_carried (h : GoFloat.norm 64 (S "24") = some (S "24")) :
    Carried testDecls (.ref (S "Complex")) fixtureComplex := by
  have m : ∀ {k : KeyType} {t : GoType} {l : List (Key × GoVal)}, (l.map (·.1)).Pairwise (· ≠ ·) →
      (∀ p ∈ l, KeyOf testDecls k p.1 ∧ Carried testDecls t p.2) → Carried testDecls (.map k t) (.map l) :=
    fun h1 h2 => .map h1 (fun p hp => (h2 p hp).1) fun p hp => (h2 p hp).2
  refine .ref (plainField (m (by decide) ?_) (plainField (m (by decide) ?_) (plainField (.list (by decide) ?_)
    (plainField (.list (by decide) ?_) (plainField (.list (by decide) ?_) (plainField (.list (by decide) ?_)
    (plainField (.list (by decide) ?_) (plainField (m (by decide) ?_) (plainField user_carried
    (plainField (.enum (name := S "AVAILABLE") (by decide)) .nil))))))))))
  · simp only [List.mem_cons, List.not_mem_nil, or_false]
    rintro p (rfl | rfl)
    · exact ⟨.str _, .dyn .string (by simp) (.str _)⟩
    · exact ⟨.str _, .dyn .float (by simp) (.float h)⟩
  · simp only [List.mem_cons, List.not_mem_nil, or_false]
    rintro p rfl
    refine ⟨.str _, m (by decide) ?_⟩
    simp only [List.mem_cons, List.not_mem_nil, or_false]
    rintro p rfl
    exact ⟨.str _, .uint (fits_uint32 1)⟩
  · simp only [List.mem_cons, List.not_mem_nil, or_false]
    rintro p (rfl | rfl | rfl) <;> exact .str _
  · simp only [List.mem_cons, List.not_mem_nil, or_false]
    rintro p (rfl | rfl | rfl | rfl) <;> exact .int (fits_int _)
  · simp only [List.mem_cons, List.not_mem_nil, or_false]
    rintro p (rfl | rfl) <;> exact .list (by decide) (by simpa using .str _)
  · simp only [List.mem_cons, List.not_mem_nil, or_false]
    rintro p rfl
    refine m (by decide) ?_
    simp only [List.mem_cons, List.not_mem_nil, or_false]
    rintro p (rfl | rfl | rfl)
    · exact ⟨.str _, .uint (fits_uint32 1)⟩
    · exact ⟨.str _, .uint (fits_uint32 2)⟩
    · exact ⟨.str _, .uint (fits_uint32 251)⟩
  · simp only [List.mem_cons, List.not_mem_nil, or_false]
    rintro p rfl
    exact user_carried
  · simp only [List.mem_cons, List.not_mem_nil, or_false]
    rintro p rfl
    exact ⟨.str _, user_carried⟩

theorem enumList_carried : Carried testDecls (.list (.enum (S "Status"))) fixtureList := by
  refine .list (by decide) ?_
  simp only [List.mem_cons, List.not_mem_nil, or_false]
  rintro p (rfl | rfl)
  · exact .enum (name := S "AVAILABLE") (by decide)
  · exact .enum (name := S "NOT_AVAILABLE") (by decide)

theorem enumMap_carried : Carried testDecls (.map (.enum (S "Access")) (.uint 64)) fixtureDict := by
  refine .map (by decide) ?_ ?_
  · simp only [List.mem_cons, List.not_mem_nil, or_false]
    rintro p (rfl | rfl)
    · exact .enum (name := S "READ") (by decide)
    · exact .enum (name := S "WRITE") (by decide)
  · simp only [List.mem_cons, List.not_mem_nil, or_false]
    rintro p (rfl | rfl)
    · exact .uint (fits_uint64 1)
    · exact .uint (fits_uint64 2)

/-- C78. The hypotheses hold of the test service's declarations and its largest fixture, which is not empty anywhere. -/
theorem C78_example : WellDeclared testDecls ∧
    (let _ := wholeFloats; Carried testDecls (.ref (S "Complex")) fixtureComplex) ∧
    (let _ := wholeFloats
     (encode testDecls (.map (.enum (S "Access")) (.uint 64)) fixtureDict).map (print ⟨false, true⟩ 0) =
       some (S "{\"READ\":1,\"WRITE\":2}")) := by
  refine ⟨testDecls_ok, ?_, by decide +kernel⟩
  letI := wholeFloats
  exact complex_carried (by decide +kernel)

end Verif.Values
