import Verif.Schema.Filter
import Verif.Spec.Usage
import Verif.Spec.Graphs
import Verif.Ridl.GraphLemmas
/-! Lemmas on tree shaking. -/

namespace Verif.Schema
open Verif.Spec

theorem deref_iff (ts : List TypeDecl) (p : Ptr) (t : TypeDecl) : deref ts p = some t ↔ Declares ts p t := by
  unfold deref Declares
  rw [List.find?_eq_some_iff_append]
  constructor
  · rintro ⟨h1, as_, bs, h2, h3⟩
    exact ⟨as_, bs, h2, by simpa using h1, fun x hx => by simpa using h3 x hx⟩
  · rintro ⟨as_, bs, h2, h1, h3⟩
    exact ⟨by simpa using h1, as_, bs, h2, fun x hx => by simpa using h3 x hx⟩

theorem markAll_some {α : Type} {f : α → Option (List Str)} {xs : List α} {r : List Str}
    (h : markAll f xs = some r) : (∀ x ∈ xs, ∃ a, f x = some a) ∧
      ∀ w, w ∈ r ↔ ∃ x ∈ xs, ∃ a, f x = some a ∧ w ∈ a := by
  induction xs generalizing r with
  | nil => simp [markAll] at h; simp [h]
  | cons x xs ih =>
    unfold markAll at h
    split at h
    · rename_i a b ha hb
      simp only [Option.some.injEq] at h
      subst h
      obtain ⟨h1, h2⟩ := ih hb
      constructor
      · intro y hy
        rcases List.mem_cons.1 hy with rfl | hy
        · exact ⟨a, ha⟩
        · exact h1 y hy
      · intro w
        rw [List.mem_append, h2]
        constructor
        · rintro (hw | ⟨y, hy, c, hc, hw⟩)
          · exact ⟨x, by simp, a, ha, hw⟩
          · exact ⟨y, by simp [hy], c, hc, hw⟩
        · rintro ⟨y, hy, c, hc, hw⟩
          rcases List.mem_cons.1 hy with rfl | hy
          · rw [ha] at hc; cases hc; exact .inl hw
          · exact .inr ⟨y, hy, c, hc, hw⟩
    · cases h

theorem markAll_none {α : Type} {f : α → Option (List Str)} {xs : List α} :
    markAll f xs = none ↔ ∃ x ∈ xs, f x = none := by
  induction xs with
  | nil => simp [markAll]
  | cons x xs ih =>
    unfold markAll
    cases hx : f x <;> cases hxs : markAll f xs <;> simp_all

theorem markVar_none {ts : List TypeDecl} {rec : TypeDecl → Option (List Str)} {v : VarType} :
    markVar ts rec v = none ↔ ∃ t, MentionsStruct ts v t ∧ rec t = none := by
  induction v with
  | leaf e c =>
    simp only [markVar, reduceCtorEq, false_iff]
    rintro ⟨t, ⟨_, _, _, h, _⟩, _⟩; cases h
  | alias e n p =>
    simp only [markVar, reduceCtorEq, false_iff]
    rintro ⟨t, ⟨_, _, _, h, _⟩, _⟩; cases h
  | list e el ih =>
    simp only [markVar, ih]
    constructor
    · rintro ⟨t, ⟨e', n, p, h, hd⟩, hr⟩; exact ⟨t, ⟨e', n, p, .elem _ _ _ h, hd⟩, hr⟩
    · rintro ⟨t, ⟨e', n, p, h, hd⟩, hr⟩; cases h with | elem _ _ _ h => exact ⟨t, ⟨e', n, p, h, hd⟩, hr⟩
  | map e k v ihk ihv =>
    have h0 : markVar ts rec (.map e k v) = none ↔ markVar ts rec k = none ∨ markVar ts rec v = none := by
      simp only [markVar]
      cases markVar ts rec k <;> cases markVar ts rec v <;> simp
    rw [h0, ihk, ihv]
    constructor
    · rintro (⟨t, ⟨e', n, p, h, hd⟩, hr⟩ | ⟨t, ⟨e', n, p, h, hd⟩, hr⟩)
      · exact ⟨t, ⟨e', n, p, .key _ _ _ _ h, hd⟩, hr⟩
      · exact ⟨t, ⟨e', n, p, .value _ _ _ _ h, hd⟩, hr⟩
    · rintro ⟨t, ⟨e', n, p, h, hd⟩, hr⟩
      cases h with
      | key _ _ _ _ h => exact .inl ⟨t, ⟨e', n, p, h, hd⟩, hr⟩
      | value _ _ _ _ h => exact .inr ⟨t, ⟨e', n, p, h, hd⟩, hr⟩
  | struct e n p =>
    simp only [markVar]
    constructor
    · intro h
      split at h
      · cases h
      · rename_i t ht
        split at h
        · cases h
        · rename_i hr
          exact ⟨t, ⟨e, n, p, .self _, (deref_iff _ _ _).1 ht⟩, hr⟩
    · rintro ⟨t, ⟨e', n', p', h, hd⟩, hr⟩
      cases h
      rw [(deref_iff _ _ _).2 hd]
      simp [hr]
  | enum e n p =>
    simp only [markVar]
    constructor
    · intro h; split at h <;> cases h
    · rintro ⟨t, ⟨_, _, _, h, _⟩, _⟩; cases h

theorem mem_nameMark {t : TypeDecl} {w : Str} : w ∈ nameMark t ↔ w = t.name ∧ w ≠ [] := by
  unfold nameMark
  split
  · rename_i h; simp [h]
  · rename_i h
    simp only [List.mem_cons, List.not_mem_nil, or_false]
    constructor
    · rintro rfl; exact ⟨rfl, h⟩
    · exact fun h => h.1

theorem markVar_some {ts : List TypeDecl} {rec : TypeDecl → Option (List Str)} {v : VarType} {r : List Str}
    (h : markVar ts rec v = some r) (w : Str) : w ∈ r ↔
      (∃ t, Mentions ts v t ∧ w = t.name ∧ w ≠ []) ∨
      ∃ t a, MentionsStruct ts v t ∧ rec t = some a ∧ w ∈ a := by
  induction v generalizing r with
  | leaf e c =>
    simp only [markVar, Option.some.injEq] at h
    subst h
    simp only [List.not_mem_nil, false_iff]
    rintro (⟨t, (⟨_, _, _, h, _⟩ | ⟨_, _, _, h, _⟩), _⟩ | ⟨t, _, ⟨_, _, _, h, _⟩, _⟩) <;> cases h
  | alias e n p =>
    simp only [markVar, Option.some.injEq] at h
    subst h
    simp only [List.not_mem_nil, false_iff]
    rintro (⟨t, (⟨_, _, _, h, _⟩ | ⟨_, _, _, h, _⟩), _⟩ | ⟨t, _, ⟨_, _, _, h, _⟩, _⟩) <;> cases h
  | list e el ih =>
    simp only [markVar] at h
    rw [ih h]
    have hs : ∀ t, MentionsStruct ts (.list e el) t ↔ MentionsStruct ts el t := by
      intro t
      constructor
      · rintro ⟨e', n, p, h, hd⟩; cases h with | elem _ _ _ h => exact ⟨e', n, p, h, hd⟩
      · rintro ⟨e', n, p, h, hd⟩; exact ⟨e', n, p, .elem _ _ _ h, hd⟩
    have he : ∀ t, Mentions ts (.list e el) t ↔ Mentions ts el t := by
      intro t
      unfold Mentions
      rw [hs]
      constructor
      · rintro (h | ⟨e', n, p, h, hd⟩)
        · exact .inl h
        · cases h with | elem _ _ _ h => exact .inr ⟨e', n, p, h, hd⟩
      · rintro (h | ⟨e', n, p, h, hd⟩)
        · exact .inl h
        · exact .inr ⟨e', n, p, .elem _ _ _ h, hd⟩
    simp only [hs, he]
  | map e k v ihk ihv =>
    simp only [markVar] at h
    have hs : ∀ t, MentionsStruct ts (.map e k v) t ↔ MentionsStruct ts k t ∨ MentionsStruct ts v t := by
      intro t
      constructor
      · rintro ⟨e', n, p, h, hd⟩
        cases h with
        | key _ _ _ _ h => exact .inl ⟨e', n, p, h, hd⟩
        | value _ _ _ _ h => exact .inr ⟨e', n, p, h, hd⟩
      · rintro (⟨e', n, p, h, hd⟩ | ⟨e', n, p, h, hd⟩)
        · exact ⟨e', n, p, .key _ _ _ _ h, hd⟩
        · exact ⟨e', n, p, .value _ _ _ _ h, hd⟩
    have he : ∀ t, Mentions ts (.map e k v) t ↔ Mentions ts k t ∨ Mentions ts v t := by
      intro t
      unfold Mentions
      rw [hs]
      constructor
      · rintro ((h | h) | ⟨e', n, p, h, hd⟩)
        · exact .inl (.inl h)
        · exact .inr (.inl h)
        · cases h with
          | key _ _ _ _ h => exact .inl (.inr ⟨e', n, p, h, hd⟩)
          | value _ _ _ _ h => exact .inr (.inr ⟨e', n, p, h, hd⟩)
      · rintro ((h | ⟨e', n, p, h, hd⟩) | (h | ⟨e', n, p, h, hd⟩))
        · exact .inl (.inl h)
        · exact .inr ⟨e', n, p, .key _ _ _ _ h, hd⟩
        · exact .inl (.inr h)
        · exact .inr ⟨e', n, p, .value _ _ _ _ h, hd⟩
    split at h
    · rename_i a b ha hb
      simp only [Option.some.injEq] at h
      subst h
      rw [List.mem_append, ihk ha, ihv hb]
      simp only [hs, he]
      constructor
      · rintro ((⟨t, h⟩ | ⟨t, a, h⟩) | (⟨t, h⟩ | ⟨t, a, h⟩))
        · exact .inl ⟨t, .inl h.1, h.2⟩
        · exact .inr ⟨t, a, .inl h.1, h.2⟩
        · exact .inl ⟨t, .inr h.1, h.2⟩
        · exact .inr ⟨t, a, .inr h.1, h.2⟩
      · rintro (⟨t, (h | h), h'⟩ | ⟨t, a, (h | h), h'⟩)
        · exact .inl (.inl ⟨t, h, h'⟩)
        · exact .inr (.inl ⟨t, h, h'⟩)
        · exact .inl (.inr ⟨t, a, h, h'⟩)
        · exact .inr (.inr ⟨t, a, h, h'⟩)
    · cases h
  | struct e n p =>
    simp only [markVar] at h
    have hs : ∀ t, MentionsStruct ts (.struct e n p) t ↔ deref ts p = some t := by
      intro t
      rw [deref_iff]
      constructor
      · rintro ⟨e', n', p', h, hd⟩; cases h; exact hd
      · intro h; exact ⟨e, n, p, .self _, h⟩
    have he : ∀ t, Mentions ts (.struct e n p) t ↔ deref ts p = some t := by
      intro t
      unfold Mentions
      rw [hs]
      constructor
      · rintro (h | ⟨e', n', p', h, hd⟩)
        · exact h
        · cases h
      · exact .inl
    simp only [hs, he]
    split at h
    · rename_i hd
      cases h
      simp [hd]
    · rename_i t hd
      split at h
      · rename_i a ha
        simp only [Option.some.injEq] at h
        subst h
        rw [List.mem_append, mem_nameMark]
        constructor
        · rintro (h | h)
          · exact .inl ⟨t, hd, h⟩
          · exact .inr ⟨t, a, hd, ha, h⟩
        · rintro (⟨t', h, h'⟩ | ⟨t', a', h, h', h''⟩)
          · rw [hd] at h; cases h; exact .inl h'
          · rw [hd] at h; cases h; rw [ha] at h'; cases h'; exact .inr h''
      · cases h
  | enum e n p =>
    simp only [markVar] at h
    have hs : ∀ t, ¬ MentionsStruct ts (.enum e n p) t := by
      rintro t ⟨e', n', p', h, hd⟩; cases h
    have he : ∀ t, Mentions ts (.enum e n p) t ↔ deref ts p = some t := by
      intro t
      unfold Mentions
      rw [deref_iff]
      constructor
      · rintro (h | ⟨e', n', p', h, hd⟩)
        · exact absurd h (hs t)
        · cases h; exact hd
      · intro h; exact .inr ⟨e, n, p, .self _, h⟩
    simp only [he]
    split at h
    · rename_i hd
      cases h
      simp only [List.not_mem_nil, false_iff]
      rintro (⟨t, h, _⟩ | ⟨t, a, h, _⟩)
      · rw [hd] at h; cases h
      · exact hs t h
    · rename_i t hd
      simp only [Option.some.injEq] at h
      subst h
      rw [mem_nameMark]
      constructor
      · exact fun h => .inl ⟨t, hd, h⟩
      · rintro (⟨t', h, h'⟩ | ⟨t', a', h, h', h''⟩)
        · rw [hd] at h; cases h; exact h'
        · exact absurd h (hs _)

/-- Marks made by walking over the fields of a struct. -/
theorem markFields_some {ts : List TypeDecl} (n : Nat) {t : TypeDecl} {r : List Str}
    (h : markFields ts n t = some r) (w : Str) : w ∈ r ↔
      ∃ f ∈ t.fields, ∃ v u, f.type = some v ∧ Needs ts v u ∧ w = u.name ∧ w ≠ [] := by
  induction n generalizing t r w with
  | zero => simp [markFields] at h
  | succ n ih =>
    unfold markFields at h
    obtain ⟨h1, h2⟩ := markAll_some h
    rw [h2]
    constructor
    · rintro ⟨v, hv, a, ha, hw⟩
      obtain ⟨f, hf, hfv⟩ := List.mem_filterMap.1 hv
      rw [markVar_some ha] at hw
      rcases hw with ⟨u, hu, hw⟩ | ⟨u, b, hu, hb, hw⟩
      · exact ⟨f, hf, v, u, hfv, .here hu, hw⟩
      · rw [ih hb] at hw
        obtain ⟨g, hg, v', u', hgv, hn, hw⟩ := hw
        exact ⟨f, hf, v, u', hfv, .field g hu hg hgv hn, hw⟩
    · rintro ⟨f, hf, v, u, hfv, hn, hw⟩
      have hv : v ∈ t.fields.filterMap (·.type) := List.mem_filterMap.2 ⟨f, hf, hfv⟩
      obtain ⟨a, ha⟩ := h1 v hv
      refine ⟨v, hv, a, ha, ?_⟩
      rw [markVar_some ha]
      cases hn with
      | here h => exact .inl ⟨u, h, hw⟩
      | @field _ v' _ u' g hm hg hgv hn =>
        right
        have hb : ∃ b, markFields ts n u' = some b := by
          cases hb : markFields ts n u' with
          | some b => exact ⟨b, rfl⟩
          | none =>
            have := markVar_none.2 ⟨u', hm, hb⟩
            rw [ha] at this; cases this
        obtain ⟨b, hb⟩ := hb
        exact ⟨u', b, hm, hb, (ih hb w).2 ⟨g, hg, v', u, hgv, hn, hw⟩⟩

theorem markVarN_some {ts : List TypeDecl} (n : Nat) {v : VarType} {r : List Str}
    (h : markVar ts (markFields ts n) v = some r) (w : Str) : w ∈ r ↔
      ∃ u, Needs ts v u ∧ w = u.name ∧ w ≠ [] := by
  rw [markVar_some h]
  constructor
  · rintro (⟨u, hu, hw⟩ | ⟨u, a, hu, ha, hw⟩)
    · exact ⟨u, .here hu, hw⟩
    · rw [markFields_some n ha] at hw
      obtain ⟨f, hf, v', u', hfv, hn, hw⟩ := hw
      exact ⟨u', .field f hu hf hfv hn, hw⟩
  · rintro ⟨u, hn, hw⟩
    cases hn with
    | here h => exact .inl ⟨u, h, hw⟩
    | @field _ v' _ u' g hm hg hgv hn =>
      have hb : ∃ b, markFields ts n u' = some b := by
        cases hb : markFields ts n u' with
        | some b => exact ⟨b, rfl⟩
        | none =>
          have := markVar_none.2 ⟨u', hm, hb⟩
          rw [h] at this; cases this
      obtain ⟨b, hb⟩ := hb
      exact .inr ⟨u', b, hm, hb, (markFields_some n hb w).2 ⟨g, hg, v', u, hgv, hn, hw⟩⟩

/-! ### Termination -/

/-- A chain of `n` nested structs below `t`. -/
inductive Chain (E : TypeDecl → TypeDecl → Prop) : TypeDecl → List TypeDecl → Prop
  | nil (t : TypeDecl) : Chain E t []
  | cons {t u : TypeDecl} {l : List TypeDecl} : E t u → Chain E u l → Chain E t (u :: l)

theorem markFields_none {ts : List TypeDecl} (n : Nat) (t : TypeDecl) :
    markFields ts n t = none ↔ ∃ l, l.length = n ∧ Chain (Holds ts) t l := by
  induction n generalizing t with
  | zero =>
    simp only [markFields, true_iff]
    exact ⟨[], rfl, .nil t⟩
  | succ n ih =>
    unfold markFields
    rw [markAll_none]
    constructor
    · rintro ⟨v, hv, hn⟩
      obtain ⟨f, hf, hfv⟩ := List.mem_filterMap.1 hv
      rw [markVar_none] at hn
      obtain ⟨u, hu, hn⟩ := hn
      obtain ⟨l, hl, hc⟩ := (ih u).1 hn
      exact ⟨u :: l, by simp [hl], .cons ⟨f, hf, v, hfv, hu⟩ hc⟩
    · rintro ⟨l, hl, hc⟩
      cases hc with
      | nil => simp at hl
      | @cons _ u l hE hc =>
        obtain ⟨f, hf, v, hfv, hu⟩ := hE
        refine ⟨v, List.mem_filterMap.2 ⟨f, hf, hfv⟩, ?_⟩
        rw [markVar_none]
        exact ⟨u, hu, (ih u).2 ⟨l, by simpa using hl, hc⟩⟩

theorem Chain.path {E : TypeDecl → TypeDecl → Prop} {t : TypeDecl} {l : List TypeDecl} (h : Chain E t l)
    {u : TypeDecl} (hu : u ∈ l) : Path E t u := by
  induction h with
  | nil => cases hu
  | cons hE hc ih =>
    rcases List.mem_cons.1 hu with rfl | hu
    · exact .edge hE
    · exact .step hE (ih hu)

theorem holds_mem {ts : List TypeDecl} {t u : TypeDecl} (h : Holds ts t u) : u ∈ ts ∧ deref ts u.ptr = some u := by
  obtain ⟨f, _, v, _, e, n, p, _, hd⟩ := h
  have h2 := hd
  obtain ⟨b, a, rfl, hp, hb⟩ := hd
  refine ⟨by simp, ?_⟩
  rw [deref_iff, hp]; exact h2

theorem chain_mem {ts : List TypeDecl} {t : TypeDecl} {l : List TypeDecl} (h : Chain (Holds ts) t l) :
    ∀ u ∈ l, u ∈ ts ∧ deref ts u.ptr = some u := by
  induction h with
  | nil => simp
  | cons hE hc ih =>
    intro u hu
    rcases List.mem_cons.1 hu with rfl | hu
    · exact holds_mem hE
    · exact ih u hu

theorem nodup_le {α : Type} [DecidableEq α] {l k : List α} (hn : l.Nodup) (h : ∀ x ∈ l, x ∈ k) :
    l.length ≤ k.length := by
  induction l generalizing k with
  | nil => simp
  | cons x xs ih =>
    have hx := h x (by simp)
    obtain ⟨a, b, rfl⟩ := List.append_of_mem hx
    have hn' := List.nodup_cons.1 hn
    have := ih (k := a ++ b) hn'.2 (fun y hy => by
      have := h y (by simp [hy])
      simp only [List.mem_append, List.mem_cons] at this ⊢
      rcases this with h | rfl | h
      · exact .inl h
      · exact absurd hy hn'.1
      · exact .inr h)
    simp only [List.length_append, List.length_cons] at this ⊢
    omega

/-- A long chain of structs runs into a cycle. -/
theorem chain_cycle {ts : List TypeDecl} {t : TypeDecl} {l : List TypeDecl} (h : Chain (Holds ts) t l)
    (hl : ts.length < l.length) : ∃ u, Path (Holds ts) t u ∧ Path (Holds ts) u u := by
  -- find a repeated identity
  have key : ∀ (t : TypeDecl) (l : List TypeDecl), Chain (Holds ts) t l → ¬ (l.map (·.ptr)).Nodup →
      ∃ u, Path (Holds ts) t u ∧ Path (Holds ts) u u := by
    intro t l h
    induction h with
    | nil => intro hn; simp at hn
    | @cons t u l hE hc ih =>
      intro hn
      by_cases hd : (l.map (·.ptr)).Nodup
      · have : u.ptr ∈ l.map (·.ptr) := by
          refine Classical.byContradiction fun hno => hn ?_
          simp only [List.map_cons, List.nodup_cons]
          exact ⟨hno, hd⟩
        obtain ⟨w, hw, hp⟩ := List.mem_map.1 this
        have h1 := (chain_mem hc w hw).2
        have h2 := (holds_mem hE).2
        rw [hp, h2] at h1
        cases h1
        exact ⟨u, .edge hE, hc.path hw⟩
      · obtain ⟨w, h1, h2⟩ := ih hd
        exact ⟨w, .step hE h1, h2⟩
  apply key t l h
  intro hn
  have := nodup_le (k := ts.map (·.ptr)) hn (fun p hp => by
    obtain ⟨u, hu, rfl⟩ := List.mem_map.1 hp
    exact List.mem_map_of_mem (chain_mem h u hu).1)
  simp only [List.length_map] at this
  omega

/-- From a cycle there are chains of any length. -/
theorem cycle_chain {E : TypeDecl → TypeDecl → Prop} {u : TypeDecl} (h : Path E u u) (n : Nat) :
    ∃ l, l.length = n ∧ Chain E u l := by
  have key : ∀ {x y : TypeDecl} (h : Path E x y), ∀ n, (∃ l, l.length = n ∧ Chain E y l) →
      ∃ l, l.length = n + 1 ∧ Chain E x l := by
    intro x y h
    induction h with
    | edge hE => rintro n ⟨l, hl, hc⟩; exact ⟨_ :: l, by simp [hl], .cons hE hc⟩
    | step hE _ ih =>
      rintro n hn
      obtain ⟨l, hl, hc⟩ := ih n hn
      cases n with
      | zero =>
        refine ⟨[_], rfl, .cons hE (.nil _)⟩
      | succ n =>
        -- drop the last element of the chain
        have hpre : ∀ (l : List TypeDecl) (x : TypeDecl) (k : Nat), Chain E x l → k ≤ l.length → Chain E x (l.take k) := by
          intro l x k hc hk
          induction hc generalizing k with
          | nil => simp; exact .nil _
          | cons hE hc ih =>
            cases k with
            | zero => exact .nil _
            | succ k => exact .cons hE (ih k (by simpa using hk))
        refine ⟨_ :: l.take (n + 1), ?_, .cons hE (hpre _ _ _ hc (by omega))⟩
        simp [hl]
  induction n with
  | zero => exact ⟨[], rfl, .nil _⟩
  | succ n ih => exact key h n ih

/-- The walk over the fields of `t` ends exactly when no recursive struct is below `t`. -/
theorem markFields_ends {ts : List TypeDecl} (t : TypeDecl) :
    (∃ n, markFields ts n t ≠ none) ↔ ¬ ∃ u, Reach (Holds ts) t u ∧ Path (Holds ts) u u := by
  constructor
  · rintro ⟨n, hn⟩ ⟨u, hr, hp⟩
    apply hn
    rw [markFields_none]
    have hx : ∀ {x y : TypeDecl}, Path (Holds ts) x y → Path (Holds ts) y y → ∀ n, ∃ l, l.length = n ∧ Chain (Holds ts) x l := by
      intro x y h hy n
      induction h generalizing n with
      | edge hE =>
        cases n with
        | zero => exact ⟨[], rfl, .nil _⟩
        | succ n =>
          obtain ⟨l, hl, hc⟩ := cycle_chain hy n
          exact ⟨_ :: l, by simp [hl], .cons hE hc⟩
      | step hE _ ih =>
        cases n with
        | zero => exact ⟨[], rfl, .nil _⟩
        | succ n =>
          obtain ⟨l, hl, hc⟩ := ih hy n
          exact ⟨_ :: l, by simp [hl], .cons hE hc⟩
    rcases hr with rfl | hr
    · exact cycle_chain hp n
    · exact hx hr hp n
  · intro hno
    refine ⟨ts.length + 1, fun hn => hno ?_⟩
    rw [markFields_none] at hn
    obtain ⟨l, hl, hc⟩ := hn
    obtain ⟨u, h1, h2⟩ := chain_cycle hc (by omega)
    exact ⟨u, .inr h1, h2⟩

theorem markFields_bound {ts : List TypeDecl} (t : TypeDecl) (n : Nat) (h : markFields ts n t ≠ none) :
    markFields ts (ts.length + 1) t ≠ none := by
  intro hn
  rw [markFields_none] at hn
  obtain ⟨l, hl, hc⟩ := hn
  obtain ⟨u, h1, h2⟩ := chain_cycle hc (by omega)
  exact (markFields_ends t).1 ⟨n, h⟩ ⟨u, .inr h1, h2⟩

theorem mem_serviceVars {v : Service} {t : VarType} : t ∈ serviceVars v ↔ ArgOf v t := by
  unfold serviceVars ArgOf
  simp only [List.mem_flatMap, List.mem_filterMap]

end Verif.Schema
