import Verif.Props.Values
/-!
# Properties of Go values sent as JSON: equality (C78)
-/

namespace Verif.Values
open Verif.Schema hiding Json Method
open Verif.Json Verif.Gen Verif.Rpc Verif.RpcSpec Verif.Props

/-! ### `deepEqual` -/

theorem deepEqualMap_iff {l r : List (Key × GoVal)} :
    deepEqualMap l r = true ↔ ∀ p ∈ l, ∃ w, r.lookup p.1 = some w ∧ deepEqual p.2 w = true := by
  constructor
  · intro h
    induction l with
    | nil => simp
    | cons p l ih =>
      obtain ⟨k, a⟩ := p
      rw [deepEqualMap, Bool.and_eq_true] at h
      intro q hq
      rcases List.mem_cons.1 hq with rfl | hq
      · cases hl : r.lookup k with
        | none => rw [hl] at h; exact absurd h.1 (by simp)
        | some w => rw [hl] at h; exact ⟨w, rfl, h.1⟩
      · exact ih h.2 q hq
  · exact deepEqualMap_of

theorem deepEqual_trans :
    (∀ a b c, deepEqual a b = true → deepEqual b c = true → deepEqual a c = true) := by
  intro a
  refine GoVal.rec (motive_1 := fun a => ∀ b c, deepEqual a b = true → deepEqual b c = true → deepEqual a c = true)
    (motive_2 := fun l => ∀ b c, deepEqualList l b = true → deepEqualList b c = true → deepEqualList l c = true)
    (motive_3 := fun l => ∀ p ∈ l, ∀ b c, deepEqual p.2 b = true → deepEqual b c = true → deepEqual p.2 c = true)
    (motive_4 := fun p => ∀ b c, deepEqual p.2 b = true → deepEqual b c = true → deepEqual p.2 c = true)
    ?_ ?_ ?_ ?_ ?_ ?_ ?_ ?_ ?_ ?_ ?_ ?_ ?_ ?_ ?_ ?_ ?_ a
  · intro x b c h1 h2; cases b <;> cases c <;> simp_all [deepEqual]
  · intro x b c h1 h2; cases b <;> cases c <;> simp_all [deepEqual]
  · intro x b c h1 h2; cases b <;> cases c <;> simp_all [deepEqual]
  · intro x b c h1 h2; cases b <;> cases c <;> simp_all [deepEqual]
  · intro x b c h1 h2; cases b <;> cases c <;> simp_all [deepEqual]
  · intro x b c h1 h2; cases b <;> cases c <;> simp_all [deepEqual]
  · intro b c h1 h2; cases b <;> cases c <;> simp_all [deepEqual]
  · intro t v ih b c h1 h2
    cases b <;> first | (simp [deepEqual] at h1; done) | skip
    cases c <;> first | (simp [deepEqual] at h2; done) | skip
    rw [deepEqual, Bool.and_eq_true, decide_eq_true_iff] at *
    exact ⟨h1.1.trans h2.1, ih _ _ h1.2 h2.2⟩
  · intro v ih b c h1 h2
    cases b <;> first | (simp [deepEqual] at h1; done) | skip
    cases c <;> first | (simp [deepEqual] at h2; done) | skip
    rw [deepEqual] at *
    exact ih _ _ h1 h2
  · intro v ih b c h1 h2
    cases b <;> first | (simp [deepEqual] at h1; done) | skip
    cases c <;> first | (simp [deepEqual] at h2; done) | skip
    rw [deepEqual] at *
    exact ih _ _ h1 h2
  · intro v ih b c h1 h2
    cases b <;> first | (simp [deepEqual] at h1; done) | skip
    cases c <;> first | (simp [deepEqual] at h2; done) | skip
    rw [deepEqual, Bool.and_eq_true, beq_iff_eq, deepEqualMap_iff] at *
    refine ⟨h1.1.trans h2.1, ?_⟩
    intro p hp
    obtain ⟨w, w1, w2⟩ := h1.2 p hp
    obtain ⟨x, x1, x2⟩ := h2.2 _ (lookup_mem w1)
    exact ⟨x, x1, ih p hp _ _ w2 x2⟩
  · intro v ih b c h1 h2
    cases b <;> first | (simp [deepEqual] at h1; done) | skip
    cases c <;> first | (simp [deepEqual] at h2; done) | skip
    rw [deepEqual] at *
    exact ih _ _ h1 h2
  · intro b c h1 h2; cases b <;> cases c <;> simp_all [deepEqualList]
  · intro v l ih1 ih2 b c h1 h2
    cases b <;> first | (simp [deepEqualList] at h1; done) | skip
    cases c <;> first | (simp [deepEqualList] at h2; done) | skip
    rw [deepEqualList, Bool.and_eq_true] at *
    exact ⟨ih1 _ _ h1.1 h2.1, ih2 _ _ h1.2 h2.2⟩
  · intro p hp; cases hp
  · intro p l ih1 ih2 q hq
    rcases List.mem_cons.1 hq with rfl | hq
    · exact ih1
    · exact ih2 q hq
  · intro k v ih; exact ih

theorem deepEqualList_trans : ∀ {a b c : List GoVal}, deepEqualList a b = true → deepEqualList b c = true →
    deepEqualList a c = true
  | [], [], [], _, _ => rfl
  | x :: a, y :: b, z :: c, h1, h2 => by
    rw [deepEqualList, Bool.and_eq_true] at *
    exact ⟨deepEqual_trans _ _ _ h1.1 h2.1, deepEqualList_trans h1.2 h2.2⟩
  | [], _ :: _, _, h, _ => by simp [deepEqualList] at h
  | _ :: _, [], _, h, _ => by simp [deepEqualList] at h
  | [], [], _ :: _, _, h => by simp [deepEqualList] at h
  | _ :: _, _ :: _, [], _, h => by simp [deepEqualList] at h

variable [GoFloat]

/-! ### Equal values have the same JSON -/

/-- What is written for an entry of a map. -/
def writeEntry (d : Decls) (k : KeyType) (t : GoType) (p : Key × GoVal) : Str × Json :=
  ((keyText d k p.1).getD [], (encode d t p.2).getD .null)

theorem encodeEntries_map {d : Decls} {k : KeyType} {t : GoType} {l : List (Key × GoVal)}
    (h : ∀ p ∈ l, (keyText d k p.1).isSome = true ∧ (encode d t p.2).isSome = true) :
    encodeEntries d k t l = some (l.map (writeEntry d k t)) := by
  induction l with
  | nil => rfl
  | cons p l ih =>
    obtain ⟨x, v⟩ := p
    obtain ⟨h1, h2⟩ := h (x, v) (by simp)
    dsimp only at h1 h2
    obtain ⟨s, hs⟩ := Option.isSome_iff_exists.1 h1
    obtain ⟨j, hj⟩ := Option.isSome_iff_exists.1 h2
    rw [encodeEntries, hs, hj, ih fun p hp => h p (List.mem_cons_of_mem _ hp)]
    dsimp only
    rw [List.map_cons, writeEntry]
    dsimp only
    rw [hs, hj]; rfl

omit [GoFloat] in
theorem entries_perm {β : Type} {l r : List (Key × GoVal)} {f : Key × GoVal → β} (hl : (l.map (·.1)).Pairwise (· ≠ ·))
    (hr : (r.map (·.1)).Pairwise (· ≠ ·)) (hlen : l.length = r.length)
    (h : ∀ p ∈ l, ∃ w, r.lookup p.1 = some w ∧ f p = f (p.1, w)) : (l.map f).Perm (r.map f) := by
  induction l generalizing r with
  | nil =>
    cases r with
    | nil => exact .refl _
    | cons _ _ => simp at hlen
  | cons p l ih =>
    obtain ⟨w, h1, h2⟩ := h p (by simp)
    obtain ⟨pre, post, rfl⟩ := List.append_of_mem (lookup_mem h1)
    rw [List.map_cons, List.pairwise_cons] at hl
    have hr' : ((pre ++ post).map (·.1)).Pairwise (· ≠ ·) := by
      rw [List.map_append, List.map_cons] at hr
      rw [List.map_append]
      rw [List.pairwise_append] at hr ⊢
      refine ⟨hr.1, (List.pairwise_cons.1 hr.2.1).2, fun a ha b hb => hr.2.2 a ha b (List.mem_cons_of_mem _ hb)⟩
    have := ih hl.2 hr' (by simp at hlen ⊢; omega) (by
      intro q hq
      obtain ⟨x, x1, x2⟩ := h q (List.mem_cons_of_mem _ hq)
      refine ⟨x, lookup_key hr' ?_, x2⟩
      have hm := lookup_mem x1
      rw [List.mem_append, List.mem_cons] at hm
      rw [List.mem_append]
      rcases hm with hm | hm | hm
      · exact Or.inl hm
      · simp only [Prod.mk.injEq] at hm
        exact absurd hm.1.symm (hl.1 _ (List.mem_map.2 ⟨q, hq, rfl⟩))
      · exact Or.inr hm)
    rw [List.map_cons, List.map_append, List.map_cons, h2]
    rw [List.map_append] at this
    exact (this.cons _).trans List.perm_middle.symm

omit [GoFloat] in
theorem keyText_inj {d : Decls} (hd : WellDeclared d) {k : KeyType} {x y : Key} (hx : KeyOf d k x) (hy : KeyOf d k y)
    (h : keyText d k x = keyText d k y) : x = y := by
  obtain ⟨s, s1, s2⟩ := key_round hd hx
  obtain ⟨u, u1, u2⟩ := key_round hd hy
  rw [s1, u1, Option.some.injEq] at h
  subst h
  rw [s2] at u2
  exact Option.some.inj u2

omit [GoFloat] in
theorem sorted_unique {α : Type} {a b : List (Str × α)} (h : a.Perm b) (hk : (a.map (·.1)).Pairwise (· ≠ ·)) :
    sortKeys a = sortKeys b := by
  have ha := sortKeys_spec a
  have hb := sortKeys_spec b
  refine List.Perm.eq_of_pairwise (le := fun x y : Str × α => x.1 ≤ y.1) ?_ ha.2 hb.2 ((ha.1.trans h).trans hb.1.symm)
  intro x y hx hy h1 h2
  have hx' := ha.1.mem_iff.1 hx
  have hy' := h.mem_iff.2 (hb.1.mem_iff.1 hy)
  have he : x.1 = y.1 := List.le_antisymm h1 h2
  exact pairwise_inj hk hx' hy' he

theorem same {d : Decls} (hd : WellDeclared d) :
    (∀ t v, Carried d t v → ∀ w, Carried d t w → deepEqual v w = true → encode d t v = encode d t w) := by
  have leaf : ∀ {t : GoType} {v : GoVal}, (∀ w, deepEqual v w = true → v = w) →
      ∀ w, Carried d t w → deepEqual v w = true → encode d t v = encode d t w := by
    intro t v h w _ hw; rw [h w hw]
  have hsome : ∀ t v, Carried d t v → (encode d t v).isSome = true := by
    intro t v h
    obtain ⟨j, h1, -⟩ := (trip hd).1 t v h
    rw [h1]; rfl
  intro t v h
  refine Carried.rec (d := d)
    (motive_1 := fun t v _ => ∀ w, Carried d t w → deepEqual v w = true → encode d t v = encode d t w)
    (motive_2 := fun fs l _ => ∀ ws, CarriedFields d fs ws → deepEqualList l ws = true → encodeFields d fs l = encodeFields d fs ws)
    ?_ ?_ ?_ ?_ ?_ ?_ ?_ ?_ ?_ ?_ ?_ ?_ ?_ ?_ ?_ h
  · intro b; exact leaf fun w hw => by cases w <;> simp_all [deepEqual]
  · intro bits i _; exact leaf fun w hw => by cases w <;> simp_all [deepEqual]
  · intro bits i _; exact leaf fun w hw => by cases w <;> simp_all [deepEqual]
  · intro bits i _; exact leaf fun w hw => by cases w <;> simp_all [deepEqual]
  · intro s; exact leaf fun w hw => by cases w <;> simp_all [deepEqual]
  · intro s; exact leaf fun w hw => by cases w <;> simp_all [deepEqual]
  · intro n name x _; exact leaf fun w hw => by cases w <;> simp_all [deepEqual]
  · intro t _; exact leaf fun w hw => by cases w <;> simp_all [deepEqual]
  · intro t v ht hv hc ih w hw he
    cases w <;> first | (simp [deepEqual] at he; done) | skip
    rw [deepEqual, Bool.and_eq_true, decide_eq_true_iff] at he
    obtain ⟨rfl, he⟩ := he
    cases hw with
    | dyn h1 h2 h3 =>
      rw [encode, encode, if_pos rfl, if_pos rfl]
      exact ih _ h3 he
  · intro t v hv hc ih w hw he
    cases w <;> first | (simp [deepEqual] at he; done) | skip
    rw [deepEqual] at he
    cases hw with
    | ptr h2 h3 =>
      rw [encode, encode]
      exact ih _ h3 he
  · intro n l hc ih w hw he
    cases w <;> first | (simp [deepEqual] at he; done) | skip
    rw [deepEqual] at he
    cases hw with
    | ref h =>
      rw [deepEqual] at he
      rw [encode, encode, ih _ h he]
  · intro t l ht hc ih w hw he
    cases w <;> first | (simp [deepEqual] at he; done) | skip
    rename_i ws
    rw [deepEqual] at he
    cases hw with
    | list _ h =>
      rw [encode, encode]
      have : encodeElems d t l = encodeElems d t ws := by
        clear hc
        induction l generalizing ws with
        | nil => cases ws with
          | nil => rfl
          | cons _ _ => simp [deepEqualList] at he
        | cons v l ih' => cases ws with
          | nil => simp [deepEqualList] at he
          | cons w ws =>
            rw [deepEqualList, Bool.and_eq_true] at he
            rw [encodeElems, encodeElems, ih v (by simp) w (h w (by simp)) he.1,
              ih' (fun v hv => ih v (List.mem_cons_of_mem _ hv)) ws he.2 fun v hv => h v (List.mem_cons_of_mem _ hv)]
      rw [this]
  · intro k t l hn hk hc ih w hw he
    cases w <;> first | (simp [deepEqual] at he; done) | skip
    rename_i r
    rw [deepEqual, Bool.and_eq_true, beq_iff_eq, deepEqualMap_iff] at he
    cases hw with
    | map hn' hk' hc' =>
      have hs : ∀ {m : List (Key × GoVal)}, (∀ p ∈ m, KeyOf d k p.1) → (∀ p ∈ m, Carried d t p.2) →
          ∀ p ∈ m, (keyText d k p.1).isSome = true ∧ (encode d t p.2).isSome = true := by
        intro m h1 h2 p hp
        obtain ⟨s, s1, -⟩ := key_round hd (h1 p hp)
        exact ⟨by rw [s1]; rfl, hsome _ _ (h2 p hp)⟩
      rw [encode, encode, encodeEntries_map (hs hk hc), encodeEntries_map (hs hk' hc')]
      dsimp only [Option.map_some]
      rw [sorted_unique (entries_perm hn hn' he.1 ?_) ?_]
      · intro p hp
        obtain ⟨w, w1, w2⟩ := he.2 p hp
        refine ⟨w, w1, ?_⟩
        unfold writeEntry
        dsimp only
        rw [ih p hp w (hc' _ (lookup_mem w1)) w2]
      · rw [List.map_map, List.pairwise_map]
        rw [List.pairwise_map] at hn
        refine List.Pairwise.imp_of_mem ?_ hn
        intro a b ha hb hab he
        apply hab
        obtain ⟨s, s1, -⟩ := key_round hd (hk a ha)
        obtain ⟨u, u1, -⟩ := key_round hd (hk b hb)
        simp only [Function.comp, writeEntry, s1, u1, Option.getD_some] at he
        exact keyText_inj hd (hk a ha) (hk b hb) (by rw [s1, u1, he])
  · intro ws h he
    cases ws with
    | nil => rfl
    | cons _ _ => simp [deepEqualList] at he
  · intro f fs v l hv hz hl ih1 ih2 ws h he
    cases h with
    | cons k1 k2 k3 =>
      rw [deepEqualList, Bool.and_eq_true] at he
      rw [encodeFields, encodeFields, ih1 _ k1 he.1, ih2 _ k3 he.2, isEmpty_equal he.1]

/-- C78. Equal values have the same JSON, whatever the order of their maps. -/
theorem C78_same {d : Decls} (hd : WellDeclared d) {t : GoType} {v w : GoVal} (hv : Carried d t v) (hw : Carried d t w)
    (h : deepEqual v w = true) : encode d t v = encode d t w := same hd t v hv w hw h

theorem symm {d : Decls} :
    (∀ t v, Carried d t v → ∀ w, Carried d t w → deepEqual v w = true → deepEqual w v = true) := by
  have leaf : ∀ {t : GoType} {v : GoVal}, (∀ w, deepEqual v w = true → v = w) →
      ∀ w, Carried d t w → deepEqual v w = true → deepEqual w v = true := by
    intro t v h w _ hw; obtain rfl := h w hw; exact hw
  intro t v h
  refine Carried.rec (d := d)
    (motive_1 := fun t v _ => ∀ w, Carried d t w → deepEqual v w = true → deepEqual w v = true)
    (motive_2 := fun fs l _ => ∀ ws, CarriedFields d fs ws → deepEqualList l ws = true → deepEqualList ws l = true)
    ?_ ?_ ?_ ?_ ?_ ?_ ?_ ?_ ?_ ?_ ?_ ?_ ?_ ?_ ?_ h
  · intro b; exact leaf fun w hw => by cases w <;> simp_all [deepEqual]
  · intro bits i _; exact leaf fun w hw => by cases w <;> simp_all [deepEqual]
  · intro bits i _; exact leaf fun w hw => by cases w <;> simp_all [deepEqual]
  · intro bits i _; exact leaf fun w hw => by cases w <;> simp_all [deepEqual]
  · intro s; exact leaf fun w hw => by cases w <;> simp_all [deepEqual]
  · intro s; exact leaf fun w hw => by cases w <;> simp_all [deepEqual]
  · intro n name x _; exact leaf fun w hw => by cases w <;> simp_all [deepEqual]
  · intro t _; exact leaf fun w hw => by cases w <;> simp_all [deepEqual]
  · intro t v ht hv hc ih w hw he
    cases w <;> first | (simp [deepEqual] at he; done) | skip
    rw [deepEqual, Bool.and_eq_true, decide_eq_true_iff] at he ⊢
    obtain ⟨rfl, he⟩ := he
    cases hw with
    | dyn h1 h2 h3 => exact ⟨rfl, ih _ h3 he⟩
  · intro t v hv hc ih w hw he
    cases w <;> first | (simp [deepEqual] at he; done) | skip
    rw [deepEqual] at he ⊢
    cases hw with
    | ptr h2 h3 => exact ih _ h3 he
  · intro n l hc ih w hw he
    cases w <;> first | (simp [deepEqual] at he; done) | skip
    rw [deepEqual] at he ⊢
    cases hw with
    | ref h => rw [deepEqual] at he ⊢; exact ih _ h he
  · intro t l ht hc ih w hw he
    cases w <;> first | (simp [deepEqual] at he; done) | skip
    rename_i ws
    rw [deepEqual] at he ⊢
    cases hw with
    | list _ h =>
      clear hc
      induction l generalizing ws with
      | nil => cases ws with
        | nil => rfl
        | cons _ _ => simp [deepEqualList] at he
      | cons v l ih' => cases ws with
        | nil => simp [deepEqualList] at he
        | cons w ws =>
          rw [deepEqualList, Bool.and_eq_true] at he ⊢
          exact ⟨ih v (by simp) w (h w (by simp)) he.1,
            ih' (fun v hv => ih v (List.mem_cons_of_mem _ hv)) ws he.2 fun v hv => h v (List.mem_cons_of_mem _ hv)⟩
  · intro k t l hn hk hc ih w hw he
    cases w <;> first | (simp [deepEqual] at he; done) | skip
    rename_i r
    rw [deepEqual, Bool.and_eq_true, beq_iff_eq, deepEqualMap_iff] at he ⊢
    cases hw with
    | map hn' hk' hc' =>
      refine ⟨he.1.symm, ?_⟩
      have hp : (l.map (·.1)).Perm (r.map (·.1)) := entries_perm hn hn' he.1 fun p hp => by
        obtain ⟨w, w1, -⟩ := he.2 p hp
        exact ⟨w, w1, rfl⟩
      intro p hpr
      have hm : p.1 ∈ l.map (·.1) := hp.mem_iff.2 (List.mem_map.2 ⟨p, hpr, rfl⟩)
      obtain ⟨q, hq, hqp⟩ := List.mem_map.1 hm
      obtain ⟨w, w1, w2⟩ := he.2 q hq
      have hw : w = p.2 := by
        have := lookup_key hn' (k := p.1) (v := p.2) hpr
        rw [← hqp, w1] at this
        exact Option.some.inj this
      subst hw
      exact ⟨q.2, lookup_key hn (by rw [← hqp]; exact hq), ih q hq _ (hc' p hpr) w2⟩
  · intro ws h he
    cases ws with
    | nil => rfl
    | cons _ _ => simp [deepEqualList] at he
  · intro f fs v l hv hz hl ih1 ih2 ws h he
    cases h with
    | cons k1 k2 k3 =>
      rw [deepEqualList, Bool.and_eq_true] at he ⊢
      exact ⟨ih1 _ k1 he.1, ih2 _ k3 he.2⟩

/-- C78. Different values have different JSON. -/
theorem C78_different {d : Decls} (hd : WellDeclared d) {t : GoType} {v w : GoVal} (hv : Carried d t v) (hw : Carried d t w)
    (h : encode d t v = encode d t w) : deepEqual v w = true := by
  obtain ⟨j, h1, -, -, u, h3, h4, h5⟩ := (trip hd).1 t v hv
  obtain ⟨j', k1, -, -, u', k3, k4, -⟩ := (trip hd).1 t w hw
  rw [h1, k1, Option.some.injEq] at h
  subst h
  rw [h3, Option.some.injEq] at k3
  subst k3
  exact deepEqual_trans _ _ _ h4 (symm t w hw u h5 k4)

end Verif.Values
