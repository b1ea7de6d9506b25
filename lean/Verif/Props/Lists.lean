import Verif.Spec.Lists
/-!
# Proofs about lists in templates (C73)
-/

namespace Verif.Props
open Verif.Gen.Lists Verif.Spec

variable {α : Type}

/-- `done` are the lists that were appended to. -/
structure Good (st : State α) (ls : List (List α)) (done : List Nat) : Prop where
  size : st.slices.length = ls.length
  holds : ∀ (i : Nat) (s : Slice) (l : List α), st.slices[i]? = some s → ls[i]? = some l →
    s.arr < st.heap.length ∧ s.len = l.length ∧ s.len ≤ (cells st.heap s.arr).length ∧ read st.heap s = l.map some
  last : ∀ (i j : Nat) (s t : Slice), st.slices[i]? = some s → st.slices[j]? = some t → i ∉ done → t.arr = s.arr →
    t.len ≤ s.len ∧ (j ∉ done → j = i)

theorem read_append {h : Heap α} {s : Slice} (hs : s.arr < h.length) (n : Heap α) : cells (h ++ n) s.arr = cells h s.arr := by
  unfold cells
  rw [List.getElem?_append_left hs]

theorem snoc_get {β : Type} {l : List β} {x y : β} {i : Nat} (h : (l ++ [x])[i]? = some y) :
    l[i]? = some y ∨ (i = l.length ∧ y = x) := by
  by_cases hi : i < l.length
  · rw [List.getElem?_append_left hi] at h
    exact .inl h
  · rw [List.getElem?_append_right (by omega)] at h
    have : i - l.length = 0 := by
      cases hk : i - l.length with
      | zero => rfl
      | succ k => rw [hk] at h; simp at h
    rw [this] at h
    simp only [List.getElem?_cons_zero, Option.some.injEq] at h
    exact .inr ⟨by omega, h.symm⟩

theorem get_lt {β : Type} {l : List β} {x : β} {i : Nat} (h : l[i]? = some x) : i < l.length := by
  obtain ⟨h, -⟩ := List.getElem?_eq_some_iff.1 h
  exact h

/-- A list in a new array. -/
theorem good_new {st : State α} {ls : List (List α)} {done done' : List Nat} (g : Good st ls done) (hd : ∀ i, i ∉ done' → i ∉ done)
    (hdl : ∀ i ∈ done, i ∈ done') (hdl' : ∀ i ∈ done', i < ls.length)
    (c : List (Option α)) (n : Heap α) (l : List α) (hl : l.length ≤ c.length) (hc : c.take l.length = l.map some) :
    Good { heap := st.heap ++ n ++ [c], slices := st.slices ++ [{ arr := (st.heap ++ n).length, len := l.length }] } (ls ++ [l]) done' := by
  have hcell : cells (st.heap ++ n ++ [c]) (st.heap ++ n).length = c := by
    unfold cells
    rw [List.getElem?_append_right (by omega)]
    simp
  refine ⟨by simp [g.size], ?_, ?_⟩
  · intro i s m hs hm
    rcases snoc_get hs with h1 | ⟨rfl, rfl⟩
    · have hi := get_lt h1
      rw [List.getElem?_append_left (by rw [← g.size]; exact hi)] at hm
      obtain ⟨a1, a2, a3, a4⟩ := g.holds i s m h1 hm
      have e : cells (st.heap ++ n ++ [c]) s.arr = cells st.heap s.arr := by
        rw [List.append_assoc]; exact read_append a1 _
      refine ⟨by simp; omega, a2, by rw [e]; exact a3, ?_⟩
      show (cells (st.heap ++ n ++ [c]) s.arr).take s.len = _
      rw [e]; exact a4
    · rw [g.size, List.getElem?_append_right (by omega)] at hm
      simp only [Nat.sub_self, List.getElem?_cons_zero, Option.some.injEq] at hm
      subst hm
      refine ⟨by simp, rfl, by rw [hcell]; exact hl, ?_⟩
      show (cells (st.heap ++ n ++ [c]) (st.heap ++ n).length).take l.length = _
      rw [hcell]; exact hc
  · intro i j s t hs ht hi e
    have old : ∀ (k : Nat) (u : Slice), st.slices[k]? = some u → u.arr < st.heap.length := by
      intro k u hu
      have hk := get_lt hu
      obtain ⟨m, hm⟩ : ∃ m, ls[k]? = some m := ⟨_, List.getElem?_eq_getElem (by rw [← g.size]; exact hk)⟩
      exact (g.holds k u m hu hm).1
    rcases snoc_get hs with h1 | ⟨rfl, rfl⟩
    · rcases snoc_get ht with h2 | ⟨rfl, rfl⟩
      · obtain ⟨b1, b2⟩ := g.last i j s t h1 h2 (hd i hi) e
        exact ⟨b1, fun hj => b2 (hd j hj)⟩
      · have := old i s h1
        simp at e
        omega
    · rcases snoc_get ht with h2 | ⟨rfl, rfl⟩
      · have := old j t h2
        simp at e
        omega
      · exact ⟨Nat.le_refl _, fun _ => rfl⟩

theorem take_eq {c : List (Option α)} {l xs : List α} {n : Nat} (h : c.take l.length = l.map some) (hl : l.length ≤ c.length)
    (rest : List (Option α)) (hn : n = (l ++ xs).length) : (c.take l.length ++ xs.map some ++ rest).take n = (l ++ xs).map some := by
  rw [h, hn, ← List.map_append, List.take_append_of_le_length (by simp), List.take_of_length_le (by simp)]

theorem append_good {grow : Nat → Nat → Nat} (hg : ∀ c n, n ≤ grow c n) {st : State α} {ls : List (List α)} {done : List Nat}
    (g : Good st ls done) (hdl : ∀ i ∈ done, i < ls.length) (i : Nat) (s : Slice) (l xs : List α) (hs : st.slices[i]? = some s)
    (hm : ls[i]? = some l) (hi : i ∉ done) :
    Good { heap := (goAppend grow st.heap s xs).1, slices := st.slices ++ [(goAppend grow st.heap s xs).2] } (ls ++ [l ++ xs]) (i :: done) := by
  obtain ⟨a1, a2, a3, a4⟩ := g.holds i s l hs hm
  have hil : i < ls.length := by rw [← g.size]; exact get_lt hs
  have h4 : (cells st.heap s.arr).take l.length = l.map some := by rw [← a2]; exact a4
  unfold goAppend
  dsimp only
  split
  · rename_i hroom
    -- in place
    have hcell : ∀ a, a < st.heap.length → cells (st.heap.set s.arr ((cells st.heap s.arr).take s.len ++ xs.map some ++ (cells st.heap s.arr).drop (s.len + xs.length))) a =
        if a = s.arr then (cells st.heap s.arr).take s.len ++ xs.map some ++ (cells st.heap s.arr).drop (s.len + xs.length) else cells st.heap a := by
      intro a ha
      unfold cells
      rw [List.getElem?_set]
      by_cases e : s.arr = a
      · rw [if_pos e, if_pos e.symm, if_pos a1]; rfl
      · rw [if_neg e, if_neg (fun h => e h.symm)]
    have hlen : ((cells st.heap s.arr).take s.len ++ xs.map some ++ (cells st.heap s.arr).drop (s.len + xs.length)).length = (cells st.heap s.arr).length := by
      simp only [List.length_append, List.length_take, List.length_map, List.length_drop]
      omega
    refine ⟨by simp [g.size], ?_, ?_⟩
    · intro j t m ht hm'
      rcases snoc_get ht with h1 | ⟨rfl, rfl⟩
      · rw [List.getElem?_append_left (by rw [← g.size]; exact get_lt h1)] at hm'
        obtain ⟨b1, b2, b3, b4⟩ := g.holds j t m h1 hm'
        refine ⟨by simpa using b1, b2, ?_, ?_⟩
        · dsimp only
          rw [hcell _ b1]
          split
          · rename_i e; rw [hlen, ← e]; exact b3
          · exact b3
        · show (cells _ t.arr).take t.len = _
          rw [hcell _ b1]
          split
          · rename_i e
            have hle := (g.last i j s t hs h1 hi e).1
            rw [List.append_assoc, List.take_append_of_le_length (by simp only [List.length_take]; omega), List.take_take, Nat.min_eq_left hle, ← e]
            exact b4
          · exact b4
      · rw [g.size, List.getElem?_append_right (by omega)] at hm'
        simp only [Nat.sub_self, List.getElem?_cons_zero, Option.some.injEq] at hm'
        subst hm'
        refine ⟨by simpa using a1, by simp [a2], ?_, ?_⟩
        · dsimp only
          rw [hcell _ a1, if_pos rfl, hlen]; exact hroom
        · show (cells _ s.arr).take (s.len + xs.length) = _
          rw [hcell _ a1, if_pos rfl, a2]
          exact take_eq h4 (by omega) _ (by simp)
    · intro j k t u ht hu hj e
      have hi' : st.slices.length ∉ done := fun h => by have := hdl _ h; rw [← g.size] at this; omega
      rcases snoc_get ht with h1 | ⟨rfl, rfl⟩
      · have hjd : j ∉ done := fun h => hj (by simp [h])
        have hji : j ≠ i := fun h => hj (by simp [h])
        have hne : t.arr ≠ s.arr := fun he => hji ((g.last i j s t hs h1 hi he).2 hjd)
        rcases snoc_get hu with h2 | ⟨rfl, rfl⟩
        · obtain ⟨b1, b2⟩ := g.last j k t u h1 h2 hjd e
          exact ⟨b1, fun hk => b2 fun h => hk (by simp [h])⟩
        · exact absurd e.symm hne
      · rcases snoc_get hu with h2 | ⟨rfl, rfl⟩
        · dsimp only at e ⊢
          obtain ⟨b1, b2⟩ := g.last i k s u hs h2 hi e
          refine ⟨by omega, fun hk => ?_⟩
          have : k = i := b2 fun h => hk (by simp [h])
          exact absurd (by simp [this]) hk
        · exact ⟨Nat.le_refl _, fun _ => rfl⟩
  · -- a new array
    have := good_new (done' := i :: done) g (fun j hj h => hj (by simp [h])) (fun j hj => by simp [hj])
      (fun j hj => by rcases List.mem_cons.1 hj with rfl | h; exact hil; exact hdl j h)
      ((cells st.heap s.arr).take s.len ++ xs.map some ++ List.replicate (grow (cells st.heap s.arr).length (s.len + xs.length) - (s.len + xs.length)) none)
      [] (l ++ xs) (by simp only [List.length_append, List.length_take, List.length_map]; omega)
      (by rw [a2]; exact take_eq h4 (by omega) _ rfl)
    simp only [List.append_nil, List.length_append, ← a2] at this
    exact this

theorem lists_run {grow : Nat → Nat → Nat} (hg : ∀ c n, n ≤ grow c n) (sorted : List α → List α) (sortC : List (Option α) → List (Option α))
    (hsort : ∀ l : List α, sortC (l.map some) = (sorted l).map some) (ops : List (Op α)) (st : State α) (ls : List (List α)) (done : List Nat)
    (g : Good st ls done) (hdl : ∀ i ∈ done, i < ls.length) (hn : (done ++ ops.filterMap appendedTo).Nodup) :
    (∀ vs, lists sorted ls ops = some vs → ∃ st', Verif.Gen.Lists.run grow sortC st ops = some st' ∧ ∃ done', Good st' vs done') ∧
    (lists sorted ls ops = none → Verif.Gen.Lists.run grow sortC st ops = none) := by
  induction ops generalizing st ls done with
  | nil => exact ⟨fun vs h => by cases h; exact ⟨st, rfl, done, g⟩, fun h => by cases h⟩
  | cons op ops ih =>
    cases op with
    | array xs =>
      rw [lists, made, Verif.Gen.Lists.run, step]
      dsimp only
      refine ih _ _ done ?_ (fun i hi => by have := hdl i hi; simp; omega) hn
      unfold goAppend
      dsimp only
      have hc : cells (st.heap ++ [[]]) st.heap.length = ([] : List (Option α)) := by
        unfold cells; simp
      rw [hc]
      simp only [List.take_nil, List.nil_append, List.drop_nil, List.length_nil, Nat.zero_add]
      split
      · rename_i h0
        have hx : xs = [] := by simpa using h0
        subst hx
        have := good_new (done' := done) g (fun i hi => hi) (fun i hi => hi) hdl [] [] [] (by simp) rfl
        simpa using this
      · have := good_new (done' := done) g (fun i hi => hi) (fun i hi => hi) hdl
          (xs.map some ++ List.replicate (grow 0 xs.length - xs.length) none) [[]] xs (by simp)
          (by rw [List.take_append_of_le_length (by simp), List.take_of_length_le (by simp)])
        exact this
    | append i xs =>
      rw [lists, made, Verif.Gen.Lists.run, step]
      cases hs : st.slices[i]? with
      | none =>
        have : ls[i]? = none := by
          rw [List.getElem?_eq_none_iff] at hs ⊢
          rw [← g.size]; exact hs
        rw [this]
        exact ⟨fun vs h => (by cases h), fun _ => rfl⟩
      | some s =>
        obtain ⟨l, hm⟩ : ∃ l, ls[i]? = some l := ⟨_, List.getElem?_eq_getElem (by rw [← g.size]; exact get_lt hs)⟩
        rw [hm]
        simp only [Option.map_some]
        have hn' : (done ++ i :: ops.filterMap appendedTo).Nodup := by
          have : (Op.append i xs :: ops).filterMap appendedTo = i :: ops.filterMap appendedTo := rfl
          rwa [this] at hn
        have hi : i ∉ done := by
          intro h
          exact (List.nodup_append.1 hn').2.2 i h i (by simp) rfl
        refine ih _ _ (i :: done) (append_good hg g hdl i s l xs hs hm hi) ?_ ?_
        · intro j hj
          rw [List.length_append]
          rcases List.mem_cons.1 hj with rfl | hj
          · have := get_lt hm; omega
          · have := hdl j hj; omega
        · exact (List.perm_middle.nodup_iff).1 hn'
    | sort i =>
      rw [lists, made, Verif.Gen.Lists.run, step]
      cases hs : st.slices[i]? with
      | none =>
        have : ls[i]? = none := by
          rw [List.getElem?_eq_none_iff] at hs ⊢
          rw [← g.size]; exact hs
        rw [this]
        exact ⟨fun vs h => (by cases h), fun _ => rfl⟩
      | some s =>
        obtain ⟨l, hm⟩ : ∃ l, ls[i]? = some l := ⟨_, List.getElem?_eq_getElem (by rw [← g.size]; exact get_lt hs)⟩
        rw [hm]
        simp only [Option.map_some]
        refine ih _ _ done ?_ (fun j hj => by have := hdl j hj; simp; omega) hn
        rw [(g.holds i s l hs hm).2.2.2, hsort]
        have := good_new (done' := done) g (fun i hi => hi) (fun i hi => hi) hdl ((sorted l).map some) [] (sorted l) (by simp)
          (by rw [List.take_of_length_le (by simp)])
        simpa using this

/-- C73. If no list is appended to twice, lists are values: at the end of any sequence of steps every list has the elements
it had when it was made, whatever `append` allocates. -/
theorem C73_values_partial {grow : Nat → Nat → Nat} (hg : ∀ c n, n ≤ grow c n) (sorted : List α → List α)
    (sortC : List (Option α) → List (Option α)) (hsort : ∀ l : List α, sortC (l.map some) = (sorted l).map some)
    (ops : List (Op α)) (h : AppendOnce ops) (vs : List (List α)) (hv : lists sorted [] ops = some vs) :
    ∃ st, Verif.Gen.Lists.run grow sortC {} ops = some st ∧ st.slices.map (read st.heap) = vs.map (·.map some) := by
  obtain ⟨st, h1, d, g⟩ := (lists_run hg sorted sortC hsort ops {} [] [] ⟨rfl, by simp, by simp⟩ (by simp) h).1 vs hv
  refine ⟨st, h1, List.ext_getElem (by simp [g.size]) fun i h2 h3 => ?_⟩
  simp only [List.getElem_map]
  simp only [List.length_map] at h2 h3
  exact (g.holds i _ _ (List.getElem?_eq_getElem h2) (List.getElem?_eq_getElem h3)).2.2.2

/-- C73: the hypotheses are met; here the third list is made in the array of the second. -/
theorem C73_example : AppendOnce [Op.array [1], .append 0 [2, 3], .append 1 [4], .sort 2] ∧
    lists (fun l : List Nat => l.reverse) [] [Op.array [1], .append 0 [2, 3], .append 1 [4], .sort 2] = some [[1], [1, 2, 3], [1, 2, 3, 4], [4, 3, 2, 1]] ∧
    (Verif.Gen.Lists.run (fun c n => max n (2 * c)) List.reverse {} [Op.array [1], .append 0 [2], .append 1 [3], .append 2 [4]]).map (·.slices.map Slice.arr) =
      some [1, 2, 3, 3] := by
  refine ⟨by unfold AppendOnce; decide, by decide, by decide⟩

/-- C73 is false without the condition: with the capacities Go uses (doubling), appending to the same list twice changes
the list made first. -/
theorem C73_overwritten :
    lists (fun l : List Nat => l) [] [Op.array [1], .append 0 [2], .append 1 [3], .append 2 [4], .append 2 [5]] =
      some [[1], [1, 2], [1, 2, 3], [1, 2, 3, 4], [1, 2, 3, 5]] ∧
    (Verif.Gen.Lists.run (fun c n => max n (2 * c)) id {} [Op.array [1], .append 0 [2], .append 1 [3], .append 2 [4], .append 2 [5]]).map
      (fun st => st.slices.map (read st.heap)) =
      some ([[1], [1, 2], [1, 2, 3], [1, 2, 3, 5], [1, 2, 3, 5]].map (·.map some)) := by
  refine ⟨by decide, by decide⟩

end Verif.Props
