import Verif.Schema.Types
/-!
# Go string functions used by the generator

Models of functions of Go's `strings` package as used in `/repo/gen` and `/repo/cmd/webrpc-gen`, and
lemmas on them.
-/

namespace Verif.Gen
open Verif.Schema (Str S)

/-- `strings.Cut` (gen/gen.go:107, gen/funcmap_types.go:83, 95, 106, cmd/webrpc-gen/main.go:171, 176):
the text before and after the first `sep`; `none` stands for `found == false`. -/
def cut (sep : Str) : Str → Option (Str × Str)
  | [] => if sep = [] then some ([], []) else none
  | c :: r =>
    if sep.isPrefixOf (c :: r) then some ([], (c :: r).drop sep.length)
    else (cut sep r).map fun x => (c :: x.1, x.2)

/-- Loop of `strings.Split` for a non-empty separator, bounded. -/
def splitN (sep : Str) : Nat → Str → List Str
  | 0, s => [s]
  | n + 1, s => match cut sep s with
    | none => [s]
    | some (a, b) => a :: splitN sep n b

/-- `strings.Split` (gen/funcmap_string.go:51, gen/funcmap_flow.go:58, gen/gen.go:106,
gen/template_source.go:229, 241, cmd/webrpc-gen/main.go:170): for an empty separator, the single
characters. -/
def split (sep : Str) (s : Str) : List Str :=
  if sep = [] then s.map fun c => [c] else splitN sep s.length s

/-- `strings.Join` (gen/funcmap_string.go:38, 44). -/
def join (sep : Str) : List Str → Str
  | [] => []
  | [a] => a
  | a :: r => a ++ sep ++ join sep r

/-- `strings.TrimPrefix`. -/
def trimPrefix (s p : Str) : Str := if p.isPrefixOf s then s.drop p.length else s

/-- `strings.TrimSuffix`. -/
def trimSuffix (s p : Str) : Str := if p.isSuffixOf s then s.take (s.length - p.length) else s

/-! ## Lemmas -/

theorem cut_some {sep s a b : Str} : cut sep s = some (a, b) → s = a ++ sep ++ b := by
  induction s generalizing a b with
  | nil =>
    unfold cut
    split
    · intro h; cases h; simp_all
    · intro h; cases h
  | cons c r ih =>
    unfold cut
    split
    · rename_i hp
      intro h; cases h
      obtain ⟨t, ht⟩ := List.isPrefixOf_iff_prefix.1 hp
      rw [← ht]; simp
    · intro h
      obtain ⟨⟨x, y⟩, h1, h2⟩ := Option.map_eq_some_iff.1 h
      cases h2
      rw [ih h1]; simp

/-- The cut is at the first occurrence. -/
theorem cut_first {sep s a b : Str} (h : cut sep s = some (a, b)) {x y : Str} (hs : s = x ++ sep ++ y) :
    a.length ≤ x.length := by
  induction s generalizing a b x with
  | nil =>
    unfold cut at h
    split at h
    · cases h; simp
    · cases h
  | cons c r ih =>
    unfold cut at h
    split at h
    · cases h; simp
    · rename_i hp
      obtain ⟨⟨x', y'⟩, h1, h2⟩ := Option.map_eq_some_iff.1 h
      cases h2
      cases x with
      | nil =>
        exact absurd (List.isPrefixOf_iff_prefix.2 ⟨y, by rw [hs]; simp⟩) hp
      | cons d x =>
        have : r = x ++ sep ++ y := by simpa using (List.cons.inj hs).2
        have := ih h1 this
        simpa using this

theorem cut_none {sep s : Str} : cut sep s = none ↔ ¬ sep <:+: s := by
  induction s with
  | nil =>
    unfold cut
    by_cases h : sep = [] <;> simp [h]
  | cons c r ih =>
    unfold cut
    by_cases hp : sep.isPrefixOf (c :: r) = true
    · rw [if_pos hp]
      simp only [reduceCtorEq, false_iff, Decidable.not_not]
      exact (List.isPrefixOf_iff_prefix.1 hp).isInfix
    · rw [if_neg hp, Option.map_eq_none_iff, ih, List.infix_cons_iff]
      have : ¬ sep <+: c :: r := fun h => hp (List.isPrefixOf_iff_prefix.2 h)
      simp [this]

/-- For a single character the cut is what it should be. -/
theorem cut_char {c : Char} {s a b : Str} : cut [c] s = some (a, b) ↔ c ∉ a ∧ s = a ++ c :: b := by
  constructor
  · intro h
    have h1 := cut_some h
    refine ⟨fun hc => ?_, by simpa using h1⟩
    obtain ⟨x, y, rfl⟩ := List.append_of_mem hc
    have := cut_first h (x := x) (y := y ++ [c] ++ b) (by rw [h1]; simp)
    simp at this
    omega
  · rintro ⟨hc, rfl⟩
    induction a with
    | nil => simp [cut]
    | cons d a ih =>
      simp only [List.mem_cons, not_or] at hc
      have hd : ([c] : Str).isPrefixOf (d :: (a ++ c :: b)) = false := by
        simp [List.isPrefixOf, hc.1]
      rw [List.cons_append, cut, if_neg (by simp [hd]), ih hc.2]
      rfl

theorem cut_char_none {c : Char} {s : Str} : cut [c] s = none ↔ c ∉ s := by
  rw [cut_none]
  constructor
  · intro h hc
    obtain ⟨x, y, rfl⟩ := List.append_of_mem hc
    exact h ⟨x, y, by simp⟩
  · rintro h ⟨x, y, rfl⟩; simp at h

theorem join_cons {sep a : Str} {r : List Str} (h : r ≠ []) : join sep (a :: r) = a ++ sep ++ join sep r := by
  cases r with
  | nil => exact absurd rfl h
  | cons b r => rfl

theorem splitN_ne_nil {sep : Str} {n : Nat} {s : Str} : splitN sep n s ≠ [] := by
  cases n with
  | zero => simp [splitN]
  | succ n => unfold splitN; split <;> simp

theorem cut_lt {sep s a b : Str} (hs : sep ≠ []) (h : cut sep s = some (a, b)) : b.length < s.length := by
  have := List.length_pos_iff.2 hs
  rw [cut_some h]; simp; omega

theorem splitN_fuel {sep : Str} (hs : sep ≠ []) {n m : Nat} {s : Str} (hn : s.length ≤ n) (hm : s.length ≤ m) :
    splitN sep n s = splitN sep m s := by
  induction n generalizing m s with
  | zero =>
    have : s = [] := List.length_eq_zero_iff.1 (by omega)
    subst this
    cases m with
    | zero => rfl
    | succ m => simp [splitN, cut, hs]
  | succ n ih =>
    cases m with
    | zero =>
      have : s = [] := List.length_eq_zero_iff.1 (by omega)
      subst this
      simp [splitN, cut, hs]
    | succ m =>
      unfold splitN
      cases h : cut sep s with
      | none => rfl
      | some x =>
        obtain ⟨a, b⟩ := x
        have := cut_lt hs h
        dsimp only
        rw [ih (m := m) (s := b) (by omega) (by omega)]

theorem split_none {sep s : Str} (hs : sep ≠ []) (h : cut sep s = none) : split sep s = [s] := by
  unfold split
  rw [if_neg hs]
  cases s with
  | nil => rfl
  | cons c r =>
    show splitN sep (r.length + 1) (c :: r) = _
    unfold splitN; rw [h]

theorem split_some {sep s a b : Str} (hs : sep ≠ []) (h : cut sep s = some (a, b)) :
    split sep s = a :: split sep b := by
  unfold split
  rw [if_neg hs, if_neg hs]
  have hlt := cut_lt hs h
  cases s with
  | nil => simp at hlt
  | cons c r =>
    show splitN sep (r.length + 1) (c :: r) = _
    rw [splitN, h]
    dsimp only
    rw [splitN_fuel hs (n := r.length) (m := b.length) (by simp at hlt; omega) (Nat.le_refl _)]

theorem split_ne_nil {sep s : Str} (hs : sep ≠ []) : split sep s ≠ [] := by
  unfold split; rw [if_neg hs]; exact splitN_ne_nil

theorem split_induction {sep : Str} (hs : sep ≠ []) {P : Str → Prop}
    (h1 : ∀ s, cut sep s = none → P s) (h2 : ∀ s a b, cut sep s = some (a, b) → P b → P s) (s : Str) : P s := by
  induction hn : s.length using Nat.strongRecOn generalizing s with
  | _ n ih =>
    cases h : cut sep s with
    | none => exact h1 s h
    | some x =>
      obtain ⟨a, b⟩ := x
      exact h2 s a b h (ih b.length (by have := cut_lt hs h; omega) b rfl)

theorem join_split {sep s : Str} : join sep (split sep s) = s := by
  by_cases hs : sep = []
  · subst hs
    unfold split
    rw [if_pos rfl]
    induction s with
    | nil => rfl
    | cons c r ih =>
      cases r with
      | nil => rfl
      | cons d r =>
        rw [List.map_cons, join_cons (by simp), ih]; rfl
  · refine split_induction hs (P := fun s => join sep (split sep s) = s) ?_ ?_ s
    · intro s h; rw [split_none hs h]; rfl
    · intro s a b h ih
      rw [split_some hs h, join_cons (split_ne_nil hs), ih, ← cut_some h]

theorem split_free {sep s p : Str} (hs : sep ≠ []) (hp : p ∈ split sep s) : ¬ sep <:+: p := by
  revert hp
  refine split_induction hs (P := fun s => p ∈ split sep s → ¬ sep <:+: p) ?_ ?_ s
  · intro s h hp
    rw [split_none hs h] at hp
    rw [List.mem_singleton.1 hp]; exact cut_none.1 h
  · intro s a b h ih hp
    rw [split_some hs h] at hp
    rcases List.mem_cons.1 hp with rfl | hp
    · rintro ⟨x, y, hxy⟩
      have h1 := cut_first h (x := x) (y := y ++ sep ++ b) (by rw [cut_some h, ← hxy]; simp)
      have := List.length_pos_iff.2 hs
      rw [← hxy] at h1
      simp at h1
      omega
    · exact ih hp

/-- Splitting at a character that does not occur in the parts undoes joining. -/
theorem split_join {c : Char} {ps : List Str} (hne : ps ≠ []) (hc : ∀ p ∈ ps, c ∉ p) :
    split [c] (join [c] ps) = ps := by
  induction ps with
  | nil => exact absurd rfl hne
  | cons a r ih =>
    cases r with
    | nil =>
      exact split_none (by simp) (cut_char_none.2 (hc a (by simp)))
    | cons b r =>
      rw [join_cons (by simp)]
      have : cut [c] (a ++ [c] ++ join [c] (b :: r)) = some (a, join [c] (b :: r)) :=
        cut_char.2 ⟨hc a (by simp), by simp⟩
      rw [split_some (by simp) this, ih (by simp) (fun p hp => hc p (by simp [hp]))]

theorem trimPrefix_append (p s : Str) : trimPrefix (p ++ s) p = s := by
  unfold trimPrefix
  rw [if_pos (by simp [List.isPrefixOf_iff_prefix])]
  simp

theorem trimSuffix_append (s p : Str) : trimSuffix (s ++ p) p = s := by
  unfold trimSuffix
  rw [if_pos (by simp [List.isSuffixOf_iff_suffix])]
  simp

end Verif.Gen
