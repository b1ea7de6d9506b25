import Verif.Ridl.ValueLemmas

/-! Lemmas about doc comments. -/

namespace Verif.Ridl
open Verif.Spec

theorem commentBlock_keys (cm : Comments) (line : Nat) : ∀ x ∈ commentBlock cm line, x.1 ≤ line ∧ cm.get x.1 = some x.2 := by
  induction line with
  | zero =>
    intro x hx
    unfold commentBlock at hx
    split at hx
    · simp at hx
    · rename_i h; simp at hx; subst hx; exact ⟨Nat.le_refl _, h⟩
  | succ l ih =>
    intro x hx
    unfold commentBlock at hx
    split at hx
    · simp at hx
    · rename_i h
      simp only [List.mem_append, List.mem_singleton] at hx
      rcases hx with hx | rfl
      · have := ih x hx; exact ⟨by omega, this.2⟩
      · exact ⟨Nat.le_refl _, h⟩

theorem commentBlock_congr (cm cm' : Comments) (line : Nat) (h : ∀ k ≤ line, cm.get k = cm'.get k) :
    commentBlock cm line = commentBlock cm' line := by
  induction line with
  | zero => unfold commentBlock; rw [h 0 (Nat.le_refl _)]
  | succ l ih => unfold commentBlock; rw [h (l + 1) (Nat.le_refl _), ih (fun k hk => h k (by omega))]

/-- The block above a line. -/
def above (cm : Comments) : Nat → List (Nat × Str)
  | 0 => []
  | l + 1 => commentBlock cm l

theorem commentBlock_some {cm : Comments} {line : Nat} {c : Str} (h : cm.get line = some c) :
    commentBlock cm line = above cm line ++ [(line, c)] := by
  cases line <;> simp [commentBlock, above, h]

theorem commentBlock_none {cm : Comments} {line : Nat} (h : cm.get line = none) :
    commentBlock cm line = [] := by
  cases line <;> simp [commentBlock, h]

/-- The comment texts that are kept. -/
def kept (ls : List (Nat × Str)) : List Str := (ls.map (·.2)).filter fun c => decide (c.head? ≠ some '!')

theorem kept_append (a b : List (Nat × Str)) : kept (a ++ b) = kept a ++ kept b := by simp [kept]

theorem kept_single (l : Nat) (c : Str) (cs : List Str) :
    (if c.head? = some '!' then cs else cs ++ [c]) = cs ++ (kept [(l, c)]).reverse := by
  by_cases h : c.head? = some '!' <;> simp [kept, h]

theorem loop_found (line : Nat) (it : Nat) (c : List Str) (cm : Comments) (v : Str) (h : cm.get line = some v)
    (ih : ∀ l, line = l + 1 → ∀ c cm, (parseCommentsLoop l 1 c cm).1 = c ++ (kept (commentBlock cm l)).reverse ∧
      ∀ k, (parseCommentsLoop l 1 c cm).2.get k =
        if k ∈ (commentBlock cm l).map (·.1) then none else cm.get k) :
    (parseCommentsLoop line it c cm).1 = c ++ (kept (commentBlock cm line)).reverse ∧
      ∀ k, (parseCommentsLoop line it c cm).2.get k =
        if k ∈ (commentBlock cm line).map (·.1) then none else cm.get k := by
  unfold parseCommentsLoop
  rw [h]
  simp only
  rw [kept_single line v c, commentBlock_some h]
  by_cases he : (cm.del line).length = 0
  · rw [if_pos he]
    have hnil : cm.del line = [] := List.eq_nil_of_length_eq_zero he
    have hget : ∀ k, k ≠ line → cm.get k = none := by
      intro k hk
      have := get_del cm line k
      rw [hnil, if_neg hk] at this
      rw [← this]; rfl
    have hblock : above cm line = [] := by
      cases line with
      | zero => rfl
      | succ l => exact commentBlock_none (hget l (by omega))
    rw [hblock]
    refine ⟨by simp, fun k => ?_⟩
    rw [get_del]
    simp
  · rw [if_neg he]
    cases line with
    | zero =>
      refine ⟨by simp [above], fun k => ?_⟩
      simp only [get_del, above]; simp
    | succ l =>
      have hcong : commentBlock (cm.del (l + 1)) l = commentBlock cm l :=
        commentBlock_congr _ _ _ (fun k hk => by rw [get_del, if_neg (by omega)])
      rw [show above cm (l + 1) = commentBlock cm l from rfl]
      obtain ⟨h1, h2⟩ := ih l rfl (c ++ (kept [(l + 1, v)]).reverse) (cm.del (l + 1))
      simp only
      refine ⟨?_, fun k => ?_⟩
      · rw [h1, hcong, kept_append]; simp
      · rw [h2, hcong, get_del]
        by_cases hk : k = l + 1
        · subst hk; simp
        · rw [if_neg hk]
          congr 1
          simp [hk]

theorem loop_block (line : Nat) (c : List Str) (cm : Comments) :
    (parseCommentsLoop line 1 c cm).1 = c ++ (kept (commentBlock cm line)).reverse ∧
      ∀ k, (parseCommentsLoop line 1 c cm).2.get k =
        if k ∈ (commentBlock cm line).map (·.1) then none else cm.get k := by
  induction line generalizing c cm with
  | zero =>
    cases h : cm.get 0 with
    | some v => exact loop_found 0 1 c cm v h (by intro l hl; omega)
    | none =>
      unfold parseCommentsLoop
      rw [h, commentBlock_none h]
      by_cases hc : c = [] <;> simp [hc, kept]
  | succ l ih =>
    cases h : cm.get (l + 1) with
    | some v =>
      refine loop_found (l + 1) 1 c cm v h ?_
      intro l' hl; obtain rfl : l = l' := by omega
      exact ih
    | none =>
      unfold parseCommentsLoop
      rw [h, commentBlock_none h]
      by_cases hc : c = [] <;> simp [hc, kept]

/-- What `parseComments` returns and removes. -/
theorem parseComments_spec (cm : Comments) (line : Nat) :
    (parseComments cm line).1 = docText (docLines cm line) ∧
      ∀ k, (parseComments cm line).2.get k =
        if k ∈ (docLines cm line).map (·.1) then none else cm.get k := by
  unfold parseComments
  by_cases he : cm.length = 0
  · have hnil := List.eq_nil_of_length_eq_zero he
    subst hnil
    have : docLines [] line = [] := by
      unfold docLines
      have h0 : ∀ k, Comments.get [] k = none := fun _ => rfl
      rw [h0]
      cases line with
      | zero => rfl
      | succ l => exact commentBlock_none (h0 l)
    simp [this, docText, join]
  · rw [if_neg he]
    have main : (parseCommentsLoop line 0 [] cm).1 = (kept (docLines cm line)).reverse ∧
        ∀ k, (parseCommentsLoop line 0 [] cm).2.get k =
          if k ∈ (docLines cm line).map (·.1) then none else cm.get k := by
      cases h : cm.get line with
      | some v =>
        have hd : docLines cm line = commentBlock cm line := by unfold docLines; rw [h]
        rw [hd]
        have := loop_found line 0 [] cm v h (fun l _ => loop_block l)
        simpa using this
      | none =>
        unfold docLines
        rw [h]
        unfold parseCommentsLoop
        rw [h]
        cases line with
        | zero => simp [kept]
        | succ l =>
          have := loop_block l [] cm
          simpa using this
    refine ⟨?_, main.2⟩
    change join ['\n'] (parseCommentsLoop line 0 [] cm).1.reverse = _
    rw [main.1, List.reverse_reverse]
    rfl

end Verif.Ridl
