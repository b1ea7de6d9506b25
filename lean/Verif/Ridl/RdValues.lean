import Verif.Ridl.Rd
import Verif.Ridl.ValueLemmas

/-! Values and types are read as the grammar says. -/

namespace Verif.Ridl
open Verif.Spec hiding advance
open Verif.Spec.Grammar

def vals (l : List Token) : Str := l.flatMap (·.val)

theorem vals_append (a b : List Token) : vals (a ++ b) = vals a ++ vals b := by simp [vals]
theorem vals_one (t : Token) : vals [t] = t.val := by simp [vals]

theorem rd_composed {l : List Token} {i : List Lexeme} :
    RdAt (composedValue l) i fun t r => r = i ∧ l ≠ [] ∧ Means (vals l) t.val := by
  unfold composedValue
  split
  · exact rd_fail
  · next b l' =>
    split
    · exact rd_fail
    · next v hv =>
      refine rd_pure ⟨rfl, by simp, fun ha => ?_⟩
      unfold unescapeString at hv
      rw [show List.flatMap (fun x : Token => x.val) (b :: l') = vals (b :: l') from rfl, bytes_ascii _ ha] at hv
      exact (unescapeBytes_iff _ _).1 hv

theorem rd_string {i : List Lexeme} : RdAt expectStringValue i fun t r => Quoted i t.val r := by
  unfold expectStringValue
  refine rd_cursor ?_ ?_
  · rintro rfl
    refine rd_advance fun _ _ => ?_
    rw [if_pos (by decide)]
    exact rd_fail
  · intro t r hi _ _
    refine rd_advance fun _ _ => ?_
    split
    · exact rd_fail
    · next hq =>
      simp only [ne_eq, Decidable.not_not] at hq
      subst hi
      refine rd_bind (rd_loop (fun s i a r => ∃ x, StrBody i x r ∧ vals a = vals s ++ x) fun s i => ?_) ?_
      · unfold stringBody
        refine rd_cursor ?_ ?_
        · rintro rfl
          exact rd_advance fun _ _ => rd_fail
        · intro t r hi h1 _
          refine rd_advance fun _ _ => ?_
          subst hi
          simp only [List.tail_cons]
          split
          · exact rd_fail
          · exact rd_fail
          · next hb =>
            refine rd_cursor ?_ ?_
            · rintro rfl
              refine rd_advance fun _ _ => rd_pure ?_
              rintro a r ⟨x, hx, _⟩
              cases hx
            · intro t2 r2 hi _ _
              subst hi
              refine rd_advance fun _ _ => rd_pure ?_
              rintro a r ⟨x, hx, hv⟩
              have e : lx t = (.backslash, t.val) := by simp [lx, hb]
              rw [e]
              refine ⟨_, .esc _ (lx t2) hx, ?_⟩
              rw [hv]
              simp [vals, lx]
          · next hb =>
            have e : lx t = (.quote, t.val) := by simp [lx, hb]
            exact rd_pure ⟨[], e ▸ .close _ _, by simp⟩
          · next h2 h3 h4 h5 =>
            refine rd_pure ?_
            rintro a r ⟨x, hx, hv⟩
            refine ⟨_, .tok (lx t) ?_ hx, ?_⟩
            · simp only [lx, List.mem_cons, List.not_mem_nil, or_false, not_or]
              exact ⟨h5, h4, h2⟩
            · rw [hv]; simp [vals, lx]
      · rintro toks j ⟨x, hx, hv⟩
        refine rd_composed.mono ?_
        rintro v r' ⟨rfl, _, hm⟩
        have e : lx t = (.quote, t.val) := by simp [lx, hq]
        rw [hv] at hm
        rw [e]
        exact .mk _ hx (by simpa [vals] using hm)

theorem run_append {ks : List TT} {i r : List Lexeme} {s : Str} (h : Run ks i s r) : ∃ c, i = c ++ r ∧ s = c.flatMap (·.2) := by
  induction h with
  | nil i => exact ⟨[], rfl, rfl⟩
  | cons x hx h ih =>
    obtain ⟨c, rfl, rfl⟩ := ih
    exact ⟨x :: c, rfl, rfl⟩

theorem rd_literal {isTok : TT → Bool} {ks : List TT} (hk : ∀ t, isTok t = true ↔ t ∈ ks) (hq : TT.eof ∉ ks) {i : List Lexeme} :
    RdAt (literal isTok) i fun t r => Literal ks i t.val r := by
  unfold literal
  refine rd_bind (rd_loop (fun s i (x : Token ⊕ List Token) r => match x with
    | .inl t => Literal ks i t.val r ∧ ∃ s j, Run ks i s j ∧ Quoted j t.val r
    | .inr l => NoMore (.quote :: ks) r ∧ ∃ c x, Run ks i x r ∧ vals l = vals s ++ x ∧ i = c ++ r ∧ l.length = s.length + c.length)
      fun s i => ?_) ?_
  · refine rd_cursor ?_ ?_
    · rintro rfl
      rw [if_neg (by decide), if_neg (by rw [hk]; exact hq)]
      exact rd_pure ⟨by intro t v r h; simp at h, [], [], .nil _, by simp, rfl, by simp⟩
    · intro t r hi h1 h2
      split
      · refine rd_bind rd_string fun v j hj => rd_pure ?_
        exact ⟨.quoted (.nil _) hj, [], i, .nil _, hj⟩
      · next hnq =>
        split
        · next hin =>
          rw [hk] at hin
          subst hi
          refine rd_advance fun _ _ => rd_pure ?_
          intro a r' ha
          cases a with
          | inl v =>
            obtain ⟨_, s', j, h3, h4⟩ := ha
            exact ⟨.quoted (.cons (lx t) hin h3) h4, _, j, .cons (lx t) hin h3, h4⟩
          | inr l =>
            obtain ⟨h3, c, x, h4, h5, h6, h7⟩ := ha
            refine ⟨h3, lx t :: c, _, .cons (lx t) hin h4, ?_, by simpa using h6, by simp at h7 ⊢; omega⟩
            rw [h5]; simp [vals, lx]
        · next hin =>
          rw [hk] at hin
          refine rd_pure ⟨?_, [], [], .nil _, by simp, rfl, by simp⟩
          intro k v r' hr
          rw [hi] at hr
          simp only [lx, List.cons.injEq, Prod.mk.injEq] at hr
          rw [← hr.1.1]
          simp only [List.mem_cons, not_or]
          exact ⟨hnq, hin⟩
  · intro x j hx
    cases x with
    | inl t => exact rd_pure hx.1
    | inr l =>
      obtain ⟨h3, c, x, h4, h5, h6, h7⟩ := hx
      refine rd_composed.mono ?_
      rintro t r ⟨rfl, hne, hm⟩
      refine .bare h4 ?_ h3 ?_
      · intro he
        rw [he] at h6
        have : c = [] := by
          have := congrArg List.length h6
          simp at this
          exact this
        subst this
        simp at h7
        exact hne h7
      · rw [h5] at hm; simpa [vals] using hm

theorem rd_value {i : List Lexeme} : RdAt expectLiteralValue i fun t r => Value i t.val r :=
  rd_literal (ks := [.word, .slash]) (by intro t; simp) (by decide)

theorem rd_path {i : List Lexeme} : RdAt expectPath i fun t r => Path i t.val r :=
  rd_literal (ks := [.word, .dot, .slash]) (by intro t; simp [or_assoc]) (by decide)

/-! ### `+` lines -/

theorem rd_key {i : List Lexeme} :
    RdAt expectMetadataKey i fun t r => ∃ w j s, i = (.word, w) :: j ∧ KeyRest j s r ∧ Means (w ++ s) t.val := by
  unfold expectMetadataKey
  refine rd_match (h := ?_)
  rintro ms r ⟨t, ms', i', rfl, ht, hi, rfl, rfl⟩
  refine rd_nth rfl ?_
  have e : i = (.word, t.val) :: i' := by rw [hi]; simp [lx, ht]
  refine rd_bind (rd_loop (fun s i a r => ∃ x, KeyRest i x r ∧ vals a = vals s ++ x ∧ (s ≠ [] → a ≠ [])) fun s i => ?_) ?_
  · refine rd_cursor (fun _ => rd_fail) ?_
    intro u r hi _ _
    split
    · exact rd_pure ⟨[], .nil _, by simp, id⟩
    · exact rd_pure ⟨[], .nil _, by simp, id⟩
    · exact rd_pure ⟨[], .nil _, by simp, id⟩
    · next hw =>
      subst hi
      refine rd_advance fun _ _ => rd_pure ?_
      rintro a r' ⟨x, h1, h2, h3⟩
      have e : lx u = (.word, u.val) := by simp [lx, hw]
      rw [e]
      exact ⟨_, .word _ h1, by rw [h2]; simp [vals], fun _ => h3 (by simp)⟩
    · refine rd_match (h := ?_)
      rintro ms r' ⟨u1, ms1, i1, rfl, hu1, hi1, u2, ms2, i2, rfl, hu2, hi2, rfl, rfl⟩
      refine rd_pure ?_
      rintro a r' ⟨x, h1, h2, h3⟩
      subst hi2
      refine ⟨u1.val ++ u2.val ++ x, ?_, by rw [h2]; simp [vals], fun _ => h3 (by simp)⟩
      rw [hi1]
      have e1 : lx u1 = (.dot, u1.val) := by simp [lx, hu1]
      have e2 : lx u2 = (.word, u2.val) := by simp [lx, hu2]
      rw [e1, e2]
      exact .dot _ _ h1
    · exact rd_fail
  · rintro l j ⟨x, h1, h2, _⟩
    refine rd_composed.mono ?_
    rintro v r ⟨rfl, _, hm⟩
    refine ⟨t.val, i', x, e, h1, ?_⟩
    rw [h2, vals_one] at hm
    exact hm

theorem rd_metaValue {i : List Lexeme} : RdAt expectMetadataValue i fun t r => MetaVal i t.val r := by
  unfold expectMetadataValue
  have run : RdAt (loop (fun (tokens : List Token) => do
      let tok ← cursor
      match tok.tt with
      | .whitespace | .newLine | .eof => pure (.inr tokens)
      | _ =>
        let _ ← Verif.Ridl.advance
        pure (.inl (tokens ++ [tok]))) []) i fun a r => ∃ c, i = c ++ r ∧ vals a = vals [] ++ c.flatMap (·.2) ∧
          a.length = ([] : List Token).length + c.length ∧ (∀ y ∈ c, y.1 ∉ [.whitespace, .newLine]) ∧
          (r = [] ∨ ∃ k w t, r = (k, w) :: t ∧ k ∈ [.whitespace, .newLine]) := by
    refine rd_loop (fun s i a r => ∃ c, i = c ++ r ∧ vals a = vals s ++ c.flatMap (·.2) ∧ a.length = s.length + c.length ∧
      (∀ y ∈ c, y.1 ∉ [.whitespace, .newLine]) ∧ (r = [] ∨ ∃ k w t, r = (k, w) :: t ∧ k ∈ [.whitespace, .newLine])) fun s i => ?_
    refine rd_cursor ?_ ?_
    · rintro rfl
      exact rd_pure ⟨[], rfl, by simp, by simp, by simp, .inl rfl⟩
    · intro t r hi h1 _
      split
      · next hw => exact rd_pure ⟨[], rfl, by simp, by simp, by simp, .inr ⟨t.tt, t.val, r, hi, by simp [hw]⟩⟩
      · next hw => exact rd_pure ⟨[], rfl, by simp, by simp, by simp, .inr ⟨t.tt, t.val, r, hi, by simp [hw]⟩⟩
      · next hw => exact absurd hw h1
      · next h2 h3 h4 =>
        subst hi
        refine rd_advance fun _ _ => rd_pure ?_
        rintro a r' ⟨c, hc, hv, hl, hn, he⟩
        refine ⟨lx t :: c, by simpa using hc, by rw [hv]; simp [vals, lx], by simp at hl ⊢; omega, ?_, he⟩
        intro y hy
        rcases List.mem_cons.1 hy with rfl | hy
        · simp only [lx, List.mem_cons, List.not_mem_nil, or_false, not_or]
          exact ⟨h2, h3⟩
        · exact hn y hy
  have fin : ∀ a r, (∃ c, i = c ++ r ∧ vals a = vals [] ++ c.flatMap (·.2) ∧
          a.length = ([] : List Token).length + c.length ∧ (∀ y ∈ c, y.1 ∉ [.whitespace, .newLine]) ∧
          (r = [] ∨ ∃ k w t, r = (k, w) :: t ∧ k ∈ [.whitespace, .newLine])) → (∀ v r, i = (.quote, v) :: r → False) →
          RdAt (composedValue a) r fun t r => MetaVal i t.val r := by
    rintro a r ⟨c, hc, hv, hl, hn, he⟩ hq
    refine rd_composed.mono ?_
    rintro v r' ⟨rfl, hne, hm⟩
    cases c with
    | nil => simp at hl; exact absurd hl hne
    | cons x c =>
      subst hc
      refine .bare x c ?_ hn he ?_
      · intro h
        exact hq x.2 (c ++ r') (by rw [← h]; rfl)
      · rw [hv] at hm; simpa [vals] using hm
  refine rd_cursor ?_ ?_
  · rintro rfl
    rw [if_neg (by decide)]
    exact rd_bind run fun a r h => fin a r h (by simp)
  · intro t r hi _ _
    split
    · exact rd_string.mono fun _ _ h => .quoted h
    · next hq =>
      refine rd_bind run fun a r' h => fin a r' h ?_
      intro v r2 h2
      rw [hi] at h2
      simp only [lx, List.cons.injEq, Prod.mk.injEq] at h2
      exact hq h2.1.1

theorem rd_metaLine {i : List Lexeme} : RdAt metaLine i fun m r => MetaLine i (m.1.val, m.2.val) r := by
  unfold metaLine
  refine rd_match (h := ?_)
  rintro ms r ⟨t, ms', i', rfl, ht, hi, b, ms1, g1, i1, rfl, hg1, rfl, rfl, rfl⟩
  refine rd_bind rd_key ?_
  rintro k j ⟨w, j', s, rfl, hk, hm⟩
  refine rd_match (h := ?_)
  rintro ms r ⟨b1, ms1, g2, i1, rfl, hg2, rfl, u, ms2, i2, rfl, hu, rfl, b3, ms3, g3, i3, rfl, hg3, rfl, rfl, rfl⟩
  refine rd_bind rd_metaValue fun v r hv => rd_pure ?_
  have e1 : lx t = (.plusSign, t.val) := by simp [lx, ht]
  have e2 : lx u = (.equal, u.val) := by simp [lx, hu]
  rw [e2] at hk
  rw [hi, e1]
  exact .mk _ _ _ g1 g2 g3 hg1 hk hm hg2 hg3 hv

/-! ### Types -/

/-- `rec` reads a type. -/
def ReadsType (rec : P Token) : Prop := ∀ i, RdAt rec i fun t r => TypeE i t.val r

theorem lx_eq {t : Token} {k : TT} (h : t.tt = k) : lx t = (k, t.val) := by simp [lx, h]

theorem rd_typeList {rec : P Token} (hrec : ReadsType rec) {i : List Lexeme} :
    RdAt (expectTypeList rec) i fun t r => ∃ a j s, i = (.openAngle, a) :: j ∧ Items j s r ∧ Means (a ++ s) t.val := by
  unfold expectTypeList
  refine rd_match (h := ?_)
  rintro ms r ⟨t, ms', i', rfl, ht, hi, rfl, rfl⟩
  refine rd_nth rfl ?_
  refine rd_bind (rd_loop (fun s i a r => ∃ x, Items i x r ∧ vals a = vals s ++ x) fun s i => ?_) ?_
  · refine rd_cursor (fun _ => rd_fail) ?_
    intro u r hi _ _
    split
    · next hw =>
      subst hi
      refine rd_advance fun _ _ => rd_pure ?_
      rintro a r' ⟨x, h1, h2⟩
      rw [lx_eq hw]
      exact ⟨x, .blank _ h1, h2⟩
    · next hw =>
      subst hi
      rw [lx_eq hw]
      exact rd_pure ⟨u.val, .close _ _, by simp [vals]⟩
    · next hw =>
      subst hi
      refine rd_advance fun _ _ => rd_pure ?_
      rintro a r' ⟨x, h1, h2⟩
      exact ⟨_, .sep (lx u) (by simp [lx, hw]) h1, by rw [h2]; simp [vals, lx]⟩
    · next hw =>
      subst hi
      refine rd_advance fun _ _ => rd_pure ?_
      rintro a r' ⟨x, h1, h2⟩
      exact ⟨_, .sep (lx u) (by simp [lx, hw]) h1, by rw [h2]; simp [vals, lx]⟩
    · refine rd_bind (hrec _) fun v j hv => rd_pure ?_
      rintro a r' ⟨x, h1, h2⟩
      exact ⟨_, .type hv h1, by rw [h2]; simp [vals]⟩
    · refine rd_bind (hrec _) fun v j hv => rd_pure ?_
      rintro a r' ⟨x, h1, h2⟩
      exact ⟨_, .type hv h1, by rw [h2]; simp [vals]⟩
    · exact rd_fail
  · rintro l j ⟨x, h1, h2⟩
    refine rd_composed.mono ?_
    rintro v r' ⟨rfl, _, hm⟩
    rw [h2, vals_one] at hm
    exact ⟨t.val, i', x, by rw [hi, lx_eq ht], h1, hm⟩

theorem rd_map {rec : P Token} (hrec : ReadsType rec) {i : List Lexeme} (hw : ∀ t v r, i = (t, v) :: r → t = .word) :
    RdAt (expectMapDefinition rec) i fun t r => MapE i t.val r := by
  unfold expectMapDefinition
  refine rd_cursor ?_ ?_
  · rintro rfl
    rw [if_pos (by decide)]
    exact rd_fail
  · intro t r hi _ _
    split
    · exact rd_fail
    · next hv =>
      simp only [ne_eq, Decidable.not_not] at hv
      refine rd_advance fun _ _ => ?_
      have ht := hw _ _ _ hi
      subst hi
      simp only [List.tail_cons]
      refine rd_bind (rd_loop (fun s i a r => ∃ x, Angle i x r ∧ vals a = vals s ++ x) fun s i => ?_) ?_
      · refine rd_cursor (fun _ => rd_fail) ?_
        intro u r hi _ _
        split
        · next hw =>
          subst hi
          refine rd_advance fun _ _ => rd_pure ?_
          rintro a r' ⟨x, h1, h2⟩
          rw [lx_eq hw]
          exact ⟨x, .blank _ h1, h2⟩
        · next hw =>
          subst hi
          refine rd_advance fun _ _ => rd_pure ?_
          rw [lx_eq hw]
          exact ⟨[], .close _ _, by simp⟩
        · refine rd_bind (rd_typeList hrec) ?_
          rintro v j ⟨a, j', x, e, h1, h2⟩
          refine rd_pure ?_
          rintro a' r' ⟨x', h3, h4⟩
          rw [e]
          exact ⟨_, .list a h1 h2 h3, by rw [h4]; simp [vals]⟩
        · exact rd_fail
      · rintro l j ⟨x, h1, h2⟩
        refine rd_composed.mono ?_
        rintro v r' ⟨rfl, _, hm⟩
        rw [h2, vals_one, hv] at hm
        rw [lx_eq ht, hv]
        exact .mk h1 hm

theorem rd_typeBody {rec : P Token} (hrec : ReadsType rec) : ReadsType (expectTypeBody rec) := by
  intro i
  unfold expectTypeBody
  refine rd_bind (rd_loop (fun s i a r => (a = s ∧ i = r) ∨ ∃ x x' j, Part i x j ∧ Parts j x' r ∧ vals a = vals s ++ x ++ x') fun s i => ?_) ?_
  · have key : ∀ (s l : List Token) (i j : List Lexeme), Part i (vals l) j → ∀ a r,
        ((a = s ++ l ∧ j = r) ∨ ∃ x x' k, Part j x k ∧ Parts k x' r ∧ vals a = vals (s ++ l) ++ x ++ x') →
        ((a = s ∧ i = r) ∨ ∃ x x' k, Part i x k ∧ Parts k x' r ∧ vals a = vals s ++ x ++ x') := by
      rintro s l i j hp a r (⟨rfl, rfl⟩ | ⟨x, x', k, h1, h2, h3⟩)
      · exact .inr ⟨_, [], _, hp, .nil _, by simp [vals_append]⟩
      · exact .inr ⟨_, x ++ x', _, hp, .cons h1 h2, by rw [h3]; simp [vals_append]⟩
    refine rd_cursor ?_ ?_
    · rintro rfl
      exact rd_pure (.inl ⟨rfl, rfl⟩)
    · intro t r hi _ _
      split
      · exact rd_pure (.inl ⟨rfl, rfl⟩)
      · exact rd_pure (.inl ⟨rfl, rfl⟩)
      · exact rd_pure (.inl ⟨rfl, rfl⟩)
      · exact rd_pure (.inl ⟨rfl, rfl⟩)
      · exact rd_pure (.inl ⟨rfl, rfl⟩)
      · exact rd_pure (.inl ⟨rfl, rfl⟩)
      · exact rd_pure (.inl ⟨rfl, rfl⟩)
      · exact rd_pure (.inl ⟨rfl, rfl⟩)
      · refine rd_match (h := ?_)
        rintro ms r' ⟨u1, ms1, i1, rfl, hu1, hi1, u2, ms2, i2, rfl, hu2, rfl, rfl, rfl⟩
        refine rd_bind (hrec _) fun v j hv => rd_pure (key s _ i j ?_)
        have e : vals ([u1, u2] ++ [v]) = u1.val ++ u2.val ++ v.val := by simp [vals]
        rw [e, hi1, lx_eq hu1, lx_eq hu2]
        exact .list _ _ hv
      · next hw =>
        split
        · refine rd_bind (rd_map hrec ?_) fun v j hv => rd_pure (key s [v] i j ?_)
          · intro k v r' h
            rw [hi, lx_eq hw] at h
            simp only [List.cons.injEq, Prod.mk.injEq] at h
            exact h.1.1.symm
          · rw [vals_one]; exact .map hv
        · next h1 =>
          split
          · exact rd_fail
          · next h2 =>
            refine rd_advance fun _ _ => rd_pure (key s [t] i _ ?_)
            subst hi
            rw [vals_one, lx_eq hw]
            refine .name _ _ ?_
            simp only [not_or] at h2
            simp only [List.mem_cons, List.not_mem_nil, or_false, not_or]
            exact ⟨h1, h2.1, h2.2⟩
      · exact rd_fail
  · rintro l j h
    refine rd_composed.mono ?_
    rintro v r' ⟨rfl, hne, hm⟩
    rcases h with ⟨h, _⟩ | ⟨x, x', k, h1, h2, h3⟩
    · exact absurd h hne
    · rw [h3] at hm
      exact .mk h1 h2 (by simpa [vals] using hm)

theorem rd_typeN (n : Nat) : ReadsType (expectTypeN n) := by
  induction n with
  | zero => intro i p a p' _ _ h; simp [expectTypeN] at h
  | succ n ih => exact rd_typeBody ih

theorem rd_type {i : List Lexeme} : RdAt expectType i fun t r => TypeE i t.val r := by
  intro p a p' hp hi h
  exact rd_typeN _ i p a p' hp hi h

end Verif.Ridl
