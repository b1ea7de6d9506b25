import Verif.Ridl.Sim

/-! # Two parsers on related tokens: values, patterns and types (for C98) -/

namespace Verif.Ridl
open Verif.Spec Verif.Schema

variable {c : Ctx}

/-- Case distinction on the kind of the token at the cursor. -/
macro "on_tt" t:ident ht:ident hr:ident hb:ident hT:ident hk:ident : tactic =>
  `(tactic| (rw [($ht).tt]; have $hT:ident := ($ht).tok; generalize $hk:ident : ($t).tt = k at $hT:ident $hr:ident $hb:ident ⊢; cases k <;> dsimp only))

theorem sim_untilEOL {p q : PS} (h : PRel c p q) (hr : Room c p 0) :
    Sim c continueUntilEOL continueUntilEOL p q fun _ _ p' => Room c p' 0 := by
  unfold continueUntilEOL
  refine sim_loop (fun _ _ p => Room c p 0) h hr ?_
  intro _ _ p q h hr
  refine sim_bind (sim_cursor h hr) ?_
  rintro t t' p1 q1 h1 ⟨rfl, -, ht, hr2, -⟩
  rw [ht.tt]
  by_cases hk : t.tt = .newLine ∨ t.tt = .eof
  · simp only [if_pos hk]
    exact sim_pure h1 hr
  · simp only [if_neg hk]
    refine sim_bind (sim_advance h1 ((hr2 fun h => hk (Or.inl h)).mono (by omega) : Room c p1 (0 + 1))) ?_
    rintro _ _ p2 q2 h2 ⟨-, hr3⟩
    exact sim_pure h2 hr3

theorem sim_commentOrEOL {p q : PS} (h : PRel c p q) (hr : Room c p 0) :
    Sim c expectOptionalCommentOrEOL expectOptionalCommentOrEOL p q fun _ _ p' => Room c p' 0 := by
  unfold expectOptionalCommentOrEOL
  refine sim_loop (fun _ _ p => Room c p 0) h hr ?_
  intro _ _ p q h hr
  refine sim_bind (sim_cursor h hr) ?_
  rintro t t' p1 q1 h1 ⟨rfl, -, ht, hr2, hb⟩
  on_tt t ht hr2 hb hT hk
  all_goals first
    | exact sim_fail_same h1 hr
    | exact sim_pure h1 hr
    | skip
  · refine sim_bind (sim_advance h1 ((hr2 (by decide)).mono (by omega) : Room c p1 (0 + 1))) ?_
    rintro _ _ p2 q2 h2 ⟨-, hr3⟩
    exact sim_pure h2 hr3
  · refine sim_bind (sim_untilEOL h1 hr) ?_
    intro _ _ p2 q2 h2 hr3
    exact sim_pure h2 hr3

/-- Related texts collected so far: the first token decides the position. -/
def Acc (c : Ctx) (l l' : List Token) : Prop :=
  (l = [] ∧ l' = []) ∨ ∃ t t' r r', l = t :: r ∧ l' = t' :: r' ∧ TokS c t t' ∧ Pointwise (Cur c) r r'

theorem Pointwise.snoc {α β : Type} {R : α → β → Prop} {a : List α} {b : List β} {x : α} {y : β} (h : Pointwise R a b) (k : R x y) :
    Pointwise R (a ++ [x]) (b ++ [y]) := by
  induction h with
  | nil => exact .cons k .nil
  | cons h1 _ ih => exact .cons h1 ih

theorem Pointwise.app {α β : Type} {R : α → β → Prop} {a a' : List α} {b b' : List β} (h : Pointwise R a b) (k : Pointwise R a' b') :
    Pointwise R (a ++ a') (b ++ b') := by
  induction h with
  | nil => exact k
  | cons h1 _ ih => exact .cons h1 ih

theorem Acc.snoc {l l' : List Token} (h : Acc c l l') {t t' : Token} (ht : TokS c t t') (he : t.tt ≠ .eof) : Acc c (l ++ [t]) (l' ++ [t']) := by
  rcases h with ⟨rfl, rfl⟩ | ⟨a, a', r, r', rfl, rfl, h1, h2⟩
  · exact Or.inr ⟨t, t', [], [], rfl, rfl, ht, .nil⟩
  · exact Or.inr ⟨a, a', _, _, rfl, rfl, h1, Pointwise.snoc h2 (Or.inr ⟨ht, he⟩)⟩

theorem Acc.snoc2 {l l' : List Token} (h : Acc c l l') {t t' u u' : Token} (ht : TokS c t t') (he : t.tt ≠ .eof) (hu : Cur c u u') :
    Acc c (l ++ [t] ++ [u]) (l' ++ [t'] ++ [u']) := by
  rcases h.snoc ht he with ⟨h, -⟩ | ⟨a, a', r, r', e1, e2, h1, h2⟩
  · simp at h
  · rw [e1, e2]; exact Or.inr ⟨a, a', _, _, rfl, rfl, h1, Pointwise.snoc h2 hu⟩

/-- A token that is not the end of the document. -/
def Real (c : Ctx) (t t' : Token) : Prop := TokS c t t' ∧ t.tt ≠ .eof

theorem Acc.app {l l' m m' : List Token} (h : Acc c l l') (k : Pointwise (Real c) m m') : Acc c (l ++ m) (l' ++ m') := by
  induction k generalizing l l' with
  | nil => simpa using h
  | cons h1 _ ih =>
    have := ih (h.snoc h1.1 h1.2)
    simpa using this

theorem flat_val {r r' : List Token} (h : Pointwise (Cur c) r r') : r'.flatMap (·.val) = r.flatMap (·.val) := by
  induction h with
  | nil => rfl
  | cons h1 _ ih => rw [List.flatMap_cons, List.flatMap_cons, ih, h1.val]

theorem sim_composed {l l' : List Token} {p q : PS} (h : PRel c p q) (hr : Room c p 0) (ha : Acc c l l') :
    Sim c (composedValue l) (composedValue l') p q fun a b p' => Real c a b ∧ p' = p := by
  rcases ha with ⟨rfl, rfl⟩ | ⟨t, t', r, r', rfl, rfl, h1, h2⟩
  · exact sim_fail_same h hr
  · unfold composedValue
    dsimp only
    have hv : (t' :: r').flatMap (·.val) = (t :: r).flatMap (·.val) := by
      rw [List.flatMap_cons, List.flatMap_cons, flat_val h2, h1.val]
    rw [hv]
    cases unescapeString ((t :: r).flatMap (·.val)) with
    | error e => exact sim_fail_same h hr
    | ok v =>
      refine sim_pure h ⟨⟨⟨⟨rfl, rfl, h1.line, h1.col⟩, h1.ok, fun he => ?_⟩, (nofun)⟩, rfl⟩
      rw [h1.same he]

theorem sim_stringLoop {p q : PS} (h : PRel c p q) (hr : Room c p 1) {l l' : List Token} (ha : Acc c l l') :
    Sim c (loop stringBody l) (loop stringBody l') p q fun a b p' => Acc c a b ∧ Room c p' 1 := by
  refine sim_loop (fun a b p => Acc c a b ∧ Room c p 1) h ⟨ha, hr⟩ ?_
  rintro l l' p q h ⟨ha, hr⟩
  unfold stringBody
  refine sim_bind (sim_cursor h (hr.mono (by omega))) ?_
  rintro t t' p1 q1 h1 ⟨rfl, -, ht, hr2, hb⟩
  have hstep : ∃ k, (k = 0 ∨ (t.tt ≠ .newLine ∧ k = 1) ∨ (t.tt = .backslash ∧ k = 2)) ∧ Room c p1 (k + 1) ∧
      (t.tt ≠ .newLine → 1 ≤ k) ∧ (t.tt = .backslash → k = 2) := by
    by_cases h1 : t.tt = .newLine
    · exact ⟨0, Or.inl rfl, hr, fun h => absurd h1 h, fun h => by rw [h1] at h; cases h⟩
    · by_cases h2 : t.tt = .backslash
      · exact ⟨2, Or.inr (Or.inr ⟨h2, rfl⟩), hb h2, fun _ => by omega, fun _ => rfl⟩
      · exact ⟨1, Or.inr (Or.inl ⟨h1, rfl⟩), hr2 h1, fun _ => by omega, fun h => absurd h h2⟩
  obtain ⟨k, -, hk0, hk1, hk2⟩ := hstep
  refine sim_bind (sim_advance h1 hk0) ?_
  rintro _ _ p2 q2 h2 ⟨-, hr3⟩
  rw [ht.tt]
  have hT := ht.tok
  generalize hkk : t.tt = tt at hT hk1 hk2 ⊢
  cases tt <;> dsimp only
  all_goals first
    | exact sim_fail_same h2 (hr3.mono (by omega))
    | exact sim_pure h2 ⟨ha, hr3.mono (hk1 (by decide))⟩
    | exact sim_pure h2 ⟨ha.snoc (hT (by decide)) (by rw [hkk]; decide), hr3.mono (hk1 (by decide))⟩
    | skip
  refine sim_bind (sim_cursor h2 (hr3.mono (by omega))) ?_
  rintro u u' p3 q3 h3 ⟨rfl, -, hu, hr4, -⟩
  refine sim_bind (sim_advance h3 ((hk2 rfl ▸ hr3 : Room c p3 2) : Room c p3 (1 + 1))) ?_
  rintro _ _ p4 q4 h4 ⟨-, hr5⟩
  exact sim_pure h4 ⟨ha.snoc2 (hT (by decide)) (by rw [hkk]; decide) hu, hr5⟩

theorem sim_string {p q : PS} (h : PRel c p q) (hr : Room c p 0) (hq : p.cursor.tt = .quote) :
    Sim c expectStringValue expectStringValue p q fun a b p' => Real c a b ∧ Room c p' 1 := by
  unfold expectStringValue
  refine sim_bind (sim_cursor h hr) ?_
  rintro t t' p1 q1 h1 ⟨rfl, rfl, ht, hr2, hb⟩
  refine sim_bind (sim_advance h1 (hr2 (by rw [hq]; decide))) ?_
  rintro _ _ p2 q2 h2 ⟨-, hr3⟩
  rw [ht.tt]
  simp only [if_neg (show ¬ (p1.cursor.tt ≠ .quote) from fun h => h hq)]
  refine sim_bind (sim_stringLoop h2 hr3 (Or.inl ⟨rfl, rfl⟩)) ?_
  rintro a b p3 q3 h3 ⟨ha, hr4⟩
  refine (sim_composed h3 (hr4.mono (by omega)) ha).mono ?_
  rintro a b p' ⟨h1, rfl⟩
  exact ⟨h1, hr4⟩

theorem sim_literal {p q : PS} (h : PRel c p q) (hr : Room c p 0) (isTok : TT → Bool) (hn : isTok .newLine = false) (he : isTok .eof = false) :
    Sim c (literal isTok) (literal isTok) p q fun a b p' => Real c a b ∧ Room c p' 0 := by
  unfold literal
  refine sim_bind (Q := fun a b p' => Room c p' 0 ∧ match a, b with
    | .inl t, .inl t' => Real c t t'
    | .inr l, .inr l' => Acc c l l'
    | _, _ => False) ?_ ?_
  · refine sim_loop (fun a b p => Acc c a b ∧ Room c p 0) h ⟨Or.inl ⟨rfl, rfl⟩, hr⟩ ?_
    rintro l l' p q h ⟨ha, hr⟩
    refine sim_bind (sim_cursor h hr) ?_
    rintro t t' p1 q1 h1 ⟨rfl, e, ht, hr2, hb⟩
    rw [ht.tt]
    by_cases hq : t.tt = .quote
    · simp only [if_pos hq]
      refine sim_bind (sim_string h1 hr (by rw [← e]; exact hq)) ?_
      rintro a b p2 q2 h2 ⟨g1, g2⟩
      exact sim_pure h2 ⟨g2.mono (by omega), g1⟩
    · simp only [if_neg hq]
      by_cases hi : isTok t.tt = true
      · simp only [if_pos hi]
        have hne : t.tt ≠ .newLine := fun h => by rw [h, hn] at hi; cases hi
        have hne' : t.tt ≠ .eof := fun h => by rw [h, he] at hi; cases hi
        refine sim_bind (sim_advance h1 (hr2 hne)) ?_
        rintro _ _ p2 q2 h2 ⟨-, hr3⟩
        exact sim_pure h2 ⟨ha.snoc (ht.tok hne') hne', hr3.mono (by omega)⟩
      · simp only [if_neg hi]
        exact sim_pure h1 ⟨hr, ha⟩
  · rintro a b p1 q1 h1 ⟨hr1, hab⟩
    cases a with
    | inl t =>
      cases b with
      | inl t' => exact sim_pure h1 ⟨hab, hr1⟩
      | inr _ => exact hab.elim
    | inr l =>
      cases b with
      | inl _ => exact hab.elim
      | inr l' =>
        refine (sim_composed h1 hr1 hab).mono ?_
        rintro a b p' ⟨g1, rfl⟩
        exact ⟨g1, hr1⟩

theorem sim_literalValue {p q : PS} (h : PRel c p q) (hr : Room c p 0) :
    Sim c expectLiteralValue expectLiteralValue p q fun a b p' => Real c a b ∧ Room c p' 0 :=
  sim_literal h hr _ rfl rfl

theorem sim_path {p q : PS} (h : PRel c p q) (hr : Room c p 0) :
    Sim c expectPath expectPath p q fun a b p' => Real c a b ∧ Room c p' 0 :=
  sim_literal h hr _ rfl rfl

/-! ### Patterns -/

/-- A kind of token that a pattern may supply itself. -/
def Soft (w : TT) : Prop := w = .whitespace ∨ w = .eol

/-- What a pattern yields in both parsers. -/
def MRel (c : Ctx) : List TT → List Token → List Token → Prop
  | [], l, l' => l = [] ∧ l' = []
  | w :: ws, t :: l, t' :: l' => (¬ Soft w → TokS c t t' ∧ t.tt = w) ∧ MRel c ws l l'
  | _, _, _ => False

theorem mrel_snoc {ws : List TT} {l l' : List Token} {w : TT} {t t' : Token} (h : MRel c ws l l')
    (ht : ¬ Soft w → TokS c t t' ∧ t.tt = w) : MRel c (ws ++ [w]) (l ++ [t]) (l' ++ [t']) := by
  induction ws generalizing l l' with
  | nil => obtain ⟨rfl, rfl⟩ := h; exact ⟨ht, rfl, rfl⟩
  | cons a ws ih =>
    cases l with
    | nil => cases l' <;> exact h.elim
    | cons x l =>
      cases l' with
      | nil => exact h.elim
      | cons x' l' => exact ⟨h.1, ih h.2⟩

/-- Patterns as the parser uses them: no newline, and `eol` only as the last element. -/
def PatternOK : List TT → Prop
  | [] => True
  | [w] => w ≠ .newLine ∧ w ≠ .eof
  | w :: ws => w ≠ .newLine ∧ w ≠ .eof ∧ w ≠ .eol ∧ PatternOK ws

theorem sim_matchLoop : ∀ (ws done : List TT) (l l' : List Token) (n : Nat) (p q : PS), PatternOK ws → PRel c p q → Room c p 0 → n ≤ p.pos →
    (n = 0 → ∀ w ∈ done, Soft w) → (∀ w, done.getLast? = some w → ¬ Soft w → Room c p 1) → MRel c done l l' →
    Sim c (matchLoop ws l n) (matchLoop ws l' n) p q fun a b p' => MRel c (done ++ ws) a b ∧ Room c p' 0 ∧
      ((∃ w ∈ done ++ ws, ¬ Soft w) → 1 ≤ p'.pos) ∧ (∀ w, (done ++ ws).getLast? = some w → ¬ Soft w → Room c p' 1) := by
  intro ws
  induction ws with
  | nil =>
    intro done l l' n p q _ h hr hn hs hlast hm
    unfold matchLoop
    refine sim_pure h ⟨by rw [List.append_nil]; exact hm, hr, ?_, by rw [List.append_nil]; exact hlast⟩
    rintro ⟨w, hw, hws⟩
    rw [List.append_nil] at hw
    rcases Nat.eq_zero_or_pos n with h0 | h0
    · exact absurd (hs h0 w hw) hws
    · omega
  | cons w ws ih =>
    intro done l l' n p q hok h hr hn hs hlast hm
    have hw : w ≠ .newLine ∧ w ≠ .eof ∧ PatternOK ws ∧ (w = .eol → ws = []) := by
      cases ws with
      | nil => exact ⟨hok.1, hok.2, trivial, fun _ => rfl⟩
      | cons a b => exact ⟨hok.1, hok.2.1, hok.2.2.2, fun h => absurd h hok.2.2.1⟩
    unfold matchLoop
    refine sim_bind (sim_cursor h hr) ?_
    rintro t t' p1 q1 h1 ⟨rfl, hcur, ht, hr2, hb⟩
    rw [ht.tt]
    have happ : done ++ w :: ws = (done ++ [w]) ++ ws := by simp
    by_cases htt : t.tt = w
    · simp only [if_pos htt]
      refine sim_bind (Q := fun a b p' => Room c p' 1 ∧ p'.pos = p1.pos + 1) ?_ ?_
      · intro o p' hm'
        have hne : t.tt ≠ .eof := by rw [htt]; exact hw.2.1
        have := sim_advance h1 (hr2 (by rw [htt]; exact hw.1)) o p' hm'
        unfold advance at hm'
        split at hm'
        · rename_i hge
          exfalso
          rcases ht with ⟨he, -⟩ | ⟨hS, -⟩
          · rw [he] at hne; exact hne rfl
          · have : p1.cursor = eofToken := by unfold PS.cursor; rw [List.getElem?_eq_none (by omega)]; rfl
            rw [hcur, this] at hne; exact hne rfl
        · cases hm'
          obtain ⟨b, q', g1, g2, -, g3⟩ := this
          exact ⟨b, q', g1, g2, g3, rfl⟩
      · rintro _ _ p2 q2 h2 ⟨hr3, hpos⟩
        have hsnoc : MRel c (done ++ [w]) (l ++ [t]) (l' ++ [t']) := by
          refine mrel_snoc hm fun _ => ⟨ht.tok (by rw [htt]; exact hw.2.1), htt⟩
        have := ih (done ++ [w]) _ _ (n + 1) p2 q2 hw.2.2.1 h2 (hr3.mono (by omega)) (by omega) (by omega) (fun _ _ _ => hr3) hsnoc
        rw [happ]
        exact this
    · simp only [if_neg htt]
      by_cases he : w = .eol
      · simp only [if_pos he]
        refine sim_bind (Q := fun _ _ p' => Room c p' 0 ∧ p1.pos ≤ p'.pos) ?_ ?_
        · intro o p' hm'
          have hv : p1.Valid := by unfold PS.Valid; rw [h1.len]; exact h1.le
          have := sim_commentOrEOL h1 hr o p' hm'
          have hwp := safe_expectEOL p1 hv
          unfold Wp at hwp
          rw [hm'] at hwp
          cases o with
          | ok a =>
            obtain ⟨b, q', g1, g2, g3⟩ := this
            exact ⟨b, q', g1, g2, g3, by have := hwp.pos; omega⟩
          | err e => exact this
          | panic => trivial
          | hang => trivial
        · rintro _ _ p2 q2 h2 ⟨hr3, hpos⟩
          have hnil := hw.2.2.2 he
          subst hnil
          refine sim_pure h2 ⟨?_, hr3, ?_, fun x hx hs' => ?_⟩
          rotate_right
          · rw [List.getLast?_append] at hx
            cases hx
            exact absurd (Or.inr he) hs'
          · exact mrel_snoc hm fun h => absurd (Or.inr he) h
          · rintro ⟨w', hw', hs'⟩
            rcases Nat.eq_zero_or_pos n with h0 | h0
            · exfalso
              rcases List.mem_append.1 hw' with g | g
              · exact hs' (hs h0 w' g)
              · rw [List.mem_singleton.1 g] at hs'; exact hs' (Or.inr he)
            · omega
      · simp only [if_neg he]
        by_cases hws : w ≠ .whitespace
        · simp only [if_pos hws]
          refine sim_bind (sim_rewind h1 hr hn) ?_
          intro _ _ p2 q2 h2 hr3
          refine sim_fail h2 hr3 (.expecting w ht.tt ht.val) fun hne => ?_
          rcases ht with ⟨rfl, rfl⟩ | ⟨hS, -⟩
          · rfl
          · rw [hS.same hne]
        · simp only [if_neg hws]
          have hws : w = .whitespace := Classical.not_not.1 hws
          have := ih (done ++ [w]) _ _ n p1 q1 hw.2.2.1 h1 hr hn (by
            intro h0 x hx
            rcases List.mem_append.1 hx with g | g
            · exact hs h0 x g
            · rw [List.mem_singleton.1 g]; exact Or.inl hws) (fun x hx hs' => by
            rw [List.getLast?_append] at hx
            cases hx
            exact absurd (Or.inl hws) hs') (mrel_snoc (w := w) (t := { tt := .whitespace, val := [' '], line := t.line, col := t.col })
              (t' := { tt := .whitespace, val := [' '], line := t'.line, col := t'.col }) hm fun h => absurd (Or.inl hws) h)
          rw [happ]
          exact this

theorem sim_match {ws : List TT} {p q : PS} (hok : PatternOK ws) (h : PRel c p q) (hr : Room c p 0) :
    Sim c (match_ ws) (match_ ws) p q fun a b p' => MRel c ws a b ∧ Room c p' 0 ∧ ((∃ w ∈ ws, ¬ Soft w) → 1 ≤ p'.pos) ∧
      (∀ w, ws.getLast? = some w → ¬ Soft w → Room c p' 1) :=
  sim_matchLoop ws [] [] [] 0 p q hok h hr (by omega) (fun _ _ h => by cases h) (fun _ h => by cases h) ⟨rfl, rfl⟩

theorem mrel_nth {ws : List TT} {l l' : List Token} (h : MRel c ws l l') {i : Nat} {w : TT} (hi : ws[i]? = some w) (hs : ¬ Soft w) :
    ∃ t t', l[i]? = some t ∧ l'[i]? = some t' ∧ TokS c t t' ∧ t.tt = w := by
  induction ws generalizing l l' i with
  | nil => cases hi
  | cons a ws ih =>
    cases l with
    | nil => cases l' <;> exact h.elim
    | cons x l =>
      cases l' with
      | nil => exact h.elim
      | cons x' l' =>
        cases i with
        | zero =>
          rw [List.getElem?_cons_zero] at hi
          cases hi
          exact ⟨x, x', rfl, rfl, h.1 hs⟩
        | succ i =>
          rw [List.getElem?_cons_succ] at hi
          exact ih h.2 hi

/-- The element of a pattern that is not optional. -/
theorem sim_nth {ws : List TT} {l l' : List Token} {p q : PS} (hm : MRel c ws l l') {i : Nat} (w : TT) (hi : ws[i]? = some w)
    (hs : w ≠ .whitespace ∧ w ≠ .eol) (h : PRel c p q) :
    Sim c (nth l i) (nth l' i) p q fun a b p' => TokS c a b ∧ a.tt = w ∧ p' = p := by
  obtain ⟨t, t', h1, h2, h3, h4⟩ := mrel_nth hm hi (fun h => h.elim hs.1 hs.2)
  unfold nth
  rw [h1, h2]
  exact sim_pure h ⟨h3, h4, rfl⟩

theorem mrel_all {ws : List TT} {l l' : List Token} (h : MRel c ws l l') (hs : ∀ w ∈ ws, ¬ Soft w ∧ w ≠ .eof) : Pointwise (Real c) l l' := by
  induction ws generalizing l l' with
  | nil => obtain ⟨rfl, rfl⟩ := h; exact .nil
  | cons a ws ih =>
    cases l with
    | nil => cases l' <;> exact h.elim
    | cons x l =>
      cases l' with
      | nil => exact h.elim
      | cons x' l' =>
        have hh := h.1 (hs a (List.mem_cons_self ..)).1
        exact .cons ⟨hh.1, by rw [hh.2]; exact (hs a (List.mem_cons_self ..)).2⟩ (ih h.2 fun w hw => hs w (List.mem_cons_of_mem _ hw))

end Verif.Ridl
