import Verif.Ridl.Cm

/-! # Two parsers on tokens that differ in a comment: values, patterns and types (for C110) -/

namespace Verif.Ridl.Cm
open Verif.Schema hiding Str
open Verif.Spec.Uncommented

variable {c : Ctx}

/-- Case distinction on the kind of the token at the cursor. -/
macro "at_tt" t:ident ht:ident hr:ident hb:ident hT:ident hk:ident : tactic =>
  `(tactic| (rw [($ht).tt]; have $hT:ident := ($ht).tok; generalize $hk:ident : ($t).tt = k at $hT:ident $hr:ident $hb:ident ⊢; cases k <;> dsimp only))

/-- Away from the comment and its row. -/
def Away (c : Ctx) (p : PS) : Prop := p.pos < c.b ∨ c.a + c.x ≤ p.pos

theorem Away.ne {p q : PS} (h : PRel c p q) (ha : Away c p) : p.pos ≠ c.a := by
  have := h.ok.ba
  have := h.ok.x1
  rcases ha with ha | ha <;> omega

theorem away_next {p q : PS} (h : PRel c p q) (ha : Away c p) (hn : p.cursor.tt ≠ .newLine) (he : p.cursor.tt ≠ .eof) :
    Away c { p with pos := p.pos + 1 } := by
  obtain ⟨g1, -⟩ := cursor_some he
  rw [h.toks] at g1
  rcases ha with ha | ha
  · refine Or.inl ?_
    show p.pos + 1 < c.b
    refine Classical.byContradiction fun hc => hn (h.ok.first p.pos _ (by omega) g1)
  · exact Or.inr (by show _ ≤ p.pos + 1; omega)

theorem away_of {p q : PS} (h : PRel c p q) (hq : p.cursor.tt = .quote ∨ p.cursor.tt = .newLine ∨ p.cursor.tt = .hash) (hne : p.pos ≠ c.a) : Away c p := by
  have he : p.cursor.tt ≠ .eof := by rcases hq with h | h | h <;> rw [h] <;> decide
  obtain ⟨g1, -⟩ := cursor_some he
  rw [h.toks] at g1
  rcases h.side with ⟨h1, h2⟩ | ⟨k, h1, h2, h3⟩
  · refine Or.inl (Classical.byContradiction fun hc => ?_)
    have := h.ok.row p.pos _ (by omega) (by omega) g1
    rcases hq with g | g | g
    · exact this.1 g
    · exact this.2.1 g
    · exact this.2.2 g
  · exact Or.inr (by omega)

theorem until_run : ∀ (k : Nat) (p : PS) (n : Nat), (∀ i t, p.pos ≤ i → i < p.pos + k → p.tokens[i]? = some t → t.tt ≠ .newLine ∧ t.tt ≠ .eof) →
    p.pos + k ≤ p.tokens.length → (∀ t, p.tokens[p.pos + k]? = some t → t.tt = .newLine) → k < n →
    loopN (fun (_ : Unit) => do
      let tok ← cursor
      if tok.tt = .newLine ∨ tok.tt = .eof then pure (.inr ())
      else
        let _ ← advance
        pure (.inl ())) n () p = (.ok (), { p with pos := p.pos + k }) := by
  intro k
  induction k with
  | zero =>
    intro p n _ hl hs hn
    obtain ⟨m, rfl⟩ : ∃ m, n = m + 1 := ⟨n - 1, by omega⟩
    have hc : p.cursor.tt = .newLine ∨ p.cursor.tt = .eof := by
      by_cases he : p.cursor.tt = .eof
      · exact Or.inr he
      · exact Or.inl (hs _ (cursor_some he).1)
    unfold loopN P.bind
    rw [bind_ok (cursor_eq p), if_pos hc]
    rfl
  | succ k ih =>
    intro p n hm hl hs hn
    obtain ⟨m, rfl⟩ : ∃ m, n = m + 1 := ⟨n - 1, by omega⟩
    have hlt : p.pos < p.tokens.length := by omega
    have hg : p.tokens[p.pos]? = some p.tokens[p.pos] := List.getElem?_eq_getElem hlt
    have hc := cursor_at hg
    have ht := hm p.pos _ (by omega) (by omega) hg
    have ha : advance p = (.ok true, { p with pos := p.pos + 1 }) := by unfold advance; rw [if_neg (by omega)]
    unfold loopN P.bind
    rw [bind_ok (cursor_eq p), if_neg (by rw [hc]; exact fun h => h.elim ht.1 ht.2), bind_ok ha]
    show loopN _ m () { p with pos := p.pos + 1 } = _
    rw [ih { p with pos := p.pos + 1 } m (fun i t h1 h2 => hm i t (by simp at h1; omega) (by simp at h2; omega)) (by simp; omega)
      (by intro t ht; refine hs t ?_; rw [← ht]; simp; congr 1; omega) (by omega)]
    simp; omega

theorem until_skip {p : PS} {k : Nat} (hm : ∀ i t, p.pos ≤ i → i < p.pos + k → p.tokens[i]? = some t → t.tt ≠ .newLine ∧ t.tt ≠ .eof)
    (hl : p.pos + k ≤ p.tokens.length) (hs : ∀ t, p.tokens[p.pos + k]? = some t → t.tt = .newLine) :
    continueUntilEOL p = (.ok (), { p with pos := p.pos + k }) :=
  until_run k p _ hm hl hs (by omega)

theorem sim_untilEOL {p q : PS} (h : PRel c p q) (hc : p.cursor.tt = .hash) :
    Sim c continueUntilEOL continueUntilEOL p q fun _ _ p' => p'.cursor.tt ≠ .hash := by
  by_cases hp : p.pos = c.a
  · have hq : q.pos = c.a := by
      rcases h.side with ⟨h1, h2⟩ | ⟨k, h1, h2, h3⟩
      · omega
      · have := h.ok.x1; omega
    have ok := h.ok
    have hx := ok.x1
    have hy := ok.y1
    have hl := ok.len
    have hl' := ok.len'
    have e1 : continueUntilEOL p = (.ok (), { p with pos := p.pos + c.x }) := by
      refine until_skip ?_ (by rw [h.toks]; omega) ?_
      · intro i t h1 h2 h3
        rw [h.toks] at h3
        exact ok.mid i t (by omega) (by omega) h3
      · intro t ht
        rw [h.toks, hp] at ht
        exact ok.stop t ht
    have e2 : continueUntilEOL q = (.ok (), { q with pos := q.pos + c.y }) := by
      refine until_skip ?_ (by rw [h.toks']; omega) ?_
      · intro i t h1 h2 h3
        rw [h.toks'] at h3
        exact ok.mid' i t (by omega) (by omega) h3
      · intro t ht
        rw [h.toks', hq] at ht
        have hlt : c.a + c.y < c.qs.length := by
          refine Classical.byContradiction fun hc => ?_
          rw [List.getElem?_eq_none (by omega)] at ht
          cases ht
        obtain ⟨u, u', g1, g2, g3, -⟩ := ok.high 0 (by omega)
        rw [Nat.add_zero] at g1 g2
        rw [g2] at ht
        cases ht
        rw [g3.tt]
        exact ok.stop u g1
    intro o p' hm
    rw [e1] at hm
    cases hm
    refine Or.inr ⟨(), _, e2, { h with side := Or.inr ⟨0, ?_, ?_, ?_⟩ }, ?_⟩
    · show p.pos + c.x = _; omega
    · show q.pos + c.y = _; omega
    · show p.pos + c.x ≤ _; omega
    · by_cases he : ({ p with pos := p.pos + c.x } : PS).cursor.tt = .eof
      · show ({ p with pos := p.pos + c.x } : PS).cursor.tt ≠ .hash
        rw [he]; decide
      · have hg : p.tokens[p.pos + c.x]? = some ({ p with pos := p.pos + c.x } : PS).cursor := (cursor_some he).1
        show ({ p with pos := p.pos + c.x } : PS).cursor.tt ≠ .hash
        rw [ok.stop _ (by rw [← h.toks, ← hp]; exact hg)]; decide
  · unfold continueUntilEOL
    refine sim_loop (fun _ _ p => Away c p) h (away_of h (Or.inr (Or.inr hc)) hp) ?_
    intro _ _ p q h ha
    refine sim_bind (sim_cursor h room0) ?_
    rintro t t' p1 q1 h1 ⟨rfl, rfl, ht, -, -⟩
    rw [ht.tt]
    by_cases hk : p1.cursor.tt = .newLine ∨ p1.cursor.tt = .eof
    · simp only [if_pos hk]
      exact sim_pure h1 (by show p1.cursor.tt ≠ .hash; rcases hk with hk | hk <;> rw [hk] <;> decide)
    · simp only [if_neg hk]
      refine sim_bind (sim_advance' h1 (Away.ne h1 ha)) ?_
      rintro _ _ p2 q2 h2 ⟨-, ⟨he, -⟩ | rfl⟩
      · exact absurd (Or.inr he) hk
      · exact sim_pure h2 (away_next h1 ha (fun h => hk (Or.inl h)) (fun h => hk (Or.inr h)))

theorem sim_commentOrEOL {p q : PS} (h : PRel c p q) (hr : Room c p 0) :
    Sim c expectOptionalCommentOrEOL expectOptionalCommentOrEOL p q fun _ _ p' => p'.cursor.tt ≠ .hash := by
  unfold expectOptionalCommentOrEOL
  refine sim_loop (fun _ _ p => Room c p 0) h hr ?_
  intro _ _ p q h hr
  refine sim_bind (sim_cursor h hr) ?_
  rintro t t' p1 q1 h1 ⟨rfl, e, ht, hr2, hb⟩
  at_tt t ht hr2 hb hT hk
  all_goals first
    | exact sim_fail_same h1 hr
    | exact sim_pure h1 (by show p1.cursor.tt ≠ .hash; rw [← e, hk]; decide)
    | skip
  · refine sim_bind (sim_advance h1 ((hr2 (by decide)).mono (by omega) : Room c p1 (0 + 1))) ?_
    rintro _ _ p2 q2 h2 ⟨-, hr3⟩
    exact sim_pure h2 hr3
  · refine sim_bind (sim_untilEOL h1 (by rw [← e]; exact hk)) ?_
    intro _ _ p2 q2 h2 hr3
    exact sim_pure h2 hr3

/-- Related texts collected so far: the first token decides the position. -/
def Acc (l l' : List Token) : Prop :=
  (l = [] ∧ l' = []) ∨ ∃ t t' r r', l = t :: r ∧ l' = t' :: r' ∧ TokS t t' ∧ Pointwise Cur r r'

theorem Pointwise.snoc {α β : Type} {R : α → β → Prop} {a : List α} {b : List β} {x : α} {y : β} (h : Pointwise R a b) (k : R x y) :
    Pointwise R (a ++ [x]) (b ++ [y]) := by
  induction h with
  | nil => exact .cons k .nil
  | cons h1 _ ih => exact .cons h1 ih

theorem Pointwise.app {α β : Type} {R : α → β → Prop} {a a' : List α} {b b' : List β} (h : Pointwise R a b) (k : Pointwise R a' b') :
    Pointwise R (a ++ a') (b ++ b') := by
  induction h with
  | nil => exact k
  | cons h1 _ ih => exact .cons h1 ih

theorem Acc.snoc {l l' : List Token} (h : Acc l l') {t t' : Token} (ht : TokS t t') (he : t.tt ≠ .eof) : Acc (l ++ [t]) (l' ++ [t']) := by
  rcases h with ⟨rfl, rfl⟩ | ⟨a, a', r, r', rfl, rfl, h1, h2⟩
  · exact Or.inr ⟨t, t', [], [], rfl, rfl, ht, .nil⟩
  · exact Or.inr ⟨a, a', _, _, rfl, rfl, h1, Pointwise.snoc h2 (Or.inr ⟨ht, he⟩)⟩

theorem Acc.snoc2 {l l' : List Token} (h : Acc l l') {t t' u u' : Token} (ht : TokS t t') (he : t.tt ≠ .eof) (hu : Cur u u') :
    Acc (l ++ [t] ++ [u]) (l' ++ [t'] ++ [u']) := by
  rcases h.snoc ht he with ⟨h, -⟩ | ⟨a, a', r, r', e1, e2, h1, h2⟩
  · simp at h
  · rw [e1, e2]; exact Or.inr ⟨a, a', _, _, rfl, rfl, h1, Pointwise.snoc h2 hu⟩

/-- A token that is not the end of the document. -/
def Real (t t' : Token) : Prop := TokS t t' ∧ t.tt ≠ .eof

theorem Acc.app {l l' m m' : List Token} (h : Acc l l') (k : Pointwise Real m m') : Acc (l ++ m) (l' ++ m') := by
  induction k generalizing l l' with
  | nil => simpa using h
  | cons h1 _ ih =>
    have := ih (h.snoc h1.1 h1.2)
    simpa using this

theorem flat_val {r r' : List Token} (h : Pointwise Cur r r') : r'.flatMap (·.val) = r.flatMap (·.val) := by
  induction h with
  | nil => rfl
  | cons h1 _ ih => rw [List.flatMap_cons, List.flatMap_cons, ih, h1.val]

theorem sim_composed {l l' : List Token} {p q : PS} (h : PRel c p q) (hr : Room c p 0) (ha : Acc l l') :
    Sim c (composedValue l) (composedValue l') p q fun a b p' => Real a b ∧ p' = p := by
  rcases ha with ⟨rfl, rfl⟩ | ⟨t, t', r, r', rfl, rfl, h1, h2⟩
  · exact sim_fail_same h hr
  · unfold composedValue
    dsimp only
    have hv : (t' :: r').flatMap (·.val) = (t :: r).flatMap (·.val) := by
      rw [List.flatMap_cons, List.flatMap_cons, flat_val h2, h1.val]
    rw [hv]
    cases unescapeString ((t :: r).flatMap (·.val)) with
    | error e => exact sim_fail_same h hr
    | ok v =>
      exact sim_pure h ⟨⟨⟨rfl, rfl⟩, (nofun)⟩, rfl⟩

theorem sim_stringLoop {p q : PS} (h : PRel c p q) (hr : Away c p) {l l' : List Token} (ha : Acc l l') :
    Sim c (loop stringBody l) (loop stringBody l') p q fun a b p' => Acc a b ∧ Away c p' := by
  refine sim_loop (fun a b p => Acc a b ∧ Away c p) h ⟨ha, hr⟩ ?_
  rintro l l' p q h ⟨ha, hr⟩
  unfold stringBody
  refine sim_bind (sim_cursor h room0) ?_
  rintro t t' p1 q1 h1 ⟨rfl, e, ht, hr2, hb⟩
  refine sim_bind (sim_advance' h1 (Away.ne h1 hr)) ?_
  rintro _ _ p2 q2 h2 ⟨-, hp2⟩
  have haw : t.tt ≠ .newLine → t.tt ≠ .eof → Away c p2 := by
    intro k1 k2
    rw [e] at k1 k2
    rcases hp2 with ⟨he, -⟩ | rfl
    · exact absurd he k2
    · exact away_next h1 hr k1 k2
  have hlast : t.tt = .backslash → p2 = { p1 with pos := p1.pos + 1 } := by
    intro hk
    rcases hp2 with ⟨he, -⟩ | rfl
    · rw [← e, hk] at he; cases he
    · rfl
  rw [ht.tt]
  have hT := ht.tok
  generalize hkk : t.tt = tt at hT haw hlast ⊢
  cases tt <;> dsimp only
  all_goals first
    | exact sim_fail_same h2 room0
    | exact sim_pure h2 ⟨ha, haw (by decide) (by decide)⟩
    | exact sim_pure h2 ⟨ha.snoc (hT (by decide)) (by rw [hkk]; decide), haw (by decide) (by decide)⟩
    | skip
  have haw := haw (by decide) (by decide)
  have e2 := hlast rfl
  refine sim_bind (sim_cursor h2 room0) ?_
  rintro u u' p3 q3 h3 ⟨rfl, -, hu, hr4, -⟩
  refine sim_bind (sim_advance' h3 (Away.ne h3 haw)) ?_
  rintro _ _ p4 q4 h4 ⟨-, hp4⟩
  refine sim_pure h4 ⟨ha.snoc2 (hT (by decide)) (by rw [hkk]; decide) hu, ?_⟩
  rcases hp4 with ⟨-, rfl⟩ | rfl
  · exact haw
  · rcases haw with g | g
    · refine Or.inl ?_
      show p3.pos + 1 < c.b
      refine Classical.byContradiction fun hc => ?_
      have hpos : p3.pos = p1.pos + 1 := by rw [e2]
      have hcur : p1.cursor.tt ≠ .eof := by rw [← e, hkk]; decide
      have hget := (cursor_some hcur).1
      rw [h1.toks] at hget
      exact h1.ok.esc p1.pos _ (by omega) hget (by rw [← e]; exact hkk)
    · exact Or.inr (by show _ ≤ p3.pos + 1; omega)

theorem sim_string {p q : PS} (h : PRel c p q) (hr : Room c p 0) (hq : p.cursor.tt = .quote) :
    Sim c expectStringValue expectStringValue p q fun a b p' => Real a b ∧ Room c p' 1 := by
  unfold expectStringValue
  refine sim_bind (sim_cursor h hr) ?_
  rintro t t' p1 q1 h1 ⟨rfl, rfl, ht, hr2, hb⟩
  have hne : p1.pos ≠ c.a := (cursor_rel h1).2 (by rw [hq]; decide)
  have haw := away_of h1 (Or.inl hq) hne
  refine sim_bind (sim_advance' h1 hne) ?_
  rintro _ _ p2 q2 h2 ⟨-, hp2⟩
  rw [ht.tt]
  simp only [if_neg (show ¬ (p1.cursor.tt ≠ .quote) from fun h => h hq)]
  have haw2 : Away c p2 := by
    rcases hp2 with ⟨he, -⟩ | rfl
    · rw [hq] at he; cases he
    · exact away_next h1 haw (by rw [hq]; decide) (by rw [hq]; decide)
  refine sim_bind (sim_stringLoop h2 haw2 (Or.inl ⟨rfl, rfl⟩)) ?_
  rintro a b p3 q3 h3 ⟨ha, hr4⟩
  refine (sim_composed h3 room0 ha).mono ?_
  rintro a b p' ⟨h1, rfl⟩
  exact ⟨h1, Or.inr (Away.ne h3 hr4)⟩

theorem sim_literal {p q : PS} (h : PRel c p q) (hr : Room c p 0) (isTok : TT → Bool) (hn : isTok .hash = false) (he : isTok .eof = false) :
    Sim c (literal isTok) (literal isTok) p q fun a b p' => Real a b ∧ Room c p' 0 := by
  unfold literal
  refine sim_bind (Q := fun a b p' => Room c p' 0 ∧ match a, b with
    | .inl t, .inl t' => Real t t'
    | .inr l, .inr l' => Acc l l'
    | _, _ => False) ?_ ?_
  · refine sim_loop (fun a b p => Acc a b ∧ Room c p 0) h ⟨Or.inl ⟨rfl, rfl⟩, hr⟩ ?_
    rintro l l' p q h ⟨ha, hr⟩
    refine sim_bind (sim_cursor h hr) ?_
    rintro t t' p1 q1 h1 ⟨rfl, e, ht, hr2, hb⟩
    rw [ht.tt]
    by_cases hq : t.tt = .quote
    · simp only [if_pos hq]
      refine sim_bind (sim_string h1 hr (by rw [← e]; exact hq)) ?_
      rintro a b p2 q2 h2 ⟨g1, g2⟩
      exact sim_pure h2 ⟨g2.mono (by omega), g1⟩
    · simp only [if_neg hq]
      by_cases hi : isTok t.tt = true
      · simp only [if_pos hi]
        have hne : t.tt ≠ .hash := fun h => by rw [h, hn] at hi; cases hi
        have hne' : t.tt ≠ .eof := fun h => by rw [h, he] at hi; cases hi
        refine sim_bind (sim_advance h1 (hr2 hne)) ?_
        rintro _ _ p2 q2 h2 ⟨-, hr3⟩
        exact sim_pure h2 ⟨ha.snoc (ht.tok hne') hne', hr3.mono (by omega)⟩
      · simp only [if_neg hi]
        exact sim_pure h1 ⟨hr, ha⟩
  · rintro a b p1 q1 h1 ⟨hr1, hab⟩
    cases a with
    | inl t =>
      cases b with
      | inl t' => exact sim_pure h1 ⟨hab, hr1⟩
      | inr _ => exact hab.elim
    | inr l =>
      cases b with
      | inl _ => exact hab.elim
      | inr l' =>
        refine (sim_composed h1 hr1 hab).mono ?_
        rintro a b p' ⟨g1, rfl⟩
        exact ⟨g1, hr1⟩

theorem sim_literalValue {p q : PS} (h : PRel c p q) (hr : Room c p 0) :
    Sim c expectLiteralValue expectLiteralValue p q fun a b p' => Real a b ∧ Room c p' 0 :=
  sim_literal h hr _ rfl rfl

theorem sim_path {p q : PS} (h : PRel c p q) (hr : Room c p 0) :
    Sim c expectPath expectPath p q fun a b p' => Real a b ∧ Room c p' 0 :=
  sim_literal h hr _ rfl rfl

/-! ### Patterns -/

/-- A kind of token that a pattern may supply itself. -/
def Soft (w : TT) : Prop := w = .whitespace ∨ w = .eol

/-- What a pattern yields in both parsers. -/
def MRel : List TT → List Token → List Token → Prop
  | [], l, l' => l = [] ∧ l' = []
  | w :: ws, t :: l, t' :: l' => (¬ Soft w → TokS t t' ∧ t.tt = w) ∧ MRel ws l l'
  | _, _, _ => False

theorem mrel_snoc {ws : List TT} {l l' : List Token} {w : TT} {t t' : Token} (h : MRel ws l l')
    (ht : ¬ Soft w → TokS t t' ∧ t.tt = w) : MRel (ws ++ [w]) (l ++ [t]) (l' ++ [t']) := by
  induction ws generalizing l l' with
  | nil => obtain ⟨rfl, rfl⟩ := h; exact ⟨ht, rfl, rfl⟩
  | cons a ws ih =>
    cases l with
    | nil => cases l' <;> exact h.elim
    | cons x l =>
      cases l' with
      | nil => exact h.elim
      | cons x' l' => exact ⟨h.1, ih h.2⟩

/-- Patterns as the parser uses them: no newline, no comment, and `eol` only as the last element. -/
def PatternOK : List TT → Prop
  | [] => True
  | [w] => w ≠ .newLine ∧ w ≠ .eof ∧ w ≠ .hash
  | w :: ws => w ≠ .newLine ∧ w ≠ .eof ∧ w ≠ .hash ∧ w ≠ .eol ∧ PatternOK ws

/-- What is known behind the pattern `done`: after a token of its own, and after `=` and an optional blank. -/
structure Behind (c : Ctx) (done : List TT) (p : PS) : Prop where
  firm : ∀ w, done.getLast? = some w → ¬ Soft w → Firm c p ∧ ∃ i t, i + 1 = p.pos ∧ c.ps[i]? = some t ∧ t.tt = w
  equal : ∀ pre, done = pre ++ [.equal, .whitespace] → p.pos ≠ c.a

theorem sim_matchLoop : ∀ (ws done : List TT) (l l' : List Token) (n : Nat) (p q : PS), PatternOK ws → PRel c p q →
    ((p.pos ≤ c.a ∧ n ≤ p.pos) ∨ c.a + c.x + n ≤ p.pos) → Behind c done p → MRel done l l' →
    Sim c (matchLoop ws l n) (matchLoop ws l' n) p q fun a b p' => MRel (done ++ ws) a b ∧ Behind c (done ++ ws) p' := by
  intro ws
  induction ws with
  | nil =>
    intro done l l' n p q _ h hn hb hm
    unfold matchLoop
    exact sim_pure h ⟨by rw [List.append_nil]; exact hm, by rw [List.append_nil]; exact hb⟩
  | cons w ws ih =>
    intro done l l' n p q hok h hn hbe hm
    have hw : w ≠ .newLine ∧ w ≠ .eof ∧ w ≠ .hash ∧ PatternOK ws ∧ (w = .eol → ws = []) := by
      cases ws with
      | nil => exact ⟨hok.1, hok.2.1, hok.2.2, trivial, fun _ => rfl⟩
      | cons a b => exact ⟨hok.1, hok.2.1, hok.2.2.1, hok.2.2.2.2, fun h => absurd h hok.2.2.2.1⟩
    unfold matchLoop
    refine sim_bind (sim_cursor h room0) ?_
    rintro t t' p1 q1 h1 ⟨rfl, hcur, ht, hr2, hb⟩
    rw [ht.tt]
    have happ : done ++ w :: ws = (done ++ [w]) ++ ws := by simp
    have hlast : ∀ x, (done ++ [w]).getLast? = some x → x = w := by
      intro x hx
      rw [List.getLast?_append] at hx
      cases hx; rfl
    have hpre : ∀ pre, done ++ [w] = pre ++ [.equal, .whitespace] → done = pre ++ [.equal] ∧ w = .whitespace := by
      intro pre hp
      rw [show pre ++ [TT.equal, TT.whitespace] = (pre ++ [.equal]) ++ [.whitespace] by simp] at hp
      obtain ⟨g1, g2⟩ := List.append_inj' hp rfl
      exact ⟨g1, by injection g2⟩
    have hsoft : ¬ Soft .equal := by rintro (h | h) <;> cases h
    by_cases htt : t.tt = w
    · simp only [if_pos htt]
      have hne : p1.cursor.tt ≠ .eof := by rw [← hcur, htt]; exact hw.2.1
      have hnh : p1.cursor.tt ≠ .hash := by rw [← hcur, htt]; exact hw.2.2.1
      have hpa := (cursor_rel h1).2 hnh
      obtain ⟨hget, hlt⟩ := cursor_some hne
      refine sim_bind (sim_advance' h1 hpa) ?_
      rintro _ _ p2 q2 h2 ⟨-, hp2⟩
      have hp2 : p2 = { p1 with pos := p1.pos + 1 } := by
        rcases hp2 with ⟨he, -⟩ | h
        · exact absurd he hne
        · exact h
      have hpos : p2.pos = p1.pos + 1 := by rw [hp2]
      rw [h1.toks] at hget
      have hsnoc : MRel (done ++ [w]) (l ++ [t]) (l' ++ [t']) :=
        mrel_snoc hm fun _ => ⟨ht.tok (by rw [htt]; exact hw.2.1), htt⟩
      have := ih (done ++ [w]) _ _ (n + 1) p2 q2 hw.2.2.2.1 h2 (by rcases h1.side with ⟨g1, -⟩ | ⟨k, g1, -, -⟩ <;> omega) ⟨?_, ?_⟩ hsnoc
      · rw [happ]
        exact this
      · intro x hx hs
        have hx := hlast x hx
        subst hx
        have hf : firm p1.cursor.tt := by
          rw [← hcur, htt]
          exact ⟨fun h => hs (Or.inl h), hw.1, hw.2.2.1, hw.2.1⟩
        refine ⟨?_, p1.pos, p1.cursor, hpos.symm, hget, by rw [← hcur]; exact htt⟩
        rw [hp2]
        exact firm_next h1 hf
      · intro pre hp
        obtain ⟨g1, g2⟩ := hpre pre hp
        obtain ⟨-, i, u, k1, k2, k3⟩ := hbe.firm .equal (by rw [g1]; simp) hsoft
        intro hc
        exact h1.ok.eq i u p1.cursor (by omega) k2 (by rw [k1]; exact hget) (by rw [← hcur, htt, g2]) k3
    · simp only [if_neg htt]
      by_cases he : w = .eol
      · simp only [if_pos he]
        refine sim_bind (sim_commentOrEOL h1 room0) ?_
        rintro _ _ p2 q2 h2 -
        have hnil := hw.2.2.2.2 he
        subst hnil
        refine sim_pure h2 ⟨mrel_snoc hm fun h => absurd (Or.inr he) h, ?_, ?_⟩
        · intro x hx hs
          rw [hlast x hx] at hs
          exact absurd (Or.inr he) hs
        · intro pre hp
          rw [(hpre pre hp).2] at he
          cases he
      · simp only [if_neg he]
        by_cases hws : w ≠ .whitespace
        · simp only [if_pos hws]
          refine sim_bind (sim_rewind h1 hn) ?_
          intro _ _ p2 q2 h2 hr3
          exact sim_fail_same h2 hr3
        · simp only [if_neg hws]
          have hws : w = .whitespace := Classical.not_not.1 hws
          have := ih (done ++ [w]) _ _ n p1 q1 hw.2.2.2.1 h1 hn ⟨?_, ?_⟩ (mrel_snoc (w := w) (t := { tt := .whitespace, val := [' '], line := t.line, col := t.col })
              (t' := { tt := .whitespace, val := [' '], line := t'.line, col := t'.col }) hm fun h => absurd (Or.inl hws) h)
          · rw [happ]
            exact this
          · intro x hx hs
            rw [hlast x hx] at hs
            exact absurd (Or.inl hws) hs
          · intro pre hp
            obtain ⟨g1, -⟩ := hpre pre hp
            exact (hbe.firm .equal (by rw [g1]; simp) hsoft).1.room.ne

theorem sim_match {ws : List TT} {p q : PS} (hok : PatternOK ws) (h : PRel c p q) (_hr : Room c p 0) :
    Sim c (match_ ws) (match_ ws) p q fun a b p' => MRel ws a b ∧ Room c p' 0 ∧ (∀ pre, ws = pre ++ [.equal, .whitespace] → Room c p' 1) ∧
      (∀ w, ws.getLast? = some w → ¬ Soft w → Firm c p') := by
  refine (sim_matchLoop ws [] [] [] 0 p q hok h ?_ ⟨fun _ h => (by cases h), fun pre h => (by simp at h)⟩ ⟨rfl, rfl⟩).mono ?_
  · rcases h.side with ⟨g1, -⟩ | ⟨k, g1, -, -⟩ <;> omega
  · rintro a b p' ⟨h1, h2⟩
    exact ⟨h1, room0, fun pre h => Or.inr (h2.equal pre h), fun w hw hs => (h2.firm w hw hs).1⟩

theorem mrel_nth {ws : List TT} {l l' : List Token} (h : MRel ws l l') {i : Nat} {w : TT} (hi : ws[i]? = some w) (hs : ¬ Soft w) :
    ∃ t t', l[i]? = some t ∧ l'[i]? = some t' ∧ TokS t t' ∧ t.tt = w := by
  induction ws generalizing l l' i with
  | nil => cases hi
  | cons a ws ih =>
    cases l with
    | nil => cases l' <;> exact h.elim
    | cons x l =>
      cases l' with
      | nil => exact h.elim
      | cons x' l' =>
        cases i with
        | zero =>
          rw [List.getElem?_cons_zero] at hi
          cases hi
          exact ⟨x, x', rfl, rfl, h.1 hs⟩
        | succ i =>
          rw [List.getElem?_cons_succ] at hi
          exact ih h.2 hi

/-- The element of a pattern that is not optional. -/
theorem sim_nth {ws : List TT} {l l' : List Token} {p q : PS} (hm : MRel ws l l') {i : Nat} (w : TT) (hi : ws[i]? = some w)
    (hs : w ≠ .whitespace ∧ w ≠ .eol) (h : PRel c p q) :
    Sim c (nth l i) (nth l' i) p q fun a b p' => TokS a b ∧ a.tt = w ∧ p' = p := by
  obtain ⟨t, t', h1, h2, h3, h4⟩ := mrel_nth hm hi (fun h => h.elim hs.1 hs.2)
  unfold nth
  rw [h1, h2]
  exact sim_pure h ⟨h3, h4, rfl⟩

theorem mrel_all {ws : List TT} {l l' : List Token} (h : MRel ws l l') (hs : ∀ w ∈ ws, ¬ Soft w ∧ w ≠ .eof) : Pointwise Real l l' := by
  induction ws generalizing l l' with
  | nil => obtain ⟨rfl, rfl⟩ := h; exact .nil
  | cons a ws ih =>
    cases l with
    | nil => cases l' <;> exact h.elim
    | cons x l =>
      cases l' with
      | nil => exact h.elim
      | cons x' l' =>
        have hh := h.1 (hs a (List.mem_cons_self ..)).1
        exact .cons ⟨hh.1, by rw [hh.2]; exact (hs a (List.mem_cons_self ..)).2⟩ (ih h.2 fun w hw => hs w (List.mem_cons_of_mem _ hw))

end Verif.Ridl.Cm
