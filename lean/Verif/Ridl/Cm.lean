import Verif.Ridl.ParserRun
import Verif.Spec.Uncommented

/-! # Two parsers on tokens that differ in one comment behave alike (for C110) -/

namespace Verif.Ridl.Cm
open Verif.Schema hiding Str
open Verif.Spec.Uncommented

/-- The tokens of two documents that differ in one comment, of `x` and `y` tokens.  The comment starts at `a` with its `#`, its row at
`b`. -/
structure Ctx where
  a : Nat
  b : Nat
  x : Nat
  y : Nat
  ps : List Token
  qs : List Token

/-- What is known of the tokens. -/
structure Ctx.OK (c : Ctx) : Prop where
  x1 : 1 ≤ c.x
  y1 : 1 ≤ c.y
  ba : c.b ≤ c.a
  len : c.a + c.x ≤ c.ps.length
  len' : c.ps.length + c.y = c.qs.length + c.x
  low : ∀ i, i ≤ c.a → ∃ t t', c.ps[i]? = some t ∧ c.qs[i]? = some t' ∧ TokS t t' ∧ t.tt ≠ .eof
  high : ∀ k, c.a + c.x + k < c.ps.length →
    ∃ t t', c.ps[c.a + c.x + k]? = some t ∧ c.qs[c.a + c.y + k]? = some t' ∧ TokS t t' ∧ t.tt ≠ .eof
  hash : ∀ t, c.ps[c.a]? = some t → t.tt = .hash
  mid : ∀ i t, c.a ≤ i → i < c.a + c.x → c.ps[i]? = some t → t.tt ≠ .newLine ∧ t.tt ≠ .eof
  mid' : ∀ i t, c.a ≤ i → i < c.a + c.y → c.qs[i]? = some t → t.tt ≠ .newLine ∧ t.tt ≠ .eof
  stop : ∀ t, c.ps[c.a + c.x]? = some t → t.tt = .newLine
  row : ∀ i t, c.b ≤ i → i < c.a → c.ps[i]? = some t → t.tt ≠ .quote ∧ t.tt ≠ .newLine ∧ t.tt ≠ .hash
  first : ∀ i t, i + 1 = c.b → c.ps[i]? = some t → t.tt = .newLine
  esc : ∀ i t, i + 2 = c.b → c.ps[i]? = some t → t.tt ≠ .backslash
  last : ∀ i t, i + 1 = c.a → c.ps[i]? = some t → t.tt = .whitespace ∨ t.tt = .newLine
  eq : ∀ i t u, i + 2 = c.a → c.ps[i]? = some t → c.ps[i + 1]? = some u → u.tt = .whitespace → t.tt ≠ .equal

/-- Related parser states: at the same token, outside of the comment. -/
structure PRel (c : Ctx) (p q : PS) : Prop where
  ok : c.OK
  toks : p.tokens = c.ps
  toks' : q.tokens = c.qs
  side : (p.pos ≤ c.a ∧ q.pos = p.pos) ∨ ∃ k, p.pos = c.a + c.x + k ∧ q.pos = c.a + c.y + k ∧ p.pos ≤ c.ps.length

/-- `Room c p k`: if `k` is not zero the parser is not at the comment. -/
def Room (c : Ctx) (p : PS) (k : Nat) : Prop := k = 0 ∨ p.pos ≠ c.a

theorem room0 {c : Ctx} {p : PS} : Room c p 0 := Or.inl rfl

theorem Room.mono {c : Ctx} {p : PS} {k j : Nat} (h : Room c p k) (hj : j ≤ k) : Room c p j :=
  h.imp (fun h => by omega) id

theorem Room.ne {c : Ctx} {p : PS} {k : Nat} (h : Room c p (k + 1)) : p.pos ≠ c.a := h.resolve_left (by omega)

/-- Related tokens, or the end of both documents. -/
def Cur (t t' : Token) : Prop := (t = eofToken ∧ t' = eofToken) ∨ (TokS t t' ∧ t.tt ≠ .eof)

theorem Cur.tt {t t' : Token} (h : Cur t t') : t'.tt = t.tt := by
  rcases h with ⟨rfl, rfl⟩ | ⟨h, -⟩
  · rfl
  · exact h.tt
theorem Cur.val {t t' : Token} (h : Cur t t') : t'.val = t.val := by
  rcases h with ⟨rfl, rfl⟩ | ⟨h, -⟩
  · rfl
  · exact h.val
theorem Cur.tok {t t' : Token} (h : Cur t t') (he : t.tt ≠ .eof) : TokS t t' := by
  rcases h with ⟨rfl, rfl⟩ | ⟨h, -⟩
  · exact absurd rfl he
  · exact h

theorem cursor_at {p : PS} {t : Token} (h : p.tokens[p.pos]? = some t) : p.cursor = t := by
  unfold PS.cursor; rw [h]; rfl

theorem cursor_none {p : PS} (h : p.tokens.length ≤ p.pos) : p.cursor = eofToken := by
  unfold PS.cursor; rw [List.getElem?_eq_none h]; rfl

theorem cursor_some {p : PS} (h : p.cursor.tt ≠ .eof) : p.tokens[p.pos]? = some p.cursor ∧ p.pos < p.tokens.length := by
  by_cases hl : p.pos < p.tokens.length
  · refine ⟨?_, hl⟩
    unfold PS.cursor
    rw [List.getElem?_eq_getElem hl]; rfl
  · rw [cursor_none (by omega)] at h
    exact absurd rfl h

theorem cursor_rel {c : Ctx} {p q : PS} (h : PRel c p q) : Cur p.cursor q.cursor ∧ (p.cursor.tt ≠ .hash → p.pos ≠ c.a) := by
  rcases h.side with ⟨h1, h2⟩ | ⟨k, h1, h2, h3⟩
  · obtain ⟨t, t', g1, g2, g3, g4⟩ := h.ok.low _ h1
    have e1 : p.cursor = t := cursor_at (by rw [h.toks]; exact g1)
    have e2 : q.cursor = t' := cursor_at (by rw [h.toks', h2]; exact g2)
    rw [e1, e2]
    exact ⟨Or.inr ⟨g3, g4⟩, fun hn hp => hn (h.ok.hash t (hp ▸ g1))⟩
  · refine ⟨?_, fun _ => by have := h.ok.x1; omega⟩
    by_cases hl : p.pos < c.ps.length
    · obtain ⟨t, t', g1, g2, g3, g4⟩ := h.ok.high k (by omega)
      have e1 : p.cursor = t := cursor_at (by rw [h.toks, h1]; exact g1)
      have e2 : q.cursor = t' := cursor_at (by rw [h.toks', h2]; exact g2)
      rw [e1, e2]
      exact Or.inr ⟨g3, g4⟩
    · have := h.ok.len'
      exact Or.inl ⟨cursor_none (by rw [h.toks]; omega), cursor_none (by rw [h.toks']; omega)⟩

/-- `m` and `m'` behave alike from `p` and `q`, unless one of them panics or hangs. -/
def Sim {α β : Type} (c : Ctx) (m : P α) (m' : P β) (p q : PS) (Q : α → β → PS → Prop) : Prop :=
  ∀ o p', m p = (o, p') → (∃ q', m' q = (.hang, q')) ∨ match o with
    | .ok a => ∃ b q', m' q = (.ok b, q') ∧ PRel c p' q' ∧ Q a b p'
    | .err _ => ∃ e' q', m' q = (.err e', q') ∧ PRel c p' q'
    | _ => True

variable {α β γ δ σ τ : Type} {c : Ctx}

theorem Sim.mono {m : P α} {m' : P β} {p q : PS} {Q Q' : α → β → PS → Prop} (h : Sim c m m' p q Q)
    (hq : ∀ a b p', Q a b p' → Q' a b p') : Sim c m m' p q Q' := by
  intro o p' hm
  rcases h o p' hm with h | this
  · exact Or.inl h
  · refine Or.inr ?_
    cases o with
    | ok a => obtain ⟨b, q', h1, h2, h3⟩ := this; exact ⟨b, q', h1, h2, hq _ _ _ h3⟩
    | err e => exact this
    | panic => trivial
    | hang => trivial

theorem sim_bind {m : P α} {m' : P β} {f : α → P γ} {f' : β → P δ} {p q : PS} {Q : α → β → PS → Prop} {Q' : γ → δ → PS → Prop}
    (h : Sim c m m' p q Q) (hf : ∀ a b p' q', PRel c p' q' → Q a b p' → Sim c (f a) (f' b) p' q' Q') :
    Sim c (m >>= f) (m' >>= f') p q Q' := by
  intro o p' hm
  change P.bind m f p = _ at hm
  unfold P.bind at hm
  rcases hr : m p with ⟨o1, p1⟩
  rw [hr] at hm
  rcases h o1 p1 hr with ⟨q', hh⟩ | this
  · exact Or.inl ⟨q', by change P.bind m' f' q = _; unfold P.bind; rw [hh]⟩
  cases o1 with
  | ok a =>
    obtain ⟨b, q1, h1, h2, h3⟩ := this
    have h4 := hf a b p1 q1 h2 h3 o p' hm
    have hb : (m' >>= f') q = f' b q1 := by change P.bind m' f' q = _; unfold P.bind; rw [h1]
    rw [hb]
    exact h4
  | err e =>
    obtain ⟨e', q1, h1, h2⟩ := this
    cases hm
    exact Or.inr ⟨e', q1, by change P.bind m' f' q = _; unfold P.bind; rw [h1], h2⟩
  | panic => cases hm; exact Or.inr trivial
  | hang => cases hm; exact Or.inr trivial

theorem sim_pure {a : α} {b : β} {p q : PS} {Q : α → β → PS → Prop} (h : PRel c p q) (hq : Q a b p) :
    Sim c (pure a : P α) (pure b : P β) p q Q := by
  intro o p' hm
  cases hm
  exact Or.inr ⟨b, q, rfl, h, hq⟩

theorem sim_fail_same {e e' : PErr} {p q : PS} {Q : α → β → PS → Prop} (h : PRel c p q) (_hr : Room c p 0) :
    Sim c (fail e : P α) (fail e' : P β) p q Q := by
  intro o p' hm
  cases hm
  exact Or.inr ⟨e', q, rfl, h⟩

theorem sim_crash {m' : P β} {p q : PS} {Q : α → β → PS → Prop} : Sim c (crash : P α) m' p q Q := by
  intro o p' hm
  cases hm
  exact Or.inr trivial

theorem sim_cursor {p q : PS} (h : PRel c p q) (_hr : Room c p 0) :
    Sim c cursor cursor p q fun a b p' => p' = p ∧ a = p.cursor ∧ Cur a b ∧ (a.tt ≠ .hash → Room c p' 1) ∧ True := by
  intro o p' hm
  cases hm
  exact Or.inr ⟨q.cursor, q, rfl, h, rfl, rfl, (cursor_rel h).1, fun hn => Or.inr ((cursor_rel h).2 hn), trivial⟩

/-- Moving on over a token outside of the comment. -/
theorem move {p q : PS} (h : PRel c p q) (hr : p.pos ≠ c.a) (hl : p.pos < p.tokens.length) :
    q.pos < q.tokens.length ∧ PRel c { p with pos := p.pos + 1 } { q with pos := q.pos + 1 } := by
  have l1 := h.ok.len
  have l2 := h.ok.len'
  have hy := h.ok.y1
  have hx := h.ok.x1
  rw [h.toks] at hl
  rcases h.side with ⟨h1, h2⟩ | ⟨k, h1, h2, h3⟩
  · exact ⟨by rw [h.toks']; omega, { h with side := Or.inl ⟨by show p.pos + 1 ≤ c.a; omega, by show q.pos + 1 = p.pos + 1; omega⟩ }⟩
  · exact ⟨by rw [h.toks']; omega, { h with side := Or.inr ⟨k + 1, by show p.pos + 1 = _; omega, by show q.pos + 1 = _; omega, by show p.pos + 1 ≤ _; omega⟩ }⟩

theorem at_end {p q : PS} (h : PRel c p q) (hl : p.pos ≥ p.tokens.length) : q.pos ≥ q.tokens.length := by
  have l1 := h.ok.len
  have l2 := h.ok.len'
  have hy := h.ok.y1
  have hx := h.ok.x1
  rw [h.toks] at hl
  rw [h.toks']
  rcases h.side with ⟨h1, h2⟩ | ⟨k, h1, h2, h3⟩ <;> omega

theorem sim_advance' {p q : PS} (h : PRel c p q) (hr : p.pos ≠ c.a) :
    Sim c advance advance p q fun a b p' => a = b ∧ ((p.cursor.tt = .eof ∧ p' = p) ∨ p' = { p with pos := p.pos + 1 }) := by
  intro o p' hm
  unfold advance at hm ⊢
  by_cases he : p.pos ≥ p.tokens.length
  · rw [if_pos he] at hm
    cases hm
    exact Or.inr ⟨false, q, by rw [if_pos (at_end h he)], h, rfl, Or.inl ⟨by rw [cursor_none he]; rfl, rfl⟩⟩
  · rw [if_neg he] at hm
    cases hm
    obtain ⟨g1, g2⟩ := move h hr (by omega)
    exact Or.inr ⟨true, _, by rw [if_neg (by omega)], g2, rfl, Or.inr rfl⟩

theorem sim_advance {p q : PS} {k : Nat} (h : PRel c p q) (hr : Room c p (k + 1)) :
    Sim c advance advance p q fun a b p' => a = b ∧ Room c p' 0 :=
  (sim_advance' h hr.ne).mono fun _ _ _ h => ⟨h.1, room0⟩

/-- After a token of one's own, neither blank nor newline, the parser is not at the comment, nor right behind it. -/
def Firm (c : Ctx) (p : PS) : Prop := (1 ≤ p.pos ∧ p.pos < c.a) ∨ c.a + c.x < p.pos

theorem Firm.room {p : PS} (h : Firm c p) : Room c p 1 := Or.inr (by rcases h with h | h <;> omega)

/-- A token that is neither a blank, a newline nor a comment. -/
def firm (t : TT) : Prop := t ≠ .whitespace ∧ t ≠ .newLine ∧ t ≠ .hash ∧ t ≠ .eof

theorem firm_next {p q : PS} (h : PRel c p q) (ht : firm p.cursor.tt) : Firm c { p with pos := p.pos + 1 } := by
  have hne := (cursor_rel h).2 ht.2.2.1
  obtain ⟨g1, g2⟩ := cursor_some ht.2.2.2
  rw [h.toks] at g1
  rcases h.side with ⟨h1, h2⟩ | ⟨k, h1, h2, h3⟩
  · refine Or.inl ⟨by show 1 ≤ p.pos + 1; omega, ?_⟩
    show p.pos + 1 < c.a
    refine Classical.byContradiction fun hc => ?_
    rcases h.ok.last p.pos _ (by omega) g1 with h | h
    · exact ht.1 h
    · exact ht.2.1 h
  · exact Or.inr (by show _ < p.pos + 1; omega)

theorem sim_firm {p q : PS} (h : PRel c p q) (ht : firm p.cursor.tt) :
    Sim c advance advance p q fun a b p' => a = b ∧ Firm c p' ∧ p' = { p with pos := p.pos + 1 } := by
  refine (sim_advance' h ((cursor_rel h).2 ht.2.2.1)).mono ?_
  rintro a b p' ⟨h1, ⟨h2, -⟩ | rfl⟩
  · exact absurd h2 ht.2.2.2
  · exact ⟨h1, firm_next h ht, rfl⟩

/-- Going back on the same side of the comment. -/
theorem sim_rewind {p q : PS} {n : Nat} (h : PRel c p q) (hn : (p.pos ≤ c.a ∧ n ≤ p.pos) ∨ c.a + c.x + n ≤ p.pos) :
    Sim c (rewind n) (rewind n) p q fun _ _ p' => Room c p' 0 := by
  intro o p' hm
  have hx := h.ok.x1
  unfold rewind at hm ⊢
  rw [if_neg (by omega)] at hm
  cases hm
  rcases h.side with ⟨h1, h2⟩ | ⟨k, h1, h2, h3⟩
  · refine Or.inr ⟨true, { q with pos := q.pos - n }, by rw [if_neg (by omega)], ?_, room0⟩
    exact { h with side := Or.inl ⟨by show p.pos - n ≤ c.a; omega, by show q.pos - n = p.pos - n; omega⟩ }
  · refine Or.inr ⟨true, { q with pos := q.pos - n }, by rw [if_neg (by omega)], ?_, room0⟩
    exact { h with side := Or.inr ⟨k - n, by show p.pos - n = _; omega, by show q.pos - n = _; omega, by show p.pos - n ≤ _; omega⟩ }

/-- Related results of `attempt`. -/
def TryRel (Q : α → β → PS → Prop) (r : Except PErr α) (r' : Except PErr β) (p : PS) : Prop :=
  match r, r' with
  | .ok a, .ok b => Q a b p
  | .error _, .error _ => True
  | _, _ => False

theorem sim_attempt {m : P α} {m' : P β} {p q : PS} {Q : α → β → PS → Prop} (h : Sim c m m' p q Q) :
    Sim c (attempt m) (attempt m') p q (TryRel Q) := by
  intro o p' hm
  unfold attempt at hm ⊢
  rcases hr : m p with ⟨o1, p1⟩
  rw [hr] at hm
  rcases h o1 p1 hr with ⟨q', hh⟩ | this
  · exact Or.inl ⟨q', by rw [hh]⟩
  cases o1 with
  | ok a =>
    obtain ⟨b, q1, h1, h2, h3⟩ := this
    cases hm
    exact Or.inr ⟨.ok b, q1, by rw [h1], h2, h3⟩
  | err e =>
    obtain ⟨e', q1, h1, h2⟩ := this
    cases hm
    exact Or.inr ⟨.error e', q1, by rw [h1], h2, trivial⟩
  | panic => cases hm; exact Or.inr trivial
  | hang => cases hm; exact Or.inr trivial

/-- Related ends of a loop body. -/
def LoopRel (I : σ → τ → PS → Prop) (Q : α → β → PS → Prop) (r : σ ⊕ α) (r' : τ ⊕ β) (p : PS) : Prop :=
  match r, r' with
  | .inl s, .inl s' => I s s' p
  | .inr a, .inr b => Q a b p
  | _, _ => False

theorem sim_loopN {body : σ → P (σ ⊕ α)} {body' : τ → P (τ ⊕ β)} {I : σ → τ → PS → Prop} {Q : α → β → PS → Prop}
    (hb : ∀ s s' p q, PRel c p q → I s s' p → Sim c (body s) (body' s') p q (LoopRel I Q)) :
    ∀ n n' s s' p q, PRel c p q → I s s' p → Sim c (loopN body n s) (loopN body' n' s') p q Q := by
  intro n
  induction n with
  | zero =>
    intro n' s s' p q _ _ o p' hm
    cases hm
    exact Or.inr trivial
  | succ n ih =>
    intro n' s s' p q h hi
    cases n' with
    | zero => exact fun o p' _ => Or.inl ⟨q, rfl⟩
    | succ m =>
      show Sim c (body s >>= loopK (loopN body n)) (body' s' >>= loopK (loopN body' m)) p q Q
      refine sim_bind (hb s s' p q h hi) ?_
      intro r r' p1 q1 h1 hr
      cases r with
      | inl s1 =>
        cases r' with
        | inl s2 => exact ih m s1 s2 p1 q1 h1 hr
        | inr _ => exact hr.elim
      | inr a =>
        cases r' with
        | inl _ => exact hr.elim
        | inr b => exact sim_pure h1 hr

theorem sim_loop {body : σ → P (σ ⊕ α)} {body' : τ → P (τ ⊕ β)} {s : σ} {s' : τ} {p q : PS}
    (I : σ → τ → PS → Prop) {Q : α → β → PS → Prop}
    (h : PRel c p q) (hi : I s s' p)
    (hb : ∀ s s' p q, PRel c p q → I s s' p → Sim c (body s) (body' s') p q (LoopRel I Q)) :
    Sim c (loop body s) (loop body' s') p q Q :=
  sim_loopN hb _ _ s s' p q h hi

/-- Comments are taken from the table, which no relation is needed for. -/
theorem sim_comments {p q : PS} {l l' : Nat} (h : PRel c p q) (_hr : Room c p 0) :
    Sim c (takeComments l) (takeComments l') p q fun _ _ p' => Room c p' 0 := by
  intro o p' hm
  unfold takeComments at hm ⊢
  rcases hp : parseComments p.comments l with ⟨s, cm⟩
  rcases hq : parseComments q.comments l' with ⟨s', cm'⟩
  rw [hp] at hm
  dsimp only at hm
  cases hm
  exact Or.inr ⟨s', { q with comments := cm' }, rfl, { h with }, room0⟩

end Verif.Ridl.Cm
