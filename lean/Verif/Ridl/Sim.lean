import Verif.Ridl.CommentLemmas
import Verif.Ridl.ParserRun
import Verif.Spec.Moved

/-! # Two parsers on related tokens behave alike (for C98) -/

namespace Verif.Ridl
open Verif.Spec Verif.Schema

/-- How the tokens of two parsers `p` and `q` are related: the first `N` tokens of `p` are the tokens of `q` from `L` on, `d` lines
further up.  Either both end there (`ended`), or the last two of them are newlines, which do not follow a backslash, and `q` goes on
with a word or a comment. -/
structure Ctx where
  d : Nat
  L : Nat
  N : Nat
  hi : Nat
  ended : Prop
  /-- the tokens of `q` -/
  whole : List Token
  /-- the comments of `q` below line `hi` -/
  later : Nat → Option Str

/-- A line that both parsers know the comments of. -/
def Ctx.ok (c : Ctx) (l : Nat) : Prop := 1 ≤ l ∧ (c.ended ∨ l ≤ c.hi)

/-- Related tokens of the documents. -/
structure TokS (c : Ctx) (t t' : Token) : Prop extends MovedBy c.d t t' where
  ok : c.ok t.line
  same : ¬ c.ended → t' = t

/-- Related parser states. -/
structure PRel (c : Ctx) (p q : PS) : Prop where
  pos : q.pos = p.pos + c.L
  len : p.tokens.length = c.N
  len' : c.N + c.L ≤ q.tokens.length
  toks : ∀ i, i < c.N → ∃ t t', p.tokens[i]? = some t ∧ q.tokens[i + c.L]? = some t' ∧ TokS c t t' ∧ t.tt ≠ .eof
  ends : c.ended → q.tokens.length = c.N + c.L
  guard : ¬ c.ended → 2 ≤ c.N ∧ (∀ i, i < c.N → c.N ≤ i + 2 → ∃ t, p.tokens[i]? = some t ∧ t.tt = .newLine) ∧
    (∃ t, q.tokens[c.N + c.L]? = some t ∧ (t.tt = .word ∨ t.tt = .hash)) ∧ ∀ i t, i + 3 = c.N → p.tokens[i]? = some t → t.tt ≠ .backslash
  comm : ∀ k, (c.ended ∨ k ≤ c.hi) → q.comments.get (k + c.d) = p.comments.get k
  zero : p.comments.get 0 = none
  blank : ¬ c.ended → p.comments.get c.hi = none
  rest : ¬ c.ended → ∀ k, c.hi < k → q.comments.get (k + c.d) = c.later k
  whole : q.tokens = c.whole
  le : p.pos ≤ c.N

/-- There are `k` tokens after the one at the cursor. -/
def Room (c : Ctx) (p : PS) (k : Nat) : Prop := c.ended ∨ p.pos + k < c.N

theorem Room.mono {c : Ctx} {p : PS} {k j : Nat} (h : Room c p k) (hj : j ≤ k) : Room c p j :=
  h.imp id (fun h => by omega)

/-- Related tokens, or the end of both documents. -/
def Cur (c : Ctx) (t t' : Token) : Prop := (t = eofToken ∧ t' = eofToken) ∨ (TokS c t t' ∧ t.tt ≠ .eof)

theorem Cur.tt {c : Ctx} {t t' : Token} (h : Cur c t t') : t'.tt = t.tt := by
  rcases h with ⟨rfl, rfl⟩ | ⟨h, -⟩
  · rfl
  · exact h.tt
theorem Cur.val {c : Ctx} {t t' : Token} (h : Cur c t t') : t'.val = t.val := by
  rcases h with ⟨rfl, rfl⟩ | ⟨h, -⟩
  · rfl
  · exact h.val
theorem Cur.tok {c : Ctx} {t t' : Token} (h : Cur c t t') (he : t.tt ≠ .eof) : TokS c t t' := by
  rcases h with ⟨rfl, rfl⟩ | ⟨h, -⟩
  · exact absurd rfl he
  · exact h

theorem cursor_rel {c : Ctx} {p q : PS} (h : PRel c p q) (hr : Room c p 0) :
    Cur c p.cursor q.cursor ∧ (p.cursor.tt ≠ .newLine → Room c p 2) ∧ (p.cursor.tt = .backslash → Room c p 3) := by
  by_cases hl : p.pos < c.N
  · obtain ⟨t, t', h1, h2, h3, h4⟩ := h.toks _ hl
    have e1 : p.cursor = t := by unfold PS.cursor; rw [h1]; rfl
    have e2 : q.cursor = t' := by unfold PS.cursor; rw [h.pos, h2]; rfl
    rw [e1, e2]
    have key : t.tt ≠ .newLine → Room c p 2 := by
      intro hn
      by_cases he : c.ended
      · exact Or.inl he
      · refine Or.inr ?_
        refine Classical.byContradiction fun hc => ?_
        obtain ⟨t2, g1, g2⟩ := (h.guard he).2.1 _ hl (by omega)
        rw [h1] at g1
        cases g1
        exact hn g2
    refine ⟨Or.inr ⟨h3, h4⟩, key, fun hn => ?_⟩
    rcases key (by rw [hn]; decide) with he | hk
    · exact Or.inl he
    · by_cases he : c.ended
      · exact Or.inl he
      · refine Or.inr ?_
        refine Classical.byContradiction fun hc => ?_
        exact (h.guard he).2.2.2 p.pos t (by omega) h1 hn
  · have he : c.ended := hr.resolve_right (by omega)
    have e1 : p.cursor = eofToken := by unfold PS.cursor; rw [List.getElem?_eq_none (by rw [h.len]; omega)]; rfl
    have e2 : q.cursor = eofToken := by
      unfold PS.cursor; rw [List.getElem?_eq_none (by rw [h.ends he, h.pos]; omega)]; rfl
    rw [e1, e2]
    exact ⟨Or.inl ⟨rfl, rfl⟩, fun _ => Or.inl he, fun _ => Or.inl he⟩

/-- `m` and `m'` behave alike from `p` and `q`, unless `m` panics or hangs. -/
def Sim {α β : Type} (c : Ctx) (m : P α) (m' : P β) (p q : PS) (Q : α → β → PS → Prop) : Prop :=
  ∀ o p', m p = (o, p') → match o with
    | .ok a => ∃ b q', m' q = (.ok b, q') ∧ PRel c p' q' ∧ Q a b p'
    | .err e => ∃ e' q', m' q = (.err e', q') ∧ PRel c p' q' ∧ Room c p' 0 ∧ SameError e e' ∧ (¬ c.ended → e' = e)
    | _ => True

variable {α β γ δ σ τ : Type} {c : Ctx}

theorem Sim.mono {m : P α} {m' : P β} {p q : PS} {Q Q' : α → β → PS → Prop} (h : Sim c m m' p q Q)
    (hq : ∀ a b p', Q a b p' → Q' a b p') : Sim c m m' p q Q' := by
  intro o p' hm
  have := h o p' hm
  cases o with
  | ok a => obtain ⟨b, q', h1, h2, h3⟩ := this; exact ⟨b, q', h1, h2, hq _ _ _ h3⟩
  | err e => exact this
  | panic => trivial
  | hang => trivial

theorem sim_bind {m : P α} {m' : P β} {f : α → P γ} {f' : β → P δ} {p q : PS} {Q : α → β → PS → Prop} {Q' : γ → δ → PS → Prop}
    (h : Sim c m m' p q Q) (hf : ∀ a b p' q', PRel c p' q' → Q a b p' → Sim c (f a) (f' b) p' q' Q') :
    Sim c (m >>= f) (m' >>= f') p q Q' := by
  intro o p' hm
  change P.bind m f p = _ at hm
  unfold P.bind at hm
  rcases hr : m p with ⟨o1, p1⟩
  rw [hr] at hm
  have := h o1 p1 hr
  cases o1 with
  | ok a =>
    obtain ⟨b, q1, h1, h2, h3⟩ := this
    have h4 := hf a b p1 q1 h2 h3 o p' hm
    have hb : (m' >>= f') q = f' b q1 := by change P.bind m' f' q = _; unfold P.bind; rw [h1]
    rw [hb]
    exact h4
  | err e =>
    obtain ⟨e', q1, h1, h2⟩ := this
    cases hm
    exact ⟨e', q1, by change P.bind m' f' q = _; unfold P.bind; rw [h1], h2⟩
  | panic => cases hm; trivial
  | hang => cases hm; trivial

theorem sim_pure {a : α} {b : β} {p q : PS} {Q : α → β → PS → Prop} (h : PRel c p q) (hq : Q a b p) :
    Sim c (pure a : P α) (pure b : P β) p q Q := by
  intro o p' hm
  cases hm
  exact ⟨b, q, rfl, h, hq⟩

theorem sim_fail {e e' : PErr} {p q : PS} {Q : α → β → PS → Prop} (h : PRel c p q) (hr : Room c p 0) (he : SameError e e')
    (hs : ¬ c.ended → e' = e) : Sim c (fail e : P α) (fail e' : P β) p q Q := by
  intro o p' hm
  cases hm
  exact ⟨e', q, rfl, h, hr, he, hs⟩

theorem sim_fail_same {e : PErr} {p q : PS} {Q : α → β → PS → Prop} (h : PRel c p q) (hr : Room c p 0) :
    Sim c (fail e : P α) (fail e : P β) p q Q := sim_fail h hr (.same e) fun _ => rfl

theorem sim_crash {m' : P β} {p q : PS} {Q : α → β → PS → Prop} : Sim c (crash : P α) m' p q Q := by
  intro o p' hm
  cases hm
  trivial

theorem sim_cursor {p q : PS} (h : PRel c p q) (hr : Room c p 0) :
    Sim c cursor cursor p q fun a b p' => p' = p ∧ a = p.cursor ∧ Cur c a b ∧ (a.tt ≠ .newLine → Room c p' 2) ∧
      (a.tt = .backslash → Room c p' 3) := by
  intro o p' hm
  cases hm
  exact ⟨q.cursor, q, rfl, h, rfl, rfl, cursor_rel h hr⟩

theorem sim_advance {p q : PS} {k : Nat} (h : PRel c p q) (hr : Room c p (k + 1)) :
    Sim c advance advance p q fun a b p' => a = b ∧ Room c p' k := by
  intro o p' hm
  unfold advance at hm ⊢
  have hl := h.len
  have hp := h.pos
  by_cases he : p.pos ≥ p.tokens.length
  · rw [if_pos he] at hm
    cases hm
    have hend : c.ended := hr.resolve_right (by omega)
    have := h.ends hend
    exact ⟨false, q, by rw [if_pos (by omega)], h, rfl, Or.inl hend⟩
  · rw [if_neg he] at hm
    cases hm
    have := h.len'
    refine ⟨true, { q with pos := q.pos + 1 }, by rw [if_neg (by omega)], ?_, rfl, ?_⟩
    · exact { h with pos := by show q.pos + 1 = p.pos + 1 + c.L; omega, le := by show p.pos + 1 ≤ c.N; omega }
    · exact hr.imp id fun h => by show p.pos + 1 + k < c.N; omega

/-- Advancing over the last token. -/
theorem sim_advance0 {p q : PS} (h : PRel c p q) (hr : Room c p 0) :
    Sim c advance advance p q fun a b p' => a = b ∧ (¬ c.ended → a = true) := by
  intro o p' hm
  unfold advance at hm ⊢
  have hl := h.len
  have hp := h.pos
  by_cases he : p.pos ≥ p.tokens.length
  · rw [if_pos he] at hm
    cases hm
    have hend : c.ended := hr.resolve_right (by omega)
    have := h.ends hend
    exact ⟨false, q, by rw [if_pos (by omega)], h, rfl, fun h => absurd hend h⟩
  · rw [if_neg he] at hm
    cases hm
    have := h.len'
    refine ⟨true, { q with pos := q.pos + 1 }, by rw [if_neg (by omega)], ?_, rfl, fun _ => rfl⟩
    exact { h with pos := by show q.pos + 1 = p.pos + 1 + c.L; omega, le := by show p.pos + 1 ≤ c.N; omega }

theorem sim_rewind {p q : PS} {n : Nat} (h : PRel c p q) (hr : Room c p 0) (hn : n ≤ p.pos) :
    Sim c (rewind n) (rewind n) p q fun _ _ p' => Room c p' 0 := by
  intro o p' hm
  unfold rewind at hm ⊢
  have hp := h.pos
  have := h.le
  rw [if_neg (by omega)] at hm
  cases hm
  refine ⟨true, { q with pos := q.pos - n }, by rw [if_neg (by omega)], ?_, ?_⟩
  · exact { h with pos := by show q.pos - n = p.pos - n + c.L; omega, le := by show p.pos - n ≤ c.N; omega }
  · exact hr.imp id fun h => by show p.pos - n + 0 < c.N; omega

/-- Related results of `attempt`. -/
def TryRel (c : Ctx) (Q : α → β → PS → Prop) (r : Except PErr α) (r' : Except PErr β) (p : PS) : Prop :=
  match r, r' with
  | .ok a, .ok b => Q a b p
  | .error e, .error e' => Room c p 0 ∧ SameError e e' ∧ (¬ c.ended → e' = e)
  | _, _ => False

theorem sim_attempt {m : P α} {m' : P β} {p q : PS} {Q : α → β → PS → Prop} (h : Sim c m m' p q Q) :
    Sim c (attempt m) (attempt m') p q (TryRel c Q) := by
  intro o p' hm
  unfold attempt at hm ⊢
  rcases hr : m p with ⟨o1, p1⟩
  rw [hr] at hm
  have := h o1 p1 hr
  cases o1 with
  | ok a =>
    obtain ⟨b, q1, h1, h2, h3⟩ := this
    cases hm
    exact ⟨.ok b, q1, by rw [h1], h2, h3⟩
  | err e =>
    obtain ⟨e', q1, h1, h2, h3, h4⟩ := this
    cases hm
    exact ⟨.error e', q1, by rw [h1], h2, h3, h4⟩
  | panic => cases hm; trivial
  | hang => cases hm; trivial

/-- Related ends of a loop body. -/
def LoopRel (I : σ → τ → PS → Prop) (Q : α → β → PS → Prop) (r : σ ⊕ α) (r' : τ ⊕ β) (p : PS) : Prop :=
  match r, r' with
  | .inl s, .inl s' => I s s' p
  | .inr a, .inr b => Q a b p
  | _, _ => False

theorem sim_loopN {body : σ → P (σ ⊕ α)} {body' : τ → P (τ ⊕ β)} {I : σ → τ → PS → Prop} {Q : α → β → PS → Prop}
    (hb : ∀ s s' p q, PRel c p q → I s s' p → Sim c (body s) (body' s') p q (LoopRel I Q)) :
    ∀ n n', n ≤ n' → ∀ s s' p q, PRel c p q → I s s' p → Sim c (loopN body n s) (loopN body' n' s') p q Q := by
  intro n
  induction n with
  | zero =>
    intro n' _ s s' p q _ _ o p' hm
    cases hm
    trivial
  | succ n ih =>
    intro n' hn s s' p q h hi
    obtain ⟨m, rfl⟩ : ∃ m, n' = m + 1 := ⟨n' - 1, by omega⟩
    show Sim c (body s >>= loopK (loopN body n)) (body' s' >>= loopK (loopN body' m)) p q Q
    refine sim_bind (hb s s' p q h hi) ?_
    intro r r' p1 q1 h1 hr
    cases r with
    | inl s1 =>
      cases r' with
      | inl s2 => exact ih m (by omega) s1 s2 p1 q1 h1 hr
      | inr _ => exact hr.elim
    | inr a =>
      cases r' with
      | inl _ => exact hr.elim
      | inr b => exact sim_pure h1 hr

theorem sim_loop {body : σ → P (σ ⊕ α)} {body' : τ → P (τ ⊕ β)} {s : σ} {s' : τ} {p q : PS}
    (I : σ → τ → PS → Prop) {Q : α → β → PS → Prop}
    (h : PRel c p q) (hi : I s s' p)
    (hb : ∀ s s' p q, PRel c p q → I s s' p → Sim c (body s) (body' s') p q (LoopRel I Q)) :
    Sim c (loop body s) (loop body' s') p q Q := by
  have h1 := h.len
  have h2 := h.len'
  have h3 := h.pos
  exact sim_loopN hb _ _ (by omega) s s' p q h hi

/-! ### Comments -/

theorem block_rel {cm cm' : Comments} {d hi : Nat} {e : Prop} (h : ∀ k, (e ∨ k ≤ hi) → cm'.get (k + d) = cm.get k)
    (h0 : cm.get 0 = none) : ∀ l, (e ∨ l ≤ hi) →
      commentBlock cm' (l + d) = (commentBlock cm l).map fun x => (x.1 + d, x.2) := by
  intro l
  induction l with
  | zero =>
    intro hl
    have := h 0 hl
    rw [h0] at this
    rw [commentBlock_none h0, commentBlock_none this]
    rfl
  | succ l ih =>
    intro hl
    have := h (l + 1) hl
    cases hg : cm.get (l + 1) with
    | none => rw [hg] at this; rw [commentBlock_none hg, commentBlock_none this]; rfl
    | some v =>
      rw [hg] at this
      rw [commentBlock_some hg, commentBlock_some this]
      rw [show above cm' (l + 1 + d) = commentBlock cm' (l + d) from by
        rw [show l + 1 + d = (l + d) + 1 from by omega]; rfl]
      rw [ih (hl.imp id fun h => by omega), List.map_append]
      rfl

theorem doc_rel {cm cm' : Comments} {d hi : Nat} {e : Prop} (h : ∀ k, (e ∨ k ≤ hi) → cm'.get (k + d) = cm.get k)
    (h0 : cm.get 0 = none) {l : Nat} (h1 : 1 ≤ l) (hl : e ∨ l ≤ hi) :
    docLines cm' (l + d) = (docLines cm l).map fun x => (x.1 + d, x.2) := by
  obtain ⟨l, rfl⟩ : ∃ k, l = k + 1 := ⟨l - 1, by omega⟩
  have hg := h (l + 1) hl
  have hb := block_rel h h0 (l + 1) hl
  have hb' := block_rel h h0 l (hl.imp id fun h => by omega)
  cases hc : cm.get (l + 1) with
  | some v =>
    rw [hc] at hg
    rw [show docLines cm (l + 1) = commentBlock cm (l + 1) from by unfold docLines; rw [hc]]
    rw [show docLines cm' (l + 1 + d) = commentBlock cm' (l + 1 + d) from by unfold docLines; rw [hg]]
    exact hb
  | none =>
    rw [hc] at hg
    rw [show docLines cm (l + 1) = commentBlock cm l from by unfold docLines; rw [hc]]
    rw [show l + 1 + d = l + d + 1 from by omega] at hg ⊢
    rw [show docLines cm' (l + d + 1) = commentBlock cm' (l + d) from by unfold docLines; rw [hg]]
    exact hb'

theorem docLines_le {cm : Comments} {l : Nat} {x : Nat × Str} (h : x ∈ docLines cm l) : x.1 ≤ l := by
  unfold docLines at h
  split at h
  · exact (commentBlock_keys _ _ x h).1
  · cases h
  · have := (commentBlock_keys _ _ x h).1; omega

theorem sim_comments {p q : PS} {l l' : Nat} (h : PRel c p q) (hr : Room c p 0) (hl : c.ok l) (hl' : l' = l + c.d) :
    Sim c (takeComments l) (takeComments l') p q fun a b p' => a = b ∧ Room c p' 0 := by
  subst hl'
  intro o p' hm
  unfold takeComments at hm ⊢
  have hd := doc_rel h.comm h.zero hl.1 hl.2
  obtain ⟨a1, a2⟩ := parseComments_spec p.comments l
  obtain ⟨b1, b2⟩ := parseComments_spec q.comments (l + c.d)
  rcases hp : parseComments p.comments l with ⟨s, cm⟩
  rcases hq : parseComments q.comments (l + c.d) with ⟨s', cm'⟩
  rw [hp] at hm a1 a2
  rw [hq] at b1 b2
  dsimp only at hm a1 a2 b1 b2
  cases hm
  refine ⟨s', { q with comments := cm' }, rfl, ?_, ?_, ?_⟩
  · refine { h with comm := ?_, zero := ?_, blank := ?_, rest := ?_ }
    · intro k hk
      show cm'.get (k + c.d) = cm.get k
      rw [a2, b2, hd, h.comm k hk]
      congr 1
      rw [List.map_map]
      apply propext
      simp only [List.mem_map, Function.comp]
      constructor
      · rintro ⟨x, hx, he⟩; exact ⟨x, hx, by omega⟩
      · rintro ⟨x, hx, he⟩; exact ⟨x, hx, by omega⟩
    · show cm.get 0 = none
      rw [a2, h.zero]; split <;> rfl
    · intro he
      show cm.get c.hi = none
      rw [a2, h.blank he]; split <;> rfl
    · intro he k hk
      show cm'.get (k + c.d) = c.later k
      rw [b2, h.rest he k hk, hd, if_neg]
      rw [List.map_map]
      intro hm
      obtain ⟨x, hx, hxe⟩ := List.mem_map.1 hm
      have := docLines_le hx
      have := hl.2.resolve_left he
      simp only [Function.comp] at hxe
      omega
  · rw [a1, b1, hd]
    unfold docText
    rw [List.map_map]
    rfl
  · exact hr

end Verif.Ridl
