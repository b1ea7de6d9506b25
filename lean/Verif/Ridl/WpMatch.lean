import Verif.Ridl.Wp

namespace Verif.Ridl

/-- Tokens a pattern certainly consumes. -/
def need (tts : List TT) : Nat := tts.countP (fun t => t ≠ .whitespace ∧ t ≠ .eol)

theorem advance_eq {p : PS} (h : p.cursor.tt ≠ .eof) :
    advance p = (.ok true, { p with pos := p.pos + 1 }) := by
  have := cursor_lt h
  unfold advance; rw [if_neg (by omega)]

theorem bind_ok {α β : Type} {m : P α} {f : α → P β} {p p' : PS} {a : α} (h : m p = (.ok a, p')) :
    (m >>= f) p = f a p' := by
  change P.bind m f p = _
  simp [P.bind, h]

theorem bind_err {α β : Type} {m : P α} {f : α → P β} {p p' : PS} {e : PErr} (h : m p = (.err e, p')) :
    (m >>= f) p = (.err e, p') := by
  change P.bind m f p = _
  simp [P.bind, h]

theorem cursor_eq (p : PS) : cursor p = (.ok p.cursor, p) := rfl

/-- Everything `matchLoop` can do.  `p0` is the state before the first token of the pattern. -/
theorem matchLoop_spec (tts : List TT) (acc : List Token) (n : Nat) (p0 p : PS) (hp : p.Valid)
    (ht : p.tokens = p0.tokens) (hc : p.comments = p0.comments) (hn : p.pos = p0.pos + n)
    (hlast : TT.eol ∉ tts.dropLast) (hne : TT.eof ∉ tts) :
    (∃ ms p', matchLoop tts acc n p = (.ok ms, p') ∧ ms.length = acc.length + tts.length ∧
      Ext p p' (need tts)) ∨
    (∃ e p', matchLoop tts acc n p = (.err e, p') ∧ (p' = p0 ∨ (.eol ∈ tts ∧ Ext p p' 0))) := by
  induction tts generalizing acc n p with
  | nil => exact Or.inl ⟨acc, p, rfl, by simp, by simpa [need] using hp.ext⟩
  | cons want rest ih =>
    have hlast' : TT.eol ∉ rest.dropLast := by
      cases rest with
      | nil => simp
      | cons a r => simp at hlast ⊢; exact hlast.2
    have hne' : TT.eof ∉ rest := fun h => hne (by simp [h])
    unfold matchLoop
    rw [bind_ok (cursor_eq p)]
    by_cases hw : p.cursor.tt = want
    · rw [if_pos hw]
      have hcur : p.cursor.tt ≠ .eof := by rw [hw]; rintro rfl; exact hne (by simp)
      rw [bind_ok (advance_eq hcur)]
      have hlt := cursor_lt hcur
      have h1 : Ext p { p with pos := p.pos + 1 } 1 := ⟨rfl, by simp, by simp; omega, .refl _⟩
      rcases ih (acc ++ [p.cursor]) (n + 1) { p with pos := p.pos + 1 } h1.valid ht hc (by simp; omega)
        hlast' hne' with ⟨ms, p', h2, h3, h4⟩ | ⟨e, p', h2, h3⟩
      · refine Or.inl ⟨ms, p', h2, by simp at h3 ⊢; omega, (h1.trans h4).weaken ?_⟩
        have hadd : need (want :: rest) ≤ need rest + 1 := by
          unfold need; rw [List.countP_cons]; split <;> omega
        omega
      · refine Or.inr ⟨e, p', h2, ?_⟩
        rcases h3 with h3 | ⟨h3, h4⟩
        · exact Or.inl h3
        · exact Or.inr ⟨by simp [h3], (h1.trans h4).weaken (by omega)⟩
    · rw [if_neg hw]
      by_cases heol : want = .eol
      · rw [if_pos heol]
        have hrest : rest = [] := by
          cases rest with
          | nil => rfl
          | cons a r => subst heol; simp at hlast
        subst hrest
        have hs := safe_expectEOL p hp
        unfold Wp at hs
        rcases hm : expectOptionalCommentOrEOL p with ⟨o, p'⟩
        rw [hm] at hs
        cases o with
        | ok a =>
          refine Or.inl ⟨_, p', by rw [bind_ok hm]; rfl, by simp, hs.weaken (by simp [need, heol])⟩
        | err e => exact Or.inr ⟨e, p', bind_err hm, Or.inr ⟨by simp [heol], hs⟩⟩
        | panic => exact hs.elim
        | hang => exact hs.elim
      · rw [if_neg heol]
        by_cases hws : want ≠ .whitespace
        · rw [if_pos hws]
          have hr : rewind n p = (.ok true, p0) := by
            unfold rewind
            rw [if_neg (by omega)]
            cases p; cases p0; simp_all
          rw [bind_ok hr]
          exact Or.inr ⟨_, p0, rfl, Or.inl rfl⟩
        · rw [if_neg hws]
          rcases ih (acc ++ [{ tt := .whitespace, val := [' '], line := p.cursor.line, col := p.cursor.col }])
            n p hp ht hc hn hlast' hne' with ⟨ms, p', h2, h3, h4⟩ | ⟨e, p', h2, h3⟩
          · refine Or.inl ⟨ms, p', h2, by simp at h3 ⊢; omega, h4.weaken ?_⟩
            simp only [ne_eq, Decidable.not_not] at hws
            simp [need, hws]
          · refine Or.inr ⟨e, p', h2, ?_⟩
            rcases h3 with h3 | ⟨h3, h4⟩
            · exact Or.inl h3
            · exact Or.inr ⟨by simp [h3], h4⟩

/-- Rule for `match`: on success there is a value for every pattern element. -/
theorem wp_match {tts : List TT} {p : PS} {Q : List Token → PS → Prop} (hp : p.Valid)
    (hlast : TT.eol ∉ tts.dropLast) (hne : TT.eof ∉ tts)
    (h : ∀ ms p', ms.length = tts.length → Ext p p' (need tts) → Q ms p') : Wp (match_ tts) p Q := by
  unfold Wp match_
  rcases matchLoop_spec tts [] 0 p p hp rfl rfl (by simp) hlast hne with ⟨ms, p', h2, h3, h4⟩ | ⟨e, p', h2, h3⟩
  · rw [h2]; exact h ms p' (by simpa using h3) h4
  · rw [h2]
    rcases h3 with rfl | ⟨_, h3⟩
    · exact hp.ext
    · exact h3

/-- A pattern without end-of-line marker leaves the parser untouched when it fails. -/
theorem match_err {tts : List TT} {p p' : PS} {e : PErr} (hp : p.Valid) (hl : TT.eol ∉ tts)
    (hne : TT.eof ∉ tts) (h : match_ tts p = (.err e, p')) : p' = p := by
  have hl' : TT.eol ∉ tts.dropLast := fun hm => hl (List.dropLast_subset _ hm)
  rcases matchLoop_spec tts [] 0 p p hp rfl rfl (by simp) hl' hne with ⟨ms, q, h2, _⟩ | ⟨e', q, h2, h3⟩
  · rw [match_, h2] at h; simp at h
  · rw [match_, h2] at h
    simp only [Prod.mk.injEq] at h
    rcases h3 with h3 | ⟨h3, _⟩
    · rw [← h.2, h3]
    · exact absurd h3 hl

theorem wp_nth {l : List Token} {i : Nat} {p : PS} {Q : Token → PS → Prop} (hi : i < l.length)
    (h : ∀ t, Q t p) : Wp (nth l i) p Q := by
  unfold nth
  rw [List.getElem?_eq_getElem hi]
  exact h _

/-- `match`, then continue. -/
theorem wp_match_bind {β : Type} {tts : List TT} {p : PS} {f : List Token → P β} {Q : β → PS → Prop} (hp : p.Valid)
    (hlast : TT.eol ∉ tts.dropLast := by decide) (hne : TT.eof ∉ tts := by decide)
    (h : ∀ ms p', ms.length = tts.length → Ext p p' (need tts) → Wp (f ms) p' Q) :
    Wp (match_ tts >>= f) p Q :=
  wp_bind (wp_match hp hlast hne fun ms p' h1 h2 => ⟨h2.weaken (Nat.zero_le _), h ms p' h1 h2⟩)

theorem wp_nth_bind {β : Type} {l : List Token} {i : Nat} {p : PS} {f : Token → P β} {Q : β → PS → Prop}
    (hp : p.Valid) (hi : i < l.length) (h : ∀ t, Wp (f t) p Q) : Wp (nth l i >>= f) p Q :=
  wp_bind (wp_nth hi fun t => ⟨hp.ext, h t⟩)

/-- `match` whose failure is inspected; patterns here have no end-of-line marker. -/
theorem wp_try_match {β : Type} {tts : List TT} {p : PS} {f : Except PErr (List Token) → P β}
    {Q : β → PS → Prop} (hp : p.Valid) (hl : TT.eol ∉ tts := by decide) (hne : TT.eof ∉ tts := by decide)
    (h1 : ∀ ms p', ms.length = tts.length → Ext p p' (need tts) → Wp (f (.ok ms)) p' Q)
    (h2 : ∀ e, Wp (f (.error e)) p Q) : Wp (attempt (match_ tts) >>= f) p Q := by
  refine wp_bind (wp_attempt ?_ ?_)
  · exact wp_match hp (fun hm => hl (List.dropLast_subset _ hm)) hne fun ms p' g1 g2 =>
      ⟨g2.weaken (Nat.zero_le _), h1 ms p' g1 g2⟩
  · intro e p' hm
    have := match_err hp hl hne hm
    subst this
    exact ⟨hp.ext, h2 e⟩

/-! ### Values -/

theorem wp_cursor_bind {β : Type} {f : Token → P β} {p : PS} {Q : β → PS → Prop} (hp : p.Valid)
    (h : Wp (f p.cursor) p Q) : Wp (cursor >>= f) p Q := wp_bind (wp_cursor ⟨hp.ext, h⟩)

theorem wp_adv_bind {β : Type} {f : Bool → P β} {p : PS} {Q : β → PS → Prop} (hp : p.Valid)
    (h : ∀ b, Wp (f b) p.adv Q) : Wp (advance >>= f) p Q :=
  wp_bind (wp_advance ⟨adv_ext hp, h _⟩)

theorem safe_expectMetadataKey : Safe 1 expectMetadataKey := by
  intro p hp
  refine wp_match_bind hp (h := fun ms p1 hl h1 => ?_)
  refine wp_nth_bind h1.valid (by simp [hl]) fun t => ?_
  refine wp_safe (safe_loop ?_ _) h1.valid fun toks p2 _ h2 => ?_
  · intro s q hq
    refine wp_cursor_bind hq ?_
    split
    · exact wp_pure hq.ext
    · exact wp_pure hq.ext
    · exact wp_pure hq.ext
    · exact wp_adv_bind hq fun _ => wp_pure (adv_ext1 (by simp_all))
    · exact wp_match_bind hq (h := fun ms q' _ he => wp_pure (he.weaken (by decide)))
    · exact wp_fail hq
  · exact (safe_composedValue _ _ h2.valid).mono fun _ _ h3 => ((h1.trans h2).trans h3).weaken (by decide)

theorem safe_expectMetadataValue : Safe 0 expectMetadataValue := by
  intro p hp
  refine wp_cursor_bind hp ?_
  split
  · exact (safe_expectStringValue.mono (by omega)) p hp
  · refine wp_safe (safe_loop ?_ _) hp fun toks p2 _ h2 => ?_
    · intro s q hq
      refine wp_cursor_bind hq ?_
      split
      · exact wp_pure hq.ext
      · exact wp_pure hq.ext
      · exact wp_pure hq.ext
      · exact wp_adv_bind hq fun _ => wp_pure (adv_ext1 (by simp_all))
    · exact (safe_composedValue _ _ h2.valid).mono fun _ _ h3 => (h2.trans h3).weaken (by omega)

/-! ### Types -/

/-- `rec` is safe from every state that has fewer tokens left than `N`, and consumes at least one
token when it starts at a word or bracket. -/
def RecOK (N : Nat) (rec : P Token) : Prop :=
  ∀ p : PS, p.Valid → p.tokens.length - p.pos < N →
    Wp rec p fun _ p' => Ext p p' 0 ∧ (p.cursor.tt = .word ∨ p.cursor.tt = .openBracket → Ext p p' 1)

theorem wp_expectTypeList {rec : P Token} {N : Nat} (hr : RecOK N rec) (p : PS) (hp : p.Valid)
    (hN : p.tokens.length - p.pos ≤ N) : Wp (expectTypeList rec) p fun _ p' => Ext p p' 1 := by
  unfold expectTypeList
  refine wp_match_bind hp (h := fun ms p1 hl h1 => ?_)
  have h1 : Ext p p1 1 := h1
  refine wp_nth_bind h1.valid (by simp [hl]) fun t => ?_
  refine wp_bind ?_
  refine (wp_loop (fun _ q => q.tokens = p1.tokens ∧ p1.pos ≤ q.pos) (Q := fun _ _ => True) ?_ _ p1
    h1.valid ⟨rfl, Nat.le_refl _⟩).mono ?_
  · intro s q hq ⟨ht, hpos⟩
    refine wp_cursor_bind hq ?_
    split
    · have h : Ext q q.adv 1 := adv_ext1 (by simp_all)
      exact wp_adv_bind hq fun _ => wp_pure ⟨h, by rw [h.tokens, ht], by have := h.pos; omega⟩
    · exact wp_pure ⟨hq.ext, trivial⟩
    · have h : Ext q q.adv 1 := adv_ext1 (by simp_all)
      exact wp_adv_bind hq fun _ => wp_pure ⟨h, by rw [h.tokens, ht], by have := h.pos; omega⟩
    · have h : Ext q q.adv 1 := adv_ext1 (by simp_all)
      exact wp_adv_bind hq fun _ => wp_pure ⟨h, by rw [h.tokens, ht], by have := h.pos; omega⟩
    · rename_i hw
      refine wp_bind ((hr q hq ?_).mono fun t q' ⟨g1, g2⟩ => ⟨g1, wp_pure ⟨g2 (Or.inl hw), ?_, ?_⟩⟩)
      · have := h1.pos; have e1 := h1.tokens; have := h1.le; rw [ht, e1]; rw [e1] at this; omega
      · rw [g1.tokens, ht]
      · have := g1.pos; omega
    · rename_i hw
      refine wp_bind ((hr q hq ?_).mono fun t q' ⟨g1, g2⟩ => ⟨g1, wp_pure ⟨g2 (Or.inr hw), ?_, ?_⟩⟩)
      · have := h1.pos; have e1 := h1.tokens; have := h1.le; rw [ht, e1]; rw [e1] at this; omega
      · rw [g1.tokens, ht]
      · have := g1.pos; omega
    · exact wp_fail hq
  · intro toks p2 ⟨h2, _⟩
    exact ⟨h2, (safe_composedValue _ _ h2.valid).mono fun _ _ h3 => ((h1.trans h2).trans h3).weaken (by omega)⟩

theorem wp_expectMapDefinition {rec : P Token} {N : Nat} (hr : RecOK N rec) (p : PS) (hp : p.Valid)
    (hN : p.tokens.length - p.pos ≤ N) (hw : p.cursor.tt = .word) :
    Wp (expectMapDefinition rec) p fun _ p' => Ext p p' 1 := by
  unfold expectMapDefinition
  refine wp_cursor_bind hp ?_
  split
  · exact wp_fail hp
  have h1 : Ext p p.adv 1 := adv_ext1 (by simp_all)
  refine wp_adv_bind hp fun _ => ?_
  refine wp_bind ?_
  refine (wp_loop (fun _ q => q.tokens = p.tokens ∧ p.pos ≤ q.pos) (Q := fun _ _ => True) ?_ _ p.adv
    h1.valid ⟨h1.tokens, by have := h1.pos; omega⟩).mono ?_
  · intro s q hq ⟨ht, hpos⟩
    refine wp_cursor_bind hq ?_
    split
    · have h : Ext q q.adv 1 := adv_ext1 (by simp_all)
      exact wp_adv_bind hq fun _ => wp_pure ⟨h, by rw [h.tokens, ht], by have := h.pos; omega⟩
    · exact wp_adv_bind hq fun _ => wp_pure ⟨adv_ext hq, trivial⟩
    · refine wp_bind ((wp_expectTypeList hr q hq ?_).mono fun t q' g => ⟨g.weaken (by omega), wp_pure ⟨g, ?_, ?_⟩⟩)
      · rw [ht]; omega
      · rw [g.tokens, ht]
      · have := g.pos; omega
    · exact wp_fail hq
  · intro toks p2 ⟨h2, _⟩
    exact ⟨h2, (safe_composedValue _ _ h2.valid).mono fun _ _ h3 => ((h1.trans h2).trans h3).weaken (by omega)⟩

theorem wp_expectTypeBody {rec : P Token} {N : Nat} (hr : RecOK N rec) (p : PS) (hp : p.Valid)
    (hN : p.tokens.length - p.pos ≤ N) : Wp (expectTypeBody rec) p fun _ p' => Ext p p' 1 := by
  unfold expectTypeBody
  refine wp_bind ?_
  refine (wp_loop (fun (s : List Token) q => q.tokens = p.tokens ∧ p.pos ≤ q.pos ∧ (s ≠ [] → p.pos + 1 ≤ q.pos))
    (Q := fun (s : List Token) q => q.tokens = p.tokens ∧ (s ≠ [] → p.pos + 1 ≤ q.pos)) ?_ _ p
    hp ⟨rfl, Nat.le_refl _, by simp⟩).mono ?_
  · intro s q hq ⟨ht, hpos, hs⟩
    refine wp_cursor_bind hq ?_
    split
    · exact wp_pure ⟨hq.ext, ht, hs⟩
    · exact wp_pure ⟨hq.ext, ht, hs⟩
    · exact wp_pure ⟨hq.ext, ht, hs⟩
    · exact wp_pure ⟨hq.ext, ht, hs⟩
    · exact wp_pure ⟨hq.ext, ht, hs⟩
    · exact wp_pure ⟨hq.ext, ht, hs⟩
    · exact wp_pure ⟨hq.ext, ht, hs⟩
    · exact wp_pure ⟨hq.ext, ht, hs⟩
    · refine wp_match_bind hq (h := fun ms q1 hl h1 => ?_)
      have h1 : Ext q q1 2 := h1
      refine wp_bind ((hr q1 h1.valid ?_).mono fun t q2 ⟨g1, _⟩ => ⟨g1, wp_pure ⟨?_, ?_, ?_, ?_⟩⟩)
      · have := h1.pos; have := h1.le; rw [h1.tokens, ht] at *; omega
      · exact (h1.trans g1).weaken (by omega)
      · rw [g1.tokens, h1.tokens, ht]
      · have := g1.pos; have := h1.pos; omega
      · intro _; have := g1.pos; have := h1.pos; omega
    · rename_i hw
      split
      · refine wp_bind ((wp_expectMapDefinition hr q hq (by rw [ht]; omega) hw).mono fun t q1 g => ?_)
        refine ⟨g.weaken (by omega), wp_pure ⟨g, ?_, ?_, ?_⟩⟩
        · rw [g.tokens, ht]
        · have := g.pos; omega
        · intro _; have := g.pos; omega
      · split
        · exact wp_fail hq
        · have h : Ext q q.adv 1 := adv_ext1 (by simp_all)
          exact wp_adv_bind hq fun _ => wp_pure ⟨h, by rw [h.tokens, ht], by have := h.pos; omega,
            fun _ => by have := h.pos; omega⟩
    · exact wp_fail hq
  · intro toks p2 ⟨h2, ht, hs⟩
    refine ⟨h2, ?_⟩
    cases toks with
    | nil => exact composedValue_nil _ h2.valid _
    | cons a l =>
      refine (safe_composedValue _ _ h2.valid).mono fun _ p3 h3 => ?_
      have := hs (by simp); have := h3.pos
      exact ⟨by rw [h3.tokens, ht], by omega, h3.le, (h2.trans h3).comm⟩

theorem recOK_expectTypeN (n : Nat) : RecOK n (expectTypeN n) := by
  induction n with
  | zero => intro p _ h; omega
  | succ n ih =>
    intro p hp hN
    exact (wp_expectTypeBody ih p hp (by omega)).mono fun _ _ h => ⟨h.weaken (by omega), fun _ => h⟩

theorem safe_expectType : Safe 1 expectType := by
  intro p hp
  have := wp_expectTypeBody (recOK_expectTypeN (p.tokens.length - p.pos)) p hp (Nat.le_refl _)
  exact this

/-! ### Arguments, errors, annotations -/

theorem safe_optStream : Safe 0 optStream := by
  intro p hp
  refine wp_try_match hp (h1 := fun ms p1 hl h1 => ?_) (h2 := fun _ => wp_pure hp.ext)
  refine wp_nth_bind h1.valid (by simp [hl]) fun t => ?_
  split
  · exact wp_fail h1.valid
  · exact wp_pure (h1.weaken (by omega))

theorem safe_argumentLoop : Safe 0 argumentLoop := by
  refine safe_loop ?_ _
  intro s q hq
  refine wp_cursor_bind hq ?_
  split
  · exact wp_adv_bind hq fun _ => wp_pure (adv_ext1 (by simp_all))
  · exact wp_adv_bind hq fun _ => wp_pure (adv_ext hq)
  · exact wp_adv_bind hq fun _ => wp_pure (adv_ext1 (by simp_all))
  · exact wp_adv_bind hq fun _ => wp_pure (adv_ext1 (by simp_all))
  · refine wp_try_match hq (h1 := fun ms q1 hl h1 => ?_) (h2 := fun _ => ?_)
    · refine wp_nth_bind h1.valid (by simp [hl]) fun t => wp_adv_bind h1.valid fun _ => wp_pure ?_
      exact (h1.trans (adv_ext h1.valid)).weaken (by omega)
    · refine wp_try_match hq (h1 := fun ms q1 hl h1 => ?_) (h2 := fun _ => ?_)
      · refine wp_nth_bind h1.valid (by simp [hl]) fun t => ?_
        exact wp_safe safe_expectType h1.valid fun _ q2 _ h3 => wp_pure ((h1.trans h3).weaken (by omega))
      · refine wp_match_bind hq (h := fun ms q1 hl h1 => ?_)
        refine wp_nth_bind h1.valid (by simp [hl]) fun t => ?_
        exact wp_safe safe_expectType h1.valid fun _ q2 _ h3 => wp_pure ((h1.trans h3).weaken (by omega))
  · exact wp_fail hq

theorem safe_expectArgumentList : Safe 1 expectArgumentList := by
  intro p hp
  refine wp_safe safe_optStream hp fun _ p1 _ h1 => ?_
  refine wp_match_bind h1.valid (h := fun ms p2 _ h2 => ?_)
  have h2 : Ext p1 p2 1 := h2
  exact (safe_argumentLoop p2 h2.valid).mono fun _ _ h3 => ((h1.trans h2).trans h3).weaken (by omega)

theorem safe_expectErrorList : Safe 1 expectErrorList := by
  intro p hp
  refine wp_match_bind hp (h := fun ms p1 hl h1 => ?_)
  have h1 : Ext p p1 1 := h1
  refine wp_nth_bind h1.valid (by simp [hl]) fun t => ?_
  refine (safe_loop ?_ _ p1 h1.valid).mono fun _ _ h3 => (h1.trans h3).weaken (by omega)
  intro s q hq
  refine wp_try_match hq (h1 := fun ms q1 hl h1 => ?_) (h2 := fun _ => wp_pure hq.ext)
  exact wp_nth_bind h1.valid (by simp [hl]) fun t => wp_pure (h1.weaken (by decide))

/-- The body of the annotation loop makes progress or ends. -/
theorem safe_parseAnnotations : Safe 0 parseAnnotations := by
  refine safe_loop ?_ _
  intro s q hq
  refine wp_try_match hq (h1 := fun ms q1 hl h1 => ?_) (h2 := fun _ => wp_pure hq.ext)
  have h1 : Ext q q1 2 := h1
  refine wp_nth_bind h1.valid (by simp [hl]) fun t => ?_
  split
  · exact wp_fail h1.valid
  · refine wp_cursor_bind h1.valid ?_
    split
    · exact wp_pure (h1.weaken (by omega))
    · refine wp_adv_bind h1.valid fun _ => ?_
      have h2 := adv_ext h1.valid
      refine wp_cursor_bind h2.valid (wp_cursor_bind h2.valid ?_)
      split
      · refine wp_safe safe_expectStringValue h2.valid fun _ q3 _ h3 => ?_
        refine wp_adv_bind h3.valid fun _ => wp_pure ?_
        exact (((h1.trans h2).trans h3).trans (adv_ext h3.valid)).weaken (by omega)
      · refine wp_adv_bind h2.valid fun _ => wp_pure ?_
        exact ((h1.trans h2).trans (adv_ext h2.valid)).weaken (by omega)

theorem safe_metaLine : Safe 1 metaLine := by
  intro p hp
  refine wp_match_bind hp (h := fun ms p1 _ h1 => ?_)
  refine wp_safe safe_expectMetadataKey h1.valid fun _ p2 _ h2 => ?_
  refine wp_match_bind h2.valid (h := fun ms p3 _ h3 => ?_)
  refine wp_safe safe_expectMetadataValue h3.valid fun _ p4 _ h4 => wp_pure ?_
  exact (((h1.trans h2).trans h3).trans h4).weaken (by omega)

end Verif.Ridl
