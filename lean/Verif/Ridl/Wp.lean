import Verif.Ridl.ParserStates

/-! Weakest-precondition reasoning for parser functions: no panic, no hang, cursor moves forward and
stays inside the token list. -/

namespace Verif.Ridl

/-- Every entry of `c'` is an entry of `c`. -/
def CSub (c' c : Comments) : Prop := ∀ k v, c'.get k = some v → c.get k = some v

theorem CSub.refl (c : Comments) : CSub c c := fun _ _ h => h

/-- `p'` is a later state of the same parser, at least `k` tokens further, with no new comments. -/
structure Ext (p p' : PS) (k : Nat) : Prop where
  tokens : p'.tokens = p.tokens
  pos : p.pos + k ≤ p'.pos
  le : p'.pos ≤ p'.tokens.length
  comm : CSub p'.comments p.comments

/-- The cursor is inside the token list (or at its end). -/
def PS.Valid (p : PS) : Prop := p.pos ≤ p.tokens.length

theorem PS.Valid.ext {p : PS} (h : p.Valid) : Ext p p 0 := ⟨rfl, by simp, h, .refl _⟩
theorem Ext.valid {p p' : PS} {k : Nat} (h : Ext p p' k) : p'.Valid := h.le
theorem Ext.weaken {p p' : PS} {k j : Nat} (h : Ext p p' k) (hj : j ≤ k) : Ext p p' j :=
  ⟨h.tokens, by have := h.pos; omega, h.le, h.comm⟩
theorem Ext.trans {p q r : PS} {k j : Nat} (h : Ext p q k) (h' : Ext q r j) : Ext p r (k + j) :=
  ⟨h'.tokens.trans h.tokens, by have := h.pos; have := h'.pos; omega, h'.le,
    fun k v hk => h.comm k v (h'.comm k v hk)⟩
theorem Ext.trans' {p q r : PS} {k j i : Nat} (h : Ext p q k) (h' : Ext q r j) (hi : i ≤ k + j) :
    Ext p r i := (h.trans h').weaken hi

/-- `m` started in `p` neither panics nor hangs; on success `Q` holds; on error the cursor has only
moved forward. -/
def Wp {α : Type} (m : P α) (p : PS) (Q : α → PS → Prop) : Prop :=
  match m p with
  | (.ok a, p') => Q a p'
  | (.err _, p') => Ext p p' 0
  | _ => False

variable {α β σ : Type}

theorem Wp.mono {m : P α} {p : PS} {Q R : α → PS → Prop} (h : Wp m p Q) (hq : ∀ a p', Q a p' → R a p') :
    Wp m p R := by
  unfold Wp at *; split <;> simp_all

theorem wp_pure {a : α} {p : PS} {Q : α → PS → Prop} (h : Q a p) : Wp (pure a : P α) p Q := h

theorem wp_ppure {a : α} {p : PS} {Q : α → PS → Prop} (h : Q a p) : Wp (P.pure a) p Q := h

theorem wp_bind {m : P α} {f : α → P β} {p : PS} {Q : β → PS → Prop}
    (h : Wp m p (fun a p' => Ext p p' 0 ∧ Wp (f a) p' Q)) : Wp (m >>= f) p Q := by
  change Wp (P.bind m f) p Q
  unfold Wp P.bind at *
  rcases hm : m p with ⟨o, p'⟩
  rw [hm] at h
  cases o with
  | ok a =>
    simp only at h ⊢
    obtain ⟨he, h⟩ := h
    rcases hf : f a p' with ⟨o', p''⟩
    rw [hf] at h
    cases o' with
    | ok b => exact h
    | err e => exact he.trans h
    | panic => exact h
    | hang => exact h
  | err e => simpa using h
  | panic => simp at h
  | hang => simp at h

theorem wp_fail {e : PErr} {p : PS} {Q : α → PS → Prop} (hp : p.Valid) : Wp (fail e : P α) p Q :=
  hp.ext

theorem wp_cursor {p : PS} {Q : Token → PS → Prop} (h : Q p.cursor p) : Wp cursor p Q := h

/-- State after `next`. -/
def PS.adv (p : PS) : PS := if p.pos ≥ p.tokens.length then p else { p with pos := p.pos + 1 }

theorem adv_ext {p : PS} (hp : p.Valid) : Ext p p.adv 0 := by
  unfold PS.adv; split
  · exact hp.ext
  · exact ⟨rfl, by simp, by simp; omega, .refl _⟩

theorem cursor_lt {p : PS} (h : p.cursor.tt ≠ .eof) : p.pos < p.tokens.length := by
  unfold PS.cursor at h
  by_cases hl : p.pos < p.tokens.length
  · exact hl
  · rw [List.getElem?_eq_none (by omega)] at h
    simp [eofToken] at h

theorem adv_ext1 {p : PS} (h : p.cursor.tt ≠ .eof) : Ext p p.adv 1 := by
  have := cursor_lt h
  unfold PS.adv
  rw [if_neg (by omega)]
  exact ⟨rfl, by simp, by simp; omega, .refl _⟩

theorem wp_advance {p : PS} {Q : Bool → PS → Prop}
    (h : Q (decide (p.pos < p.tokens.length)) p.adv) : Wp advance p Q := by
  unfold Wp advance
  unfold PS.adv at h
  by_cases hl : p.pos ≥ p.tokens.length
  · have : ¬ p.pos < p.tokens.length := by omega
    simp_all
  · have : p.pos < p.tokens.length := by omega
    rw [if_neg hl] at h ⊢
    simpa [this] using h

theorem wp_attempt {m : P α} {p : PS} {Q : Except PErr α → PS → Prop}
    (h1 : Wp m p (fun a p' => Q (.ok a) p')) (h2 : ∀ e p', m p = (.err e, p') → Q (.error e) p') :
    Wp (attempt m) p Q := by
  unfold Wp attempt at *
  rcases hm : m p with ⟨o, p'⟩
  rw [hm] at h1
  cases o with
  | ok a => exact h1
  | err e => exact h2 e p' hm
  | panic => exact h1
  | hang => exact h1

theorem wp_err_ext {m : P α} {p p' : PS} {Q : α → PS → Prop} {e : PErr} (h : Wp m p Q)
    (hm : m p = (.err e, p')) : Ext p p' 0 := by
  unfold Wp at h; rw [hm] at h; exact h

theorem wp_ok {m : P α} {p p' : PS} {Q : α → PS → Prop} {a : α} (h : Wp m p Q)
    (hm : m p = (.ok a, p')) : Q a p' := by
  unfold Wp at h; rw [hm] at h; exact h

theorem wp_loopN {body : σ → P (σ ⊕ α)} {Inv : σ → PS → Prop} {Q : α → PS → Prop}
    (hb : ∀ s p, p.Valid → Inv s p → Wp (body s) p fun r p' => match r with
      | .inl s' => Ext p p' 1 ∧ Inv s' p'
      | .inr a => Ext p p' 0 ∧ Q a p')
    (n : Nat) (s : σ) (p : PS) (hp : p.Valid) (hi : Inv s p) (hn : p.tokens.length - p.pos < n) :
    Wp (loopN body n s) p fun a p' => Ext p p' 0 ∧ Q a p' := by
  induction n generalizing s p with
  | zero => omega
  | succ n ih =>
    unfold loopN
    refine wp_bind (m := body s) ((hb s p hp hi).mono ?_)
    intro r p' h
    cases r with
    | inl s' =>
      obtain ⟨h1, h2⟩ := h
      have h0 := h1.weaken (Nat.zero_le 1)
      refine ⟨h0, (ih s' p' h1.valid h2 ?_).mono ?_⟩
      · have := h1.pos; have := h1.le; rw [h1.tokens] at *; omega
      · intro a p'' ⟨g1, g2⟩; exact ⟨h0.trans g1, g2⟩
    | inr a => exact ⟨h.1, wp_ppure h⟩

/-- Loop rule: the body either makes progress or ends the loop. -/
theorem wp_loop {body : σ → P (σ ⊕ α)} (Inv : σ → PS → Prop) {Q : α → PS → Prop}
    (hb : ∀ s p, p.Valid → Inv s p → Wp (body s) p fun r p' => match r with
      | .inl s' => Ext p p' 1 ∧ Inv s' p'
      | .inr a => Ext p p' 0 ∧ Q a p')
    (s : σ) (p : PS) (hp : p.Valid) (hi : Inv s p) :
    Wp (loop body s) p fun a p' => Ext p p' 0 ∧ Q a p' := by
  unfold loop
  exact wp_loopN hb _ s p hp hi (by omega)

/-- Shape used everywhere: safe, and consumes at least `k` tokens on success. -/
def Safe (k : Nat) (m : P α) : Prop := ∀ p, p.Valid → Wp m p fun _ p' => Ext p p' k

theorem Safe.mono {k j : Nat} {m : P α} (h : Safe k m) (hj : j ≤ k) : Safe j m :=
  fun p hp => (h p hp).mono fun _ _ he => he.weaken hj

theorem safe_pure (a : α) : Safe 0 (pure a : P α) := fun _ hp => hp.ext

theorem safe_fail (k : Nat) (e : PErr) : Safe k (fail e : P α) := fun _ hp => hp.ext

theorem safe_bind {k j : Nat} {m : P α} {f : α → P β} (h : Safe k m) (hf : ∀ a, Safe j (f a)) :
    Safe (k + j) (m >>= f) := by
  intro p hp
  refine wp_bind ((h p hp).mono ?_)
  intro a p' he
  refine ⟨he.weaken (Nat.zero_le _), (hf a p' he.valid).mono ?_⟩
  intro b p'' he'
  exact he.trans he'

theorem safe_cursor : Safe 0 cursor := fun _ hp => hp.ext

theorem safe_advance : Safe 0 advance := fun _ hp => wp_advance (adv_ext hp)

theorem get_del (m : Comments) (k j : Nat) : (m.del k).get j = if j = k then none else m.get j := by
  unfold Comments.get Comments.del
  rw [List.find?_filter]
  by_cases h : j = k
  · subst h
    rw [if_pos rfl]
    have : m.find? (fun a => decide (decide (a.1 ≠ j) = true ∧ (a.1 == j) = true)) = none := by
      rw [List.find?_eq_none]
      intro x _
      simp
    rw [this]; rfl
  · rw [if_neg h]
    congr 2
    funext a
    by_cases ha : a.1 = j
    · simp [ha, h]
    · simp [ha]

theorem parseCommentsLoop_sub (line it : Nat) (c : List Str) (cm : Comments) :
    CSub (parseCommentsLoop line it c cm).2 cm := by
  induction line generalizing it c cm with
  | zero =>
    unfold parseCommentsLoop
    split
    · simp only
      split <;> (intro k v h; simp only [get_del] at h; split at h <;> simp_all)
    · split
      · exact .refl _
      · split
        · exact .refl _
        · exact .refl _
  | succ line ih =>
    unfold parseCommentsLoop
    split
    · simp only
      split
      · intro k v h; simp only [get_del] at h; split at h <;> simp_all
      · intro k v h
        have := ih _ _ _ k v h
        rw [get_del] at this
        split at this <;> simp_all
    · split
      · exact .refl _
      · split
        · exact .refl _
        · exact ih _ _ _

theorem parseComments_sub (cm : Comments) (line : Nat) : CSub (parseComments cm line).2 cm := by
  unfold parseComments
  split
  · exact .refl _
  · exact parseCommentsLoop_sub _ _ _ _

theorem safe_takeComments (line : Nat) : Safe 0 (takeComments line) := by
  intro p hp
  exact ⟨rfl, by simp, hp, parseComments_sub _ _⟩

theorem safe_attempt {m : P α} (h : Safe 0 m) : Safe 0 (attempt m) := by
  intro p hp
  exact wp_attempt (h p hp) (fun e p' hm => wp_err_ext (h p hp) hm)

theorem wp_safe {k : Nat} {m : P α} {f : α → P β} {p : PS} {Q : β → PS → Prop} (h : Safe k m)
    (hp : p.Valid) (hf : ∀ a p', m p = (.ok a, p') → Ext p p' k → Wp (f a) p' Q) : Wp (m >>= f) p Q := by
  refine wp_bind ?_
  have := h p hp
  unfold Wp at *
  rcases hm : m p with ⟨o, p'⟩
  rw [hm] at this
  cases o with
  | ok a => exact ⟨this.weaken (Nat.zero_le _), hf a p' hm this⟩
  | err e => exact this
  | panic => exact this
  | hang => exact this

theorem safe_loop {body : σ → P (σ ⊕ α)}
    (hb : ∀ s p, p.Valid → Wp (body s) p fun r p' => match r with
      | .inl _ => Ext p p' 1
      | .inr _ => Ext p p' 0) (s : σ) : Safe 0 (loop body s) := by
  intro p hp
  refine (wp_loop (fun _ _ => True) (Q := fun _ _ => True) ?_ s p hp trivial).mono (fun _ _ h => h.1)
  intro s p hp _
  refine (hb s p hp).mono ?_
  intro r p' h
  cases r with
  | inl => exact ⟨h, trivial⟩
  | inr => exact ⟨h, trivial⟩

theorem safe_continueUntilEOL : Safe 0 continueUntilEOL := by
  refine safe_loop ?_ ()
  intro _ p hp
  refine wp_bind (wp_cursor ⟨hp.ext, ?_⟩)
  split
  · exact wp_pure hp.ext
  · rename_i h
    exact wp_bind (wp_advance ⟨adv_ext hp, wp_pure (adv_ext1 (by simp_all))⟩)

theorem loop_cons {body : σ → P (σ ⊕ α)} {s : σ} {p : PS} :
    loop body s p = P.bind (body s) (loopK (loopN body (p.tokens.length - p.pos))) p := rfl

/-- From a `#`, skipping to the end of the line consumes something. -/
theorem continueUntilEOL_hash {p : PS} (hp : p.Valid) (h : p.cursor.tt = .hash) :
    Wp continueUntilEOL p fun _ p' => Ext p p' 1 := by
  unfold continueUntilEOL Wp
  rw [loop_cons]
  have hc : p.cursor.tt ≠ .eof := by simp [h]
  have h1 := adv_ext1 hc
  change Wp (P.bind _ _) p _
  refine wp_bind (m := _) (f := _) ?_
  refine wp_bind (wp_cursor ⟨hp.ext, ?_⟩)
  rw [if_neg (by simp [h])]
  refine wp_bind (wp_advance ⟨adv_ext hp, wp_pure ⟨adv_ext hp, ?_⟩⟩)
  refine (wp_loopN (Inv := fun _ _ => True) (Q := fun _ _ => True) ?_ _ () p.adv h1.valid trivial ?_).mono
    (fun _ _ he => (h1.trans he.1).weaken (by omega))
  · intro _ p hp _
    refine wp_bind (wp_cursor ⟨hp.ext, ?_⟩)
    split
    · exact wp_pure ⟨hp.ext, trivial⟩
    · rename_i h
      exact wp_bind (wp_advance ⟨adv_ext hp, wp_pure ⟨adv_ext1 (by simp_all), trivial⟩⟩)
  · have := h1.pos; have := cursor_lt hc; rw [h1.tokens]; omega

theorem safe_expectEOL : Safe 0 expectOptionalCommentOrEOL := by
  refine safe_loop ?_ ()
  intro _ p hp
  refine wp_bind (wp_cursor ⟨hp.ext, ?_⟩)
  split
  · rename_i h
    exact wp_bind (wp_advance ⟨adv_ext hp, wp_pure (adv_ext1 (by simp_all))⟩)
  · exact wp_pure hp.ext
  · exact wp_pure hp.ext
  · exact wp_safe safe_continueUntilEOL hp fun _ p' _ he => wp_pure he
  · exact wp_fail hp

theorem safe_composedValue (l : List Token) : Safe 0 (composedValue l) := by
  unfold composedValue
  split
  · exact safe_fail _ _
  · split
    · exact safe_fail _ _
    · exact safe_pure _

theorem composedValue_nil (p : PS) (hp : p.Valid) (Q : Token → PS → Prop) :
    Wp (composedValue []) p Q := wp_fail hp

/-- A string consumes at least its opening quote. -/
theorem safe_expectStringValue : Safe 1 expectStringValue := by
  intro p hp
  unfold expectStringValue
  refine wp_bind (wp_cursor ⟨hp.ext, ?_⟩)
  refine wp_bind (wp_advance ⟨adv_ext hp, ?_⟩)
  split
  · exact wp_fail (adv_ext hp).valid
  · rename_i hq
    have h1 : Ext p p.adv 1 := adv_ext1 (by simp_all)
    have hl := safe_loop (body := stringBody) ?_ []
    · refine wp_safe hl h1.valid fun toks p' _ he => ?_
      exact (safe_composedValue toks p' he.valid).mono fun _ _ he' =>
        ((h1.trans he).trans he').weaken (by omega)
    · intro s p hp
      refine wp_bind (wp_cursor ⟨hp.ext, ?_⟩)
      refine wp_bind (wp_advance ⟨adv_ext hp, ?_⟩)
      split
      · exact wp_fail (adv_ext hp).valid
      · exact wp_fail (adv_ext hp).valid
      · rename_i h
        have h1 : Ext p p.adv 1 := adv_ext1 (by simp_all)
        refine wp_bind (wp_cursor ⟨h1.valid.ext, ?_⟩)
        refine wp_bind (wp_advance ⟨adv_ext h1.valid, wp_pure ?_⟩)
        exact (h1.trans (adv_ext h1.valid)).weaken (by omega)
      · exact wp_pure (adv_ext hp)
      · exact wp_pure (adv_ext1 (by simp_all))

/-- `expectLiteralValue` and `expectPath` consume at least one token. -/
theorem safe_literal (isTok : TT → Bool) (h0 : isTok .eof = false) : Safe 1 (literal isTok) := by
  intro p hp
  refine wp_bind ?_
  refine (wp_loop (fun (s : List Token) q => q.tokens = p.tokens ∧ p.pos + s.length ≤ q.pos)
    (Q := fun (r : Token ⊕ List Token) q => q.tokens = p.tokens ∧ match r with
      | .inl _ => p.pos + 1 ≤ q.pos
      | .inr l => p.pos + l.length ≤ q.pos) ?_ [] p hp ⟨rfl, by simp⟩).mono ?_
  · intro s q hq ⟨ht, hi⟩
    refine wp_bind (wp_cursor ⟨hq.ext, ?_⟩)
    split
    · refine wp_safe safe_expectStringValue hq fun t q' _ he => wp_pure ⟨he.weaken (by omega), ?_, ?_⟩
      · rw [he.tokens, ht]
      · have := he.pos; simp only; omega
    · split
      · rename_i h
        have h1 : Ext q q.adv 1 := adv_ext1 (by intro hh; simp [hh, h0] at h)
        refine wp_bind (wp_advance ⟨adv_ext hq, wp_pure ⟨h1, ?_, ?_⟩⟩)
        · rw [h1.tokens, ht]
        · have := h1.pos; simp; omega
      · exact wp_pure ⟨hq.ext, ht, hi⟩
  · intro r p' ⟨he, ht, hr⟩
    refine ⟨he, ?_⟩
    cases r with
    | inl t => exact wp_pure ⟨ht, hr, he.le, he.comm⟩
    | inr l =>
      cases l with
      | nil => exact composedValue_nil _ he.valid _
      | cons a l =>
        refine (safe_composedValue (a :: l) p' he.valid).mono fun _ q he' => ?_
        have := he'.pos
        simp at hr
        exact ⟨by rw [he'.tokens, ht], by omega, he'.le, (he.trans he').comm⟩

theorem safe_expectLiteralValue : Safe 1 expectLiteralValue := safe_literal _ rfl

theorem safe_expectPath : Safe 1 expectPath := safe_literal _ rfl

end Verif.Ridl
