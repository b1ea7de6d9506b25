import Verif.Ridl.WpMatch
import Verif.Ridl.TokenizerLemmas
import Verif.Spec.Grammar

/-! What the functions of the parser read: rules for the grammar of `Spec/Grammar.lean`. -/

namespace Verif.Ridl
open Verif.Spec hiding advance
open Verif.Spec.Grammar

def lx (t : Token) : Lexeme := (t.tt, t.val)

/-- What is left to read. -/
def PS.rest (p : PS) : List Lexeme := (p.tokens.drop p.pos).map lx

/-- The cursor is in range and no token is of a class that the lexer does not make. -/
def PS.Law (p : PS) : Prop := p.Valid ∧ ∀ t ∈ p.tokens, t.tt ≠ .eof ∧ t.tt ≠ .eol

/-- If `m`, started where `i` is left to read, returns `a` and leaves `r`, then `Q a r`. -/
def RdAt {α : Type} (m : P α) (i : List Lexeme) (Q : α → List Lexeme → Prop) : Prop :=
  ∀ p a p', p.Law → p.rest = i → m p = (.ok a, p') → p'.Law ∧ Q a p'.rest

variable {α β σ : Type}

theorem RdAt.mono {m : P α} {i : List Lexeme} {Q R : α → List Lexeme → Prop} (h : RdAt m i Q) (hq : ∀ a r, Q a r → R a r) : RdAt m i R :=
  fun p a p' hp hi hm => ⟨(h p a p' hp hi hm).1, hq _ _ (h p a p' hp hi hm).2⟩

theorem rd_bind {m : P α} {f : α → P β} {i : List Lexeme} {R : α → List Lexeme → Prop} {Q : β → List Lexeme → Prop} (h : RdAt m i R)
    (hf : ∀ a j, R a j → RdAt (f a) j Q) : RdAt (m >>= f) i Q := by
  intro p b p' hp hi hb
  change P.bind m f p = _ at hb
  unfold P.bind at hb
  rcases hm : m p with ⟨o, q⟩
  rw [hm] at hb
  cases o with
  | ok a =>
    obtain ⟨h1, h2⟩ := h p a q hp hi hm
    exact hf a _ h2 q b p' h1 rfl hb
  | err e => simp at hb
  | panic => simp at hb
  | hang => simp at hb

theorem rd_pure {a : α} {i : List Lexeme} {Q : α → List Lexeme → Prop} (h : Q a i) : RdAt (pure a : P α) i Q := by
  intro p b p' hp hi hb
  change P.pure a p = _ at hb
  simp only [P.pure, Prod.mk.injEq, Out.ok.injEq] at hb
  obtain ⟨rfl, rfl⟩ := hb
  exact ⟨hp, hi ▸ h⟩

theorem rd_fail {e : PErr} {i : List Lexeme} {Q : α → List Lexeme → Prop} : RdAt (fail e : P α) i Q := by
  intro p b p' _ _ hb; simp [fail] at hb

theorem rd_crash {i : List Lexeme} {Q : α → List Lexeme → Prop} : RdAt (crash : P α) i Q := by
  intro p b p' _ _ hb; simp [crash] at hb

theorem rest_cons {p : PS} (h : p.pos < p.tokens.length) : p.rest = lx p.cursor :: (p.tokens.drop (p.pos + 1)).map lx := by
  unfold PS.rest PS.cursor
  rw [List.drop_eq_getElem_cons h, List.map_cons, List.getElem?_eq_getElem h]
  rfl

theorem rest_nil {p : PS} (h : ¬ p.pos < p.tokens.length) : p.rest = [] ∧ p.cursor = eofToken := by
  unfold PS.rest PS.cursor
  have : p.tokens.length ≤ p.pos := by omega
  simp [this, List.drop_eq_nil_of_le this]

theorem law_adv {p : PS} (h : p.Law) : p.adv.Law := by
  refine ⟨(adv_ext h.1).valid, ?_⟩
  rw [(adv_ext h.1).tokens]
  exact h.2

theorem adv_rest {p : PS} (h : p.Law) : p.adv.rest = p.rest.tail := by
  have hl := h.1
  unfold PS.Valid at hl
  by_cases hp : p.pos < p.tokens.length
  · rw [rest_cons hp]
    have : ¬ p.pos ≥ p.tokens.length := by omega
    simp only [PS.adv, if_neg this, List.tail_cons]
    rfl
  · rw [(rest_nil hp).1]
    have : p.pos ≥ p.tokens.length := by omega
    simp only [PS.adv, if_pos this, List.tail_nil]
    exact (rest_nil hp).1

/-- The token under the cursor: the next one, or the mark of the end. -/
theorem rd_cursor {i : List Lexeme} {f : Token → P β} {Q : β → List Lexeme → Prop} (h0 : i = [] → RdAt (f eofToken) [] Q)
    (h1 : ∀ t r, i = lx t :: r → t.tt ≠ .eof → t.tt ≠ .eol → RdAt (f t) i Q) : RdAt (cursor >>= f) i Q := by
  intro p b p' hp hi hb
  rw [bind_ok (cursor_eq p)] at hb
  by_cases hl : p.pos < p.tokens.length
  · have hc := rest_cons hl
    have hm : p.cursor ∈ p.tokens := by simp [PS.cursor, hl]
    exact h1 p.cursor _ (hi ▸ hc) (hp.2 _ hm).1 (hp.2 _ hm).2 p b p' hp hi hb
  · obtain ⟨h2, h3⟩ := rest_nil hl
    rw [h3] at hb
    exact h0 (hi ▸ h2) p b p' hp h2 hb

theorem rd_advance {i : List Lexeme} {f : Bool → P β} {Q : β → List Lexeme → Prop}
    (h : ∀ b, (b = false → i = []) → RdAt (f b) i.tail Q) : RdAt (Verif.Ridl.advance >>= f) i Q := by
  intro p b p' hp hi hb
  have e : Verif.Ridl.advance p = (.ok (decide (p.pos < p.tokens.length)), p.adv) := by
    unfold Verif.Ridl.advance PS.adv
    by_cases hl : p.pos < p.tokens.length
    · have : ¬ p.pos ≥ p.tokens.length := by omega
      rw [if_neg this, if_neg this]; simp [hl]
    · have : p.pos ≥ p.tokens.length := by omega
      rw [if_pos this, if_pos this]; simp [hl]
  rw [bind_ok e] at hb
  refine h _ ?_ p.adv b p' (law_adv hp) (hi ▸ adv_rest hp) hb
  intro hd
  simp only [decide_eq_false_iff_not] at hd
  exact hi ▸ (rest_nil hd).1

theorem rd_takeComments {n : Nat} {i : List Lexeme} {f : Str → P β} {Q : β → List Lexeme → Prop} (h : ∀ c, RdAt (f c) i Q) :
    RdAt (takeComments n >>= f) i Q := by
  intro p b p' hp hi hb
  have e : takeComments n p = (.ok (parseComments p.comments n).1, { p with comments := (parseComments p.comments n).2 }) := rfl
  rw [bind_ok e] at hb
  exact h _ { p with comments := (parseComments p.comments n).2 } b p' hp hi hb

theorem rd_nth {l : List Token} {k : Nat} {t : Token} {i : List Lexeme} {f : Token → P β} {Q : β → List Lexeme → Prop}
    (hl : l[k]? = some t) (h : RdAt (f t) i Q) : RdAt (nth l k >>= f) i Q := by
  unfold nth
  rw [hl]
  exact rd_bind (R := fun a j => a = t ∧ j = i) (rd_pure ⟨rfl, rfl⟩) (by rintro _ _ ⟨rfl, rfl⟩; exact h)

/-- Loops: `R s i a r` says that from state `s` and `i` the loop may return `a` and leave `r`. -/
theorem rd_loop {body : σ → P (σ ⊕ α)} (R : σ → List Lexeme → α → List Lexeme → Prop) {s : σ} {i : List Lexeme}
    (hb : ∀ s i, RdAt (body s) i fun x j => match x with
      | .inl s' => ∀ a r, R s' j a r → R s i a r
      | .inr a => R s i a j) : RdAt (loop body s) i fun a r => R s i a r := by
  have key : ∀ n s i, RdAt (loopN body n s) i fun a r => R s i a r := by
    intro n
    induction n with
    | zero => intro s i p a p' _ _ h; simp [loopN] at h
    | succ n ih =>
      intro s i
      refine rd_bind (hb s i) fun x j hx => ?_
      cases x with
      | inl s' => exact (ih s' j).mono fun a r h => hx a r h
      | inr a => exact rd_pure hx
  intro p a p' hp hi h
  exact key _ s i p a p' hp hi h

/-! ### Blanks and line ends -/

theorem lx_fst {t : Token} {r i : List Lexeme} (h : i = lx t :: r) : i = (t.tt, t.val) :: r := h

theorem rd_until {i : List Lexeme} :
    RdAt continueUntilEOL i fun _ r => ∃ c, i = c ++ r ∧ (∀ x ∈ c, x.1 ≠ .newLine) ∧ AtEnd r := by
  unfold continueUntilEOL
  refine rd_loop (fun (_ : Unit) i (_ : Unit) r => ∃ c, i = c ++ r ∧ (∀ x ∈ c, x.1 ≠ .newLine) ∧ AtEnd r) fun s i => ?_
  refine rd_cursor ?_ ?_
  · rintro rfl
    exact rd_pure ⟨[], rfl, by simp, .inl rfl⟩
  · intro t r hi h1 _
    split
    · next h =>
      refine rd_pure ⟨[], rfl, by simp, ?_⟩
      rcases h with h | h
      · exact .inr ⟨t.val, r, by rw [hi]; simp [lx, h]⟩
      · exact absurd h h1
    · next h =>
      refine rd_advance fun b _ => rd_pure ?_
      subst hi
      rintro _ r' ⟨c, hc, hn, he⟩
      refine ⟨lx t :: c, by simpa using hc, ?_, he⟩
      intro x hx
      rcases List.mem_cons.1 hx with rfl | hx
      · exact fun h2 => h (.inl h2)
      · exact hn x hx

theorem rd_lineEnd {i : List Lexeme} : RdAt expectOptionalCommentOrEOL i fun _ r => LineEnd i r := by
  unfold expectOptionalCommentOrEOL
  refine rd_loop (fun (_ : Unit) i (_ : Unit) r => LineEnd i r) fun s i => ?_
  refine rd_cursor ?_ ?_
  · rintro rfl
    exact rd_pure (.nil (.inl rfl))
  · intro t r hi h1 _
    split
    · next h =>
      refine rd_advance fun b _ => rd_pure ?_
      subst hi
      intro _ r' hr
      have e : lx t = (.whitespace, t.val) := by simp [lx, h]
      rw [e]
      exact .blank _ hr
    · next h => exact absurd h h1
    · next h => exact rd_pure (.nil (.inr ⟨t.val, r, by rw [hi]; simp [lx, h]⟩))
    · next h =>
      refine rd_bind rd_until ?_
      rintro _ r' ⟨c, hc, hn, he⟩
      refine rd_pure ?_
      dsimp only
      cases c with
      | nil =>
        simp only [List.nil_append] at hc
        subst hc
        rcases he with he | ⟨v, u, he⟩
        · rw [hi] at he; simp at he
        · rw [hi] at he; simp [lx, h] at he
      | cons x c =>
        have e : x = (.hash, t.val) := by
          rw [hi] at hc; simp only [List.cons_append, List.cons.injEq] at hc; rw [← hc.1]; simp [lx, h]
        rw [hc, e]
        exact .comment _ c (fun y hy => hn y (by simp [hy])) he
    · exact rd_fail

/-! ### Patterns -/

/-- The tokens a pattern took. -/
def Took : List TT → List Token → List Lexeme → List Lexeme → Prop
  | [], ms, i, r => ms = [] ∧ i = r
  | .whitespace :: tts, ms, i, r => ∃ t ms' g i', ms = t :: ms' ∧ Gap g ∧ i = g ++ i' ∧ Took tts ms' i' r
  | .eol :: _, ms, i, r => (∃ t, ms = [t]) ∧ LineEnd i r
  | w :: tts, ms, i, r => ∃ t ms' i', ms = t :: ms' ∧ t.tt = w ∧ i = lx t :: i' ∧ Took tts ms' i' r

theorem took_word {w : TT} {tts : List TT} {ms : List Token} {i r : List Lexeme} (h1 : w ≠ .whitespace) (h2 : w ≠ .eol) :
    Took (w :: tts) ms i r ↔ ∃ t ms' i', ms = t :: ms' ∧ t.tt = w ∧ i = lx t :: i' ∧ Took tts ms' i' r := by
  cases w <;> simp_all [Took]

theorem rd_matchLoop (tts : List TT) (acc : List Token) (n : Nat) (i : List Lexeme) (hlast : TT.eol ∉ tts.dropLast) (hne : TT.eof ∉ tts) :
    RdAt (matchLoop tts acc n) i fun l r => ∃ ms, l = acc ++ ms ∧ Took tts ms i r := by
  induction tts generalizing acc n i with
  | nil => unfold matchLoop; exact rd_pure ⟨[], by simp, rfl, rfl⟩
  | cons want rest ih =>
    have hlast' : TT.eol ∉ rest.dropLast := by
      cases rest with
      | nil => simp
      | cons a r => simp at hlast ⊢; exact hlast.2
    have hne' : TT.eof ∉ rest := fun h => hne (by simp [h])
    unfold matchLoop
    have other : ∀ (t : Token), t.tt ≠ want → RdAt (if t.tt = want then do
          let _ ← Verif.Ridl.advance
          matchLoop rest (acc ++ [t]) (n + 1)
        else if want = .eol then do
          expectOptionalCommentOrEOL
          pure (acc ++ [{ tt := .eol, val := [], line := t.line, col := t.col }])
        else if want ≠ .whitespace then do
          let _ ← rewind n
          fail (.expecting want t)
        else matchLoop rest (acc ++ [{ tt := .whitespace, val := [' '], line := t.line, col := t.col }]) n) i
        fun l r => ∃ ms, l = acc ++ ms ∧ Took (want :: rest) ms i r := by
      intro t ht
      rw [if_neg ht]
      split
      · next hw =>
        refine rd_bind rd_lineEnd fun _ r hr => rd_pure ⟨_, rfl, ?_⟩
        subst hw
        exact ⟨⟨_, rfl⟩, hr⟩
      · split
        · refine rd_bind (R := fun _ _ => True) ?_ fun _ _ _ => rd_fail
          intro p a p' hp hi hm
          simp only [rewind] at hm
          split at hm <;> simp only [Prod.mk.injEq] at hm <;> obtain ⟨_, rfl⟩ := hm
          · exact ⟨hp, trivial⟩
          · refine ⟨⟨?_, hp.2⟩, trivial⟩
            have := hp.1
            unfold PS.Valid at this ⊢
            simp only
            omega
        · next hw =>
          simp only [ne_eq, Decidable.not_not] at hw
          refine (ih _ n i hlast' hne').mono ?_
          rintro l r ⟨ms, rfl, hms⟩
          subst hw
          exact ⟨{ tt := .whitespace, val := [' '], line := t.line, col := t.col } :: ms, by simp, _, ms, [], i, rfl, .inl rfl, rfl, hms⟩
    refine rd_cursor ?_ ?_
    · rintro rfl
      refine other _ ?_
      rintro rfl
      exact hne (by simp [eofToken])
    · intro t r hi h1 h2
      by_cases ht : t.tt = want
      · rw [if_pos ht]
        refine rd_advance fun _ _ => ?_
        subst hi
        refine (ih _ _ _ hlast' hne').mono ?_
        rintro l r' ⟨ms, rfl, hms⟩
        refine ⟨t :: ms, by simp, ?_⟩
        by_cases hw : want = .whitespace
        · subst hw
          exact ⟨t, ms, [lx t], _, rfl, .inr ⟨t.val, by simp [lx, ht]⟩, rfl, hms⟩
        · rw [took_word hw (ht ▸ h2)]
          exact ⟨t, ms, _, rfl, ht, rfl, hms⟩
      · exact other t ht

theorem rd_match {tts : List TT} {i : List Lexeme} {f : List Token → P β} {Q : β → List Lexeme → Prop}
    (hlast : TT.eol ∉ tts.dropLast := by decide) (hne : TT.eof ∉ tts := by decide)
    (h : ∀ ms r, Took tts ms i r → RdAt (f ms) r Q) : RdAt (match_ tts >>= f) i Q := by
  refine rd_bind (rd_matchLoop tts [] 0 i hlast hne) ?_
  rintro l r ⟨ms, rfl, hm⟩
  exact h _ r (by simpa using hm)

/-- A pattern that may fail. -/
theorem rd_try {tts : List TT} {i : List Lexeme} {f : Except PErr (List Token) → P β} {Q : β → List Lexeme → Prop}
    (hl : TT.eol ∉ tts := by decide) (hne : TT.eof ∉ tts := by decide)
    (h : ∀ ms r, Took tts ms i r → RdAt (f (.ok ms)) r Q) (he : ∀ e, RdAt (f (.error e)) i Q) :
    RdAt (attempt (match_ tts) >>= f) i Q := by
  intro p b p' hp hi hb
  have hl' : TT.eol ∉ tts.dropLast := fun hm => hl (List.dropLast_subset _ hm)
  rcases hm : match_ tts p with ⟨o, q⟩
  cases o with
  | ok ms =>
    obtain ⟨h1, ms', h2, h3⟩ := rd_matchLoop tts [] 0 i hl' hne p ms q hp hi hm
    have e : attempt (match_ tts) p = (.ok (.ok ms), q) := by simp [attempt, hm]
    rw [bind_ok e] at hb
    simp only [List.nil_append] at h2
    exact h ms q.rest (h2 ▸ h3) q b p' h1 rfl hb
  | err x =>
    have := match_err hp.1 hl hne hm
    subst this
    have e : attempt (match_ tts) q = (.ok (.error x), q) := by simp [attempt, hm]
    rw [bind_ok e] at hb
    exact he x q b p' hp hi hb
  | panic =>
    have e : attempt (match_ tts) p = (.panic, q) := by simp [attempt, hm]
    change P.bind _ f p = _ at hb
    simp [P.bind, e] at hb
  | hang =>
    have e : attempt (match_ tts) p = (.hang, q) := by simp [attempt, hm]
    change P.bind _ f p = _ at hb
    simp [P.bind, e] at hb

end Verif.Ridl
