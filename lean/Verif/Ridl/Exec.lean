import Verif.Ridl.CommentLemmas
import Verif.Ridl.ParserRun
/-!
# Executing the parser on tokens of a known shape

The shape of a token is what matters to the parser: its class, its text and its line.  `Ex m es cm Q`: on any tokens of
shapes `es` the parser function `m` succeeds, with a result and remaining shapes that satisfy `Q`.
-/

namespace Verif.Ridl
open Verif.Spec

abbrev Shape := TT × Str × Nat

def Token.shape (t : Token) : Shape := (t.tt, t.val, t.line)

/-- The parser before the tokens `ts`, having passed `d`. -/
def stateAt (d ts : List Token) (cm : Comments) : PS := { tokens := d ++ ts, pos := d.length, comments := cm }

def Ex {α : Type} (m : P α) (es : List Shape) (cm : Comments) (Q : α → List Shape → Comments → Prop) : Prop :=
  ∀ d ts, ts.map Token.shape = es →
    ∃ a d' ts' cm', m (stateAt d ts cm) = (.ok a, stateAt d' ts' cm') ∧ Q a (ts'.map Token.shape) cm'

variable {α β σ : Type}

theorem shapes_cons {ts : List Token} {tt : TT} {v : Str} {l : Nat} {es : List Shape} (h : ts.map Token.shape = (tt, v, l) :: es) :
    ∃ p c ts', ts = ⟨tt, v, p, l, c⟩ :: ts' ∧ ts'.map Token.shape = es := by
  cases ts with
  | nil => cases h
  | cons t ts =>
    obtain ⟨tt', v', p, l', c⟩ := t
    simp only [List.map_cons, List.cons.injEq, Token.shape, Prod.mk.injEq] at h
    obtain ⟨⟨rfl, rfl, rfl⟩, h⟩ := h
    exact ⟨p, c, ts, rfl, h⟩

theorem shapes_nil {ts : List Token} (h : ts.map Token.shape = []) : ts = [] := by
  cases ts with
  | nil => rfl
  | cons => cases h

theorem cursor_stateAt (d : List Token) (t : Token) (ts : List Token) (cm : Comments) : (stateAt d (t :: ts) cm).cursor = t := by
  simp [stateAt, PS.cursor]

theorem cursor_stateAt_nil (d : List Token) (cm : Comments) : (stateAt d [] cm).cursor = eofToken := by
  simp [stateAt, PS.cursor]

theorem advance_stateAt (d : List Token) (t : Token) (ts : List Token) (cm : Comments) :
    advance (stateAt d (t :: ts) cm) = (.ok true, stateAt (d ++ [t]) ts cm) := by
  unfold advance stateAt
  rw [if_neg (by simp)]
  simp

theorem advance_stateAt_nil (d : List Token) (cm : Comments) : advance (stateAt d [] cm) = (.ok false, stateAt d [] cm) := by
  unfold advance stateAt
  rw [if_pos (by simp)]

theorem Ex.mono {m : P α} {es : List Shape} {cm : Comments} {Q R : α → List Shape → Comments → Prop} (h : Ex m es cm Q)
    (hq : ∀ a es' cm', Q a es' cm' → R a es' cm') : Ex m es cm R := by
  intro d ts hts
  obtain ⟨a, d', ts', cm', h1, h2⟩ := h d ts hts
  exact ⟨a, d', ts', cm', h1, hq _ _ _ h2⟩

theorem ex_pure {a : α} {es : List Shape} {cm : Comments} {Q : α → List Shape → Comments → Prop} (h : Q a es cm) :
    Ex (pure a : P α) es cm Q := by
  intro d ts hts
  exact ⟨a, d, ts, cm, rfl, by rw [hts]; exact h⟩

theorem ex_bind {m : P α} {f : α → P β} {es : List Shape} {cm : Comments} {Q : β → List Shape → Comments → Prop}
    (h : Ex m es cm fun a es' cm' => Ex (f a) es' cm' Q) : Ex (m >>= f) es cm Q := by
  intro d ts hts
  obtain ⟨a, d', ts', cm', h1, h2⟩ := h d ts hts
  obtain ⟨b, d'', ts'', cm'', h3, h4⟩ := h2 d' ts' rfl
  exact ⟨b, d'', ts'', cm'', by rw [bind_ok h1]; exact h3, h4⟩

theorem ex_cursor {f : Token → P β} {tt : TT} {v : Str} {l : Nat} {es : List Shape} {cm : Comments}
    {Q : β → List Shape → Comments → Prop} (h : ∀ p c, Ex (f ⟨tt, v, p, l, c⟩) ((tt, v, l) :: es) cm Q) :
    Ex (cursor >>= f) ((tt, v, l) :: es) cm Q := by
  intro d ts hts
  obtain ⟨p, c, ts', rfl, ht⟩ := shapes_cons hts
  rw [bind_ok (cursor_eq _), cursor_stateAt]
  exact h p c d _ hts

theorem ex_cursor_nil {f : Token → P β} {cm : Comments} {Q : β → List Shape → Comments → Prop} (h : Ex (f eofToken) [] cm Q) :
    Ex (cursor >>= f) [] cm Q := by
  intro d ts hts
  obtain rfl := shapes_nil hts
  rw [bind_ok (cursor_eq _), cursor_stateAt_nil]
  exact h d _ hts

theorem ex_advance {f : Bool → P β} {e : Shape} {es : List Shape} {cm : Comments} {Q : β → List Shape → Comments → Prop}
    (h : Ex (f true) es cm Q) : Ex (advance >>= f) (e :: es) cm Q := by
  intro d ts hts
  obtain ⟨tt, v, l⟩ := e
  obtain ⟨p, c, ts', rfl, ht⟩ := shapes_cons hts
  rw [bind_ok (advance_stateAt _ _ _ _)]
  exact h _ _ ht

theorem ex_advance_nil {f : Bool → P β} {cm : Comments} {Q : β → List Shape → Comments → Prop}
    (h : Ex (f false) [] cm Q) : Ex (advance >>= f) [] cm Q := by
  intro d ts hts
  obtain rfl := shapes_nil hts
  rw [bind_ok (advance_stateAt_nil _ _)]
  exact h _ _ hts

/-! ### Loops -/

theorem loopN_mono {body : σ → P (σ ⊕ α)} {n k : Nat} {s : σ} {p p' : PS} {a : α} (h : loopN body n s p = (.ok a, p')) :
    loopN body (n + k) s p = (.ok a, p') := by
  induction n generalizing s p with
  | zero => cases h
  | succ n ih =>
    rw [Nat.succ_add]
    unfold loopN at h ⊢
    unfold P.bind at h ⊢
    rcases hm : body s p with ⟨o, q⟩
    rw [hm] at h
    cases o with
    | ok r =>
      cases r with
      | inl s' => exact ih h
      | inr a => exact h
    | err e => exact h
    | panic => exact h
    | hang => exact h

/-- What a round of a loop has to bring about. -/
abbrev LoopPost (body : σ → P (σ ⊕ α)) (es : List Shape) (Q : α → List Shape → Comments → Prop) (r : σ ⊕ α) (es' : List Shape) (cm' : Comments) : Prop :=
  match r with
  | .inl s' => es'.length < es.length ∧ Ex (loop body s') es' cm' Q
  | .inr a => Q a es' cm'

/-- One round of a loop. -/
theorem ex_loop {body : σ → P (σ ⊕ α)} {s : σ} {es : List Shape} {cm : Comments} {Q : α → List Shape → Comments → Prop}
    (h : Ex (body s) es cm (LoopPost body es Q)) : Ex (loop body s) es cm Q := by
  intro d ts hts
  obtain ⟨r, d', ts', cm', h1, h2⟩ := h d ts hts
  have hlen : ts.length = es.length := by rw [← hts, List.length_map]
  have hfuel : ∀ (d ts : List Token) cm, (stateAt d ts cm).tokens.length - (stateAt d ts cm).pos + 1 = ts.length + 1 := by
    intro d ts cm; simp [stateAt]
  unfold loop
  rw [hfuel]
  unfold loopN P.bind
  rw [h1]
  cases r with
  | inr a => exact ⟨a, d', ts', cm', rfl, h2⟩
  | inl s' =>
    obtain ⟨hlt, h3⟩ := h2
    obtain ⟨a, d'', ts'', cm'', h4, h5⟩ := h3 d' ts' rfl
    refine ⟨a, d'', ts'', cm'', ?_, h5⟩
    unfold loop at h4
    rw [hfuel] at h4
    rw [List.length_map] at hlt
    obtain ⟨k, hk⟩ := Nat.exists_eq_add_of_le (show ts'.length + 1 ≤ ts.length by omega)
    show loopN body ts.length s' _ = _
    rw [hk]
    exact loopN_mono h4

/-! ### Patterns -/

/-- `match` on shapes; for a final end-of-line marker only if the line ends there. -/
def matchShape : List TT → List Shape → Option (List Shape × List Shape)
  | [], es => some ([], es)
  | want :: rest, [] =>
    if want = .eol then some ([(.eol, [], 0)], [])
    else if want = .whitespace then (matchShape rest []).map fun r => ((.whitespace, [' '], 0) :: r.1, r.2)
    else none
  | want :: rest, e :: es =>
    if e.1 = want then (matchShape rest es).map fun r => (e :: r.1, r.2)
    else if want = .eol then (if e.1 = .newLine then some ([(.eol, [], e.2.2)], e :: es) else none)
    else if want = .whitespace then (matchShape rest (e :: es)).map fun r => ((.whitespace, [' '], e.2.2) :: r.1, r.2)
    else none

theorem expectEOL_newLine {d ts : List Token} {t : Token} {cm : Comments} (h : t.tt = .newLine) :
    expectOptionalCommentOrEOL (stateAt d (t :: ts) cm) = (.ok (), stateAt d (t :: ts) cm) := by
  unfold expectOptionalCommentOrEOL
  rw [loop_cons]
  unfold P.bind
  rw [bind_ok (cursor_eq _), cursor_stateAt, h]
  rfl

theorem expectEOL_nil {d : List Token} {cm : Comments} :
    expectOptionalCommentOrEOL (stateAt d [] cm) = (.ok (), stateAt d [] cm) := by
  unfold expectOptionalCommentOrEOL
  rw [loop_cons]
  unfold P.bind
  rw [bind_ok (cursor_eq _), cursor_stateAt_nil]
  rfl

theorem matchLoop_shape (pat : List TT) (hne : TT.eof ∉ pat) (acc : List Token) (n : Nat) (d ts : List Token) (cm : Comments)
    {vs es : List Shape} (h : matchShape pat (ts.map Token.shape) = some (vs, es)) :
    ∃ vs' d' ts', matchLoop pat acc n (stateAt d ts cm) = (.ok (acc ++ vs'), stateAt d' ts' cm) ∧
      vs'.map Token.shape = vs ∧ ts'.map Token.shape = es := by
  induction pat generalizing acc n d ts vs with
  | nil =>
    simp only [matchShape, Option.some.injEq, Prod.mk.injEq] at h
    obtain ⟨rfl, rfl⟩ := h
    exact ⟨[], d, ts, by simp [matchLoop, pure, P.pure], rfl, rfl⟩
  | cons want rest ih =>
    have hw : want ≠ .eof := fun e => hne (by simp [e])
    have hr : TT.eof ∉ rest := fun e => hne (by simp [e])
    unfold matchLoop
    cases ts with
    | nil =>
      rw [bind_ok (cursor_eq _), cursor_stateAt_nil]
      rw [if_neg (by intro e; exact hw e.symm)]
      rw [List.map_nil, matchShape] at h
      split at h
      · next he =>
        rw [if_pos he, bind_ok expectEOL_nil]
        simp only [Option.some.injEq, Prod.mk.injEq] at h
        obtain ⟨rfl, rfl⟩ := h
        exact ⟨[_], d, [], rfl, rfl, rfl⟩
      · next he =>
        split at h
        · next hws =>
          rw [if_neg he, if_neg (by simp [hws])]
          cases hm : matchShape rest [] with
          | none => rw [hm] at h; cases h
          | some r =>
            rw [hm] at h
            simp only [Option.map_some, Option.some.injEq, Prod.mk.injEq] at h
            obtain ⟨rfl, rfl⟩ := h
            obtain ⟨vs', d', ts', g1, g2, g3⟩ := ih hr (acc ++ [{ tt := .whitespace, val := [' '], line := eofToken.line, col := eofToken.col }]) n d [] hm
            exact ⟨({ tt := .whitespace, val := [' '], line := eofToken.line, col := eofToken.col } : Token) :: vs', d', ts', by rw [g1]; simp, by rw [List.map_cons, g2]; rfl, g3⟩
        · cases h
    | cons t ts =>
      rw [bind_ok (cursor_eq _), cursor_stateAt]
      rw [List.map_cons, matchShape] at h
      by_cases hc : t.tt = want
      · rw [if_pos hc] at ⊢
        rw [if_pos (show (Token.shape t).1 = want from hc)] at h
        rw [bind_ok (advance_stateAt _ _ _ _)]
        cases hm : matchShape rest (ts.map Token.shape) with
        | none => rw [hm] at h; cases h
        | some r =>
          rw [hm] at h
          simp only [Option.map_some, Option.some.injEq, Prod.mk.injEq] at h
          obtain ⟨rfl, rfl⟩ := h
          obtain ⟨vs', d', ts', g1, g2, g3⟩ := ih hr (acc ++ [t]) (n + 1) (d ++ [t]) ts hm
          exact ⟨t :: vs', d', ts', by rw [g1]; simp, by rw [List.map_cons, g2], g3⟩
      · rw [if_neg hc] at ⊢
        rw [if_neg (show ¬ (Token.shape t).1 = want from hc)] at h
        by_cases he : want = .eol
        · rw [if_pos he] at h ⊢
          split at h
          · next hn =>
            rw [bind_ok (expectEOL_newLine hn)]
            simp only [Option.some.injEq, Prod.mk.injEq] at h
            obtain ⟨rfl, rfl⟩ := h
            exact ⟨[_], d, t :: ts, rfl, rfl, rfl⟩
          · cases h
        · rw [if_neg he] at h ⊢
          split at h
          · next hws =>
            rw [if_neg (by simp [hws])]
            cases hm : matchShape rest ((t :: ts).map Token.shape) with
            | none => rw [List.map_cons] at hm; rw [hm] at h; cases h
            | some r =>
              have hm' := hm
              rw [List.map_cons] at hm'
              rw [hm'] at h
              simp only [Option.map_some, Option.some.injEq, Prod.mk.injEq] at h
              obtain ⟨rfl, rfl⟩ := h
              obtain ⟨vs', d', ts', g1, g2, g3⟩ := ih hr (acc ++ [{ tt := .whitespace, val := [' '], line := t.line, col := t.col }]) n d (t :: ts) hm
              exact ⟨({ tt := .whitespace, val := [' '], line := t.line, col := t.col } : Token) :: vs', d', ts', by rw [g1]; simp, by rw [List.map_cons, g2]; rfl, g3⟩
          · cases h

/-- A pattern that does not match leaves the parser where it was. -/
theorem matchLoop_noshape (pat : List TT) (hne : TT.eof ∉ pat) (hl : TT.eol ∉ pat) (acc : List Token) (d m ts : List Token) (cm : Comments)
    (h : matchShape pat (ts.map Token.shape) = none) :
    ∃ e, matchLoop pat acc m.length (stateAt (d ++ m) ts cm) = (.err e, stateAt d (m ++ ts) cm) := by
  have hrw : ∀ e, (rewind m.length >>= fun _ => (fail e : P (List Token))) (stateAt (d ++ m) ts cm) = (.err e, stateAt d (m ++ ts) cm) := by
    intro e
    have : rewind m.length (stateAt (d ++ m) ts cm) = (.ok true, stateAt d (m ++ ts) cm) := by
      unfold rewind stateAt
      rw [if_neg (by simp)]
      simp
    rw [bind_ok this]; rfl
  induction pat generalizing acc m ts with
  | nil => simp [matchShape] at h
  | cons want rest ih =>
    have hw : want ≠ .eof := fun e => hne (by simp [e])
    have hr : TT.eof ∉ rest := fun e => hne (by simp [e])
    have hwl : want ≠ .eol := fun e => hl (by simp [e])
    have hrl : TT.eol ∉ rest := fun e => hl (by simp [e])
    unfold matchLoop
    cases ts with
    | nil =>
      rw [bind_ok (cursor_eq _), cursor_stateAt_nil]
      rw [if_neg (by intro e; exact hw e.symm), if_neg hwl]
      rw [List.map_nil, matchShape, if_neg hwl] at h
      split at h
      · next hws =>
        rw [if_neg (by simp [hws])]
        refine ih hr hrl _ m [] ?_ (by simpa using hrw)
        simpa using h
      · next hws =>
        rw [if_pos hws]
        exact ⟨_, hrw _⟩
    | cons t ts =>
      rw [bind_ok (cursor_eq _), cursor_stateAt]
      rw [List.map_cons, matchShape] at h
      by_cases hc : t.tt = want
      · rw [if_pos hc]
        rw [if_pos (show (Token.shape t).1 = want from hc)] at h
        rw [bind_ok (advance_stateAt _ _ _ _)]
        have := ih hr hrl (acc ++ [t]) (m ++ [t]) ts (by simpa using h) (by
          intro e
          have : rewind (m ++ [t]).length (stateAt (d ++ (m ++ [t])) ts cm) = (.ok true, stateAt d ((m ++ [t]) ++ ts) cm) := by
            unfold rewind stateAt
            rw [if_neg (by simp)]
            simp
          rw [bind_ok this]; rfl)
        simpa using this
      · rw [if_neg hc, if_neg hwl]
        rw [if_neg (show ¬ (Token.shape t).1 = want from hc), if_neg hwl] at h
        split at h
        · next hws =>
          rw [if_neg (by simp [hws])]
          refine ih hr hrl _ m (t :: ts) ?_ (by simpa using hrw)
          rw [List.map_cons]
          simpa using h
        · next hws =>
          rw [if_pos hws]
          exact ⟨_, hrw _⟩

theorem ex_match {f : List Token → P β} {pat : List TT} {es vs es' : List Shape} {cm : Comments}
    {Q : β → List Shape → Comments → Prop} (hm : matchShape pat es = some (vs, es')) (hne : TT.eof ∉ pat)
    (h : ∀ vs', vs'.map Token.shape = vs → Ex (f vs') es' cm Q) : Ex (match_ pat >>= f) es cm Q := by
  intro d ts hts
  subst hts
  obtain ⟨vs', d', ts', h1, h2, h3⟩ := matchLoop_shape pat hne [] 0 d ts cm hm
  have h1' : match_ pat (stateAt d ts cm) = (.ok vs', stateAt d' ts' cm) := h1
  rw [bind_ok h1']
  exact h vs' h2 d' ts' h3

theorem ex_try {f : Except PErr (List Token) → P β} {pat : List TT} {es vs es' : List Shape} {cm : Comments}
    {Q : β → List Shape → Comments → Prop} (hm : matchShape pat es = some (vs, es')) (hne : TT.eof ∉ pat)
    (h : ∀ vs', vs'.map Token.shape = vs → Ex (f (.ok vs')) es' cm Q) : Ex (attempt (match_ pat) >>= f) es cm Q := by
  intro d ts hts
  subst hts
  obtain ⟨vs', d', ts', h1, h2, h3⟩ := matchLoop_shape pat hne [] 0 d ts cm hm
  have h1' : attempt (match_ pat) (stateAt d ts cm) = (.ok (.ok vs'), stateAt d' ts' cm) := by
    unfold attempt; rw [show match_ pat (stateAt d ts cm) = (.ok vs', stateAt d' ts' cm) from h1]
  rw [bind_ok h1']
  exact h vs' h2 d' ts' h3

theorem ex_try_fail {f : Except PErr (List Token) → P β} {pat : List TT} {es : List Shape} {cm : Comments}
    {Q : β → List Shape → Comments → Prop} (hm : matchShape pat es = none) (hne : TT.eof ∉ pat) (hl : TT.eol ∉ pat)
    (h : ∀ e, Ex (f (.error e)) es cm Q) : Ex (attempt (match_ pat) >>= f) es cm Q := by
  intro d ts hts
  subst hts
  obtain ⟨e, h1⟩ := matchLoop_noshape pat hne hl [] d [] ts cm hm
  have h1' : attempt (match_ pat) (stateAt d ts cm) = (.ok (.error e), stateAt d ts cm) := by
    unfold attempt
    rw [show match_ pat (stateAt d ts cm) = (.err e, stateAt d ts cm) by rw [match_]; simpa using h1]
  rw [bind_ok h1']
  exact h e d ts rfl

theorem ex_nth {f : Token → P β} {vs' : List Token} {vs : List Shape} {i : Nat} {tt : TT} {v : Str} {l : Nat} {es : List Shape}
    {cm : Comments} {Q : β → List Shape → Comments → Prop} (hv : vs'.map Token.shape = vs) (hi : vs[i]? = some (tt, v, l))
    (h : ∀ p c, Ex (f ⟨tt, v, p, l, c⟩) es cm Q) : Ex (nth vs' i >>= f) es cm Q := by
  intro d ts hts
  rw [← hv, List.getElem?_map] at hi
  cases ht : vs'[i]? with
  | none => rw [ht] at hi; cases hi
  | some t =>
    rw [ht] at hi
    obtain ⟨tt', v', p, l', c⟩ := t
    simp only [Option.map_some, Option.some.injEq, Token.shape, Prod.mk.injEq] at hi
    obtain ⟨rfl, rfl, rfl⟩ := hi
    have : nth vs' i (stateAt d ts cm) = (.ok ⟨tt', v', p, l', c⟩, stateAt d ts cm) := by
      unfold nth; rw [ht]; rfl
    rw [bind_ok this]
    exact h p c d ts hts

/-! ### Values -/

theorem ex_composed {f : Token → P β} {tokens : List Token} {s v : Str} {es : List Shape} {cm : Comments}
    {Q : β → List Shape → Comments → Prop} (hne : tokens ≠ []) (hs : tokens.flatMap (·.val) = s) (hu : unescapeString s = .ok v)
    (h : ∀ t : Token, t.val = v → (∀ b, tokens.head? = some b → t.line = b.line) → Ex (f t) es cm Q) :
    Ex (composedValue tokens >>= f) es cm Q := by
  cases tokens with
  | nil => exact absurd rfl hne
  | cons b r =>
    refine ex_bind ?_
    unfold composedValue
    dsimp only
    rw [hs, hu]
    refine ex_pure (h _ rfl ?_)
    intro b' hb; simp at hb; subst hb; rfl

theorem ex_takeComments {f : Str → P β} {line : Nat} {es : List Shape} {cm : Comments} {Q : β → List Shape → Comments → Prop}
    (h : ∀ cm', (∀ k, cm'.get k = if k ∈ (docLines cm line).map (·.1) then none else cm.get k) →
      Ex (f (docText (docLines cm line))) es cm' Q) : Ex (takeComments line >>= f) es cm Q := by
  intro d ts hts
  obtain ⟨h1, h2⟩ := parseComments_spec cm line
  have ht : takeComments line (stateAt d ts cm) = (.ok (docText (docLines cm line)), stateAt d ts (parseComments cm line).2) := by
    rw [← h1]; rfl
  rw [bind_ok ht]
  exact h _ h2 d ts hts

/-! ### Runs -/

/-- From the state `st` before tokens of shapes `es` the parser gets to a state that satisfies `R`, having emitted nodes. -/
def Runs (st : St) (es : List Shape) (cm : Comments) (R : St → List Shape → Comments → List Node → Prop) : Prop :=
  ∀ d ts, ts.map Token.shape = es → ∃ k st' d' ts' cm' nodes,
    (∀ fuel acc, runN (fuel + k) st (stateAt d ts cm) acc = runN fuel st' (stateAt d' ts' cm') (acc ++ nodes)) ∧
    R st' (ts'.map Token.shape) cm' nodes

theorem runs_refl {st : St} {es : List Shape} {cm : Comments} {R : St → List Shape → Comments → List Node → Prop} (h : R st es cm []) :
    Runs st es cm R := by
  intro d ts hts
  exact ⟨0, st, d, ts, cm, [], by intro fuel acc; simp, by rw [hts]; exact h⟩

theorem runs_bind {st : St} {es : List Shape} {cm : Comments} {R : St → List Shape → Comments → List Node → Prop}
    (h : Runs st es cm fun st' es' cm' ns => Runs st' es' cm' fun st'' es'' cm'' ns' => R st'' es'' cm'' (ns ++ ns')) :
    Runs st es cm R := by
  intro d ts hts
  obtain ⟨k, st', d', ts', cm', ns, h1, h2⟩ := h d ts hts
  obtain ⟨k', st'', d'', ts'', cm'', ns', h3, h4⟩ := h2 d' ts' rfl
  refine ⟨k' + k, st'', d'', ts'', cm'', ns ++ ns', ?_, h4⟩
  intro fuel acc
  rw [← Nat.add_assoc, h1, h3, List.append_assoc]

theorem Runs.mono {st : St} {es : List Shape} {cm : Comments} {R S : St → List Shape → Comments → List Node → Prop} (h : Runs st es cm R)
    (hs : ∀ st' es' cm' ns, R st' es' cm' ns → S st' es' cm' ns) : Runs st es cm S := by
  intro d ts hts
  obtain ⟨k, st', d', ts', cm', ns, h1, h2⟩ := h d ts hts
  exact ⟨k, st', d', ts', cm', ns, h1, hs _ _ _ _ h2⟩

theorem runs_step {st : St} {es : List Shape} {cm : Comments} {R : St → List Shape → Comments → List Node → Prop}
    (h : Ex (step st) es cm fun s es' cm' => match s with
      | .goto st' em => Runs st' es' cm' fun st'' es'' cm'' ns => R st'' es'' cm'' (em ++ ns)
      | .done => False) : Runs st es cm R := by
  intro d ts hts
  obtain ⟨s, d', ts', cm', h1, h2⟩ := h d ts hts
  cases s with
  | done => exact h2.elim
  | goto st' em =>
    obtain ⟨k, st'', d'', ts'', cm'', ns, h3, h4⟩ := h2 d' ts' rfl
    refine ⟨k + 1, st'', d'', ts'', cm'', em ++ ns, ?_, h4⟩
    intro fuel acc
    rw [← Nat.add_assoc, run_step h1, h3, List.append_assoc]

/-- The end of the document. -/
theorem runs_end {es : List Shape} {cm : Comments} {st : St} {R : List Node → Prop}
    (h : Runs st es cm fun st' _ _ ns => st' = .eof ∧ R ns) (ts : List Token) (hts : ts.map Token.shape = es) :
    ∃ fuel nodes, runN fuel st { tokens := ts, comments := cm } [] = .ok nodes ∧ R nodes := by
  obtain ⟨k, st', d', ts', cm', ns, h1, rfl, h3⟩ := h [] ts hts
  refine ⟨1 + k, ns, ?_, h3⟩
  have := h1 1 []
  simp only [List.nil_append] at this
  rw [show ({ tokens := ts, comments := cm } : PS) = stateAt [] ts cm from rfl, this]
  rfl

end Verif.Ridl
