import Verif.Ridl.CmRun
import Verif.Ridl.SimTokens

/-! # The tokens of two documents that differ in one comment (for C110) -/

namespace Verif.Ridl.Cm
open Verif.Spec
open Verif.Schema hiding Str
open Verif.Spec.Uncommented (TokS Blanks BeforeComment LinesBefore LinesAfter CommentText SameDecls SameMeaning)

/-- Tokens at the end of a row may be followed by something else. -/
theorem row_lexes' {s : Str} (hn : '\x00' ∉ s) {post : Str}
    (hend : ∀ tt v, (rowToks s).getLast? = some (tt, v) → Tok tt v ['\n'] → Tok tt v post) : Lexes s (rowToks s) post := by
  obtain ⟨h1, h2⟩ := row_lexes hn []
  have h3 := h1 _ (.cons .newLine ['\n'] [] [] (tok_newline []) .nil)
  intro ts hts
  suffices hs : ∀ l : List (TT × Str), (∀ tt v, l.getLast? = some (tt, v) → Tok tt v ['\n'] → Tok tt v post) →
      Segments (l.flatMap (·.2) ++ ['\n']) (l ++ [(.newLine, ['\n'])]) → Segments (l.flatMap (·.2) ++ post) (l ++ ts) by
    have := hs _ hend (by rw [h2]; exact h3)
    rwa [h2] at this
  intro l
  induction l with
  | nil => intro _ _; exact hts
  | cons x l ih =>
    obtain ⟨tt, v⟩ := x
    intro he h
    generalize hs : ((tt, v) :: l).flatMap (·.2) ++ ['\n'] = src at h
    generalize hl : (tt, v) :: l ++ [(TT.newLine, ['\n'])] = l' at h
    cases h with
    | nil => simp at hs
    | nul post => cases hl
    | cons tt' v' post' ts' ht hr =>
      simp only [List.cons_append, List.cons.injEq, Prod.mk.injEq] at hl
      obtain ⟨⟨rfl, rfl⟩, rfl⟩ := hl
      simp only [List.flatMap_cons, List.append_assoc] at hs ⊢
      obtain rfl := List.append_cancel_left hs
      have hrest := ih (fun tt1 v1 h1 h2 => he tt1 v1 (by rw [List.getLast?_cons, h1]; rfl) h2) hr
      refine .cons _ _ _ _ ?_ hrest
      by_cases hn : l = []
      · subst hn
        exact he _ _ rfl ht
      · refine tok_congr ht ?_
        cases hl : l.flatMap (·.2) with
        | cons d r => rfl
        | nil =>
          exfalso
          obtain ⟨y, r, rfl⟩ := List.exists_cons_of_ne_nil hn
          have h0 := List.flatMap_eq_nil_iff.1 hl y (by simp)
          obtain ⟨post, hp⟩ := segments_mem hr y (by simp)
          exact hp.ne_nil h0

/-- The tokens of a comment's text. -/
theorem comment_lexes {s below : Str} (hs : CommentText s) (hb : LinesAfter below) : Lexes ('#' :: s) ((.hash, ['#']) :: rowToks s) below := by
  refine lexes_cons (v := ['#']) (tok_sym rfl) ?_
  rcases hb.2 with rfl | hb
  · refine row_lexes' hs.2 fun tt v _ h => ?_
    cases h with
    | blank c cs _ h hm => exact .blank c cs _ h nofun
    | word c cs _ hc h hm => exact .word c cs _ hc h nofun
    | rocket => exact .rocket _
    | equal _ h => exact .equal _ nofun
    | symbol c tt _ h => exact .symbol c tt _ h
    | extra c _ h0 h1 h2 h3 h4 => exact .extra c _ h0 h1 h2 h3 h4
  · cases below with
    | nil => cases hb
    | cons d r => cases hb; exact (row_lexes hs.2 r).1

/-- The last token of a row ends in its last character. -/
theorem last_char {s : Str} (hn : '\x00' ∉ s) {tt : TT} {v : Str} (h : (rowToks s).getLast? = some (tt, v)) :
    v ≠ [] ∧ ∃ u, s = u ++ v := by
  obtain ⟨u, hu⟩ := List.getLast?_eq_some_iff.1 h
  obtain ⟨post, hp⟩ := rowToks_tok hn (tt, v) (by rw [hu]; simp)
  refine ⟨hp.ne_nil, u.flatMap (·.2), ?_⟩
  rw [← (row_lexes hn []).2, hu]
  simp

/-- The tokens before a comment, on its line. -/
theorem before_lexes {row : Str} (h : BeforeComment row) : ∃ R : List (TT × Str),
    (∀ post, Lexes row R ('#' :: post)) ∧ (∀ t ∈ R, t.1 ≠ .quote ∧ t.1 ≠ .newLine ∧ t.1 ≠ .hash) ∧
    (R = [] ∨ ∃ R0 w, R = R0 ++ [(.whitespace, w)] ∧ ∀ t, R0.getLast? = some t → t.1 ≠ .equal) := by
  obtain ⟨h1, h2, h3, h4, h5⟩ := h
  have hsolid : ∀ d, ∀ post : Str, ('#' :: post).head? = some d → ¬ Blank d := by
    intro d post hd; cases hd; unfold Blank; decide
  by_cases hr : row = []
  · subst hr
    exact ⟨[], fun _ => lexes_nil _, nofun, Or.inl rfl⟩
  by_cases hbl : Blanks row
  · obtain ⟨d, r, rfl⟩ := List.exists_cons_of_ne_nil hr
    refine ⟨[(.whitespace, d :: r)], fun post => lexes_tok (.blank d r _ hbl fun x hx => hsolid x post hx), ?_,
      Or.inr ⟨[], d :: r, rfl, nofun⟩⟩
    intro t ht
    cases List.mem_singleton.1 ht
    exact ⟨nofun, nofun, nofun⟩
  obtain ⟨text, last, b, blanks, rfl, g1, g2, g3⟩ := h5.resolve_left hbl
  have hn : '\x00' ∉ text ++ [last] := fun hh => h2 (List.mem_append_left _ hh)
  have hend : ∀ tt v, (rowToks (text ++ [last])).getLast? = some (tt, v) → ∃ v0, v = v0 ++ [last] := by
    intro tt v hv
    obtain ⟨hne, u, hu⟩ := last_char hn hv
    have := congrArg List.getLast? hu
    rw [List.getLast?_concat, List.getLast?_append, List.getLast?_eq_some_getLast hne] at this
    rw [← List.getLast?_eq_some_iff, List.getLast?_eq_some_getLast hne]
    exact this.symm
  refine ⟨rowToks (text ++ [last]) ++ [(.whitespace, b :: blanks)], fun post => ?_, ?_, Or.inr ⟨_, _, rfl, ?_⟩⟩
  · refine lexes_append (b := b :: blanks) (row_lexes' hn fun tt v hv ht => ?_) (lexes_tok (.blank b blanks _ g1 fun x hx => hsolid x post hx))
    obtain ⟨v0, hv0⟩ := hend tt v hv
    have hb : Blank b := g1 b (by simp)
    cases ht with
    | blank c cs _ h hm =>
      refine absurd ?_ g2
      intro x hx
      rw [List.mem_singleton.1 hx]
      exact h last (by rw [hv0]; simp)
    | word c cs _ hc h hm =>
      refine .word c cs _ hc h ?_
      intro d hd
      cases hd
      unfold WordEnd
      rcases hb with rfl | rfl | rfl <;> decide
    | rocket => exact .rocket _
    | equal _ h =>
      refine .equal _ ?_
      intro hd
      cases hd
      rcases hb with hb | hb | hb <;> cases hb
    | symbol c tt _ h => exact .symbol c tt _ h
    | extra c _ h0 h1 h2 h3 h4 => exact .extra c _ h0 h1 h2 h3 h4
  · intro t ht
    rcases List.mem_append.1 ht with ht | ht
    · obtain ⟨post, hp⟩ := rowToks_tok hn t ht
      have hm : ∀ x ∈ t.2, x ∈ text ++ [last] := fun x hx => mem_row hn ht hx
      refine ⟨fun he => ?_, fun he => ?_, fun he => ?_⟩
      · have := hm '"' (by rw [(tok_special hp).1 he]; simp)
        exact h3 (List.mem_append_left _ this)
      · have := hm '\n' (by rw [(tok_special hp).2.1 he]; simp)
        exact h1 (List.mem_append_left _ this)
      · have hv : t.2 = ['#'] := by
          obtain ⟨tt, v⟩ := t
          simp only at he hp ⊢
          subst he
          generalize hq : TT.hash = tt at hp
          cases hp with
          | symbol c _ _ hs => subst hq; unfold Spec.symbol at hs; split at hs <;> simp_all
          | _ => cases hq
        exact h4 (List.mem_append_left _ (hm '#' (by rw [hv]; simp)))
    · cases List.mem_singleton.1 ht
      exact ⟨nofun, nofun, nofun⟩
  · rintro ⟨tt, v⟩ ht he
    obtain ⟨v0, hv0⟩ := hend tt v ht
    obtain ⟨post, hp⟩ := rowToks_tok hn (tt, v) (List.mem_of_getLast? ht)
    simp only at he hp
    subst he
    have : v = ['='] := by
      generalize hq : TT.equal = tt at hp
      cases hp with
      | symbol c _ _ hs => subst hq; unfold Spec.symbol at hs; split at hs <;> simp_all
      | equal => rfl
      | _ => cases hq
    rw [this] at hv0
    have := congrArg List.getLast? hv0
    rw [List.getLast?_concat] at this
    cases this
    exact g3 rfl

/-- The tokens of the lines before a comment's line. -/
theorem above_lexes {above : Str} (h : LinesBefore above) : ∃ A : List (TT × Str), (∀ post, Lexes above A post) ∧
    (A = [] ∨ ∃ A0, A = A0 ++ [(.newLine, ['\n'])] ∧ ∀ t, A0.getLast? = some t → t.1 ≠ .backslash) := by
  obtain ⟨hn, rfl | ⟨text, rfl, hl⟩⟩ := h
  · exact ⟨[], fun _ => lexes_nil _, Or.inl rfl⟩
  · have hn' : '\x00' ∉ text := fun hh => hn (List.mem_append_left _ hh)
    refine ⟨rowToks text ++ [(.newLine, ['\n'])], fun post => lexes_append (b := ['\n']) (row_lexes hn' post).1 (lexes_tok (tok_newline _)),
      Or.inr ⟨_, rfl, ?_⟩⟩
    rintro ⟨tt, v⟩ ht he
    simp only at he
    subst he
    obtain ⟨post, hp⟩ := rowToks_tok hn' _ (List.mem_of_getLast? ht)
    obtain ⟨-, u, hu⟩ := last_char hn' ht
    have hv : v = ['\\'] := backslash_val hp
    rw [hv] at hu
    exact hl (by rw [hu]; simp)

/-- What is known of the tokens, from their classes and texts. -/
theorem ctx_ok {A R H H' B : List (TT × Str)} {ps qs : List Token} (hp : ps.map pr = A ++ R ++ (H ++ B)) (hq : qs.map pr = A ++ R ++ (H' ++ B))
    (hne : ∀ t ∈ ps, t.tt ≠ .eof)
    (hA : A = [] ∨ ∃ A0, A = A0 ++ [(.newLine, ['\n'])] ∧ ∀ t, A0.getLast? = some t → t.1 ≠ .backslash)
    (hR : ∀ t ∈ R, t.1 ≠ .quote ∧ t.1 ≠ .newLine ∧ t.1 ≠ .hash)
    (hR' : R = [] ∨ ∃ R0 w, R = R0 ++ [(.whitespace, w)] ∧ ∀ t, R0.getLast? = some t → t.1 ≠ .equal)
    (h0 : H.head? = some (.hash, ['#'])) (h0' : H'.head? = some (.hash, ['#']))
    (hm : ∀ t ∈ H, t.1 ≠ .newLine ∧ t.1 ≠ .eof) (hm' : ∀ t ∈ H', t.1 ≠ .newLine ∧ t.1 ≠ .eof)
    (hB : ∀ t, B.head? = some t → t.1 = .newLine) :
    Ctx.OK { a := A.length + R.length, b := A.length, x := H.length, y := H'.length, ps := ps, qs := qs } := by
  have lp := congrArg List.length hp
  have lq := congrArg List.length hq
  simp only [List.length_map, List.length_append] at lp lq
  have hx : 1 ≤ H.length := by cases H with | nil => cases h0 | cons _ _ => simp
  have hy : 1 ≤ H'.length := by cases H' with | nil => cases h0' | cons _ _ => simp
  have gp : ∀ (i : Nat) t, ps[i]? = some t → (A ++ R ++ (H ++ B))[i]? = some (pr t) := by
    intro i t h; rw [← hp, List.getElem?_map, h]; rfl
  have gq : ∀ (i : Nat) t, qs[i]? = some t → (A ++ R ++ (H' ++ B))[i]? = some (pr t) := by
    intro i t h; rw [← hq, List.getElem?_map, h]; rfl
  have pair : ∀ i j : Nat, i < ps.length → j < qs.length → (A ++ R ++ (H ++ B))[i]? = (A ++ R ++ (H' ++ B))[j]? →
      ∃ t t', ps[i]? = some t ∧ qs[j]? = some t' ∧ Uncommented.TokS t t' ∧ t.tt ≠ .eof := by
    intro i j hi hj he
    have e1 : ps[i]? = some ps[i] := List.getElem?_eq_getElem hi
    have e2 : qs[j]? = some qs[j] := List.getElem?_eq_getElem hj
    refine ⟨_, _, e1, e2, ?_, hne _ (List.getElem_mem hi)⟩
    rw [gp _ _ e1, gq _ _ e2] at he
    injection he with he
    obtain ⟨k1, k2⟩ := pr_eq he.symm
    exact ⟨k1, k2⟩
  have hAlast : ∀ (i : Nat) t, i + 1 = A.length → ps[i]? = some t → t.tt = .newLine := by
    intro i t hi ht
    rcases hA with rfl | ⟨A0, rfl, -⟩
    · cases hi
    · have := gp _ _ ht
      rw [List.length_append] at hi
      rw [List.append_assoc, List.append_assoc, List.getElem?_append_right (by simp at hi; omega), show i - A0.length = 0 by simp at hi; omega] at this
      injection this with this
      exact (congrArg Prod.fst this).symm
  have hRlast : ∀ (i : Nat) t, R ≠ [] → i + 1 = A.length + R.length → ps[i]? = some t → t.tt = .whitespace := by
    intro i t hne hi ht
    rcases hR' with h | ⟨R0, w, rfl, -⟩
    · exact absurd h hne
    · have := gp _ _ ht
      simp only [List.length_append, List.length_singleton] at hi
      rw [List.append_assoc, List.getElem?_append_right (by omega), List.append_assoc, List.getElem?_append_right (by omega),
        show i - A.length - R0.length = 0 by omega] at this
      injection this with this
      exact (congrArg Prod.fst this).symm
  refine ⟨hx, hy, Nat.le_add_right _ _, ?_, ?_, ?_, ?_, ?_, ?_, ?_, ?_, ?_, hAlast, ?_, ?_, ?_⟩
  · show A.length + R.length + H.length ≤ ps.length; omega
  · show ps.length + H'.length = qs.length + H.length; omega
  · intro i hi
    have hi : i ≤ A.length + R.length := hi
    refine pair i i (by omega) (by omega) ?_
    rcases Nat.lt_or_ge i (A.length + R.length) with hlt | hge
    · have hlt' : i < (A ++ R).length := by simpa using hlt
      exact (List.getElem?_append_left hlt').trans (List.getElem?_append_left hlt').symm
    · have hge' : (A ++ R).length ≤ i := by simpa using hge
      refine (List.getElem?_append_right hge').trans (Eq.trans ?_ (List.getElem?_append_right hge').symm)
      rw [List.length_append, show i - (A.length + R.length) = 0 by omega]
      cases H with
      | nil => cases h0
      | cons x H =>
        cases H' with
        | nil => cases h0'
        | cons x' H' => cases h0; cases h0'; rfl
  · intro k hk
    have hk : A.length + R.length + H.length + k < ps.length := hk
    refine pair (A.length + R.length + H.length + k) (A.length + R.length + H'.length + k) (by omega) (by omega) ?_
    have e : ∀ K : List (TT × Str), (A ++ R ++ (K ++ B))[A.length + R.length + K.length + k]? = B[k]? := by
      intro K
      rw [List.getElem?_append_right (by simp; omega), List.getElem?_append_right (by simp; omega)]
      congr 1
      simp; omega
    rw [e, e]
  · intro t ht
    have := gp _ _ ht
    rw [List.getElem?_append_right (by simp), List.length_append, Nat.sub_self] at this
    cases H with
    | nil => cases h0
    | cons x H =>
      cases h0
      injection this with this
      exact (congrArg Prod.fst this).symm
  · intro i t h1 h2 ht
    have h1 : A.length + R.length ≤ i := h1
    have h2 : i < A.length + R.length + H.length := h2
    have := gp _ _ ht
    rw [List.getElem?_append_right (by simpa using h1), List.length_append, List.getElem?_append_left (by omega)] at this
    exact hm _ (List.mem_of_getElem? this)
  · intro i t h1 h2 ht
    have h1 : A.length + R.length ≤ i := h1
    have h2 : i < A.length + R.length + H'.length := h2
    have := gq _ _ ht
    rw [List.getElem?_append_right (by simpa using h1), List.length_append, List.getElem?_append_left (by omega)] at this
    exact hm' _ (List.mem_of_getElem? this)
  · intro t ht
    have := gp _ _ ht
    rw [List.getElem?_append_right (by simp), List.length_append, List.getElem?_append_right (by simp)] at this
    have e : A.length + R.length + H.length - (A.length + R.length) - H.length = 0 := by omega
    rw [show (({ a := A.length + R.length, b := A.length, x := H.length, y := H'.length, ps := ps, qs := qs } : Ctx).a +
      ({ a := A.length + R.length, b := A.length, x := H.length, y := H'.length, ps := ps, qs := qs } : Ctx).x - (A.length + R.length) - H.length) = 0 from e] at this
    rw [← List.head?_eq_getElem?] at this
    exact hB _ this
  · intro i t h1 h2 ht
    have h1 : A.length ≤ i := h1
    have h2 : i < A.length + R.length := h2
    have := gp _ _ ht
    rw [List.append_assoc, List.getElem?_append_right h1, List.getElem?_append_left (by omega)] at this
    exact hR _ (List.mem_of_getElem? this)
  · intro i t hi ht
    have hi : i + 2 = A.length := hi
    rcases hA with rfl | ⟨A0, rfl, hbs⟩
    · cases hi
    · have := gp _ _ ht
      rw [List.length_append] at hi
      simp only [List.length_singleton] at hi
      rw [List.append_assoc, List.append_assoc, List.getElem?_append_left (by omega)] at this
      exact hbs (pr t) (by rw [List.getLast?_eq_getElem?, show A0.length - 1 = i by omega]; exact this)
  · intro i t hi ht
    have hi : i + 1 = A.length + R.length := hi
    by_cases hr : R = []
    · subst hr
      exact Or.inr (hAlast i t (by simpa using hi) ht)
    · exact Or.inl (hRlast i t hr hi ht)
  · intro i t u hi ht hu hw
    have hi : i + 2 = A.length + R.length := hi
    rcases hR' with rfl | ⟨R0, w, rfl, heq⟩
    · have := hAlast (i + 1) u (by simpa using hi) hu
      rw [this] at hw
      cases hw
    · simp only [List.length_append, List.length_singleton] at hi
      by_cases hr : R0 = []
      · subst hr
        rw [hAlast i t (by simpa using hi) ht]
        nofun
      · have hl : 1 ≤ R0.length := by cases R0 with | nil => exact absurd rfl hr | cons _ _ => simp
        have := gp _ _ ht
        rw [List.append_assoc, List.getElem?_append_right (by omega), List.append_assoc, List.getElem?_append_left (by omega)] at this
        exact heq (pr t) (by rw [List.getLast?_eq_getElem?, show R0.length - 1 = i - A.length by omega]; exact this)

/-- If the first document is accepted so is the other one, with the same declarations. -/
theorem comment_rel {above row text text' below : Str} (ha : LinesBefore above) (hr : BeforeComment row) (ht : CommentText text)
    (ht' : CommentText text') (hb : LinesAfter below) {ds : List Node}
    (h : parseDoc (above ++ row ++ ('#' :: text) ++ below) = .ok ds) :
    ∃ ds', parseDoc (above ++ row ++ ('#' :: text') ++ below) = .ok ds' ∧ SameDecls ds ds' := by
  obtain ⟨A, hA, hA'⟩ := above_lexes ha
  obtain ⟨R, hR, hR1, hR2⟩ := before_lexes hr
  obtain ⟨tb, e3, r3⟩ := tokenize_ok below
  have seg : ∀ s, CommentText s → Segments (above ++ row ++ ('#' :: s) ++ below) (A ++ R ++ ((.hash, ['#']) :: rowToks s ++ tb.map pr)) := by
    intro s hs
    have h1 := comment_lexes hs hb _ (run_segments r3)
    have h2 := hR (s ++ below) _ h1
    have h3 := hA _ _ h2
    simpa using h3
  have hB : ∀ t, (tb.map pr).head? = some t → t.1 = .newLine := by
    intro t hh
    rcases hb.2 with rfl | hb'
    · have := segments_unique (run_segments r3) .nil
      rw [this] at hh; cases hh
    · cases below with
      | nil => cases hb'
      | cons d r =>
        cases hb'
        have hs := run_segments r3
        obtain ⟨tr, -, rr⟩ := tokenize_ok r
        have := segments_unique hs (.cons .newLine ['\n'] r _ (tok_newline r) (run_segments rr))
        rw [this] at hh; cases hh; rfl
  have hmid : ∀ s, CommentText s → ∀ t ∈ ((TT.hash, ['#']) :: rowToks s : List (TT × Str)), t.1 ≠ .newLine ∧ t.1 ≠ .eof := by
    intro s hs t h
    rcases List.mem_cons.1 h with rfl | h
    · exact ⟨nofun, nofun⟩
    · obtain ⟨post, hp⟩ := rowToks_tok hs.2 t h
      exact ⟨(row_no_newline hs.2 hs.1 t h).1, tok_ne_eof hp⟩
  obtain ⟨ps, e1, r1⟩ := tokenize_ok (above ++ row ++ ('#' :: text) ++ below)
  obtain ⟨qs, e2, r2⟩ := tokenize_ok (above ++ row ++ ('#' :: text') ++ below)
  have hp := segments_unique (run_segments r1) (seg text ht)
  have hq := segments_unique (run_segments r2) (seg text' ht')
  have ok := ctx_ok hp hq (fun t h => (run_val r1 h).2) hA' hR1 hR2 rfl rfl (hmid text ht) (hmid text' ht') hB
  refine parse_rel (p := { tokens := ps, comments := (ps.foldl tokenizeStep {}).lineComments })
    (q := { tokens := qs, comments := (qs.foldl tokenizeStep {}).lineComments }) (by unfold newParser; rw [e1]; rfl) (by unfold newParser; rw [e2]; rfl)
    ⟨ok, rfl, rfl, Or.inl ⟨Nat.zero_le _, rfl⟩⟩ (Nat.zero_le _) (Nat.zero_le _) h

end Verif.Ridl.Cm
