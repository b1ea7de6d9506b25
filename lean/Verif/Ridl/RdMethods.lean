import Verif.Ridl.RdValues

/-! Arguments, errors and annotations of methods are read as the grammar says. -/

namespace Verif.Ridl
open Verif.Spec hiding advance
open Verif.Spec.Grammar

theorem noMore_cons {ks : List TT} {t : TT} {v : Str} {r : List Lexeme} (h : t ∉ ks) : NoMore ks ((t, v) :: r) := by
  intro k w r' e
  simp only [List.cons.injEq, Prod.mk.injEq] at e
  exact e.1.1 ▸ h

theorem noMore_nil {ks : List TT} : NoMore ks [] := by
  intro k w r' e; simp at e

theorem rd_arguments {i : List Lexeme} : RdAt argumentLoop i fun as r => ArgRows i (as.map ArgNode.entry) r := by
  unfold argumentLoop
  refine (rd_loop (fun (s : List ArgNode) i a r => ∃ x, ArgRows i x r ∧ a.map ArgNode.entry = s.map ArgNode.entry ++ x) fun s i => ?_).mono ?_
  · refine rd_cursor (fun _ => rd_fail) ?_
    intro t r hi _ _
    split
    · next hw =>
      subst hi
      refine rd_advance fun _ _ => rd_pure ?_
      rintro a r' ⟨x, h1, h2⟩
      exact ⟨x, .skip (lx t) (by simp [lx, hw]) h1, h2⟩
    · next hw =>
      subst hi
      refine rd_advance fun _ _ => rd_pure ?_
      rw [lx_eq hw]
      exact ⟨[], .close _ _, by simp⟩
    · next hw =>
      subst hi
      refine rd_advance fun _ _ => rd_pure ?_
      rintro a r' ⟨x, h1, h2⟩
      exact ⟨x, .skip (lx t) (by simp [lx, hw]) h1, h2⟩
    · next hw =>
      subst hi
      refine rd_advance fun _ _ => rd_pure ?_
      rintro a r' ⟨x, h1, h2⟩
      exact ⟨x, .skip (lx t) (by simp [lx, hw]) h1, h2⟩
    · refine rd_try (h := ?_) (he := fun _ => rd_try (h := ?_) (he := fun _ => ?_))
      · rintro ms r' ⟨u1, ms1, i1, rfl, hu1, hi1, u2, ms2, i2, rfl, hu2, rfl, rfl, rfl⟩
        refine rd_nth rfl (rd_advance fun _ _ => rd_pure ?_)
        rw [hi1, lx_eq hu1, lx_eq hu2]
        exact ⟨[.whole u1.val], .whole _ _ _, by simp [ArgNode.entry]⟩
      · rintro ms r' ⟨u1, ms1, i1, rfl, hu1, hi1, u2, ms2, i2, rfl, hu2, rfl, u3, ms3, i3, rfl, hu3, rfl, u4, ms4, g, i4, rfl, hg, rfl, rfl, rfl⟩
        refine rd_nth rfl (rd_bind rd_type fun v j hv => rd_pure ?_)
        rintro a r'' ⟨x, h1, h2⟩
        refine ⟨.one (some u1.val) (some v.val) true :: x, ?_, by rw [h2]; simp [ArgNode.entry]⟩
        rw [hi1, lx_eq hu1, lx_eq hu2, lx_eq hu3]
        exact .one _ _ g (.yes _ _) hg hv h1
      · refine rd_match (h := ?_)
        rintro ms r' ⟨u1, ms1, i1, rfl, hu1, hi1, u3, ms3, i3, rfl, hu3, rfl, u4, ms4, g, i4, rfl, hg, rfl, rfl, rfl⟩
        refine rd_nth rfl (rd_bind rd_type fun v j hv => rd_pure ?_)
        rintro a r'' ⟨x, h1, h2⟩
        refine ⟨.one (some u1.val) (some v.val) false :: x, ?_, by rw [h2]; simp [ArgNode.entry]⟩
        rw [hi1, lx_eq hu1, lx_eq hu3]
        exact .one _ _ g (.no (noMore_cons (by decide))) hg hv h1
    · exact rd_fail
  · rintro a r ⟨x, h1, h2⟩
    rw [h2]; exact h1

theorem rd_args {i : List Lexeme} : RdAt expectArgumentList i fun as r => Args i (as.map ArgNode.entry) r := by
  unfold expectArgumentList optStream
  refine rd_bind (R := fun _ j => i = j ∨ ∃ g, Gap g ∧ i = (.word, "stream".toList) :: (g ++ j)) ?_ ?_
  · refine rd_try (h := ?_) (he := fun _ => rd_pure (.inl rfl))
    rintro ms r' ⟨u1, ms1, i1, rfl, hu1, hi1, u4, ms4, g, i4, rfl, hg, rfl, rfl, rfl⟩
    refine rd_nth rfl ?_
    split
    · exact rd_fail
    · next h =>
      simp only [ne_eq, Decidable.not_not] at h
      exact rd_pure (.inr ⟨g, hg, by rw [hi1, lx_eq hu1, h]⟩)
  · rintro _ j h
    refine rd_match (h := ?_)
    rintro ms r' ⟨u1, ms1, i1, rfl, hu1, hi1, rfl, rfl⟩
    refine rd_arguments.mono fun as r hr => ?_
    rw [lx_eq hu1] at hi1
    subst hi1
    rcases h with rfl | ⟨g, hg, rfl⟩
    · exact .plain _ hr
    · exact .stream _ g hg hr

theorem rd_errorList {i : List Lexeme} :
    RdAt expectErrorList i fun es r => ∃ g e j es', es.map Token.val = e :: es' ∧ Gap g ∧ i = g ++ (.word, e) :: j ∧ MoreErrors j es' r := by
  unfold expectErrorList
  refine rd_match (h := ?_)
  rintro ms r' ⟨u4, ms4, g, i4, rfl, hg, rfl, u1, ms1, i1, rfl, hu1, rfl, rfl, rfl⟩
  refine rd_nth rfl ?_
  refine (rd_loop (fun (s : List Token) i a r => ∃ x, MoreErrors i x r ∧ a.map Token.val = s.map Token.val ++ x) fun s i => ?_).mono ?_
  · refine rd_try (h := ?_) (he := fun _ => rd_pure ⟨[], .nil _, by simp⟩)
    rintro ms r' ⟨u0, ms0, g0, i0, rfl, hg0, rfl, u1, ms1, i1, rfl, hu1, rfl, u2, ms2, g2, i2, rfl, hg2, rfl, u3, ms3, i3, rfl, hu3, rfl, rfl, rfl⟩
    refine rd_nth rfl (rd_pure ?_)
    rintro a r' ⟨x, h1, h2⟩
    rw [lx_eq hu1, lx_eq hu3]
    exact ⟨u3.val :: x, .cons _ _ g0 g2 hg0 hg2 h1, by rw [h2]; simp⟩
  · rintro a r ⟨x, h1, h2⟩
    exact ⟨g, u1.val, i1, x, by rw [h2]; simp, hg, by rw [lx_eq hu1], h1⟩

def annRead (a : AnnNode) : Str × Option Str := (a.annType.val, a.value.map Token.val)

theorem rd_annotations {i : List Lexeme} : RdAt parseAnnotations i fun as r => Anns i (as.map annRead) r := by
  unfold parseAnnotations
  refine (rd_loop (fun (s : List AnnNode) i a r => ∃ x, Anns i x r ∧ a.map annRead = s.map annRead ++ x) fun s i => ?_).mono ?_
  · refine rd_try (h := ?_) (he := fun _ => rd_pure ⟨[], .nil _, by simp⟩)
    rintro ms r' ⟨u1, ms1, i1, rfl, hu1, hi1, u2, ms2, i2, rfl, hu2, rfl, rfl, rfl⟩
    refine rd_nth rfl ?_
    split
    · exact rd_fail
    · rw [lx_eq hu1, lx_eq hu2] at hi1
      refine rd_cursor ?_ ?_
      · rintro rfl
        rw [if_pos (by decide)]
        refine rd_pure ?_
        rintro a r' ⟨x, h1, h2⟩
        rw [hi1]
        exact ⟨_, .plain _ _ noMore_nil h1, by rw [h2]; simp [annRead]⟩
      · intro c r hi _ _
        split
        · next hc =>
          refine rd_pure ?_
          rintro a r' ⟨x, h1, h2⟩
          rw [hi1]
          refine ⟨_, .plain _ _ ?_ h1, by rw [h2]; simp [annRead]⟩
          rw [hi]
          exact noMore_cons (by simpa using hc)
        · next hc =>
          simp only [ne_eq, Decidable.not_not] at hc
          refine rd_advance fun _ _ => ?_
          subst hi
          rw [lx_eq hc] at hi1
          simp only [List.tail_cons]
          refine rd_cursor ?_ ?_
          · rintro rfl
            refine rd_cursor ?_ (fun _ _ h => absurd h (by simp))
            intro _
            rw [if_neg (by decide)]
            refine rd_advance fun _ _ => rd_pure ?_
            rintro a r' ⟨x, h1, h2⟩
            rw [hi1]
            exact ⟨_, .empty _ _ _ noMore_nil h1, by rw [h2]; simp [annRead, eofToken]⟩
          · intro d r2 hr2 _ _
            refine rd_cursor (fun h => absurd h (by rw [hr2]; simp)) ?_
            intro d2 r3 hr3 _ _
            have hdd : d2.tt = d.tt ∧ r3 = r2 := by
              rw [hr2] at hr3
              simp only [lx, List.cons.injEq, Prod.mk.injEq] at hr3
              exact ⟨hr3.1.1.symm, hr3.2.symm⟩
            rw [hdd.1]
            split
            · refine rd_bind rd_string fun v j hv => rd_advance fun _ _ => rd_pure ?_
              rintro a r' ⟨x, h1, h2⟩
              rw [hi1]
              exact ⟨_, .text _ _ _ hv h1, by rw [h2]; simp [annRead]⟩
            · next hq =>
              refine rd_advance fun _ _ => rd_pure ?_
              rintro a r' ⟨x, h1, h2⟩
              by_cases hw : d.tt = .word
              · rw [if_pos hw] at h2
                rw [hr2] at hi1 h1
                rw [hi1, lx_eq hw]
                exact ⟨_, .word _ _ _ _ h1, by rw [h2]; simp [annRead]⟩
              · rw [if_neg hw] at h2
                rw [hi1]
                refine ⟨_, .empty _ _ _ ?_ h1, by rw [h2]; simp [annRead]⟩
                rw [hr2]
                exact noMore_cons (by simp [hw, hq])
  · rintro a r ⟨x, h1, h2⟩
    rw [h2]; exact h1

/-- A pattern that starts with a word fails only when there is no word. -/
theorem word_fails {p q : PS} {e : PErr} (h : match_ [.word, .whitespace] p = (.err e, q)) : p.cursor.tt ≠ .word := by
  intro hw
  unfold match_ matchLoop at h
  rw [bind_ok (cursor_eq p), if_pos hw, bind_ok (advance_eq (by rw [hw]; decide))] at h
  unfold matchLoop at h
  rw [bind_ok (cursor_eq _)] at h
  by_cases h2 : (PS.cursor { p with pos := p.pos + 1 }).tt = .whitespace
  · rw [if_pos h2, bind_ok (advance_eq (by rw [h2]; decide))] at h
    simp [matchLoop, pure, P.pure] at h
  · rw [if_neg h2, if_neg (by decide), if_neg (by decide)] at h
    simp [matchLoop, pure, P.pure] at h

theorem rd_try_word {β : Type} {i : List Lexeme} {f : Except PErr (List Token) → P β} {Q : β → List Lexeme → Prop}
    (h : ∀ ms r, Took [.word, .whitespace] ms i r → RdAt (f (.ok ms)) r Q) (he : ∀ e, NoMore [.word] i → RdAt (f (.error e)) i Q) :
    RdAt (attempt (match_ [.word, .whitespace]) >>= f) i Q := by
  intro p b p' hp hi hb
  by_cases hw : NoMore [.word] i
  · exact (rd_try (h := h) (he := fun e => he e hw) : RdAt _ i Q) p b p' hp hi hb
  · rcases hm : match_ [.word, .whitespace] p with ⟨o, q⟩
    cases o with
    | err e =>
      have hc := word_fails hm
      subst hi
      exfalso
      apply hw
      by_cases hl : p.pos < p.tokens.length
      · rw [rest_cons hl]
        exact noMore_cons (by simpa using hc)
      · rw [(rest_nil hl).1]
        exact noMore_nil
    | ok ms =>
      obtain ⟨h1, ms', h2, h3⟩ := rd_matchLoop _ [] 0 i (by decide) (by decide) p ms q hp hi hm
      have e : attempt (match_ [.word, .whitespace]) p = (.ok (.ok ms), q) := by simp [attempt, hm]
      rw [bind_ok e] at hb
      simp only [List.nil_append] at h2
      exact h ms q.rest (h2 ▸ h3) q b p' h1 rfl hb
    | panic =>
      have e : attempt (match_ [.word, .whitespace]) p = (.panic, q) := by simp [attempt, hm]
      change P.bind _ f p = _ at hb
      simp [P.bind, e] at hb
    | hang =>
      have e : attempt (match_ [.word, .whitespace]) p = (.hang, q) := by simp [attempt, hm]
      change P.bind _ f p = _ at hb
      simp [P.bind, e] at hb

theorem rd_outputStream {i : List Lexeme} : RdAt outputStream i fun b r =>
    (b = false ∧ r = i ∧ NoMore [.word] i) ∨ (b = true ∧ ∃ g, Gap g ∧ i = (.word, "stream".toList) :: (g ++ r)) := by
  unfold outputStream
  refine rd_try_word ?_ fun _ hn => rd_pure (.inl ⟨rfl, rfl, hn⟩)
  rintro ms r' ⟨u1, ms1, i1, rfl, hu1, hi1, u4, ms4, g, i4, rfl, hg, rfl, rfl, rfl⟩
  refine rd_nth rfl ?_
  split
  · next h => exact rd_pure (.inr ⟨rfl, g, hg, by rw [hi1, lx_eq hu1, h]⟩)
  · exact rd_fail

theorem rd_outputs {mn : MethodNode} {i : List Lexeme} (h0 : mn.streamOutput = false) (h1 : mn.outputs = []) :
    RdAt (methodOutputs mn) i fun m r => ∃ so outs, m = { mn with streamOutput := so, outputs := outs } ∧ Outputs i so (outs.map ArgNode.entry) r := by
  unfold methodOutputs
  refine rd_try (h := ?_) (he := fun _ => rd_pure ⟨false, [], ?_, .none _⟩)
  · rintro ms r' ⟨u0, ms0, g0, i0, rfl, hg0, rfl, u1, ms1, i1, rfl, hu1, rfl, u2, ms2, g2, i2, rfl, hg2, rfl, rfl, rfl⟩
    rw [lx_eq hu1]
    refine rd_bind rd_outputStream ?_
    rintro b j (⟨rfl, rfl, hn⟩ | ⟨rfl, g, hg, rfl⟩)
    · exact rd_bind rd_args fun as r hr => rd_pure ⟨_, _, rfl, .plain _ g0 g2 hg0 hg2 hn hr⟩
    · exact rd_bind rd_args fun as r hr => rd_pure ⟨_, _, rfl, .stream _ g0 g2 g hg0 hg2 hg hr⟩
  · cases mn; simp_all

theorem rd_errors {mn : MethodNode} {i : List Lexeme} (h0 : mn.errors = []) :
    RdAt (methodErrors mn) i fun m r => ∃ es, m = { mn with errors := es } ∧ Errs i (es.map Token.val) r := by
  have e0 : mn = { mn with errors := [] } := by cases mn; simp_all
  unfold methodErrors
  refine rd_try (h := ?_) (he := fun _ => rd_pure ⟨[], e0, .none _⟩)
  rintro ms r' ⟨u0, ms0, g0, i0, rfl, hg0, rfl, u1, ms1, i1, rfl, hu1, rfl, rfl, rfl⟩
  rw [lx_eq hu1]
  refine rd_nth rfl ?_
  split
  · next hv =>
    refine rd_bind rd_errorList ?_
    rintro es j ⟨g, e, k, es', h1, hg, rfl, h2⟩
    refine rd_pure ⟨es, rfl, ?_⟩
    rw [h1, hv]
    exact .some _ g0 g hg0 hg h2
  · next hv => exact rd_pure ⟨[], e0, .other _ g0 _ hg0 hv⟩

end Verif.Ridl
