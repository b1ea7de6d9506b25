import Verif.Ridl.WpMatch

/-! Every state function is safe and makes progress, except at an `@` in a service body that is not
followed by a word. -/

namespace Verif.Ridl

/-- Position of a state in the order of transitions that consume nothing. -/
def rank : St → Nat
  | .eof => 0
  | .continue_ => 1
  | .eol => 2
  | .declaration => 2
  | .default => 3
  | .errorStatus _ => 5
  | .importValue => 5
  | .importMembers _ => 5
  | .enumDef _ => 5
  | .enumValue _ _ => 6
  | .aliasMeta _ => 5
  | .structField _ => 5
  | .fieldMeta _ => 6
  | .serviceMethod _ => 5
  | _ => 1

/-- What is known of the parser when a state is entered. -/
def StOK (p : PS) : St → Prop
  | .space => p.cursor.tt = .whitespace
  | .newLine => p.cursor.tt = .newLine
  | .comment => p.cursor.tt = .hash
  | .fieldMeta n => n.fields ≠ []
  | .fieldMetaDef n => n.fields ≠ []
  | _ => True

/-- The cursor is at an `@` that is not followed by a word. -/
def AtStuck (p : PS) : Prop :=
  p.cursor.tt = .at_ ∧ ({ p with pos := p.pos + 1 } : PS).cursor.tt ≠ .word

/-- A transition is good: later state, next state fine, something consumed or rank lowered, or the
endless loop. -/
def Good (st : St) (p : PS) (r : Step) (p' : PS) : Prop :=
  match r with
  | .done => p' = p
  | .goto st' _ => Ext p p' 0 ∧ StOK p' st' ∧
      (Ext p p' 1 ∨ rank st' < rank st ∨
        (AtStuck p ∧ p' = p ∧ st' = st ∧ ∃ n, st = .serviceMethod n))

theorem good1 {st st' : St} {p p' : PS} {k : Nat} {em : List Node} (h : Ext p p' k) (hk : 1 ≤ k := by omega)
    (hs : StOK p' st' := by trivial) : Good st p (.goto st' em) p' :=
  ⟨h.weaken (by omega), hs, Or.inl (h.weaken hk)⟩

theorem good0 {st st' : St} {p p' : PS} {em : List Node} (h : Ext p p' 0)
    (hr : rank st' < rank st := by simp [rank]) (hs : StOK p' st' := by trivial) :
    Good st p (.goto st' em) p' := ⟨h, hs, Or.inr (Or.inl hr)⟩

theorem wp_tc_bind {β : Type} {f : Str → P β} {p : PS} {Q : β → PS → Prop} {line : Nat} (hp : p.Valid)
    (h : ∀ s p', Ext p p' 0 → Wp (f s) p' Q) : Wp (takeComments line >>= f) p Q :=
  wp_safe (safe_takeComments line) hp fun s p' _ he => h s p' he

/-- The two outcomes of a pattern without end-of-line marker. -/
theorem match_cases (tts : List TT) (p : PS) (hp : p.Valid) (hl : TT.eol ∉ tts) (hne : TT.eof ∉ tts) :
    (∃ ms p', match_ tts p = (.ok ms, p') ∧ ms.length = tts.length ∧ Ext p p' (need tts)) ∨
    (∃ e, match_ tts p = (.err e, p)) := by
  rcases matchLoop_spec tts [] 0 p p hp rfl rfl (by simp)
    (fun hm => hl (List.dropLast_subset _ hm)) hne with ⟨ms, p', h2, h3, h4⟩ | ⟨e, p', h2, h3⟩
  · exact Or.inl ⟨ms, p', h2, by simpa using h3, h4⟩
  · rcases h3 with rfl | ⟨h3, _⟩
    · exact Or.inr ⟨e, h2⟩
    · exact absurd h3 hl

theorem attempt_ok {α : Type} {m : P α} {p p' : PS} {a : α} (h : m p = (.ok a, p')) :
    attempt m p = (.ok (.ok a), p') := by unfold attempt; rw [h]

theorem attempt_err {α : Type} {m : P α} {p p' : PS} {e : PErr} (h : m p = (.err e, p')) :
    attempt m p = (.ok (.error e), p') := by unfold attempt; rw [h]

/-- `p.rewind(1)` before reporting an error. -/
theorem rewind_fail {p0 p : PS} {e : PErr} (h : Ext p0 p 1) :
    ∃ p', (rewind 1 >>= fun _ => (fail e : P Step)) p = (.err e, p') ∧ Ext p0 p' 0 := by
  have h1 := h.pos
  have h2 := h.le
  have : rewind 1 p = (.ok true, { p with pos := p.pos - 1 }) := by
    unfold rewind; rw [if_neg (by omega)]
  rw [bind_ok this]
  exact ⟨_, rfl, h.tokens, by simp only; omega, by simp only; omega, h.comm⟩

theorem nth_eq {l : List Token} {i : Nat} (hi : i < l.length) (p : PS) : nth l i p = (.ok l[i], p) := by
  unfold nth
  rw [List.getElem?_eq_getElem hi]
  rfl

theorem good_errorStatus (n : ErrorNode) (p : PS) (hp : p.Valid) :
    Wp (stErrorStatus n) p (Good (.errorStatus n) p) := by
  unfold stErrorStatus
  rcases match_cases [.whitespace, .word] p hp (by decide) (by decide) with ⟨ms, p1, hm, hl, h1⟩ | ⟨e, hm⟩
  · have h1 : Ext p p1 1 := h1
    unfold Wp
    rw [bind_ok (attempt_ok hm)]
    simp only
    have hl1 : 1 < ms.length := by simp [hl]
    rw [bind_ok (nth_eq hl1 p1)]
    cases expectWord ms[1] "HTTP".toList with
    | error e =>
      simp only
      obtain ⟨p', hr, he⟩ := rewind_fail (e := .msg "expecting optional 'HTTP <status code>'".toList) h1
      rw [hr]; exact he
    | ok _ =>
      simp only
      rcases match_cases [.whitespace, .word] p1 h1.valid (by decide) (by decide) with
        ⟨ms2, p2, hm2, hl2, h2⟩ | ⟨e, hm2⟩
      · have h2 : Ext p1 p2 1 := h2
        rw [bind_ok hm2]
        have hl2 : 1 < ms2.length := by simp [hl2]
        rw [bind_ok (nth_eq hl2 p2)]
        cases expectNumber ms2[1] ms2[1].val with
        | error e =>
          simp only
          obtain ⟨p', hr, he⟩ :=
            rewind_fail (e := .msg "expecting HTTP '<status code>' to be a number".toList)
              ((h1.trans h2).weaken (j := 1) (by omega))
          rw [hr]; exact he
        | ok _ =>
          simp only
          have he := safe_expectEOL p2 h2.valid
          unfold Wp at he
          rcases hm3 : expectOptionalCommentOrEOL p2 with ⟨o, p3⟩
          rw [hm3] at he
          have h12 := h1.trans h2
          cases o with
          | ok a => rw [bind_ok hm3]; exact good1 (h12.trans he)
          | err e => rw [bind_err hm3]; exact (h12.trans he).weaken (by omega)
          | panic => exact he.elim
          | hang => exact he.elim
      · rw [bind_err hm2]; exact h1.weaken (by omega)
  · unfold Wp
    rw [bind_ok (attempt_err hm)]
    exact wp_safe safe_expectEOL hp fun _ p' _ h => wp_pure (good0 h)

theorem wp_skip (tt : TT) (htt : tt ≠ .eof) (st : St) (p : PS) (hp : p.Valid) (hc : p.cursor.tt = tt) :
    Wp (stSkip tt) p (Good st p) := by
  unfold stSkip
  have h1 : Ext p p.adv 1 := adv_ext1 (by simp_all)
  refine wp_adv_bind hp fun _ => ?_
  refine wp_safe (safe_loop ?_ _) h1.valid fun _ p2 _ h2 => wp_pure (good1 (h1.trans h2))
  intro _ q hq
  refine wp_cursor_bind hq ?_
  split
  · rename_i h
    exact wp_adv_bind hq fun _ => wp_pure (adv_ext1 (by rw [h]; exact htt))
  · exact wp_pure hq.ext

theorem wp_metaLine_bind {β : Type} {f : Token × Token → P β} {p : PS} {Q : β → PS → Prop} (hp : p.Valid)
    (h : ∀ s p', Ext p p' 1 → Wp (f s) p' Q) : Wp (metaLine >>= f) p Q :=
  wp_safe safe_metaLine hp fun s p' _ he => h s p' he

/-- Annotations: `[]` and nothing consumed exactly when no `@ word` starts here. -/
theorem parseAnnotations_at {p : PS} (hp : p.Valid) (ha : p.cursor.tt = .at_) :
    Wp parseAnnotations p fun anns p' => Ext p p' 1 ∨ (AtStuck p ∧ anns = [] ∧ p' = p) := by
  unfold parseAnnotations Wp
  rw [loop_cons]
  have hc : p.cursor.tt ≠ .eof := by simp [ha]
  by_cases hw : ({ p with pos := p.pos + 1 } : PS).cursor.tt = .word
  · -- an annotation is there: whatever follows, the loop is safe and has consumed something
    change Wp _ p _
    have hbody : ∀ s q, q.Valid → Wp ((fun (anns : List AnnNode) => (do
        let r ← attempt (match_ [.at_, .word])
        match r with
        | .error _ => pure (.inr anns)
        | .ok ms =>
          let m1 ← nth ms 1
          if anns.any (fun a => a.annType.val = m1.val) then
            fail (.msg ("duplicate annotation type: ".toList ++ m1.val))
          else
            let c ← cursor
            if c.tt ≠ .colon then pure (.inl (anns ++ [{ annType := m1 }]))
            else
              let _ ← advance
              let c ← cursor
              let value := if c.tt = .word then some c else none
              let c ← cursor
              if c.tt = .quote then
                let v ← expectStringValue
                let _ ← advance
                pure (.inl (anns ++ [{ annType := m1, value := some v }]))
              else
                let _ ← advance
                pure (.inl (anns ++ [{ annType := m1, value := value }])) :
          P (List AnnNode ⊕ List AnnNode))) s) q fun r q' => match r with
      | .inl _ => Ext q q' 1
      | .inr _ => q' = q ∧ ∃ e, match_ [.at_, .word] q = (.err e, q) := by
      intro s q hq
      refine wp_bind (wp_attempt ?_ ?_)
      · refine wp_match hq (by decide) (by decide) fun ms q1 hl h1 => ⟨h1.weaken (by omega), ?_⟩
        have h1 : Ext q q1 2 := h1
        refine wp_nth_bind h1.valid (by simp [hl]) fun t => ?_
        split
        · exact wp_fail h1.valid
        · refine wp_cursor_bind h1.valid ?_
          split
          · exact wp_pure (h1.weaken (by omega))
          · refine wp_adv_bind h1.valid fun _ => ?_
            have h2 := adv_ext h1.valid
            refine wp_cursor_bind h2.valid (wp_cursor_bind h2.valid ?_)
            split
            · refine wp_safe safe_expectStringValue h2.valid fun _ q3 _ h3 => ?_
              refine wp_adv_bind h3.valid fun _ => wp_pure ?_
              exact (((h1.trans h2).trans h3).trans (adv_ext h3.valid)).weaken (by omega)
            · refine wp_adv_bind h2.valid fun _ => wp_pure ?_
              exact ((h1.trans h2).trans (adv_ext h2.valid)).weaken (by omega)
      · intro e q' hm
        have := match_err hq (by decide) (by decide) hm
        subst this
        exact ⟨hq.ext, wp_pure ⟨rfl, e, hm⟩⟩
    refine wp_bind (m := _) (f := _) ?_
    refine (hbody [] p hp).mono ?_
    intro r p1 h
    cases r with
    | inr a =>
      obtain ⟨_, e, hm⟩ := h
      exfalso
      have : match_ [.at_, .word] p = (.ok [p.cursor, ({ p with pos := p.pos + 1 } : PS).cursor],
          { p with pos := p.pos + 1 + 1 }) := by
        unfold match_ matchLoop
        rw [bind_ok (cursor_eq p), if_pos ha, bind_ok (advance_eq hc)]
        unfold matchLoop
        rw [bind_ok (cursor_eq _), if_pos hw, bind_ok (advance_eq (by rw [hw]; decide))]
        rfl
      rw [this] at hm
      simp at hm
    | inl s =>
      simp only at h
      refine ⟨h.weaken (by omega), ?_⟩
      refine (wp_loopN (Inv := fun _ _ => True) (Q := fun _ _ => True) ?_ _ s p1 h.valid trivial ?_).mono
        (fun _ _ he => Or.inl ((h.trans he.1).weaken (by omega)))
      · intro s q hq _
        refine (hbody s q hq).mono ?_
        intro r q' h
        cases r with
        | inl => exact ⟨h, trivial⟩
        | inr => exact ⟨by rw [h.1]; exact hq.ext, trivial⟩
      · have := h.pos; have := cursor_lt hc; rw [h.tokens]; omega
  · have hm : match_ [.at_, .word] p =
        (.err (.expecting .word ({ p with pos := p.pos + 1 } : PS).cursor), p) := by
      unfold match_ matchLoop
      rw [bind_ok (cursor_eq p), if_pos ha, bind_ok (advance_eq hc)]
      unfold matchLoop
      rw [bind_ok (cursor_eq _), if_neg hw, if_neg (by decide), if_pos (by decide)]
      have : rewind (0 + 1) { p with pos := p.pos + 1 } = (.ok true, p) := by
        unfold rewind; rw [if_neg (by simp)]; simp
      rw [bind_ok this]; rfl
    have ham : attempt (match_ [.at_, .word]) p = (.ok (.error (.expecting .word ({ p with pos := p.pos + 1 } : PS).cursor)), p) := by
      unfold attempt; rw [hm]
    have : ∀ f : Except PErr (List Token) → P (List AnnNode ⊕ List AnnNode),
        (∀ e, f (.error e) = pure (.inr [])) → (attempt (match_ [.at_, .word]) >>= f) p = (.ok (.inr []), p) := by
      intro f hf; rw [bind_ok ham, hf]; rfl
    unfold P.bind
    rw [this _ (fun e => rfl)]
    exact Or.inr ⟨⟨ha, hw⟩, rfl, rfl⟩

theorem safe_outputStream : Safe 0 outputStream := by
  intro p hp
  refine wp_try_match hp (h1 := fun ms p1 hl h1 => ?_) (h2 := fun _ => wp_pure hp.ext)
  refine wp_nth_bind h1.valid (by simp [hl]) fun t => ?_
  split
  · exact wp_pure (h1.weaken (by omega))
  · exact wp_fail h1.valid

theorem safe_methodOutputs (mn : MethodNode) : Safe 0 (methodOutputs mn) := by
  intro p hp
  refine wp_try_match hp (h1 := fun ms p1 hl h1 => ?_) (h2 := fun _ => wp_pure hp.ext)
  refine wp_safe safe_outputStream h1.valid fun _ p2 _ h2 => ?_
  refine wp_safe safe_expectArgumentList h2.valid fun _ p3 _ h3 => wp_pure ?_
  exact ((h1.trans h2).trans h3).weaken (by omega)

theorem safe_methodErrors (mn : MethodNode) : Safe 0 (methodErrors mn) := by
  intro p hp
  refine wp_try_match hp (h1 := fun ms p1 hl h1 => ?_) (h2 := fun _ => wp_pure hp.ext)
  refine wp_nth_bind h1.valid (by simp [hl]) fun t => ?_
  split
  · refine wp_safe safe_expectErrorList h1.valid fun _ p2 _ h2 => wp_pure ?_
    exact (h1.trans h2).weaken (by omega)
  · exact wp_pure (h1.weaken (by omega))

theorem safe_prefixedName (b : Bool) (t : Token) : Safe 0 (prefixedName b t) := by
  intro p hp
  unfold prefixedName
  split
  · refine wp_match_bind hp (h := fun ms p1 hl h1 => ?_)
    exact wp_nth (by simp [hl]) fun t => h1.weaken (by omega)
  · exact wp_pure hp.ext

theorem good_import (p : PS) (hp : p.Valid) : Wp stImport p (Good .import_ p) := by
  unfold stImport
  refine wp_bind (wp_attempt ?_ ?_)
  · refine wp_match hp (by decide) (by decide) fun ms p1 hl h1 => ⟨h1.weaken (by omega), ?_⟩
    refine wp_nth_bind h1.valid (by simp [hl]) fun t => ?_
    split
    · exact wp_fail h1.valid
    · exact wp_pure (good1 h1 (by decide))
  · intro e p1 hm
    have h1 : Ext p p1 0 := by
      refine wp_err_ext (Q := fun _ _ => True) ?_ hm
      exact wp_match hp (by decide) (by decide) fun _ _ _ _ => trivial
    refine ⟨h1, ?_⟩
    refine wp_match_bind h1.valid (h := fun ms p2 hl h2 => ?_)
    refine wp_safe safe_expectPath h2.valid fun _ p3 _ h3 => wp_pure ?_
    exact good1 ((h1.trans h2).trans h3)

theorem good_methodDef (n : ServiceNode) (p : PS) (hp : p.Valid) :
    Wp (stMethodDef n) p (Good (.methodDef n) p) := by
  unfold stMethodDef
  split
  · exact wp_fail hp
  · refine wp_match_bind hp (h := fun ms p1 hl h1 => ?_)
    have h1 : Ext p p1 2 := h1
    refine wp_nth_bind h1.valid (by simp [hl]) fun m0 => ?_
    refine wp_nth_bind h1.valid (by simp [hl]) fun m2 => ?_
    refine wp_safe (safe_prefixedName _ _) h1.valid fun _ p2 _ h2 => ?_
    refine wp_safe (safe_prefixedName _ _) h2.valid fun _ p3 _ h3 => ?_
    refine wp_tc_bind h3.valid fun c p4 h4 => ?_
    have h5 := ((h1.trans h2).trans h3).trans h4
    simp only
    split
    · exact wp_pure (good1 h5)
    · refine wp_safe safe_expectArgumentList h4.valid fun _ p5 _ h6 => ?_
      refine wp_safe (safe_methodOutputs _) h6.valid fun _ p6 _ h7 => ?_
      refine wp_safe (safe_methodErrors _) h7.valid fun _ p7 _ h8 => wp_pure ?_
      exact good1 (((h5.trans h6).trans h7).trans h8)

/-- Every transition is good. -/
theorem good_step (st : St) (p : PS) (hp : p.Valid) (hs : StOK p st) : Wp (step st) p (Good st p) := by
  cases st with
  | default =>
    refine wp_cursor_bind hp ?_
    split
    · exact wp_pure (good0 hp.ext (hs := by assumption))
    · exact wp_pure (good0 hp.ext (hs := by assumption))
    · exact wp_pure (good0 hp.ext)
    · exact wp_pure (good0 hp.ext (hs := by assumption))
    · exact wp_pure (good0 hp.ext)
    · exact wp_fail hp
  | space => exact wp_skip _ (by decide) _ p hp hs
  | newLine => exact wp_skip _ (by decide) _ p hp hs
  | declaration =>
    refine wp_cursor_bind hp ?_
    repeat' split
    all_goals first
      | exact wp_fail hp
      | exact wp_pure (good0 hp.ext)
  | comment => exact wp_bind ((continueUntilEOL_hash hp hs).mono fun _ p' h => ⟨h.weaken (by omega), wp_pure (good1 h)⟩)
  | eof => exact rfl
  | eol => exact wp_safe safe_expectEOL hp fun _ p' _ h => wp_pure (good0 h)
  | continue_ =>
    refine wp_bind (wp_advance ⟨adv_ext hp, ?_⟩)
    split
    · rename_i h
      refine wp_pure (good1 (k := 1) ?_)
      unfold PS.adv
      simp at h
      rw [if_neg (by omega)]
      exact ⟨rfl, by simp, by simp; omega, .refl _⟩
    · exact wp_pure (good0 (adv_ext hp))
  | definition =>
    refine wp_match_bind hp (h := fun ms p1 hl h1 => ?_)
    refine wp_nth_bind h1.valid (by simp [hl]) fun t => ?_
    refine wp_tc_bind h1.valid fun c p2 h2 => wp_pure (good1 (h1.trans h2) (by decide))
  | definitionValue dn =>
    exact wp_safe safe_expectLiteralValue hp fun _ p' _ h => wp_pure (good1 h)
  | import_ => exact good_import p hp
  | importValue =>
    refine wp_cursor_bind hp ?_
    split
    · exact wp_adv_bind hp fun _ => wp_pure (good1 (adv_ext1 (by simp_all)))
    · exact wp_adv_bind hp fun _ => wp_pure (good1 (adv_ext1 (by simp_all)))
    · refine wp_match_bind hp (h := fun ms p1 hl h1 => ?_)
      exact wp_safe safe_expectPath h1.valid fun _ p2 _ h2 => wp_pure (good1 (h1.trans h2))
    · rename_i h
      exact wp_bind ((continueUntilEOL_hash hp h).mono fun _ p' h => ⟨h.weaken (by omega), wp_pure (good1 h)⟩)
    · exact wp_pure (good0 hp.ext)
  | importMembers n =>
    refine wp_cursor_bind hp ?_
    split
    · exact wp_adv_bind hp fun _ => wp_pure (good1 (adv_ext1 (by simp_all)))
    · exact wp_adv_bind hp fun _ => wp_pure (good1 (adv_ext1 (by simp_all)))
    · refine wp_match_bind hp (h := fun ms p1 hl h1 => ?_)
      exact wp_safe safe_expectLiteralValue h1.valid fun _ p2 _ h2 => wp_pure (good1 (h1.trans h2))
    · rename_i h
      exact wp_bind ((continueUntilEOL_hash hp h).mono fun _ p' h => ⟨h.weaken (by omega), wp_pure (good1 h)⟩)
    · exact wp_pure (good0 hp.ext)
  | error =>
    refine wp_match_bind hp (h := fun ms p1 hl h1 => ?_)
    refine wp_nth_bind h1.valid (by simp [hl]) fun t => ?_
    split
    · exact wp_fail h1.valid
    · refine wp_nth_bind h1.valid (by simp [hl]) fun t => ?_
      split
      · exact wp_fail h1.valid
      · refine wp_nth_bind h1.valid (by simp [hl]) fun t => wp_pure (good1 h1 (by decide))
  | errorMessage n =>
    refine wp_cursor_bind hp ?_
    split
    · exact wp_safe safe_expectStringValue hp fun _ p' _ h => wp_pure (good1 h)
    · exact wp_adv_bind hp fun _ => wp_pure (good1 (adv_ext1 (by simp_all)))
    · exact wp_fail hp
  | errorStatus n => exact good_errorStatus n p hp
  | enum =>
    refine wp_match_bind hp (h := fun ms p1 hl h1 => ?_)
    refine wp_nth_bind h1.valid (by simp [hl]) fun t => ?_
    split
    · exact wp_fail h1.valid
    · refine wp_nth_bind h1.valid (by simp [hl]) fun t => ?_
      refine wp_nth_bind h1.valid (by simp [hl]) fun t => ?_
      exact wp_tc_bind h1.valid fun c p2 h2 => wp_pure (good1 (h1.trans h2) (by decide))
  | enumDef n =>
    refine wp_cursor_bind hp ?_
    split
    · refine wp_match_bind hp (h := fun ms p1 hl h1 => ?_)
      refine wp_nth_bind h1.valid (by simp [hl]) fun t => ?_
      refine wp_nth_bind h1.valid (by simp [hl]) fun t => ?_
      exact wp_tc_bind h1.valid fun c p2 h2 => wp_pure (good1 (h1.trans h2) (by decide))
    · exact wp_adv_bind hp fun _ => wp_pure (good1 (adv_ext1 (by simp_all)))
    · exact wp_adv_bind hp fun _ => wp_pure (good1 (adv_ext1 (by simp_all)))
    · rename_i h
      exact wp_bind ((continueUntilEOL_hash hp h).mono fun _ p' h => ⟨h.weaken (by omega), wp_pure (good1 h)⟩)
    · exact wp_pure (good0 hp.ext)
  | enumValue n dn =>
    refine wp_try_match hp (h1 := fun ms p1 hl h1 => ?_) (h2 := fun _ => wp_pure (good0 hp.ext))
    refine wp_safe safe_expectLiteralValue h1.valid fun _ p2 _ h2 => ?_
    exact wp_tc_bind h2.valid fun c p3 h3 => wp_pure (good1 ((h1.trans h2).trans h3))
  | typeAlias =>
    refine wp_match_bind hp (h := fun ms p1 hl h1 => ?_)
    refine wp_nth_bind h1.valid (by simp [hl]) fun t => ?_
    split
    · exact wp_fail h1.valid
    · refine wp_safe safe_expectType h1.valid fun _ p2 _ h2 => ?_
      refine wp_nth_bind h2.valid (by simp [hl]) fun t => ?_
      exact wp_tc_bind h2.valid fun c p3 h3 => wp_pure (good1 ((h1.trans h2).trans h3))
  | aliasMeta n =>
    refine wp_cursor_bind hp ?_
    split
    · exact wp_adv_bind hp fun _ => wp_pure (good1 (adv_ext1 (by simp_all)))
    · exact wp_adv_bind hp fun _ => wp_pure (good1 (adv_ext1 (by simp_all)))
    · rename_i h
      exact wp_bind ((continueUntilEOL_hash hp h).mono fun _ p' h => ⟨h.weaken (by omega), wp_pure (good1 h)⟩)
    · exact wp_pure (good0 hp.ext)
    · exact wp_pure (good0 hp.ext)
  | aliasMetaDef n => exact wp_metaLine_bind hp fun _ p' h => wp_pure (good1 h)
  | struct =>
    refine wp_match_bind hp (h := fun ms p1 hl h1 => ?_)
    refine wp_nth_bind h1.valid (by simp [hl]) fun t => ?_
    split
    · exact wp_fail h1.valid
    · refine wp_nth_bind h1.valid (by simp [hl]) fun t => ?_
      exact wp_tc_bind h1.valid fun c p2 h2 => wp_pure (good1 (h1.trans h2) (by decide))
  | structField n =>
    refine wp_cursor_bind hp ?_
    split
    · exact wp_adv_bind hp fun _ => wp_pure (good1 (adv_ext1 (by simp_all)))
    · exact wp_adv_bind hp fun _ => wp_pure (good1 (adv_ext1 (by simp_all)))
    · rename_i h
      exact wp_bind ((continueUntilEOL_hash hp h).mono fun _ p' h => ⟨h.weaken (by omega), wp_pure (good1 h)⟩)
    · exact wp_pure (good0 hp.ext)
    · exact wp_pure (good0 hp.ext)
  | fieldMeta n =>
    refine wp_cursor_bind hp ?_
    split
    · exact wp_adv_bind hp fun _ => wp_pure (good1 (adv_ext1 (by simp_all)) (hs := hs))
    · exact wp_adv_bind hp fun _ => wp_pure (good1 (adv_ext1 (by simp_all)) (hs := hs))
    · rename_i h
      exact wp_bind ((continueUntilEOL_hash hp h).mono fun _ p' h => ⟨h.weaken (by omega), wp_pure (good1 h (hs := hs))⟩)
    · exact wp_pure (good0 hp.ext (hs := hs))
    · exact wp_pure (good0 hp.ext)
  | fieldMetaDef n =>
    change Wp (stFieldMetaDef n) p _
    unfold stFieldMetaDef
    split
    · rename_i h
      rw [List.getLast?_eq_none_iff] at h
      exact absurd h hs
    · exact wp_metaLine_bind hp fun _ p' h => wp_pure (good1 h (hs := by simp [StOK]))
  | fieldDef n =>
    refine wp_match_bind hp (h := fun ms p1 hl h1 => ?_)
    refine wp_nth_bind h1.valid (by simp [hl]) fun t => ?_
    refine wp_nth_bind h1.valid (by simp [hl]) fun t => ?_
    refine wp_tc_bind h1.valid fun c p2 h2 => ?_
    have h1 : Ext p p1 2 := h1
    refine wp_try_match h2.valid (h1 := fun ms p3 hl h3 => ?_) (h2 := fun _ => ?_)
    · refine wp_match_bind h3.valid (h := fun ms p4 hl h4 => ?_)
      refine wp_safe safe_expectType h4.valid fun _ p5 _ h5 => wp_pure ?_
      exact good1 ((((h1.trans h2).trans h3).trans h4).trans h5) (hs := by simp [StOK])
    · refine wp_match_bind h2.valid (h := fun ms p4 hl h4 => ?_)
      refine wp_safe safe_expectType h4.valid fun _ p5 _ h5 => wp_pure ?_
      exact good1 (((h1.trans h2).trans h4).trans h5) (hs := by simp [StOK])
  | service =>
    refine wp_match_bind hp (h := fun ms p1 hl h1 => ?_)
    refine wp_nth_bind h1.valid (by simp [hl]) fun t => ?_
    split
    · exact wp_fail h1.valid
    · refine wp_safe safe_expectLiteralValue h1.valid fun _ p2 _ h2 => ?_
      refine wp_safe safe_expectEOL h2.valid fun _ p3 _ h3 => ?_
      exact wp_tc_bind h3.valid fun c p4 h4 => wp_pure (good1 (((h1.trans h2).trans h3).trans h4))
  | serviceMethod n =>
    refine wp_cursor_bind hp ?_
    split
    · exact wp_adv_bind hp fun _ => wp_pure (good1 (adv_ext1 (by simp_all)))
    · exact wp_adv_bind hp fun _ => wp_pure (good1 (adv_ext1 (by simp_all)))
    · rename_i h
      refine wp_bind ((parseAnnotations_at hp h).mono fun anns p' h => ?_)
      rcases h with h | ⟨h1, rfl, rfl⟩
      · exact ⟨h.weaken (by omega), wp_pure (good1 h)⟩
      · refine ⟨hp.ext, wp_pure ⟨hp.ext, trivial, Or.inr (Or.inr ⟨h1, rfl, ?_, n, rfl⟩)⟩⟩
        simp
    · rename_i h
      exact wp_bind ((continueUntilEOL_hash hp h).mono fun _ p' h => ⟨h.weaken (by omega), wp_pure (good1 h)⟩)
    · exact wp_pure (good0 hp.ext)
    · exact wp_pure (good0 hp.ext)
  | methodDef n => exact good_methodDef n p hp

end Verif.Ridl
