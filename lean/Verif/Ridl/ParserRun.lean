import Verif.Ridl.ParserTerm

/-! Runs of the parser: termination, panics, cursor range. -/

namespace Verif.Ridl

/-- `Reaches st0 p0 st p`: the parser gets from state `st0`/`p0` to `st`/`p` by state transitions. -/
inductive Reaches (st0 : St) (p0 : PS) : St → PS → Prop
  | start : Reaches st0 p0 st0 p0
  | next {st st' : St} {p p' : PS} {em : List Node} (h : Reaches st0 p0 st p)
      (hs : step st p = (.ok (.goto st' em), p')) : Reaches st0 p0 st' p'

theorem Reaches.head {st0 st1 st : St} {p0 p1 p : PS} {em : List Node}
    (hs : step st0 p0 = (.ok (.goto st1 em), p1)) (h : Reaches st1 p1 st p) : Reaches st0 p0 st p := by
  induction h with
  | start => exact .next .start hs
  | next _ hs' ih => exact .next ih hs'

theorem step_cases (st : St) (p : PS) (hp : p.Valid) (hs : StOK p st) :
    (∃ p', step st p = (.ok .done, p')) ∨
    (∃ st' em p', step st p = (.ok (.goto st' em), p') ∧ Good st p (.goto st' em) p') ∨
    (∃ e p', step st p = (.err e, p') ∧ Ext p p' 0) := by
  have h := good_step st p hp hs
  unfold Wp at h
  rcases hm : step st p with ⟨o, p'⟩
  rw [hm] at h
  cases o with
  | ok r =>
    cases r with
    | done => exact Or.inl ⟨p', rfl⟩
    | goto st' em => exact Or.inr (Or.inl ⟨st', em, p', rfl, h⟩)
  | err e => exact Or.inr (Or.inr ⟨e, p', rfl, h⟩)
  | panic => exact h.elim
  | hang => exact h.elim

theorem Reaches.ok {st0 st : St} {p0 p : PS} (h : Reaches st0 p0 st p) (hp : p0.Valid)
    (hs : StOK p0 st0) : Ext p0 p 0 ∧ StOK p st := by
  induction h with
  | start => exact ⟨hp.ext, hs⟩
  | next _ hstep ih =>
    obtain ⟨h1, h2⟩ := ih
    rcases step_cases _ _ h1.valid h2 with ⟨p', hm⟩ | ⟨st', em, p', hm, hg⟩ | ⟨e, p', hm, _⟩
    · rw [hm] at hstep; simp at hstep
    · rw [hm] at hstep
      simp only [Prod.mk.injEq, Out.ok.injEq, Step.goto.injEq] at hstep
      obtain ⟨⟨rfl, rfl⟩, rfl⟩ := hstep
      exact ⟨h1.trans hg.1, hg.2.1⟩
    · rw [hm] at hstep; simp at hstep

/-- Cursor at or after the start, in the same tokens: what an error reports. -/
theorem run_cases (fuel : Nat) (st : St) (p : PS) (nodes : List Node) (hp : p.Valid) (hs : StOK p st) :
    (∃ l, runN fuel st p nodes = .ok l) ∨
    (∃ e q, runN fuel st p nodes = .err q.cursor.line q.cursor.col q.cursor.val e ∧ Ext p q 0) ∨
    (runN fuel st p nodes = .outOfFuel ∧
      (8 * (p.tokens.length - p.pos) + rank st < fuel →
        ∃ n q, Reaches st p (.serviceMethod n) q ∧ AtStuck q)) := by
  induction fuel generalizing st p nodes with
  | zero => exact Or.inr (Or.inr ⟨rfl, by omega⟩)
  | succ fuel ih =>
    unfold runN
    rcases step_cases st p hp hs with ⟨p', hm⟩ | ⟨st', em, p', hm, hg⟩ | ⟨e, p', hm, he⟩
    · rw [hm]; exact Or.inl ⟨_, rfl⟩
    · rw [hm]
      simp only
      obtain ⟨h1, h2, h3⟩ := hg
      rcases ih st' p' (nodes ++ em) h1.valid h2 with h | ⟨e, q, h, hq⟩ | ⟨h, hr⟩
      · exact Or.inl h
      · exact Or.inr (Or.inl ⟨e, q, h, h1.trans hq⟩)
      · refine Or.inr (Or.inr ⟨h, fun hf => ?_⟩)
        rcases h3 with h3 | h3 | ⟨h3, _, rfl, n, rfl⟩
        · have hlt : rank st' ≤ 6 := by cases st' <;> simp [rank]
          obtain ⟨n, q, g1, g2⟩ := hr (by have := h3.pos; have := h3.le; rw [h3.tokens] at *; omega)
          exact ⟨n, q, .head hm g1, g2⟩
        · obtain ⟨n, q, g1, g2⟩ := hr (by have := h1.pos; have := h1.le; rw [h1.tokens] at *; omega)
          exact ⟨n, q, .head hm g1, g2⟩
        · exact ⟨n, p, .start, h3⟩
    · rw [hm]; exact Or.inr (Or.inl ⟨e, p', rfl, he⟩)

/-- More fuel does not change a result. -/
theorem run_mono (fuel k : Nat) (st : St) (p : PS) (nodes : List Node) (r : ParseResult)
    (h : runN fuel st p nodes = r) (hr : r ≠ .outOfFuel) : runN (fuel + k) st p nodes = r := by
  induction fuel generalizing st p nodes with
  | zero => exact absurd h.symm hr
  | succ fuel ih =>
    rw [Nat.succ_add]
    unfold runN at h ⊢
    rcases hm : step st p with ⟨o, p'⟩
    rw [hm] at h
    cases o with
    | ok s =>
      cases s with
      | done => exact h
      | goto st' em => exact ih _ _ _ h
    | err e => exact h
    | panic => exact h
    | hang => exact h

theorem run_step {fuel : Nat} {st st' : St} {p p' : PS} {nodes em : List Node}
    (hm : step st p = (.ok (.goto st' em), p')) :
    runN (fuel + 1) st p nodes = runN fuel st' p' (nodes ++ em) := by
  conv => lhs; unfold runN
  rw [hm]

/-- At a stray `@` the parser stays where it is. -/
theorem stuck_step (n : ServiceNode) (p : PS) (h : AtStuck p) :
    step (.serviceMethod n) p = (.ok (.goto (.serviceMethod n) []), p) := by
  have hm : match_ [.at_, .word] p =
      (.err (.expecting .word ({ p with pos := p.pos + 1 } : PS).cursor), p) := by
    have hc : p.cursor.tt ≠ .eof := by simp [h.1]
    unfold match_ matchLoop
    rw [bind_ok (cursor_eq p), if_pos h.1, bind_ok (advance_eq hc)]
    unfold matchLoop
    rw [bind_ok (cursor_eq _), if_neg h.2, if_neg (by decide), if_pos (by decide)]
    have : rewind (0 + 1) { p with pos := p.pos + 1 } = (.ok true, p) := by
      unfold rewind; rw [if_neg (by simp)]; simp
    rw [bind_ok this]; rfl
  have ha : parseAnnotations p = (.ok [], p) := by
    unfold parseAnnotations
    rw [loop_cons]
    unfold P.bind
    rw [bind_ok (attempt_err hm)]
    rfl
  change stServiceMethod n p = _
  unfold stServiceMethod
  rw [bind_ok (cursor_eq p)]
  simp only [h.1]
  rw [bind_ok ha]
  simp [pure, P.pure]

theorem stuck_run (fuel : Nat) (n : ServiceNode) (p : PS) (nodes : List Node)
    (h : AtStuck p) : runN fuel (.serviceMethod n) p nodes = .outOfFuel := by
  induction fuel generalizing nodes with
  | zero => rfl
  | succ fuel ih => rw [run_step (stuck_step n p h)]; exact ih _

theorem reaches_run {st0 st : St} {p0 p : PS} (h : Reaches st0 p0 st p) (nodes : List Node) :
    ∃ k nodes', ∀ fuel, runN (fuel + k) st0 p0 nodes = runN fuel st p nodes' := by
  induction h with
  | start => exact ⟨0, nodes, fun _ => rfl⟩
  | @next _ _ _ _ em _ hs ih =>
    obtain ⟨k, nodes', h⟩ := ih
    refine ⟨k + 1, nodes' ++ em, fun fuel => ?_⟩
    rw [show fuel + (k + 1) = (fuel + 1) + k by omega, h, run_step hs]

/-- If a stray `@` is reached the parser never ends. -/
theorem stuck_forever {st0 : St} {p0 p : PS} {n : ServiceNode} (h : Reaches st0 p0 (.serviceMethod n) p)
    (ha : AtStuck p) (nodes : List Node) (fuel : Nat) :
    runN fuel st0 p0 nodes = .outOfFuel := by
  obtain ⟨k, nodes', hk⟩ := reaches_run h nodes
  have hall : runN (fuel + k) st0 p0 nodes = .outOfFuel := by
    rw [hk]; exact stuck_run _ _ _ _ ha
  refine Classical.byContradiction fun hne => ?_
  have := run_mono fuel k st0 p0 nodes _ rfl hne
  rw [hall] at this
  exact hne this.symm

/-- State after `k` transitions. -/
def stateAfter : Nat → St → PS → Option (St × PS)
  | 0, st, p => some (st, p)
  | k + 1, st, p =>
    match step st p with
    | (.ok (.goto st' _), p') => stateAfter k st' p'
    | _ => none

theorem stateAfter_reaches (k : Nat) (st st' : St) (p p' : PS) (h : stateAfter k st p = some (st', p')) :
    Reaches st p st' p' := by
  induction k generalizing st p with
  | zero =>
    simp only [stateAfter, Option.some.injEq, Prod.mk.injEq] at h
    obtain ⟨rfl, rfl⟩ := h
    exact .start
  | succ k ih =>
    unfold stateAfter at h
    split at h
    · rename_i hs
      exact .head hs (ih _ _ h)
    · simp at h

/-- Is the parser at a stray `@` after `k` transitions? -/
def stuckAfter (k : Nat) (src : Str) : Bool :=
  match newParser src with
  | none => false
  | some p =>
    match stateAfter k .default p with
    | some (.serviceMethod _, q) =>
      decide (q.cursor.tt = .at_) && decide (({ q with pos := q.pos + 1 } : PS).cursor.tt ≠ .word)
    | _ => false

theorem stuckAfter_hangs (k : Nat) (src : Str) (h : stuckAfter k src = true) (fuel : Nat) :
    parseN fuel src = .outOfFuel := by
  unfold stuckAfter at h
  unfold parseN
  split at h
  · simp at h
  · rename_i p hp
    rw [hp]
    split at h
    · rename_i n q hs
      simp only [Bool.and_eq_true, decide_eq_true_eq] at h
      exact stuck_forever (stateAfter_reaches k _ _ _ _ hs) h [] fuel
    · simp at h

end Verif.Ridl
