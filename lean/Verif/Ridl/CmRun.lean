import Verif.Ridl.CmStates
import Verif.Ridl.SimRun

/-! # Whole parses of two documents that differ in one comment (for C110) -/

namespace Verif.Ridl.Cm
open Verif.Schema hiding Str
open Verif.Spec.Uncommented

variable {c : Ctx}

theorem run_rel : ∀ fuel s s' p q ns ns', StRel s s' → PRel c p q → p.Valid → StOK p s → (s = .continue_ → p.cursor.tt ≠ .hash) →
    q.Valid → StOK q s' → Pointwise NodeRel ns ns' → ∀ ms, runN fuel s p ns = .ok ms →
    ∃ ms', runN fuel s' q ns' = .ok ms' ∧ Pointwise NodeRel ms ms' := by
  intro fuel
  induction fuel with
  | zero => intro s s' p q ns ns' _ _ _ _ _ _ _ _ ms h; simp [runN] at h
  | succ fuel ih =>
    intro s s' p q ns ns' hs h hp hok hcont hq hok' hns ms hrun
    unfold runN at hrun
    have hsim := sim_step hs h hok hcont
    have hq' := step_cases s' q hq hok'
    rcases step_cases s p hp hok with ⟨p', hm⟩ | ⟨st, em, p', hm, hg⟩ | ⟨e, p', hm, he⟩
    · rw [hm] at hrun
      cases hrun
      rcases hsim _ _ hm with ⟨q', hh⟩ | ⟨b, q', hb, -, hrel⟩
      · rcases hq' with ⟨_, h1⟩ | ⟨_, _, _, h1, -⟩ | ⟨_, _, h1, -⟩ <;> · rw [hh] at h1; cases h1
      · cases b with
        | done => exact ⟨ns', by unfold runN; rw [hb], hns⟩
        | goto _ _ => exact hrel.elim
    · rw [hm] at hrun
      simp only at hrun
      rcases hsim _ _ hm with ⟨q', hh⟩ | ⟨b, q', hb, h2, hrel⟩
      · rcases hq' with ⟨_, h1⟩ | ⟨_, _, _, h1, -⟩ | ⟨_, _, h1, -⟩ <;> · rw [hh] at h1; cases h1
      · cases b with
        | done => exact hrel.elim
        | goto st' em' =>
          obtain ⟨hs2, hem, hc2⟩ := hrel
          have hgq : Good s' q (.goto st' em') q' := by
            rcases hq' with ⟨_, h1⟩ | ⟨_, _, _, h1, hg'⟩ | ⟨_, _, h1, -⟩
            · rw [hb] at h1; cases h1
            · rw [hb] at h1; cases h1; exact hg'
            · rw [hb] at h1; cases h1
          rw [run_step hb]
          exact ih st st' p' q' _ _ hs2 h2 hg.1.valid hg.2.1 hc2 hgq.1.valid hgq.2.1 (Pointwise.app hns hem) ms hrun
    · rw [hm] at hrun; cases hrun

/-- Two documents whose tokens differ in one comment: if the first one is accepted so is the other one, with the same declarations. -/
theorem parse_rel {src src' : Str} {p q : PS} (hp : newParser src = some p) (hq : newParser src' = some q) (h : PRel c p q)
    (hvp : p.Valid) (hvq : q.Valid) {ds : List Node} (hd : parseDoc src = .ok ds) : ∃ ds', parseDoc src' = .ok ds' ∧ SameDecls ds ds' := by
  unfold parseDoc at hd ⊢
  rw [hp] at hd
  rw [hq]
  simp only at hd ⊢
  obtain ⟨ms, hm, hrel⟩ := run_rel _ .default .default p q [] [] .default h hvp trivial nofun hvq trivial .nil ds hd
  rcases run_cases (bound q) .default q [] hvq trivial with ⟨l, hl⟩ | ⟨e, r, hr, -⟩ | ⟨ho, hx⟩
  · rw [run_agree hm (by nofun) (by rw [hl]; nofun)]
    exact ⟨_, rfl, hrel⟩
  · rw [run_agree hm (by nofun) (by rw [hr]; nofun)]
    exact ⟨_, rfl, hrel⟩
  · obtain ⟨n, r, h1, h2⟩ := hx (by have : rank .default = 3 := rfl; unfold bound; omega)
    rw [stuck_forever h1 h2] at hm
    cases hm

end Verif.Ridl.Cm
