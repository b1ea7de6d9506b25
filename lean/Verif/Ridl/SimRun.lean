import Verif.Ridl.SimStates

/-! # Two parsers on related tokens: whole runs (for C98) -/

namespace Verif.Ridl
open Verif.Spec Verif.Schema

variable {c : Ctx}

/-- After some steps the parser is in `s'`, at `p'`, with the declarations `ns'`. -/
def Goes (s : St) (p : PS) (ns : List Node) (s' : St) (p' : PS) (ns' : List Node) : Prop :=
  ∃ k, ∀ fuel, runN (fuel + k) s p ns = runN fuel s' p' ns'

theorem Goes.refl (s : St) (p : PS) (ns : List Node) : Goes s p ns s p ns := ⟨0, fun _ => rfl⟩

theorem Goes.trans {s1 s2 s3 : St} {p1 p2 p3 : PS} {n1 n2 n3 : List Node} (h : Goes s1 p1 n1 s2 p2 n2) (h' : Goes s2 p2 n2 s3 p3 n3) :
    Goes s1 p1 n1 s3 p3 n3 := by
  obtain ⟨k, hk⟩ := h
  obtain ⟨j, hj⟩ := h'
  refine ⟨j + k, fun fuel => ?_⟩
  rw [← Nat.add_assoc, hk, hj]

theorem Goes.step {s s' : St} {p p' : PS} {ns em : List Node} (h : step s p = (.ok (.goto s' em), p')) :
    Goes s p ns s' p' (ns ++ em) := ⟨1, fun _ => run_step h⟩

/-- The declaration that is still open in a state. -/
def pending : St → List Node
  | .importMembers n => [.import_ n]
  | .enumDef n => [.enum n]
  | .aliasMeta n => [.alias n]
  | .structField n => [.struct n]
  | .fieldMeta n => [.struct n]
  | .serviceMethod n => [.service n]
  | _ => []

theorem pending_rel {s s' : St} (h : StRel c s s') : Pointwise (NodeRel (TokS c) c.d) (pending s) (pending s') := by
  cases h with
  | importMembers h => exact .cons (.import_ h) .nil
  | enumDef h => exact .cons (.enum h) .nil
  | aliasMeta h => exact .cons (.alias h) .nil
  | structField h => exact .cons (.struct h) .nil
  | fieldMeta h => exact .cons (.struct h) .nil
  | serviceMethod h => exact .cons (.service h) .nil
  | _ => exact .nil

theorem between_rel {s s' : St} (h : StRel c s s') : Between s' ↔ Between s := by
  cases h <;> exact Iff.rfl

/-- A word or the end of the text ends the open declaration. -/
theorem close {s : St} (hs : Between s) {p : PS} (hp : p.cursor.tt = .word ∨ p.cursor.tt = .eof) (ns : List Node) :
    Goes s p ns .default p (ns ++ pending s) := by
  have one : ∀ (s : St) (em : List Node), step s p = (.ok (.goto .default em), p) → Goes s p ns .default p (ns ++ em) :=
    fun s em h => Goes.step h
  cases s with
  | default => simpa [pending] using Goes.refl .default p ns
  | importMembers n =>
    refine one _ _ ?_
    change stImportMembers n p = _
    unfold stImportMembers
    rw [bind_ok (cursor_eq p)]
    rcases hp with h | h <;> rw [h] <;> rfl
  | importValue =>
    refine one _ _ ?_
    change stImportValue p = _
    unfold stImportValue
    rw [bind_ok (cursor_eq p)]
    rcases hp with h | h <;> rw [h] <;> rfl
  | enumDef n =>
    refine one _ _ ?_
    change stEnumDef n p = _
    unfold stEnumDef
    rw [bind_ok (cursor_eq p)]
    rcases hp with h | h <;> rw [h] <;> rfl
  | aliasMeta n =>
    refine one _ _ ?_
    change stAliasMeta n p = _
    unfold stAliasMeta
    rw [bind_ok (cursor_eq p)]
    rcases hp with h | h <;> rw [h] <;> rfl
  | structField n =>
    refine one _ _ ?_
    change stStructField n p = _
    unfold stStructField
    rw [bind_ok (cursor_eq p)]
    rcases hp with h | h <;> rw [h] <;> rfl
  | fieldMeta n =>
    have h1 : step (.fieldMeta n) p = (.ok (.goto (.structField n) []), p) := by
      change stFieldMeta n p = _
      unfold stFieldMeta
      rw [bind_ok (cursor_eq p)]
      rcases hp with h | h <;> rw [h] <;> rfl
    have h2 : step (.structField n) p = (.ok (.goto .default [.struct n]), p) := by
      change stStructField n p = _
      unfold stStructField
      rw [bind_ok (cursor_eq p)]
      rcases hp with h | h <;> rw [h] <;> rfl
    have := (Goes.step (ns := ns) h1).trans (Goes.step h2)
    simpa [pending] using this
  | serviceMethod n =>
    refine one _ _ ?_
    change stServiceMethod n p = _
    unfold stServiceMethod
    rw [bind_ok (cursor_eq p)]
    rcases hp with h | h <;> rw [h] <;> rfl
  | _ => exact hs.elim

/-- At the end of the text. -/
theorem finish {p : PS} (hp : p.cursor.tt = .eof) (ns : List Node) (fuel : Nat) : runN (fuel + 2) .default p ns = .ok ns := by
  have h : step .default p = (.ok (.goto .eof []), p) := by
    change stDefault p = _
    unfold stDefault
    rw [bind_ok (cursor_eq p), hp]
    rfl
  rw [run_step h, List.append_nil]
  rfl

theorem run_agree {f g : Nat} {s : St} {p : PS} {ns : List Node} {r : ParseResult} (h : runN f s p ns = r) (hr : r ≠ .outOfFuel)
    (h' : runN g s p ns ≠ .outOfFuel) : runN g s p ns = r := by
  have h1 := run_mono f g s p ns r h hr
  have h2 := run_mono g f s p ns _ rfl h'
  rw [Nat.add_comm] at h2
  rw [← h2, h1]

/-- The run from a state at the end of the text. -/
theorem at_end {s : St} (hs : Between s) {p : PS} (hp : p.cursor.tt = .eof) {ns ms : List Node} {fuel : Nat}
    (h : runN fuel s p ns ≠ .outOfFuel) : runN fuel s p ns = .ok (ns ++ pending s) := by
  obtain ⟨k, hk⟩ := close hs (Or.inr hp) ns
  have := hk 2
  rw [finish (fuel := 0) hp] at this
  exact run_agree this nofun h

/-! ### Equality of related nodes -/

theorem pointwise_eq {α : Type} {R : α → α → Prop} (hR : ∀ a b, R a b → b = a) {l l' : List α} (h : Pointwise R l l') : l' = l := by
  induction h with
  | nil => rfl
  | cons h1 _ ih => rw [ih, hR _ _ h1]

theorem both_eq {α : Type} {R : α → α → Prop} (hR : ∀ a b, R a b → b = a) {l l' : Option α} (h : Both R l l') : l' = l := by
  cases h with
  | none => rfl
  | some h => rw [hR _ _ h]

section Eqs
variable {T : Token → Token → Prop} (hT : ∀ a b, T a b → b = a)
include hT

theorem pair_eq : ∀ a b, PairRel T a b → b = a := by
  rintro ⟨a, b⟩ ⟨a', b'⟩ ⟨h1, h2⟩
  have h1 := hT _ _ h1
  have h2 := hT _ _ h2
  dsimp only at h1 h2
  rw [h1, h2]

theorem def_eq : ∀ a b, DefRel T a b → b = a := by
  rintro ⟨⟩ ⟨⟩ ⟨h1, h2, h3, h4, h5⟩
  have h1 := hT _ _ h1
  have h2 := both_eq hT h2
  have h4 := pointwise_eq (pair_eq hT) h4
  dsimp only at h1 h2 h3 h4 h5
  rw [h1, h2, h3, h4, h5]

theorem arg_eq : ∀ a b, ArgRel T a b → b = a := by
  rintro ⟨⟩ ⟨⟩ ⟨h1, h2, h3, h4⟩
  have h1 := both_eq hT h1
  have h2 := both_eq hT h2
  have h4 := both_eq hT h4
  dsimp only at h1 h2 h3 h4
  rw [h1, h2, h3, h4]

theorem ann_eq : ∀ a b, AnnRel T a b → b = a := by
  rintro ⟨⟩ ⟨⟩ ⟨h1, h2⟩
  have h1 := hT _ _ h1
  have h2 := both_eq hT h2
  dsimp only at h1 h2
  rw [h1, h2]

theorem method_eq : ∀ a b, MethodRel T a b → b = a := by
  rintro ⟨⟩ ⟨⟩ ⟨h1, h2, h3, h4, h5, h6, h7, h8, h9⟩
  have h1 := hT _ _ h1
  have h4 := pointwise_eq (ann_eq hT) h4
  have h6 := pointwise_eq (arg_eq hT) h6
  have h8 := pointwise_eq (arg_eq hT) h8
  have h9 := pointwise_eq hT h9
  dsimp only at h1 h2 h3 h4 h5 h6 h7 h8 h9
  rw [h1, h2, h3, h4, h5, h6, h7, h8, h9]

theorem node_eq : ∀ a b, NodeRel T 0 a b → b = a := by
  intro a b h
  cases h with
  | defn h => rw [def_eq hT _ _ h]
  | @import_ n n' h =>
    obtain ⟨h1, h2⟩ := h
    cases n; cases n'
    have h1 := hT _ _ h1
    have h2 := pointwise_eq hT h2
    dsimp only at h1 h2
    rw [h1, h2]
  | @enum n n' h =>
    obtain ⟨h1, h2, h3, h4, h5⟩ := h
    cases n; cases n'
    have h1 := hT _ _ h1
    have h2 := hT _ _ h2
    have h3 := pointwise_eq (def_eq hT) h3
    dsimp only [Nat.add_zero] at h1 h2 h3 h4 h5
    rw [h1, h2, h3, h4, h5]
  | @struct n n' h =>
    obtain ⟨h1, h3, h4, h5⟩ := h
    cases n; cases n'
    have h1 := hT _ _ h1
    have h3 := pointwise_eq (def_eq hT) h3
    dsimp only [Nat.add_zero] at h1 h3 h4 h5
    rw [h1, h3, h4, h5]
  | @error n n' h =>
    obtain ⟨h1, h2, h3, h4⟩ := h
    cases n; cases n'
    have h1 := hT _ _ h1
    have h2 := hT _ _ h2
    have h3 := both_eq hT h3
    have h4 := both_eq hT h4
    dsimp only at h1 h2 h3 h4
    rw [h1, h2, h3, h4]
  | @alias n n' h =>
    obtain ⟨h1, h2, h3, h4, h5⟩ := h
    cases n; cases n'
    have h1 := hT _ _ h1
    have h2 := hT _ _ h2
    have h3 := pointwise_eq (pair_eq hT) h3
    dsimp only [Nat.add_zero] at h1 h2 h3 h4 h5
    rw [h1, h2, h3, h4, h5]
  | @service n n' h =>
    obtain ⟨h1, h2, h3, h4⟩ := h
    cases n; cases n'
    have h1 := hT _ _ h1
    have h2 := pointwise_eq (method_eq hT) h2
    have h3 := pointwise_eq (ann_eq hT) h3
    dsimp only at h1 h2 h3 h4
    rw [h1, h2, h3, h4]

end Eqs

theorem nodes_eq (he : ¬ c.ended) (hd : c.d = 0) {l l' : List Node} (h : Pointwise (NodeRel (TokS c) c.d) l l') : l' = l := by
  rw [hd] at h
  exact pointwise_eq (node_eq (fun a b h => h.same he)) h

/-! ### The first document -/

/-- What the longer parser does while the shorter one runs. -/
def FirstRel (c : Ctx) (s' : St) (q : PS) (ns : List Node) (r : ParseResult) : Prop :=
  match r with
  | .ok ms => ∃ s1 p1 q1 ns1, Goes s' q ns s1 q1 ns1 ∧ PRel c p1 q1 ∧ Between s1 ∧ p1.pos = c.N ∧ ms = ns1 ++ pending s1
  | .err l col v e => ∃ fuel, runN fuel s' q ns = .err l col v e
  | _ => True

theorem first_run (he : ¬ c.ended) (hd : c.d = 0) : ∀ fuel s s' p q ns, StRel c s s' → PRel c p q → (Room c p 0 ∨ Between s) →
    FirstRel c s' q ns (runN fuel s p ns) := by
  intro fuel
  induction fuel with
  | zero => intro s s' p q ns _ _ _; exact trivial
  | succ fuel ih =>
    intro s s' p q ns hs h hr
    by_cases hroom : Room c p 0
    · have hsim := sim_step hs h hroom
      unfold runN
      rcases hm : step s p with ⟨o, p1⟩
      have := hsim o p1 hm
      cases o with
      | ok r =>
        obtain ⟨r', q1, h1, h2, h3⟩ := this
        cases r with
        | done => cases r' with
          | done => exact absurd h3 he
          | goto _ _ => exact h3.elim
        | goto s1 em => cases r' with
          | done => exact h3.elim
          | goto s1' em' =>
            obtain ⟨g1, g2, g3⟩ := h3
            have hem := nodes_eq he hd g2
            subst hem
            have := ih s1 s1' p1 q1 (ns ++ em') g1 h2 g3
            dsimp only
            generalize runN fuel s1 p1 (ns ++ em') = r at this ⊢
            cases r with
            | ok ms =>
              obtain ⟨s2, p2, q2, ns2, k1, k2⟩ := this
              exact ⟨s2, p2, q2, ns2, (Goes.step h1).trans k1, k2⟩
            | err l col v e =>
              obtain ⟨f, hf⟩ := this
              exact ⟨f + 1, by rw [run_step h1]; exact hf⟩
            | panic => trivial
            | outOfFuel => trivial
      | err e =>
        obtain ⟨e', q1, h1, h2, h3, -, h5⟩ := this
        have h5 := h5 he
        subst h5
        refine ⟨1, ?_⟩
        unfold runN
        rw [h1]
        dsimp only
        have hc : q1.cursor = p1.cursor := by
          rcases (cursor_rel h2 h3).1 with ⟨a, b⟩ | ⟨a, -⟩
          · rw [a, b]
          · exact a.same he
        rw [hc]
      | panic => trivial
      | hang => trivial
    · obtain ⟨-, hp, hc, -⟩ := cursor_end h hroom
      have hb := hr.resolve_left hroom
      by_cases ho : runN (fuel + 1) s p ns = .outOfFuel
      · rw [ho]; trivial
      · rw [at_end (ms := ns) hb (by rw [hc]; rfl) ho]
        refine ⟨s', p, q, ns, Goes.refl _ _ _, h, (between_rel hs).2 hb, hp, ?_⟩
        rw [nodes_eq he hd (pending_rel hs)]

/-! ### The second document -/

/-- The outcome of the parser `q` that corresponds to an outcome of `p`. -/
def SecondRel (c : Ctx) (ns ns' : List Node) (r r' : ParseResult) : Prop :=
  match r with
  | .ok ms => ∃ em em', ms = ns ++ em ∧ r' = .ok (ns' ++ em') ∧ Pointwise (NodeRel (TokS c) c.d) em em'
  | .err l col v e => ∃ e', r' = .err (movedLine c.d l) col v e' ∧ SameError e e'
  | _ => True

theorem second_run (he : c.ended) : ∀ fuel s s' p q ns ns', StRel c s s' → PRel c p q →
    SecondRel c ns ns' (runN fuel s p ns) (runN fuel s' q ns') := by
  intro fuel
  induction fuel with
  | zero => intro s s' p q ns ns' _ _; exact trivial
  | succ fuel ih =>
    intro s s' p q ns ns' hs h
    have hsim := sim_step hs h (Or.inl he)
    unfold runN
    rcases hm : step s p with ⟨o, p1⟩
    have := hsim o p1 hm
    cases o with
    | ok r =>
      obtain ⟨r', q1, h1, h2, h3⟩ := this
      rw [h1]
      cases r with
      | done => cases r' with
        | done => exact ⟨[], [], by simp, by simp, .nil⟩
        | goto _ _ => exact h3.elim
      | goto s1 em => cases r' with
        | done => exact h3.elim
        | goto s1' em' =>
          obtain ⟨g1, g2, g3⟩ := h3
          have := ih s1 s1' p1 q1 (ns ++ em) (ns' ++ em') g1 h2
          dsimp only
          generalize runN fuel s1 p1 (ns ++ em) = r at this ⊢
          cases r with
          | ok ms =>
            obtain ⟨a, b, k1, k2, k3⟩ := this
            exact ⟨em ++ a, em' ++ b, by rw [k1, List.append_assoc], by rw [k2, List.append_assoc], Pointwise.app g2 k3⟩
          | err l col v e => exact this
          | panic => trivial
          | outOfFuel => trivial
    | err e =>
      obtain ⟨e', q1, h1, h2, h3, h4, -⟩ := this
      rw [h1]
      dsimp only
      refine ⟨e', ?_, h4⟩
      rcases (cursor_rel h2 h3).1 with ⟨a, b⟩ | ⟨a, -⟩
      · rw [a, b]; rfl
      · rw [a.line, a.col, a.val]
        unfold movedLine
        rw [if_neg (by have := a.ok.1; omega)]
    | panic => trivial
    | hang => trivial

/-! ### Texts that make the parser hang -/

theorem stuck_rel {p q : PS} (h : PRel c p q) (hs : AtStuck p) : AtStuck q := by
  have hr : Room c p 0 := by
    by_cases hl : p.pos < c.N
    · exact Or.inr (by omega)
    · exfalso
      have : p.cursor = eofToken := by unfold PS.cursor; rw [List.getElem?_eq_none (by rw [h.len]; omega)]; rfl
      have h1 := hs.1
      rw [this] at h1
      cases h1
  obtain ⟨h1, h2, -⟩ := cursor_rel h hr
  refine ⟨by rw [h1.tt]; exact hs.1, ?_⟩
  have hlt : p.pos < p.tokens.length := cursor_lt (by rw [hs.1]; decide)
  have hadv := h2 (by rw [hs.1]; decide)
  have := sim_advance h hadv _ _ (advance_eq (p := p) (by rw [hs.1]; decide))
  obtain ⟨b, q', g1, g2, g3, g4⟩ := this
  have hq' : q' = { q with pos := q.pos + 1 } := by
    unfold advance at g1
    split at g1
    · cases g1; cases g3
    · cases g1; rfl
  subst hq'
  have := (cursor_rel g2 (g4.mono (by omega))).1.tt
  rw [this]
  exact hs.2

theorem reach_rel {s s' : St} {p q : PS} (hs : StRel c s s') (h : PRel c p q) (hr : Room c p 0 ∨ Between s) (hok : StOK p s) {s1 : St} {p1 : PS}
    (hR : Reaches s p s1 p1) :
    (∃ s1' q1, Reaches s' q s1' q1 ∧ StRel c s1 s1' ∧ PRel c p1 q1 ∧ (Room c p1 0 ∨ Between s1)) ∨ p1.pos = p1.tokens.length := by
  have hv : p.Valid := by unfold PS.Valid; rw [h.len]; exact h.le
  induction hR with
  | start => exact Or.inl ⟨s', q, .start, hs, h, hr⟩
  | @next st st' p1 p2 em hR' hst ih =>
    obtain ⟨k1, k2⟩ := hR'.ok hv hok
    have hpos : p1.pos = p1.tokens.length → p2.pos = p2.tokens.length := by
      intro hp
      rcases step_cases st p1 k1.valid k2 with ⟨p', hm⟩ | ⟨st', em, p', hm, hg⟩ | ⟨e, p', hm, -⟩
      · rw [hm] at hst; cases hst
      · rw [hm] at hst
        cases hst
        have := hg.1.pos
        have := hg.1.le
        rw [hg.1.tokens] at *
        omega
      · rw [hm] at hst; cases hst
    rcases ih with ⟨s1', q1, g1, g2, g3, g4⟩ | hp
    · by_cases hroom : Room c p1 0
      · have := sim_step g2 g3 hroom _ _ hst
        obtain ⟨r', q2, h1, h2, h3⟩ := this
        cases r' with
        | done => exact h3.elim
        | goto s2' em' => exact Or.inl ⟨s2', q2, .next g1 h1, h3.1, h2, h3.2.2⟩
      · obtain ⟨-, hp, -⟩ := cursor_end g3 hroom
        exact Or.inr (hpos (by rw [hp, g3.len]))
    · exact Or.inr (hpos hp)

/-- If the shorter parser hangs, so does the longer one. -/
theorem hang_rel {s s' : St} {p q : PS} (hs : StRel c s s') (h : PRel c p q) (hr : Room c p 0 ∨ Between s) (hok : StOK p s) {n : ServiceNode} {p1 : PS}
    (hR : Reaches s p (.serviceMethod n) p1) (hst : AtStuck p1) : ∃ n' q1, Reaches s' q (.serviceMethod n') q1 ∧ AtStuck q1 := by
  rcases reach_rel hs h hr hok hR with ⟨s1', q1, g1, g2, g3, -⟩ | hp
  · cases g2
    exact ⟨_, q1, g1, stuck_rel g3 hst⟩
  · exfalso
    have : p1.cursor = eofToken := by unfold PS.cursor; rw [List.getElem?_eq_none (by omega)]; rfl
    have h1 := hst.1
    rw [this] at h1
    cases h1

/-! ### Comments and blank lines before the second document -/

/-- `n` tokens of comment lines and blank lines, followed by a word or the end of the text. -/
inductive OpenT : List TT → Nat → Prop
  | done {l : List TT} : (l = [] ∨ ∃ r, l = .word :: r) → OpenT l 0
  | newline {l : List TT} {n : Nat} : OpenT l n → OpenT (.newLine :: l) (n + 1)
  | comment {cs l : List TT} {n : Nat} : (∀ t ∈ cs, t ≠ .newLine ∧ t ≠ .eof) → OpenT l n → OpenT (.hash :: (cs ++ .newLine :: l)) (cs.length + 2 + n)

/-- The kinds of the tokens from the cursor on. -/
def PS.ahead (p : PS) : List TT := (p.tokens.drop p.pos).map (·.tt)

theorem ahead_nil {p : PS} (h : p.ahead = []) : p.cursor.tt = .eof := by
  unfold PS.ahead at h
  rw [List.map_eq_nil_iff, List.drop_eq_nil_iff] at h
  unfold PS.cursor
  rw [List.getElem?_eq_none h]
  rfl

theorem ahead_cons {p : PS} {t : TT} {l : List TT} (h : p.ahead = t :: l) :
    p.cursor.tt = t ∧ p.pos < p.tokens.length ∧ ({ p with pos := p.pos + 1 } : PS).ahead = l := by
  unfold PS.ahead at h
  have hl : p.pos < p.tokens.length := by
    refine Classical.byContradiction fun hc => ?_
    rw [List.drop_eq_nil_of_le (by omega)] at h
    cases h
  rw [List.drop_eq_getElem_cons hl, List.map_cons] at h
  injection h with h1 h2
  refine ⟨?_, hl, h2⟩
  unfold PS.cursor
  rw [List.getElem?_eq_getElem hl]
  exact h1

theorem ahead_length (p : PS) : p.ahead.length = p.tokens.length - p.pos := by
  unfold PS.ahead; rw [List.length_map, List.length_drop]

/-- The cursor, `n` tokens further on. -/
def PS.skip (p : PS) (n : Nat) : PS := { p with pos := p.pos + n }

theorem PS.skip_skip (p : PS) (m n : Nat) : (p.skip m).skip n = p.skip (m + n) := by
  unfold PS.skip; simp only [PS.mk.injEq, true_and, and_true]; omega

theorem advance_skip {p : PS} (h : p.pos < p.tokens.length) : advance p = (.ok true, p.skip 1) := by
  unfold advance; rw [if_neg (by omega)]; rfl

theorem untilEOL_run (l : List TT) : ∀ (cs : List TT) (p : PS) (n : Nat), (∀ t ∈ cs, t ≠ .newLine ∧ t ≠ .eof) → p.ahead = cs ++ .newLine :: l → cs.length < n →
    loopN (fun (_ : Unit) => do
      let tok ← cursor
      if tok.tt = .newLine ∨ tok.tt = .eof then pure (.inr ())
      else
        let _ ← advance
        pure (.inl ())) n () p = (.ok (), p.skip cs.length) := by
  intro cs
  induction cs with
  | nil =>
    intro p n _ h hn
    obtain ⟨m, rfl⟩ : ∃ m, n = m + 1 := ⟨n - 1, by simp at hn; omega⟩
    obtain ⟨h1, -⟩ := ahead_cons h
    unfold loopN P.bind
    rw [bind_ok (cursor_eq p), if_pos (Or.inl h1)]
    rfl
  | cons t cs ih =>
    intro p n hcs h hn
    obtain ⟨m, rfl⟩ : ∃ m, n = m + 1 := ⟨n - 1, by simp at hn; omega⟩
    obtain ⟨h1, h2, h3⟩ := ahead_cons h
    have ht := hcs t (List.mem_cons_self ..)
    unfold loopN P.bind
    rw [bind_ok (cursor_eq p), if_neg (by rw [h1]; exact fun h => h.elim ht.1 ht.2), bind_ok (advance_skip h2)]
    show loopN _ m () (p.skip 1) = _
    rw [ih (p.skip 1) m (fun x hx => hcs x (List.mem_cons_of_mem _ hx)) h3 (by simp at hn; omega), PS.skip_skip, List.length_cons]
    congr 2; omega

theorem untilEOL_skip {l cs : List TT} {p : PS} (hcs : ∀ t ∈ cs, t ≠ .newLine ∧ t ≠ .eof) (h : p.ahead = .hash :: (cs ++ .newLine :: l)) :
    continueUntilEOL p = (.ok (), p.skip (cs.length + 1)) := by
  have hl := ahead_length p
  rw [h] at hl
  simp at hl
  have := untilEOL_run l (.hash :: cs) p (p.tokens.length - p.pos + 1) (by
    intro t ht
    rcases List.mem_cons.1 ht with rfl | ht
    · exact ⟨nofun, nofun⟩
    · exact hcs t ht) h (by simp; omega)
  exact this

theorem ahead_skip {p : PS} : ∀ {a b : List TT}, p.ahead = a ++ b → (p.skip a.length).ahead = b := by
  intro a b h
  unfold PS.ahead PS.skip at *
  rw [← List.drop_drop, List.map_drop, h, List.drop_left]

/-- A state that passes over comments and newlines one at a time. -/
theorem skip_line {s : St} (hs : Between s) (hd : s ≠ .default) {p : PS} :
    (p.cursor.tt = .newLine → p.pos < p.tokens.length → step s p = (.ok (.goto s []), p.skip 1)) ∧
    (∀ n, p.cursor.tt = .hash → continueUntilEOL p = (.ok (), p.skip n) → step s p = (.ok (.goto s []), p.skip n)) := by
  cases s with
  | default => exact absurd rfl hd
  | importMembers n =>
    refine ⟨fun h1 h2 => ?_, fun k h1 h2 => ?_⟩ <;> change stImportMembers n p = _ <;> unfold stImportMembers <;> rw [bind_ok (cursor_eq p), h1] <;> dsimp only
    · rw [bind_ok (advance_skip h2)]; rfl
    · rw [bind_ok h2]; rfl
  | importValue =>
    refine ⟨fun h1 h2 => ?_, fun k h1 h2 => ?_⟩ <;> change stImportValue p = _ <;> unfold stImportValue <;> rw [bind_ok (cursor_eq p), h1] <;> dsimp only
    · rw [bind_ok (advance_skip h2)]; rfl
    · rw [bind_ok h2]; rfl
  | enumDef n =>
    refine ⟨fun h1 h2 => ?_, fun k h1 h2 => ?_⟩ <;> change stEnumDef n p = _ <;> unfold stEnumDef <;> rw [bind_ok (cursor_eq p), h1] <;> dsimp only
    · rw [bind_ok (advance_skip h2)]; rfl
    · rw [bind_ok h2]; rfl
  | aliasMeta n =>
    refine ⟨fun h1 h2 => ?_, fun k h1 h2 => ?_⟩ <;> change stAliasMeta n p = _ <;> unfold stAliasMeta <;> rw [bind_ok (cursor_eq p), h1] <;> dsimp only
    · rw [bind_ok (advance_skip h2)]; rfl
    · rw [bind_ok h2]; rfl
  | structField n =>
    refine ⟨fun h1 h2 => ?_, fun k h1 h2 => ?_⟩ <;> change stStructField n p = _ <;> unfold stStructField <;> rw [bind_ok (cursor_eq p), h1] <;> dsimp only
    · rw [bind_ok (advance_skip h2)]; rfl
    · rw [bind_ok h2]; rfl
  | fieldMeta n =>
    refine ⟨fun h1 h2 => ?_, fun k h1 h2 => ?_⟩ <;> change stFieldMeta n p = _ <;> unfold stFieldMeta <;> rw [bind_ok (cursor_eq p), h1] <;> dsimp only
    · rw [bind_ok (advance_skip h2)]; rfl
    · rw [bind_ok h2]; rfl
  | serviceMethod n =>
    refine ⟨fun h1 h2 => ?_, fun k h1 h2 => ?_⟩ <;> change stServiceMethod n p = _ <;> unfold stServiceMethod <;> rw [bind_ok (cursor_eq p), h1] <;> dsimp only
    · rw [bind_ok (advance_skip h2)]; rfl
    · rw [bind_ok h2]; rfl
  | _ => exact hs.elim

theorem skip_open {s : St} (hs : Between s) (hd : s ≠ .default) (ns : List Node) {l : List TT} {n : Nat} (h : OpenT l n) :
    ∀ p : PS, p.ahead = l → Goes s p ns s (p.skip n) ns := by
  induction h with
  | done _ => intro p _; exact Goes.refl s p ns
  | @newline l n _ ih =>
    intro p hp
    obtain ⟨h1, h2, h3⟩ := ahead_cons hp
    have := (Goes.step (ns := ns) ((skip_line hs hd).1 h1 h2))
    rw [List.append_nil] at this
    have := this.trans (ih (p.skip 1) h3)
    rw [PS.skip_skip, Nat.add_comm] at this
    exact this
  | @comment cs l n hcs _ ih =>
    intro p hp
    obtain ⟨h1, h2, h3⟩ := ahead_cons hp
    have g1 := (Goes.step (ns := ns) ((skip_line hs hd).2 _ h1 (untilEOL_skip hcs hp)))
    rw [List.append_nil] at g1
    have hp' : (p.skip (cs.length + 1)).ahead = .newLine :: l := ahead_skip (a := .hash :: cs) (by rw [hp]; rfl)
    obtain ⟨k1, k2, k3⟩ := ahead_cons hp'
    have g2 := (Goes.step (ns := ns) ((skip_line hs hd).1 k1 k2))
    rw [List.append_nil] at g2
    have := (g1.trans g2).trans (ih _ k3)
    rw [PS.skip_skip, PS.skip_skip, show cs.length + 1 + (1 + n) = cs.length + 2 + n by omega] at this
    exact this

theorem open_newlines {l : List TT} {n : Nat} (h : OpenT l n) : ∀ (p : PS) (f : Nat), p.ahead = l → p.tokens.length - p.pos < f →
    ∃ j, j ≤ n ∧ OpenT (p.skip j).ahead (n - j) ∧ loopN (fun (_ : Unit) => do
      let tok ← cursor
      if tok.tt = .newLine then
        let _ ← advance
        pure (.inl ())
      else pure (.inr ())) f () p = (.ok (), p.skip j) := by
  have stop : ∀ (p : PS) (f : Nat), p.cursor.tt ≠ .newLine → 0 < f → loopN (fun (_ : Unit) => do
      let tok ← cursor
      if tok.tt = .newLine then
        let _ ← advance
        pure (.inl ())
      else pure (.inr ())) f () p = (.ok (), p.skip 0) := by
    intro p f hp hf
    obtain ⟨m, rfl⟩ : ∃ m, f = m + 1 := ⟨f - 1, by omega⟩
    unfold loopN P.bind
    rw [bind_ok (cursor_eq p), if_neg hp]
    rfl
  induction h with
  | @done l hl =>
    intro p f hp hf
    refine ⟨0, Nat.le_refl _, ?_, stop p f ?_ (by omega)⟩
    · show OpenT p.ahead 0
      rw [hp]; exact .done hl
    · rcases hl with rfl | ⟨r, rfl⟩
      · rw [ahead_nil hp]; decide
      · rw [(ahead_cons hp).1]; decide
  | @newline l n _ ih =>
    intro p f hp hf
    obtain ⟨h1, h2, h3⟩ := ahead_cons hp
    obtain ⟨m, rfl⟩ : ∃ m, f = m + 1 := ⟨f - 1, by omega⟩
    obtain ⟨j, g1, g2, g3⟩ := ih (p.skip 1) m h3 (by show p.tokens.length - (p.pos + 1) < m; omega)
    rw [PS.skip_skip] at g2 g3
    refine ⟨1 + j, by omega, by rw [show n + 1 - (1 + j) = n - j by omega]; exact g2, ?_⟩
    unfold loopN P.bind
    rw [bind_ok (cursor_eq p), if_pos h1, bind_ok (advance_skip h2)]
    exact g3
  | @comment cs l n hcs hl ih =>
    intro p f hp hf
    refine ⟨0, Nat.zero_le _, ?_, stop p f ?_ (by omega)⟩
    · show OpenT p.ahead _
      rw [hp]; exact .comment hcs hl
    · rw [(ahead_cons hp).1]; decide

theorem goes_default {s : St} {p p' : PS} {ns : List Node} (h : Goes .default p ns s p' (ns ++ [])) : Goes .default p ns s p' ns := by
  rw [List.append_nil] at h; exact h

/-- Between declarations the parser passes over comments and blank lines. -/
theorem skip_default (ns : List Node) : ∀ (k n : Nat), n ≤ k → ∀ p : PS, OpenT p.ahead n → Goes .default p ns .default (p.skip n) ns := by
  intro k
  induction k with
  | zero => intro n hn p _; (have h0 : n = 0 := by omega); subst h0; exact Goes.refl _ _ _
  | succ k ih =>
    intro n hn p h
    generalize hl : p.ahead = l at h
    cases h with
    | done _ => exact Goes.refl _ _ _
    | @newline l n hO =>
      obtain ⟨h1, h2, h3⟩ := ahead_cons hl
      have s1 : step .default p = (.ok (.goto .newLine []), p) := by
        change stDefault p = _
        unfold stDefault
        rw [bind_ok (cursor_eq p), h1]
        rfl
      obtain ⟨j, g1, g2, g3⟩ := open_newlines hO (p.skip 1) ((p.skip 1).tokens.length - (p.skip 1).pos + 1) h3 (by omega)
      have s2 : step .newLine p = (.ok (.goto .default []), (p.skip 1).skip j) := by
        change stSkip .newLine p = _
        unfold stSkip
        rw [bind_ok (advance_skip h2)]
        rw [bind_ok (show loop _ () (p.skip 1) = _ from g3)]
        rfl
      have g4 := ih (n - j) (by omega) _ g2
      have := ((goes_default (Goes.step (ns := ns) s1)).trans (Goes.step s2))
      rw [List.append_nil] at this
      have := this.trans g4
      rw [PS.skip_skip, PS.skip_skip, show 1 + (j + (n - j)) = n + 1 by omega] at this
      exact this
    | @comment cs l n hcs hO =>
      obtain ⟨h1, h2, h3⟩ := ahead_cons hl
      have s1 : step .default p = (.ok (.goto .comment []), p) := by
        change stDefault p = _
        unfold stDefault
        rw [bind_ok (cursor_eq p), h1]
        rfl
      have s2 : step .comment p = (.ok (.goto .default []), p.skip (cs.length + 1)) := by
        change stComment p = _
        unfold stComment
        rw [bind_ok (untilEOL_skip hcs hl)]
        rfl
      have hp' : (p.skip (cs.length + 1)).ahead = .newLine :: l := ahead_skip (a := .hash :: cs) (by rw [hl]; rfl)
      have g4 := ih (n + 1) (by omega) (p.skip (cs.length + 1)) (by rw [hp']; exact .newline hO)
      have := ((goes_default (Goes.step (ns := ns) s1)).trans (Goes.step s2))
      rw [List.append_nil] at this
      have := this.trans g4
      rw [PS.skip_skip, show cs.length + 1 + (n + 1) = cs.length + 2 + n by omega] at this
      exact this

theorem open_after {l : List TT} {n : Nat} (h : OpenT l n) : ∀ p : PS, p.ahead = l →
    (p.skip n).cursor.tt = .word ∨ (p.skip n).cursor.tt = .eof := by
  induction h with
  | @done l hl =>
    intro p hp
    show p.cursor.tt = .word ∨ p.cursor.tt = .eof
    rcases hl with rfl | ⟨r, rfl⟩
    · exact Or.inr (ahead_nil hp)
    · exact Or.inl (ahead_cons hp).1
  | @newline l n _ ih =>
    intro p hp
    have := ih (p.skip 1) (ahead_cons hp).2.2
    rw [PS.skip_skip, Nat.add_comm] at this
    exact this
  | @comment cs l n hcs _ ih =>
    intro p hp
    have hp' : (p.skip (cs.length + 2)).ahead = l := by
      have := ahead_skip (p := p) (a := .hash :: (cs ++ [.newLine])) (b := l) (by rw [hp]; simp)
      simpa using this
    have := ih _ hp'
    rw [PS.skip_skip] at this
    exact this

/-- From the end of the first document to the second. -/
theorem through {s : St} (hs : Between s) {p : PS} {n : Nat} (h : OpenT p.ahead n) (ns : List Node) :
    Goes s p ns .default (p.skip n) (ns ++ pending s) := by
  by_cases hd : s = .default
  · subst hd
    simpa [pending] using skip_default ns n n (Nat.le_refl _) p h
  · exact (skip_open hs hd ns h p rfl).trans (close hs (open_after h p rfl) ns)

end Verif.Ridl
