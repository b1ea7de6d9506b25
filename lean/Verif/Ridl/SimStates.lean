import Verif.Ridl.SimTypes

/-! # Two parsers on related tokens: the states (for C98) -/

namespace Verif.Ridl
open Verif.Spec Verif.Schema

variable {c : Ctx}

theorem sim_ite {α β : Type} {C : Prop} [Decidable C] {a b : Ridl.P α} {a' b' : Ridl.P β} {p q : PS} {Q : α → β → PS → Prop}
    (h1 : C → Sim c a a' p q Q) (h2 : ¬ C → Sim c b b' p q Q) : Sim c (if C then a else b) (if C then a' else b') p q Q := by
  by_cases h : C
  · simp only [if_pos h]; exact h1 h
  · simp only [if_neg h]; exact h2 h

/-- Related states.  The final state is reached only when both documents end. -/
inductive StRel (c : Ctx) : St → St → Prop
  | default : StRel c .default .default
  | space : StRel c .space .space
  | newLine : StRel c .newLine .newLine
  | declaration : StRel c .declaration .declaration
  | comment : StRel c .comment .comment
  | eof : c.ended → StRel c .eof .eof
  | eol : StRel c .eol .eol
  | continue_ : StRel c .continue_ .continue_
  | definition : StRel c .definition .definition
  | definitionValue {n n'} : DefRel (TokS c) n n' → StRel c (.definitionValue n) (.definitionValue n')
  | import_ : StRel c .import_ .import_
  | importValue : StRel c .importValue .importValue
  | importMembers {n n'} : ImportRel (TokS c) n n' → StRel c (.importMembers n) (.importMembers n')
  | error : StRel c .error .error
  | errorMessage {n n'} : ErrorRel (TokS c) n n' → StRel c (.errorMessage n) (.errorMessage n')
  | errorStatus {n n'} : ErrorRel (TokS c) n n' → StRel c (.errorStatus n) (.errorStatus n')
  | enum : StRel c .enum .enum
  | enumDef {n n'} : EnumRel (TokS c) c.d n n' → StRel c (.enumDef n) (.enumDef n')
  | enumValue {n n' v v'} : EnumRel (TokS c) c.d n n' → DefRel (TokS c) v v' → StRel c (.enumValue n v) (.enumValue n' v')
  | typeAlias : StRel c .typeAlias .typeAlias
  | aliasMeta {n n'} : AliasRel (TokS c) c.d n n' → StRel c (.aliasMeta n) (.aliasMeta n')
  | aliasMetaDef {n n'} : AliasRel (TokS c) c.d n n' → StRel c (.aliasMetaDef n) (.aliasMetaDef n')
  | struct : StRel c .struct .struct
  | structField {n n'} : StructRel (TokS c) c.d n n' → StRel c (.structField n) (.structField n')
  | fieldMeta {n n'} : StructRel (TokS c) c.d n n' → StRel c (.fieldMeta n) (.fieldMeta n')
  | fieldMetaDef {n n'} : StructRel (TokS c) c.d n n' → StRel c (.fieldMetaDef n) (.fieldMetaDef n')
  | fieldDef {n n'} : StructRel (TokS c) c.d n n' → StRel c (.fieldDef n) (.fieldDef n')
  | service : StRel c .service .service
  | serviceMethod {n n'} : ServiceRel (TokS c) n n' → StRel c (.serviceMethod n) (.serviceMethod n')
  | methodDef {n n'} : ServiceRel (TokS c) n n' → StRel c (.methodDef n) (.methodDef n')

/-- The states in which the parser may come to the end of the first document. -/
def Between : St → Prop
  | .default | .importMembers _ | .importValue | .enumDef _ | .aliasMeta _ | .structField _ | .fieldMeta _ | .serviceMethod _ => True
  | _ => False

/-- Related ends of a state function. -/
def StepRel (c : Ctx) (a b : Step) (p : PS) : Prop :=
  match a, b with
  | .goto s em, .goto s' em' => StRel c s s' ∧ Pointwise (NodeRel (TokS c) c.d) em em' ∧ (Room c p 0 ∨ Between s)
  | .done, .done => c.ended
  | _, _ => False

theorem step_to {s s' : St} {p q : PS} (h : PRel c p q) (hs : StRel c s s') (hr : Room c p 0) :
    Sim c (pure (Step.goto s []) : P Step) (pure (Step.goto s' [])) p q (StepRel c) := sim_pure h ⟨hs, .nil, Or.inl hr⟩

theorem step_emit {s s' : St} {n n' : Node} {p q : PS} (h : PRel c p q) (hs : StRel c s s') (hn : NodeRel (TokS c) c.d n n') (hr : Room c p 0) :
    Sim c (pure (Step.goto s [n]) : P Step) (pure (Step.goto s' [n'])) p q (StepRel c) := sim_pure h ⟨hs, .cons hn .nil, Or.inl hr⟩

theorem step_skip {s s' : St} {p q : PS} (h : PRel c p q) (hs : StRel c s s') (hb : Between s) (hr : Room c p 0) :
    Sim c (do let _ ← advance; pure (Step.goto s [])) (do let _ ← advance; pure (Step.goto s' [])) p q (StepRel c) := by
  refine sim_bind (sim_advance0 h hr) ?_
  rintro _ _ p1 q1 h1 -
  exact sim_pure h1 ⟨hs, .nil, Or.inr hb⟩

theorem step_line {s s' : St} {p q : PS} (h : PRel c p q) (hs : StRel c s s') (hr : Room c p 0) :
    Sim c (do continueUntilEOL; pure (Step.goto s [])) (do continueUntilEOL; pure (Step.goto s' [])) p q (StepRel c) := by
  refine sim_bind (sim_untilEOL h hr) ?_
  intro _ _ p1 q1 h1 hr1
  exact step_to h1 hs hr1

theorem sim_stEOL {p q : PS} (h : PRel c p q) (hr : Room c p 0) : Sim c stEOL stEOL p q (StepRel c) := by
  unfold stEOL
  refine sim_bind (sim_commentOrEOL h hr) ?_
  intro _ _ p1 q1 h1 hr1
  exact step_to h1 .continue_ hr1

theorem sim_stComment {p q : PS} (h : PRel c p q) (hr : Room c p 0) : Sim c stComment stComment p q (StepRel c) :=
  step_line h .default hr

theorem sim_stDeclaration {p q : PS} (h : PRel c p q) (hr : Room c p 0) : Sim c stDeclaration stDeclaration p q (StepRel c) := by
  unfold stDeclaration
  refine sim_bind (sim_cursor h hr) ?_
  rintro t t' p1 q1 h1 ⟨rfl, -, ht, hr2, hb⟩
  rw [ht.tt, ht.val]
  repeat' first
    | exact sim_fail_same h1 hr
    | exact step_to h1 (by constructor) hr
    | refine sim_ite (fun _ => ?_) (fun _ => ?_)

theorem cursor_end {p q : PS} (h : PRel c p q) (hr : ¬ Room c p 0) : ¬ c.ended ∧ p.pos = c.N ∧ p.cursor = eofToken ∧
    (q.cursor.tt = .word ∨ q.cursor.tt = .hash) := by
  have he : ¬ c.ended := fun h => hr (Or.inl h)
  have hp : p.pos = c.N := by
    have := h.le
    have : ¬ p.pos + 0 < c.N := fun h => hr (Or.inr h)
    omega
  obtain ⟨t, h1, h2⟩ := (h.guard he).2.2.1
  refine ⟨he, hp, ?_, ?_⟩
  · unfold PS.cursor; rw [List.getElem?_eq_none (by rw [h.len]; omega)]; rfl
  · unfold PS.cursor; rw [h.pos, hp, h1]; exact h2

theorem sim_stDefault {p q : PS} (h : PRel c p q) (hr : Room c p 0) : Sim c stDefault stDefault p q (StepRel c) := by
  unfold stDefault
  refine sim_bind (sim_cursor h hr) ?_
  rintro t t' p1 q1 h1 ⟨rfl, e, ht, hr2, hb⟩
  have hend : t.tt = .eof → c.ended := by
    intro he
    refine hr.elim id fun hl => ?_
    obtain ⟨u, u', g1, -, -, g2⟩ := h.toks _ hl
    exact absurd (by rw [← he, e]; unfold PS.cursor; rw [show p1.tokens[p1.pos]? = some u from g1]; rfl) g2
  rw [ht.tt]
  generalize t.tt = k at hend ⊢
  cases k <;> dsimp only
  all_goals first
    | exact sim_fail_same h1 hr
    | exact step_to h1 (.eof (hend rfl)) hr
    | exact step_to h1 (by constructor) hr

theorem sim_stSkip {tt : TT} (hw : tt ≠ .word ∧ tt ≠ .eof ∧ tt ≠ .hash) {p q : PS} (h : PRel c p q) (hr : Room c p 0) :
    Sim c (stSkip tt) (stSkip tt) p q (StepRel c) := by
  unfold stSkip
  refine sim_bind (sim_advance0 h hr) ?_
  rintro _ _ p1 q1 h1 -
  refine sim_bind (Q := fun _ _ _ => True) ?_ ?_
  · refine sim_loop (fun _ _ _ => True) h1 trivial ?_
    intro _ _ p q h _
    by_cases hr : Room c p 0
    · refine sim_bind (sim_cursor h hr) ?_
      rintro t t' p1 q1 h1 ⟨rfl, e, ht, hr2, hb⟩
      rw [ht.tt]
      refine sim_ite (fun _ => ?_) (fun _ => sim_pure h1 trivial)
      refine sim_bind (sim_advance0 h1 hr) ?_
      rintro _ _ p1 q1 h1 -
      exact sim_pure h1 trivial
    · obtain ⟨-, -, h1, h2⟩ := cursor_end h hr
      refine sim_bind (Q := fun a b p' => a = p.cursor ∧ b = q.cursor) ?_ ?_
      · intro o p' hm
        cases hm
        exact ⟨_, q, rfl, h, rfl, rfl⟩
      · rintro t t' p1 q1 h3 ⟨rfl, rfl⟩
        have h2 : ¬ q.cursor.tt = tt := by
          rcases h2 with h2 | h2 <;> rw [h2]
          · exact Ne.symm hw.1
          · exact Ne.symm hw.2.2
        rw [h1, if_neg h2, if_neg (show ¬ eofToken.tt = tt from Ne.symm hw.2.1)]
        exact sim_pure h3 trivial
  · intro _ _ p2 q2 h2 _
    exact sim_pure h2 ⟨.default, .nil, Or.inr trivial⟩

theorem sim_stContinue {p q : PS} (h : PRel c p q) (hr : Room c p 0) : Sim c stContinue stContinue p q (StepRel c) := by
  unfold stContinue
  refine sim_bind (sim_advance0 h hr) ?_
  rintro a b p1 q1 h1 ⟨rfl, ha⟩
  refine sim_ite (fun _ => ?_) (fun hf => ?_)
  · exact sim_pure h1 ⟨.default, .nil, Or.inr trivial⟩
  · have he : c.ended := Classical.byContradiction fun h => hf (ha h)
    exact sim_pure h1 ⟨.eof he, .nil, Or.inl (Or.inl he)⟩

theorem sim_stDefinition {p q : PS} (h : PRel c p q) (hr : Room c p 0) : Sim c stDefinition stDefinition p q (StepRel c) := by
  unfold stDefinition
  refine sim_bind (sim_match (by simp [PatternOK]) h hr) ?_
  rintro ms ms' p1 q1 h1 ⟨hm, hr1, -⟩
  refine sim_bind (sim_nth hm .word rfl (by simp) h1) ?_
  rintro t t' p2 q2 h2 ⟨ht, htt, rfl⟩
  refine sim_bind (sim_comments h2 hr1 ht.ok ht.line) ?_
  rintro cm _ p3 q3 h3 ⟨rfl, hr3⟩
  exact step_to h3 (.definitionValue ⟨ht, .none, rfl, .nil, rfl⟩) hr3

theorem sim_stDefinitionValue {n n' : DefNode} (hn : DefRel (TokS c) n n') {p q : PS} (h : PRel c p q) (hr : Room c p 0) :
    Sim c (stDefinitionValue n) (stDefinitionValue n') p q (StepRel c) := by
  unfold stDefinitionValue
  refine sim_bind (sim_literalValue h hr) ?_
  rintro v v' p1 q1 h1 ⟨hv, hr1⟩
  exact step_emit h1 .eol (.defn { hn with right := .some hv.1 }) hr1

theorem sim_stImportMembers {n n' : ImportNode} (hn : ImportRel (TokS c) n n') {p q : PS} (h : PRel c p q) (hr : Room c p 0) :
    Sim c (stImportMembers n) (stImportMembers n') p q (StepRel c) := by
  unfold stImportMembers
  refine sim_bind (sim_cursor h hr) ?_
  rintro t t' p1 q1 h1 ⟨rfl, e, ht, hr2, hb⟩
  on_tt t ht hr2 hb hT hk
  all_goals first
    | exact step_emit h1 .default (.import_ hn) hr
    | exact step_skip h1 (.importMembers hn) trivial hr
    | exact step_line h1 (.importMembers hn) hr
    | skip
  refine sim_bind (sim_match (by simp [PatternOK]) h1 hr) ?_
  rintro ms ms' p2 q2 h2 ⟨-, hr3, -⟩
  refine sim_bind (sim_literalValue h2 hr3) ?_
  rintro v v' p3 q3 h3 ⟨hv, hr4⟩
  exact step_to h3 (.importMembers { hn with members := Pointwise.snoc hn.members hv.1 }) hr4

theorem sim_stImportValue {p q : PS} (h : PRel c p q) (hr : Room c p 0) : Sim c stImportValue stImportValue p q (StepRel c) := by
  unfold stImportValue
  refine sim_bind (sim_cursor h hr) ?_
  rintro t t' p1 q1 h1 ⟨rfl, e, ht, hr2, hb⟩
  on_tt t ht hr2 hb hT hk
  all_goals first
    | exact step_to h1 .default hr
    | exact step_skip h1 .importValue trivial hr
    | exact step_line h1 .importValue hr
    | skip
  refine sim_bind (sim_match (by simp [PatternOK]) h1 hr) ?_
  rintro ms ms' p2 q2 h2 ⟨-, hr3, -⟩
  refine sim_bind (sim_path h2 hr3) ?_
  rintro v v' p3 q3 h3 ⟨hv, hr4⟩
  exact step_emit h3 .importValue (.import_ ⟨hv.1, .nil⟩) hr4

theorem expectWord_rel {t t' : Token} (h : TokS c t t') (v : Str) : expectWord t' v = expectWord t v := by
  unfold expectWord; rw [h.tt, h.val]

theorem expectNumber_rel {t t' : Token} (h : TokS c t t') : expectNumber t' t'.val = expectNumber t t.val := by
  unfold expectNumber; rw [h.tt, h.val]

theorem sim_stImport {p q : PS} (h : PRel c p q) (hr : Room c p 0) : Sim c stImport stImport p q (StepRel c) := by
  unfold stImport
  refine sim_try (sim_match (by simp [PatternOK]) h hr) ?_ ?_
  · rintro ms ms' p1 q1 h1 ⟨hm, hr1, -⟩
    dsimp only
    refine sim_bind (sim_nth hm .word rfl (by simp) h1) ?_
    rintro t t' p2 q2 h2 ⟨ht, htt, rfl⟩
    rw [expectWord_rel ht]
    cases expectWord t "import".toList with
    | error e => exact sim_fail_same h2 hr1
    | ok _ => exact step_to h2 .importValue hr1
  · intro e e' p1 q1 h1 hr1
    dsimp only
    refine sim_bind (sim_match (by simp [PatternOK]) h1 hr1) ?_
    rintro ms ms' p2 q2 h2 ⟨-, hr3, -⟩
    refine sim_bind (sim_path h2 hr3) ?_
    rintro v v' p3 q3 h3 ⟨hv, hr4⟩
    exact step_to h3 (.importMembers ⟨hv.1, .nil⟩) hr4

theorem sim_stError {p q : PS} (h : PRel c p q) (hr : Room c p 0) : Sim c stError stError p q (StepRel c) := by
  unfold stError
  refine sim_bind (sim_match (by simp [PatternOK]) h hr) ?_
  rintro ms ms' p1 q1 h1 ⟨hm, hr1, -⟩
  refine sim_bind (sim_nth hm .word rfl (by simp) h1) ?_
  rintro t t' p2 q2 h2 ⟨ht, htt, rfl⟩
  rw [ht.val]
  refine sim_ite (fun _ => sim_fail_same h2 hr1) (fun _ => ?_)
  refine sim_bind (sim_nth hm .word rfl (by simp) h2) ?_
  rintro u u' p3 q3 h3 ⟨hu, hut, rfl⟩
  rw [expectNumber_rel hu]
  cases expectNumber u u.val with
  | error e => exact sim_fail_same h3 hr1
  | ok _ =>
    dsimp only
    refine sim_bind (sim_nth hm .word rfl (by simp) h3) ?_
    rintro v v' p4 q4 h4 ⟨hv, hvt, rfl⟩
    exact step_to h4 (.errorMessage ⟨hu, hv, .none, .none⟩) hr1

theorem sim_stErrorMessage {n n' : ErrorNode} (hn : ErrorRel (TokS c) n n') {p q : PS} (h : PRel c p q) (hr : Room c p 0) :
    Sim c (stErrorMessage n) (stErrorMessage n') p q (StepRel c) := by
  unfold stErrorMessage
  refine sim_bind (sim_cursor h hr) ?_
  rintro t t' p1 q1 h1 ⟨rfl, e, ht, hr2, hb⟩
  on_tt t ht hr2 hb hT hk
  all_goals first
    | exact sim_fail_same h1 hr
    | (refine sim_bind (sim_advance h1 (hr2 (by decide))) ?_
       rintro _ _ p2 q2 h2 ⟨-, hr3⟩
       exact step_to h2 (.errorStatus { hn with message := .some (hT (by decide)) }) (hr3.mono (by omega)))
    | skip
  refine sim_bind (sim_string h1 hr (by rw [← e]; exact hk)) ?_
  rintro a b p2 q2 h2 ⟨g, hr3⟩
  exact step_to h2 (.errorStatus { hn with message := .some g.1 }) (hr3.mono (by omega))

theorem sim_stErrorStatus {n n' : ErrorNode} (hn : ErrorRel (TokS c) n n') {p q : PS} (h : PRel c p q) (hr : Room c p 0) :
    Sim c (stErrorStatus n) (stErrorStatus n') p q (StepRel c) := by
  unfold stErrorStatus
  refine sim_try (sim_match (by simp [PatternOK]) h hr) ?_ ?_
  · rintro ms ms' p1 q1 h1 ⟨hm, hr1, hp1, -⟩
    dsimp only
    have hp1 := hp1 ⟨.word, by simp, by simp [Soft]⟩
    refine sim_bind (sim_nth hm .word rfl (by simp) h1) ?_
    rintro t t' p2 q2 h2 ⟨ht, htt, rfl⟩
    rw [expectWord_rel ht]
    cases expectWord t "HTTP".toList with
    | error e =>
      dsimp only
      refine sim_bind (sim_rewind h2 hr1 hp1) ?_
      intro _ _ p3 q3 h3 hr3
      exact sim_fail_same h3 hr3
    | ok _ =>
      dsimp only
      refine sim_bind (sim_match (by simp [PatternOK]) h2 hr1) ?_
      rintro ms ms' p3 q3 h3 ⟨hm, hr3, hp3, -⟩
      have hp3 := hp3 ⟨.word, by simp, by simp [Soft]⟩
      refine sim_bind (sim_nth hm .word rfl (by simp) h3) ?_
      rintro u u' p4 q4 h4 ⟨hu, hut, rfl⟩
      rw [expectNumber_rel hu]
      cases expectNumber u u.val with
      | error e =>
        dsimp only
        refine sim_bind (sim_rewind h4 hr3 hp3) ?_
        intro _ _ p3 q3 h3 hr3
        exact sim_fail_same h3 hr3
      | ok _ =>
        dsimp only
        refine sim_bind (sim_commentOrEOL h4 hr3) ?_
        intro _ _ p5 q5 h5 hr5
        exact step_emit h5 .default (.error { hn with httpStatus := .some hu }) hr5
  · intro e e' p1 q1 h1 hr1
    dsimp only
    refine sim_bind (sim_commentOrEOL h1 hr1) ?_
    intro _ _ p5 q5 h5 hr5
    exact step_emit h5 .default (.error hn) hr5

theorem sim_stEnum {p q : PS} (h : PRel c p q) (hr : Room c p 0) : Sim c stEnum stEnum p q (StepRel c) := by
  unfold stEnum
  refine sim_bind (sim_match (by simp [PatternOK]) h hr) ?_
  rintro ms ms' p1 q1 h1 ⟨hm, hr1, -⟩
  refine sim_bind (sim_nth hm .word rfl (by simp) h1) ?_
  rintro t t' p2 q2 h2 ⟨ht, htt, rfl⟩
  rw [ht.val]
  refine sim_ite (fun _ => sim_fail_same h2 hr1) (fun _ => ?_)
  refine sim_bind (sim_nth hm .word rfl (by simp) h2) ?_
  rintro u u' p3 q3 h3 ⟨hu, hut, rfl⟩
  refine sim_bind (sim_nth hm .word rfl (by simp) h3) ?_
  rintro v v' p4 q4 h4 ⟨hv, hvt, rfl⟩
  refine sim_bind (sim_comments h4 hr1 ht.ok ht.line) ?_
  rintro cm _ p5 q5 h5 ⟨rfl, hr5⟩
  exact step_to h5 (.enumDef ⟨hu, hv, .nil, rfl, ht.line⟩) hr5

theorem sim_stEnumDef {n n' : EnumNode} (hn : EnumRel (TokS c) c.d n n') {p q : PS} (h : PRel c p q) (hr : Room c p 0) :
    Sim c (stEnumDef n) (stEnumDef n') p q (StepRel c) := by
  unfold stEnumDef
  refine sim_bind (sim_cursor h hr) ?_
  rintro t t' p1 q1 h1 ⟨rfl, e, ht, hr2, hb⟩
  on_tt t ht hr2 hb hT hk
  all_goals first
    | exact step_emit h1 .default (.enum hn) hr
    | exact step_skip h1 (.enumDef hn) trivial hr
    | exact step_line h1 (.enumDef hn) hr
    | skip
  refine sim_bind (sim_match (by simp [PatternOK]) h1 hr) ?_
  rintro ms ms' p2 q2 h2 ⟨hm, hr3, -⟩
  refine sim_bind (sim_nth hm .word rfl (by simp) h2) ?_
  rintro u u' p3 q3 h3 ⟨hu, hut, rfl⟩
  refine sim_bind (sim_nth hm .minusSign rfl (by simp) h3) ?_
  rintro v v' p4 q4 h4 ⟨hv, hvt, rfl⟩
  refine sim_bind (sim_comments h4 hr3 hv.ok hv.line) ?_
  rintro cm _ p5 q5 h5 ⟨rfl, hr5⟩
  exact step_to h5 (.enumValue hn ⟨hu, .none, rfl, .nil, rfl⟩) hr5

theorem sim_stEnumValue {n n' : EnumNode} {dn dn' : DefNode} (hn : EnumRel (TokS c) c.d n n') (hd : DefRel (TokS c) dn dn') {p q : PS}
    (h : PRel c p q) (hr : Room c p 0) : Sim c (stEnumValue n dn) (stEnumValue n' dn') p q (StepRel c) := by
  unfold stEnumValue
  refine sim_try (sim_match (by simp [PatternOK]) h hr) ?_ ?_
  · rintro ms ms' p1 q1 h1 ⟨hm, hr1, -⟩
    dsimp only
    refine sim_bind (sim_literalValue h1 hr1) ?_
    rintro v v' p2 q2 h2 ⟨hv, hr2⟩
    refine sim_bind (sim_comments h2 hr2 hv.1.ok hv.1.line) ?_
    rintro cm _ p5 q5 h5 ⟨rfl, hr5⟩
    exact step_to h5 (.enumDef { hn with comment := rfl, values := Pointwise.snoc hn.values { hd with right := .some hv.1 } }) hr5
  · intro e e' p1 q1 h1 hr1
    exact step_to h1 (.enumDef { hn with values := Pointwise.snoc hn.values hd }) hr1

theorem sim_stTypeAlias {p q : PS} (h : PRel c p q) (hr : Room c p 0) : Sim c stTypeAlias stTypeAlias p q (StepRel c) := by
  unfold stTypeAlias
  refine sim_bind (sim_match (by simp [PatternOK]) h hr) ?_
  rintro ms ms' p1 q1 h1 ⟨hm, hr1, -⟩
  refine sim_bind (sim_nth hm .word rfl (by simp) h1) ?_
  rintro t t' p2 q2 h2 ⟨ht, htt, rfl⟩
  rw [ht.val]
  refine sim_ite (fun _ => sim_fail_same h2 hr1) (fun _ => ?_)
  refine sim_bind (sim_type h2 hr1) ?_
  rintro v v' p3 q3 h3 ⟨hv, hr3⟩
  refine sim_bind (sim_nth hm .word rfl (by simp) h3) ?_
  rintro u u' p4 q4 h4 ⟨hu, hut, rfl⟩
  refine sim_bind (sim_comments h4 hr3 ht.ok ht.line) ?_
  rintro cm _ p5 q5 h5 ⟨rfl, hr5⟩
  exact step_to h5 (.aliasMeta ⟨hu, hv.1, .nil, rfl, ht.line⟩) hr5

theorem sim_stAliasMeta {n n' : AliasNode} (hn : AliasRel (TokS c) c.d n n') {p q : PS} (h : PRel c p q) (hr : Room c p 0) :
    Sim c (stAliasMeta n) (stAliasMeta n') p q (StepRel c) := by
  unfold stAliasMeta
  refine sim_bind (sim_cursor h hr) ?_
  rintro t t' p1 q1 h1 ⟨rfl, e, ht, hr2, hb⟩
  on_tt t ht hr2 hb hT hk
  all_goals first
    | exact step_emit h1 .default (.alias hn) hr
    | exact step_skip h1 (.aliasMeta hn) trivial hr
    | exact step_line h1 (.aliasMeta hn) hr
    | exact step_to h1 (.aliasMetaDef hn) hr

theorem sim_stAliasMetaDef {n n' : AliasNode} (hn : AliasRel (TokS c) c.d n n') {p q : PS} (h : PRel c p q) (hr : Room c p 0) :
    Sim c (stAliasMetaDef n) (stAliasMetaDef n') p q (StepRel c) := by
  unfold stAliasMetaDef
  refine sim_bind (sim_metaLine h hr) ?_
  rintro m m' p1 q1 h1 ⟨hm, hr1⟩
  exact step_to h1 (.aliasMeta { hn with metas := Pointwise.snoc hn.metas hm }) hr1

theorem sim_stStruct {p q : PS} (h : PRel c p q) (hr : Room c p 0) : Sim c stStruct stStruct p q (StepRel c) := by
  unfold stStruct
  refine sim_bind (sim_match (by simp [PatternOK]) h hr) ?_
  rintro ms ms' p1 q1 h1 ⟨hm, hr1, -⟩
  refine sim_bind (sim_nth hm .word rfl (by simp) h1) ?_
  rintro t t' p2 q2 h2 ⟨ht, htt, rfl⟩
  rw [ht.val]
  refine sim_ite (fun _ => sim_fail_same h2 hr1) (fun _ => ?_)
  refine sim_bind (sim_nth hm .word rfl (by simp) h2) ?_
  rintro u u' p3 q3 h3 ⟨hu, hut, rfl⟩
  refine sim_bind (sim_comments h3 hr1 ht.ok ht.line) ?_
  rintro cm _ p5 q5 h5 ⟨rfl, hr5⟩
  exact step_to h5 (.structField ⟨hu, .nil, rfl, ht.line⟩) hr5

theorem sim_stStructField {n n' : StructNode} (hn : StructRel (TokS c) c.d n n') {p q : PS} (h : PRel c p q) (hr : Room c p 0) :
    Sim c (stStructField n) (stStructField n') p q (StepRel c) := by
  unfold stStructField
  refine sim_bind (sim_cursor h hr) ?_
  rintro t t' p1 q1 h1 ⟨rfl, e, ht, hr2, hb⟩
  on_tt t ht hr2 hb hT hk
  all_goals first
    | exact step_emit h1 .default (.struct hn) hr
    | exact step_skip h1 (.structField hn) trivial hr
    | exact step_line h1 (.structField hn) hr
    | exact step_to h1 (.fieldDef hn) hr

theorem sim_stFieldDef {n n' : StructNode} (hn : StructRel (TokS c) c.d n n') {p q : PS} (h : PRel c p q) (hr : Room c p 0) :
    Sim c (stFieldDef n) (stFieldDef n') p q (StepRel c) := by
  unfold stFieldDef
  refine sim_bind (sim_match (by simp [PatternOK]) h hr) ?_
  rintro ms ms' p1 q1 h1 ⟨hm, hr1, -⟩
  refine sim_bind (sim_nth hm .word rfl (by simp) h1) ?_
  rintro t t' p2 q2 h2 ⟨ht, htt, rfl⟩
  refine sim_bind (sim_nth hm .minusSign rfl (by simp) h2) ?_
  rintro u u' p3 q3 h3 ⟨hu, hut, rfl⟩
  refine sim_bind (sim_comments h3 hr1 hu.ok hu.line) ?_
  rintro cm _ p4 q4 h4 ⟨rfl, hr4⟩
  have rest : ∀ (o : Bool) (p q : PS), PRel c p q → Room c p 0 → Sim c
      (do
        let _ ← match_ [.colon, .whitespace]
        let t_1 ← expectType
        pure (Step.goto (.fieldMeta { n with fields := n.fields ++ [{ left := t, right := some t_1, optional := o, comment := cm }] }) []))
      (do
        let _ ← match_ [.colon, .whitespace]
        let t_1 ← expectType
        pure (Step.goto (.fieldMeta { n' with fields := n'.fields ++ [{ left := t', right := some t_1, optional := o, comment := cm }] }) []))
      p q (StepRel c) := by
    intro o p q h hr
    refine sim_bind (sim_match (by simp [PatternOK]) h hr) ?_
    rintro ms ms' p6 q6 h6 ⟨-, hr6, -⟩
    refine sim_bind (sim_type h6 hr6) ?_
    rintro v v' p7 q7 h7 ⟨hv, hr7⟩
    exact step_to h7 (.fieldMeta { hn with fields := Pointwise.snoc hn.fields ⟨ht, .some hv.1, rfl, .nil, rfl⟩ }) hr7
  refine sim_try (sim_match (by simp [PatternOK]) h4 hr4) ?_ ?_
  · rintro ms ms' p5 q5 h5 ⟨-, hr5, -⟩
    exact rest true p5 q5 h5 hr5
  · intro e e' p5 q5 h5 hr5
    exact rest false p5 q5 h5 hr5

theorem sim_stFieldMeta {n n' : StructNode} (hn : StructRel (TokS c) c.d n n') {p q : PS} (h : PRel c p q) (hr : Room c p 0) :
    Sim c (stFieldMeta n) (stFieldMeta n') p q (StepRel c) := by
  unfold stFieldMeta
  refine sim_bind (sim_cursor h hr) ?_
  rintro t t' p1 q1 h1 ⟨rfl, e, ht, hr2, hb⟩
  on_tt t ht hr2 hb hT hk
  all_goals first
    | exact step_skip h1 (.fieldMeta hn) trivial hr
    | exact step_line h1 (.fieldMeta hn) hr
    | exact step_to h1 (.fieldMetaDef hn) hr
    | exact step_to h1 (.structField hn) hr

theorem Pointwise.last {α β : Type} {R : α → β → Prop} {a : List α} {b : List β} (h : Pointwise R a b) :
    (a.getLast? = none ∧ b.getLast? = none) ∨
      ∃ x y, a.getLast? = some x ∧ b.getLast? = some y ∧ R x y ∧ Pointwise R a.dropLast b.dropLast := by
  induction h with
  | nil => exact Or.inl ⟨rfl, rfl⟩
  | @cons x y a b h1 h2 ih =>
    refine Or.inr ?_
    rcases ih with ⟨g1, g2⟩ | ⟨x', y', g1, g2, g3, g4⟩
    · rw [List.getLast?_eq_none_iff] at g1 g2
      subst g1 g2
      exact ⟨x, y, rfl, rfl, h1, .nil⟩
    · cases h2 with
      | nil => cases g1
      | cons k1 k2 =>
        refine ⟨x', y', ?_, ?_, g3, ?_⟩
        · rw [List.getLast?_cons_cons]; exact g1
        · rw [List.getLast?_cons_cons]; exact g2
        · exact .cons h1 g4

theorem sim_stFieldMetaDef {n n' : StructNode} (hn : StructRel (TokS c) c.d n n') {p q : PS} (h : PRel c p q) (hr : Room c p 0) :
    Sim c (stFieldMetaDef n) (stFieldMetaDef n') p q (StepRel c) := by
  unfold stFieldMetaDef
  rcases Pointwise.last hn.fields with ⟨g1, g2⟩ | ⟨x, y, g1, g2, g3, g4⟩
  · rw [g1, g2]; exact sim_crash
  · rw [g1, g2]
    dsimp only
    refine sim_bind (sim_metaLine h hr) ?_
    rintro m m' p1 q1 h1 ⟨hm, hr1⟩
    exact step_to h1 (.fieldMeta { hn with fields := Pointwise.snoc g4 { g3 with metas := Pointwise.snoc g3.metas hm } }) hr1

theorem sim_stService {p q : PS} (h : PRel c p q) (hr : Room c p 0) : Sim c stService stService p q (StepRel c) := by
  unfold stService
  refine sim_bind (sim_match (by simp [PatternOK]) h hr) ?_
  rintro ms ms' p1 q1 h1 ⟨hm, hr1, -⟩
  refine sim_bind (sim_nth hm .word rfl (by simp) h1) ?_
  rintro t t' p2 q2 h2 ⟨ht, htt, rfl⟩
  rw [ht.val]
  refine sim_ite (fun _ => sim_fail_same h2 hr1) (fun _ => ?_)
  refine sim_bind (sim_literalValue h2 hr1) ?_
  rintro v v' p3 q3 h3 ⟨hv, hr3⟩
  refine sim_bind (sim_commentOrEOL h3 hr3) ?_
  intro _ _ p4 q4 h4 hr4
  refine sim_bind (sim_comments h4 hr4 ht.ok ht.line) ?_
  rintro cm _ p5 q5 h5 ⟨rfl, hr5⟩
  exact step_to h5 (.serviceMethod ⟨hv.1, .nil, .nil, rfl⟩) hr5

theorem sim_stServiceMethod {n n' : ServiceNode} (hn : ServiceRel (TokS c) n n') {p q : PS} (h : PRel c p q) (hr : Room c p 0) :
    Sim c (stServiceMethod n) (stServiceMethod n') p q (StepRel c) := by
  unfold stServiceMethod
  refine sim_bind (sim_cursor h hr) ?_
  rintro t t' p1 q1 h1 ⟨rfl, e, ht, hr2, hb⟩
  on_tt t ht hr2 hb hT hk
  all_goals first
    | exact step_emit h1 .default (.service hn) hr
    | exact step_skip h1 (.serviceMethod hn) trivial hr
    | exact step_line h1 (.serviceMethod hn) hr
    | exact step_to h1 (.methodDef hn) hr
    | skip
  refine sim_bind (sim_annotations h1 hr) ?_
  rintro a b p2 q2 h2 ⟨hab, hr3⟩
  exact step_to h2 (.serviceMethod { hn with methodAnnotations := Pointwise.app hn.methodAnnotations hab }) hr3

theorem dup_rel {l l' : List AnnNode} (h : Pointwise (AnnRel (TokS c)) l l') : hasDupAnnotation l' = hasDupAnnotation l := by
  induction h with
  | nil => rfl
  | cons h1 h2 ih => unfold hasDupAnnotation; rw [ih, h1.annType.val, any_rel h2]

theorem sim_outputStream {p q : PS} (h : PRel c p q) (hr : Room c p 0) :
    Sim c outputStream outputStream p q fun a b p' => a = b ∧ Room c p' 0 := by
  unfold outputStream
  refine sim_try (sim_match (by simp [PatternOK]) h hr) ?_ ?_
  · rintro ms ms' p1 q1 h1 ⟨hm, hr1, -⟩
    dsimp only
    refine sim_bind (sim_nth hm .word rfl (by simp) h1) ?_
    rintro t t' p2 q2 h2 ⟨ht, htt, rfl⟩
    rw [ht.val]
    exact sim_ite (fun _ => sim_pure h2 ⟨rfl, hr1⟩) (fun _ => sim_fail_same h2 hr1)
  · intro e e' p1 q1 h1 hr1
    exact sim_pure h1 ⟨rfl, hr1⟩

theorem sim_methodOutputs {n n' : MethodNode} (hn : MethodRel (TokS c) n n') {p q : PS} (h : PRel c p q) (hr : Room c p 0) :
    Sim c (methodOutputs n) (methodOutputs n') p q fun a b p' => MethodRel (TokS c) a b ∧ Room c p' 0 := by
  unfold methodOutputs
  refine sim_try (sim_match (by simp [PatternOK]) h hr) ?_ ?_
  · rintro ms ms' p1 q1 h1 ⟨hm, hr1, -⟩
    dsimp only
    refine sim_bind (sim_outputStream h1 hr1) ?_
    rintro b _ p2 q2 h2 ⟨rfl, hr2⟩
    refine sim_bind (sim_argumentList h2 hr2) ?_
    rintro l l' p3 q3 h3 ⟨hl, hr3⟩
    exact sim_pure h3 ⟨{ hn with streamOutput := rfl, outputs := hl }, hr3⟩
  · intro e e' p1 q1 h1 hr1
    exact sim_pure h1 ⟨hn, hr1⟩

theorem sim_methodErrors {n n' : MethodNode} (hn : MethodRel (TokS c) n n') {p q : PS} (h : PRel c p q) (hr : Room c p 0) :
    Sim c (methodErrors n) (methodErrors n') p q fun a b p' => MethodRel (TokS c) a b ∧ Room c p' 0 := by
  unfold methodErrors
  refine sim_try (sim_match (by simp [PatternOK]) h hr) ?_ ?_
  · rintro ms ms' p1 q1 h1 ⟨hm, hr1, -⟩
    dsimp only
    refine sim_bind (sim_nth hm .word rfl (by simp) h1) ?_
    rintro t t' p2 q2 h2 ⟨ht, htt, rfl⟩
    rw [ht.val]
    refine sim_ite (fun _ => ?_) (fun _ => sim_pure h2 ⟨hn, hr1⟩)
    refine sim_bind (sim_errorList h2 hr1) ?_
    rintro l l' p3 q3 h3 ⟨hl, hr3⟩
    exact sim_pure h3 ⟨{ hn with errors := hl }, hr3⟩
  · intro e e' p1 q1 h1 hr1
    exact sim_pure h1 ⟨hn, hr1⟩

theorem sim_prefixedName {b : Bool} {t t' : Token} (ht : TokS c t t') {p q : PS} (h : PRel c p q) (hr : Room c p 0) :
    Sim c (prefixedName b t) (prefixedName b t') p q fun a b p' => TokS c a b ∧ Room c p' 0 := by
  unfold prefixedName
  refine sim_ite (fun _ => ?_) (fun _ => sim_pure h ⟨ht, hr⟩)
  refine sim_bind (sim_match (by simp [PatternOK]) h hr) ?_
  rintro ms ms' p1 q1 h1 ⟨hm, hr1, -⟩
  refine (sim_nth hm .word rfl (by simp) h1).mono ?_
  rintro a b p2 ⟨g, -, rfl⟩
  exact ⟨g, hr1⟩

/-- The line whose comments a method gets. -/
def docLine (l : List AnnNode) (m : Token) : Nat :=
  match l.getLast? with
  | some a => a.annType.line
  | none => m.line

theorem docLine_rel {l l' : List AnnNode} {t t' : Token} (h : Pointwise (AnnRel (TokS c)) l l') (ht : TokS c t t') :
    c.ok (docLine l t) ∧ docLine l' t' = docLine l t + c.d := by
  unfold docLine
  rcases Pointwise.last h with ⟨g1, g2⟩ | ⟨x, y, g1, g2, g3, -⟩
  · rw [g1, g2]; exact ⟨ht.ok, ht.line⟩
  · rw [g1, g2]; exact ⟨g3.annType.ok, g3.annType.line⟩

theorem sim_stMethodDef {n n' : ServiceNode} (hn : ServiceRel (TokS c) n n') {p q : PS} (h : PRel c p q) (hr : Room c p 0) :
    Sim c (stMethodDef n) (stMethodDef n') p q (StepRel c) := by
  unfold stMethodDef
  rw [dup_rel hn.methodAnnotations]
  refine sim_ite (fun _ => sim_fail_same h hr) (fun _ => ?_)
  refine sim_bind (sim_match (by simp [PatternOK]) h hr) ?_
  rintro ms ms' p1 q1 h1 ⟨hm, hr1, -⟩
  refine sim_bind (sim_nth hm .minusSign rfl (by simp) h1) ?_
  rintro t t' p2 q2 h2 ⟨ht, htt, rfl⟩
  refine sim_bind (sim_nth hm .word rfl (by simp) h2) ?_
  rintro u u' p3 q3 h3 ⟨hu, hut, rfl⟩
  rw [hu.val]
  refine sim_bind (sim_prefixedName hu h3 hr1) ?_
  rintro v v' p4 q4 h4 ⟨hv, hr4⟩
  refine sim_bind (sim_prefixedName hv h4 hr4) ?_
  rintro w w' p5 q5 h5 ⟨hw, hr5⟩
  obtain ⟨k1, k2⟩ := docLine_rel hn.methodAnnotations ht
  refine sim_bind (sim_comments (l := docLine n.methodAnnotations t) (l' := docLine n'.methodAnnotations t') h5 hr5 k1 k2) ?_
  rintro cm _ p6 q6 h6 ⟨rfl, hr6⟩
  have hmn : MethodRel (TokS c)
      { name := w, proxy := decide (u.val = "proxy".toList), comment := cm, streamInput := decide (u.val = "stream".toList),
        annotations := n.methodAnnotations }
      { name := w', proxy := decide (u.val = "proxy".toList), comment := cm, streamInput := decide (u.val = "stream".toList),
        annotations := n'.methodAnnotations } := ⟨hw, rfl, rfl, hn.methodAnnotations, rfl, .nil, rfl, .nil, .nil⟩
  refine sim_ite (fun _ => ?_) (fun _ => ?_)
  · exact step_to h6 (.serviceMethod { hn with methods := Pointwise.snoc hn.methods hmn, methodAnnotations := .nil }) hr6
  · refine sim_bind (sim_argumentList h6 hr6) ?_
    rintro l l' p7 q7 h7 ⟨hl, hr7⟩
    refine sim_bind (sim_methodOutputs (by exact ⟨hw, rfl, rfl, hn.methodAnnotations, rfl, hl, rfl, .nil, .nil⟩) h7 hr7) ?_
    rintro a a' p8 q8 h8 ⟨ha, hr8⟩
    refine sim_bind (sim_methodErrors ha h8 hr8) ?_
    rintro b b' p9 q9 h9 ⟨hb, hr9⟩
    exact step_to h9 (.serviceMethod { hn with methods := Pointwise.snoc hn.methods hb, methodAnnotations := .nil }) hr9

/-- Every state function behaves alike on related states. -/
theorem sim_step {s s' : St} (hs : StRel c s s') {p q : PS} (h : PRel c p q) (hr : Room c p 0) :
    Sim c (step s) (step s') p q (StepRel c) := by
  cases hs with
  | default => exact sim_stDefault h hr
  | space => exact sim_stSkip (tt := .whitespace) ⟨nofun, nofun, nofun⟩ h hr
  | newLine => exact sim_stSkip (tt := .newLine) ⟨nofun, nofun, nofun⟩ h hr
  | declaration => exact sim_stDeclaration h hr
  | comment => exact sim_stComment h hr
  | eof he => exact sim_pure h he
  | eol => exact sim_stEOL h hr
  | continue_ => exact sim_stContinue h hr
  | definition => exact sim_stDefinition h hr
  | definitionValue hn => exact sim_stDefinitionValue hn h hr
  | import_ => exact sim_stImport h hr
  | importValue => exact sim_stImportValue h hr
  | importMembers hn => exact sim_stImportMembers hn h hr
  | error => exact sim_stError h hr
  | errorMessage hn => exact sim_stErrorMessage hn h hr
  | errorStatus hn => exact sim_stErrorStatus hn h hr
  | enum => exact sim_stEnum h hr
  | enumDef hn => exact sim_stEnumDef hn h hr
  | enumValue hn hd => exact sim_stEnumValue hn hd h hr
  | typeAlias => exact sim_stTypeAlias h hr
  | aliasMeta hn => exact sim_stAliasMeta hn h hr
  | aliasMetaDef hn => exact sim_stAliasMetaDef hn h hr
  | struct => exact sim_stStruct h hr
  | structField hn => exact sim_stStructField hn h hr
  | fieldMeta hn => exact sim_stFieldMeta hn h hr
  | fieldMetaDef hn => exact sim_stFieldMetaDef hn h hr
  | fieldDef hn => exact sim_stFieldDef hn h hr
  | service => exact sim_stService h hr
  | serviceMethod hn => exact sim_stServiceMethod hn h hr
  | methodDef hn => exact sim_stMethodDef hn h hr

end Verif.Ridl
