import Verif.Ridl.CmValues

/-! # Two parsers on tokens that differ in a comment: types, arguments, annotations and metadata (for C110) -/

namespace Verif.Ridl.Cm
open Verif.Schema hiding Str
open Verif.Spec.Uncommented

variable {c : Ctx} {α β γ δ : Type}

theorem sim_try {m : P α} {m' : P β} {f : Except PErr α → P γ} {f' : Except PErr β → P δ} {p q : PS} {Q : α → β → PS → Prop}
    {R : γ → δ → PS → Prop} (h : Sim c m m' p q Q)
    (hok : ∀ a b p' q', PRel c p' q' → Q a b p' → Sim c (f (.ok a)) (f' (.ok b)) p' q' R)
    (herr : ∀ e e' p' q', PRel c p' q' → Room c p' 0 → Sim c (f (.error e)) (f' (.error e')) p' q' R) :
    Sim c (attempt m >>= f) (attempt m' >>= f') p q R := by
  refine sim_bind (sim_attempt h) ?_
  intro r r' p1 q1 h1 hr
  cases r with
  | ok a =>
    cases r' with
    | ok b => exact hok a b p1 q1 h1 hr
    | error _ => exact hr.elim
  | error e =>
    cases r' with
    | ok _ => exact hr.elim
    | error e' => exact herr e e' p1 q1 h1 room0

/-- What values are found by both parsers. -/
def TokQ (c : Ctx) (a b : Token) (p : PS) : Prop := Real a b ∧ Room c p 0

theorem Acc.one {t t' : Token} (h : TokS t t') : Acc [t] [t'] := Or.inr ⟨t, t', [], [], rfl, rfl, h, .nil⟩

theorem sim_metaKey {p q : PS} (h : PRel c p q) (hr : Room c p 0) :
    Sim c expectMetadataKey expectMetadataKey p q (TokQ c) := by
  unfold expectMetadataKey
  refine sim_bind (sim_match (by simp [PatternOK]) h hr) ?_
  rintro ms ms' p1 q1 h1 ⟨hm, hr1, -⟩
  refine sim_bind (sim_nth hm .word rfl (by simp) h1) ?_
  rintro t t' p2 q2 h2 ⟨ht, htt, rfl⟩
  refine sim_bind (Q := fun a b p' => Acc a b ∧ Room c p' 0) ?_ ?_
  · refine sim_loop (fun a b p => Acc a b ∧ Room c p 0) h2 ⟨Acc.one ht, hr1⟩ ?_
    rintro l l' p q h ⟨ha, hr⟩
    refine sim_bind (sim_cursor h hr) ?_
    rintro u u' p3 q3 h3 ⟨rfl, -, hu, hr2, hb⟩
    at_tt u hu hr2 hb hT hk
    all_goals first
      | exact sim_fail_same h3 hr
      | exact sim_pure h3 ⟨ha, hr⟩
      | skip
    · refine sim_bind (sim_match (by simp [PatternOK]) h3 hr) ?_
      rintro ns ns' p4 q4 h4 ⟨hm', hr4, -⟩
      exact sim_pure h4 ⟨ha.app (mrel_all hm' (by simp [Soft])), hr4⟩
    · refine sim_bind (sim_advance h3 (hr2 (by decide))) ?_
      rintro _ _ p4 q4 h4 ⟨-, hr4⟩
      exact sim_pure h4 ⟨ha.snoc (hT (by decide)) (by rw [hk]; decide), hr4.mono (by omega)⟩
  · rintro l l' p3 q3 h3 ⟨ha, hr3⟩
    refine (sim_composed h3 hr3 ha).mono ?_
    rintro a b p' ⟨g, rfl⟩
    exact ⟨g, hr3⟩

theorem sim_metaValue {p q : PS} (h : PRel c p q) (hr : Room c p 1) :
    Sim c expectMetadataValue expectMetadataValue p q (TokQ c) := by
  unfold expectMetadataValue
  refine sim_bind (sim_cursor h room0) ?_
  rintro t t' p1 q1 h1 ⟨rfl, e, ht, hr2, hb⟩
  rw [ht.tt]
  by_cases hq : t.tt = .quote
  · simp only [if_pos hq]
    refine (sim_string h1 room0 (by rw [← e]; exact hq)).mono ?_
    rintro a b p' ⟨g1, g2⟩
    exact ⟨g1, g2.mono (by omega)⟩
  · simp only [if_neg hq]
    refine sim_bind (Q := fun a b p' => Acc a b ∧ Room c p' 1) ?_ ?_
    · refine sim_loop (fun a b p => Acc a b ∧ Room c p 1) h1 ⟨Or.inl ⟨rfl, rfl⟩, hr⟩ ?_
      rintro l l' p q h ⟨ha, hr⟩
      refine sim_bind (sim_cursor h room0) ?_
      rintro u u' p3 q3 h3 ⟨rfl, eu, hu, hr2, hb⟩
      have hadv : ∀ p4, ((p3.cursor.tt = .eof ∧ p4 = p3) ∨ p4 = { p3 with pos := p3.pos + 1 }) → u.tt ≠ .whitespace → u.tt ≠ .newLine → u.tt ≠ .eof →
          Room c p4 1 := by
        intro p4 hp k1 k2 k3
        rw [eu] at k1 k2 k3
        rcases hp with ⟨he, -⟩ | rfl
        · exact absurd he k3
        · refine Or.inr fun hc => ?_
          have hg := (cursor_some k3).1
          rw [h3.toks] at hg
          rcases h3.ok.last p3.pos _ hc hg with g | g
          · exact k1 g
          · exact k2 g
      rw [hu.tt]
      have hT := hu.tok
      generalize hk : u.tt = k at hT hadv ⊢
      cases k <;> dsimp only
      all_goals first
        | exact sim_pure h3 ⟨ha, hr⟩
        | (refine sim_bind (sim_advance' h3 hr.ne) ?_
           rintro _ _ p4 q4 h4 ⟨-, hp4⟩
           exact sim_pure h4 ⟨ha.snoc (hT (by decide)) (by rw [hk]; decide), hadv p4 hp4 (by decide) (by decide) (by decide)⟩)
    · rintro l l' p3 q3 h3 ⟨ha, hr3⟩
      refine (sim_composed h3 room0 ha).mono ?_
      rintro a b p' ⟨g, rfl⟩
      exact ⟨g, room0⟩

/-- `rec` and `rec'` behave alike. -/
def RecSim (c : Ctx) (r r' : P Token) : Prop := ∀ p q, PRel c p q → Room c p 0 → Sim c r r' p q (TokQ c)

theorem sim_typeList {r r' : P Token} (hrec : RecSim c r r') {p q : PS} (h : PRel c p q) (hr : Room c p 0) :
    Sim c (expectTypeList r) (expectTypeList r') p q (TokQ c) := by
  unfold expectTypeList
  refine sim_bind (sim_match (by simp [PatternOK]) h hr) ?_
  rintro ms ms' p1 q1 h1 ⟨hm, hr1, -⟩
  refine sim_bind (sim_nth hm .openAngle rfl (by simp) h1) ?_
  rintro t t' p2 q2 h2 ⟨ht, htt, rfl⟩
  refine sim_bind (Q := fun a b p' => Acc a b ∧ Room c p' 0) ?_ ?_
  · refine sim_loop (fun a b p => Acc a b ∧ Room c p 0) h2 ⟨Acc.one ht, hr1⟩ ?_
    rintro l l' p q h ⟨ha, hr⟩
    refine sim_bind (sim_cursor h hr) ?_
    rintro u u' p3 q3 h3 ⟨rfl, -, hu, hr2, hb⟩
    at_tt u hu hr2 hb hT hk
    all_goals first
      | exact sim_fail_same h3 hr
      | exact sim_pure h3 ⟨ha.snoc (hT (by decide)) (by rw [hk]; decide), hr⟩
      | skip
    all_goals first
      | (refine sim_bind (hrec _ _ h3 hr) ?_
         rintro a b p4 q4 h4 ⟨g, hr4⟩
         exact sim_pure h4 ⟨ha.snoc g.1 g.2, hr4⟩)
      | (refine sim_bind (sim_advance h3 (hr2 (by decide))) ?_
         rintro _ _ p4 q4 h4 ⟨-, hr4⟩
         first
          | exact sim_pure h4 ⟨ha, hr4.mono (by omega)⟩
          | exact sim_pure h4 ⟨ha.snoc (hT (by decide)) (by rw [hk]; decide), hr4.mono (by omega)⟩)
  · rintro l l' p3 q3 h3 ⟨ha, hr3⟩
    refine (sim_composed h3 hr3 ha).mono ?_
    rintro a b p' ⟨g, rfl⟩
    exact ⟨g, hr3⟩

theorem sim_mapDef {r r' : P Token} (hrec : RecSim c r r') {p q : PS} (h : PRel c p q) (hr : Room c p 0) (hw : p.cursor.tt = .word) :
    Sim c (expectMapDefinition r) (expectMapDefinition r') p q (TokQ c) := by
  unfold expectMapDefinition
  refine sim_bind (sim_cursor h hr) ?_
  rintro t t' p1 q1 h1 ⟨rfl, e, ht, hr2, hb⟩
  have htw : t.tt = .word := by rw [e]; exact hw
  rw [ht.val]
  by_cases hv : t.val ≠ "map".toList
  · simp only [if_pos hv]
    exact sim_fail_same h1 hr
  · simp only [if_neg hv]
    refine sim_bind (sim_advance h1 (hr2 (by rw [htw]; decide))) ?_
    rintro _ _ p2 q2 h2 ⟨-, hr3⟩
    refine sim_bind (Q := fun a b p' => Acc a b ∧ Room c p' 0) ?_ ?_
    · refine sim_loop (fun a b p => Acc a b ∧ Room c p 0) h2 ⟨Acc.one (ht.tok (by rw [htw]; decide)), hr3.mono (by omega)⟩ ?_
      rintro l l' p q h ⟨ha, hr⟩
      refine sim_bind (sim_cursor h hr) ?_
      rintro u u' p3 q3 h3 ⟨rfl, -, hu, hr2, hb⟩
      at_tt u hu hr2 hb hT hk
      all_goals first
        | exact sim_fail_same h3 hr
        | (refine sim_bind (sim_typeList hrec h3 hr) ?_
           rintro a b p4 q4 h4 ⟨g, hr4⟩
           exact sim_pure h4 ⟨ha.snoc g.1 g.2, hr4⟩)
        | (refine sim_bind (sim_advance h3 (hr2 (by decide))) ?_
           rintro _ _ p4 q4 h4 ⟨-, hr4⟩
           exact sim_pure h4 ⟨ha, hr4.mono (by omega)⟩)
    · rintro l l' p3 q3 h3 ⟨ha, hr3⟩
      refine (sim_composed h3 hr3 ha).mono ?_
      rintro a b p' ⟨g, rfl⟩
      exact ⟨g, hr3⟩

theorem sim_typeBody {r r' : P Token} (hrec : RecSim c r r') : RecSim c (expectTypeBody r) (expectTypeBody r') := by
  intro p q h hr
  unfold expectTypeBody
  refine sim_bind (Q := fun a b p' => Acc a b ∧ Room c p' 0) ?_ ?_
  · refine sim_loop (fun a b p => Acc a b ∧ Room c p 0) h ⟨Or.inl ⟨rfl, rfl⟩, hr⟩ ?_
    rintro l l' p q h ⟨ha, hr⟩
    refine sim_bind (sim_cursor h hr) ?_
    rintro u u' p3 q3 h3 ⟨rfl, e, hu, hr2, hb⟩
    rw [hu.val]
    at_tt u hu hr2 hb hT hk
    all_goals first
      | exact sim_fail_same h3 hr
      | exact sim_pure h3 ⟨ha, hr⟩
      | skip
    all_goals first
      | (refine sim_bind (sim_match (by simp [PatternOK]) h3 hr) ?_
         rintro ns ns' p4 q4 h4 ⟨hm', hr4, -⟩
         refine sim_bind (hrec _ _ h4 hr4) ?_
         rintro a b p5 q5 h5 ⟨g, hr5⟩
         refine sim_pure h5 ⟨ha.app (Pointwise.snoc (mrel_all hm' (by simp [Soft])) g), hr5⟩)
      | skip
    by_cases hv : u.val = "map".toList
    · simp only [if_pos hv]
      refine sim_bind (sim_mapDef hrec h3 hr (by rw [← e]; exact hk)) ?_
      rintro a b p4 q4 h4 ⟨g, hr4⟩
      exact sim_pure h4 ⟨ha.snoc g.1 g.2, hr4⟩
    · simp only [if_neg hv]
      by_cases hs : u.val = "stream".toList ∨ u.val = "struct".toList
      · simp only [if_pos hs]
        exact sim_fail_same h3 hr
      · simp only [if_neg hs]
        refine sim_bind (sim_advance h3 (hr2 (by decide))) ?_
        rintro _ _ p4 q4 h4 ⟨-, hr4⟩
        exact sim_pure h4 ⟨ha.snoc (hT (by decide)) (by rw [hk]; decide), hr4.mono (by omega)⟩
  · rintro l l' p3 q3 h3 ⟨ha, hr3⟩
    refine (sim_composed h3 hr3 ha).mono ?_
    rintro a b p' ⟨g, rfl⟩
    exact ⟨g, hr3⟩

theorem sim_typeN : ∀ n n', RecSim c (expectTypeN n) (expectTypeN n') := by
  intro n
  induction n with
  | zero =>
    intro n' p q _ _ o p' hm
    cases hm
    exact Or.inr trivial
  | succ n ih =>
    intro n'
    cases n' with
    | zero => exact fun p q _ _ o p' _ => Or.inl ⟨q, rfl⟩
    | succ m => exact sim_typeBody (ih m)

theorem sim_type {p q : PS} (h : PRel c p q) (hr : Room c p 0) : Sim c expectType expectType p q (TokQ c) := by
  exact sim_typeN _ _ p q h hr

theorem sim_optStream {p q : PS} (h : PRel c p q) (hr : Room c p 0) :
    Sim c optStream optStream p q fun _ _ p' => Room c p' 0 := by
  unfold optStream
  refine sim_try (sim_match (by simp [PatternOK]) h hr) ?_ ?_
  · rintro ms ms' p1 q1 h1 ⟨hm, hr1, -⟩
    dsimp only
    refine sim_bind (sim_nth hm .word rfl (by simp) h1) ?_
    rintro t t' p2 q2 h2 ⟨ht, htt, rfl⟩
    rw [ht.val]
    by_cases hv : t.val ≠ "stream".toList
    · simp only [if_pos hv]; exact sim_fail_same h2 hr1
    · simp only [if_neg hv]; exact sim_pure h2 hr1
  · intro e e' p1 q1 h1 hr1
    exact sim_pure h1 hr1

theorem sim_arguments {p q : PS} (h : PRel c p q) (hr : Room c p 0) :
    Sim c argumentLoop argumentLoop p q fun a b p' => Pointwise ArgRel a b ∧ Room c p' 0 := by
  unfold argumentLoop
  refine sim_loop (fun a b p => Pointwise ArgRel a b ∧ Room c p 0) h ⟨.nil, hr⟩ ?_
  rintro l l' p q h ⟨ha, hr⟩
  refine sim_bind (sim_cursor h hr) ?_
  rintro u u' p3 q3 h3 ⟨rfl, e, hu, hr2, hb⟩
  at_tt u hu hr2 hb hT hk
  all_goals first
    | exact sim_fail_same h3 hr
    | (refine sim_bind (sim_advance h3 (hr2 (by decide))) ?_
       rintro _ _ p4 q4 h4 ⟨-, hr4⟩
       exact sim_pure h4 ⟨ha, hr4.mono (by omega)⟩)
    | skip
  refine sim_try (sim_match (by simp [PatternOK]) h3 hr) ?_ ?_
  · rintro ms ms' p4 q4 h4 ⟨hm, -, -, hr4⟩
    dsimp only
    refine sim_bind (sim_nth hm .word rfl (by simp) h4) ?_
    rintro t t' p5 q5 h5 ⟨ht, htt, rfl⟩
    refine sim_bind (sim_advance h5 (hr4 .closeParen rfl (by simp [Soft])).room) ?_
    rintro _ _ p6 q6 h6 ⟨-, hr6⟩
    exact sim_pure h6 ⟨Pointwise.snoc ha ⟨.none, .none, rfl, .some ht⟩, hr6⟩
  · intro e e' p4 q4 h4 hr4
    dsimp only
    refine sim_try (sim_match (by simp [PatternOK]) h4 hr4) ?_ ?_
    · rintro ms ms' p5 q5 h5 ⟨hm, hr5, -⟩
      dsimp only
      refine sim_bind (sim_nth hm .word rfl (by simp) h5) ?_
      rintro t t' p6 q6 h6 ⟨ht, htt, rfl⟩
      refine sim_bind (sim_type h6 hr5) ?_
      rintro a b p7 q7 h7 ⟨g, hr7⟩
      exact sim_pure h7 ⟨Pointwise.snoc ha ⟨.some ht, .some g.1, rfl, .none⟩, hr7⟩
    · intro e e' p5 q5 h5 hr5
      dsimp only
      refine sim_bind (sim_match (by simp [PatternOK]) h5 hr5) ?_
      rintro ms ms' p5 q5 h5 ⟨hm, hr5, -⟩
      refine sim_bind (sim_nth hm .word rfl (by simp) h5) ?_
      rintro t t' p6 q6 h6 ⟨ht, htt, rfl⟩
      refine sim_bind (sim_type h6 hr5) ?_
      rintro a b p7 q7 h7 ⟨g, hr7⟩
      exact sim_pure h7 ⟨Pointwise.snoc ha ⟨.some ht, .some g.1, rfl, .none⟩, hr7⟩

theorem sim_argumentList {p q : PS} (h : PRel c p q) (hr : Room c p 0) :
    Sim c expectArgumentList expectArgumentList p q fun a b p' => Pointwise ArgRel a b ∧ Room c p' 0 := by
  unfold expectArgumentList
  refine sim_bind (sim_optStream h hr) ?_
  intro _ _ p1 q1 h1 hr1
  refine sim_bind (sim_match (by simp [PatternOK]) h1 hr1) ?_
  rintro ms ms' p2 q2 h2 ⟨-, hr2, -⟩
  exact sim_arguments h2 hr2

theorem sim_errorList {p q : PS} (h : PRel c p q) (hr : Room c p 0) :
    Sim c expectErrorList expectErrorList p q fun a b p' => Pointwise TokS a b ∧ Room c p' 0 := by
  unfold expectErrorList
  refine sim_bind (sim_match (by simp [PatternOK]) h hr) ?_
  rintro ms ms' p1 q1 h1 ⟨hm, hr1, -⟩
  refine sim_bind (sim_nth hm .word rfl (by simp) h1) ?_
  rintro t t' p2 q2 h2 ⟨ht, htt, rfl⟩
  refine sim_loop (fun a b p => Pointwise TokS a b ∧ Room c p 0) h2 ⟨.cons ht .nil, hr1⟩ ?_
  rintro l l' p q h ⟨ha, hr⟩
  refine sim_try (sim_match (by simp [PatternOK]) h hr) ?_ ?_
  · rintro ms ms' p5 q5 h5 ⟨hm, hr5, -⟩
    dsimp only
    refine sim_bind (sim_nth hm .word rfl (by simp) h5) ?_
    rintro t t' p6 q6 h6 ⟨ht, htt, rfl⟩
    exact sim_pure h6 ⟨Pointwise.snoc ha ht, hr5⟩
  · intro e e' p5 q5 h5 hr5
    exact sim_pure h5 ⟨ha, hr5⟩

theorem any_rel {l l' : List AnnNode} {v : Str} (h : Pointwise AnnRel l l') :
    l'.any (fun a => a.annType.val = v) = l.any (fun a => a.annType.val = v) := by
  induction h with
  | nil => rfl
  | cons h1 _ ih => rw [List.any_cons, List.any_cons, ih, h1.annType.val]

theorem sim_annotations {p q : PS} (h : PRel c p q) (hr : Room c p 0) :
    Sim c parseAnnotations parseAnnotations p q fun a b p' => Pointwise AnnRel a b ∧ Room c p' 0 := by
  unfold parseAnnotations
  refine sim_loop (fun a b p => Pointwise AnnRel a b ∧ Room c p 0) h ⟨.nil, hr⟩ ?_
  rintro l l' p q h ⟨ha, hr⟩
  refine sim_try (sim_match (by simp [PatternOK]) h hr) ?_ ?_
  · rintro ms ms' p1 q1 h1 ⟨hm, hr1, -⟩
    dsimp only
    refine sim_bind (sim_nth hm .word rfl (by simp) h1) ?_
    rintro t t' p2 q2 h2 ⟨ht, htt, rfl⟩
    rw [ht.val, any_rel ha]
    by_cases hd : l.any (fun a => a.annType.val = t.val) = true
    · simp only [if_pos hd]
      exact sim_fail_same h2 hr1
    · simp only [if_neg hd]
      refine sim_bind (sim_cursor h2 hr1) ?_
      rintro u u' p3 q3 h3 ⟨rfl, eu, hu, hr3, -⟩
      rw [hu.tt]
      by_cases hc : u.tt ≠ .colon
      · simp only [if_pos hc]
        exact sim_pure h3 ⟨Pointwise.snoc ha ⟨ht, .none⟩, hr1⟩
      · simp only [if_neg hc]
        have hc : u.tt = .colon := Classical.not_not.1 hc
        refine sim_bind (sim_firm h3 (by rw [← eu, hc]; exact ⟨nofun, nofun, nofun, nofun⟩)) ?_
        rintro _ _ p4 q4 h4 ⟨-, hr4, -⟩
        have hr4 := hr4.room
        refine sim_bind (sim_cursor h4 (hr4.mono (by omega))) ?_
        rintro v v' p5 q5 h5 ⟨rfl, -, hv, hr5, -⟩
        refine sim_bind (sim_cursor h5 (hr4.mono (by omega))) ?_
        rintro w w' p6 q6 h6 ⟨rfl, e6, hw, hr6, -⟩
        rw [hw.tt, hv.tt]
        by_cases hq : w.tt = .quote
        · simp only [if_pos hq]
          refine sim_bind (sim_string h6 (hr4.mono (by omega)) (by rw [← e6]; exact hq)) ?_
          rintro a b p7 q7 h7 ⟨g, hr7⟩
          refine sim_bind (sim_advance h7 hr7) ?_
          rintro _ _ p8 q8 h8 ⟨-, hr8⟩
          exact sim_pure h8 ⟨Pointwise.snoc ha ⟨ht, .some g.1⟩, hr8⟩
        · simp only [if_neg hq]
          refine sim_bind (sim_advance h6 hr4) ?_
          rintro _ _ p8 q8 h8 ⟨-, hr8⟩
          refine sim_pure h8 ⟨Pointwise.snoc ha ⟨ht, ?_⟩, hr8⟩
          by_cases hvw : v.tt = .word
          · simp only [if_pos hvw]; exact .some (hv.tok (by rw [hvw]; decide))
          · simp only [if_neg hvw]; exact .none
  · intro e e' p5 q5 h5 hr5
    exact sim_pure h5 ⟨ha, hr5⟩

theorem sim_metaLine {p q : PS} (h : PRel c p q) (hr : Room c p 0) :
    Sim c metaLine metaLine p q fun a b p' => PairRel a b ∧ Room c p' 0 := by
  unfold metaLine
  refine sim_bind (sim_match (by simp [PatternOK]) h hr) ?_
  rintro ms ms' p1 q1 h1 ⟨-, hr1, -⟩
  refine sim_bind (sim_metaKey h1 hr1) ?_
  rintro a a' p2 q2 h2 ⟨ga, hr2⟩
  refine sim_bind (sim_match (by simp [PatternOK]) h2 hr2) ?_
  rintro ms ms' p3 q3 h3 ⟨-, -, hr3, -⟩
  refine sim_bind (sim_metaValue h3 (hr3 [.whitespace] rfl)) ?_
  rintro b b' p4 q4 h4 ⟨gb, hr4⟩
  exact sim_pure h4 ⟨⟨ga.1, gb.1⟩, hr4⟩

end Verif.Ridl.Cm
