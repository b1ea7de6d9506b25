import Verif.Ridl.RdMethods

/-! Documents are read as the grammar says. -/

namespace Verif.Ridl
open Verif.Spec hiding advance
open Verif.Spec.Grammar

/-- What is known on entering a state. -/
def RdPre : St → List Lexeme → Prop
  | .space, i => ∃ v r, i = (.whitespace, v) :: r
  | .newLine, i => ∃ v r, i = (.newLine, v) :: r
  | .comment, i => ∃ v r, i = (.hash, v) :: r
  | .eof, i => i = []
  | .continue_, i => AtEnd i
  | .definition, i => ∃ k r, i = (.word, k) :: r ∧ k ∈ ["webrpc".toList, "name".toList, "version".toList, "basepath".toList]
  | .definitionValue dn, _ => dn.optional = false ∧ dn.metas = []
  | .import_, i => ∃ r, i = (.word, "import".toList) :: r
  | .errorStatus n, _ => n.httpStatus = none
  | .enumValue _ dn, _ => dn.right = none ∧ dn.optional = false ∧ dn.metas = []
  | .errorMessage n, _ => n.httpStatus = none
  | .fieldMeta n, _ => n.fields ≠ []
  | .fieldMetaDef n, _ => n.fields ≠ []
  | _, _ => True

/-- How the rest of the document is read from a state. -/
def RdG : St → List Lexeme → List Entry → Prop
  | .eol, i, es => ∃ j, LineEnd i j ∧ Doc j es
  | .definitionValue dn, i, es => ∃ v j k es', Value i v j ∧ LineEnd j k ∧ Doc k es' ∧ es = .define { dn.entry with value := some v } :: es'
  | .importValue, i, es => ∃ ps r es', ImportLines i ps r ∧ Doc r es' ∧ es = (ps.map fun p => Entry.import_ p []) ++ es'
  | .importMembers n, i, es => ∃ ms r es', ImportMembers i ms r ∧ Doc r es' ∧ es = .import_ n.path.val (n.members.map Token.val ++ ms) :: es'
  | .errorMessage n, i, es => ∃ msg st j k r es', Message i msg j ∧ Status j st k ∧ LineEnd k r ∧ Doc r es' ∧
    es = .error n.code.val n.name.val (some msg) st :: es'
  | .errorStatus n, i, es => ∃ st k r es', Status i st k ∧ LineEnd k r ∧ Doc r es' ∧
    es = .error n.code.val n.name.val (n.message.map Token.val) st :: es'
  | .enumDef n, i, es => ∃ doc ms r es', EnumRows i ms r ∧ Doc r es' ∧
    es = .enum doc n.name.val n.enumType.val (n.values.map DefNode.entry ++ ms) :: es'
  | .enumValue n dn, i, es => ∃ doc v j ms r es', MemberValue i v j ∧ EnumRows j ms r ∧ Doc r es' ∧
    es = .enum doc n.name.val n.enumType.val (n.values.map DefNode.entry ++ { dn.entry with value := v } :: ms) :: es'
  | .aliasMeta n, i, es | .aliasMetaDef n, i, es => ∃ ms r es', Metas i ms r ∧ Doc r es' ∧
    es = .alias n.comment n.name.val n.aliasType.val ((n.metas.map fun m => (m.1.val, m.2.val)) ++ ms) :: es'
  | .structField n, i, es | .fieldDef n, i, es => ∃ fs r es', FieldRows i fs r ∧ Doc r es' ∧
    es = .struct n.comment n.name.val (n.fields.map DefNode.entry ++ fs) :: es'
  | .fieldMeta n, i, es | .fieldMetaDef n, i, es => ∃ init f ms j fs r es', n.fields = init ++ [f] ∧ Metas i ms j ∧ FieldRows j fs r ∧
    Doc r es' ∧ es = .struct n.comment n.name.val (init.map DefNode.entry ++ { f.entry with metas := f.entry.metas ++ ms } :: fs) :: es'
  | .serviceMethod n, i, es | .methodDef n, i, es => ∃ ms r es', Methods (n.methodAnnotations.map annRead) i ms r ∧ Doc r es' ∧
    es = .service n.comment n.name.val (n.methods.map MethodNode.entry ++ ms) :: es'
  | _, i, es => Doc i es

/-- What a transition from `st` at `i` to `x`, leaving `j`, is good for. -/
def RdStep (st : St) (i : List Lexeme) : Step → List Lexeme → Prop
  | .goto st' em, j => RdPre st' j ∧ ∀ es, RdG st' j es → RdG st i (em.map Node.entry ++ es)
  | .done, _ => RdG st i []

theorem rd_none {st st' : St} {i j : List Lexeme} (hp : RdPre st' j) (h : ∀ es, RdG st' j es → RdG st i es) :
    RdAt (pure (.goto st' []) : P Step) j (RdStep st i) := rd_pure ⟨hp, fun es he => h es he⟩

theorem rd_one {st st' : St} {n : Node} {i j : List Lexeme} (hp : RdPre st' j) (h : ∀ es, RdG st' j es → RdG st i (n.entry :: es)) :
    RdAt (pure (.goto st' [n]) : P Step) j (RdStep st i) := rd_pure ⟨hp, fun es he => h es he⟩

theorem noise_comment {v : Str} {i r c r0 : List Lexeme} (hi : i = (.hash, v) :: r0) (h1 : i = c ++ r) (h2 : ∀ x ∈ c, x.1 ≠ .newLine) (h3 : AtEnd r) :
    Noise i r := by
  cases c with
  | nil =>
    simp only [List.nil_append] at h1
    subst h1
    rcases h3 with h | ⟨w, u, h⟩
    · rw [hi] at h; simp at h
    · rw [hi] at h; simp at h
  | cons x c =>
    have e : x = (.hash, v) := by rw [hi] at h1; simp only [List.cons_append, List.cons.injEq] at h1; exact h1.1.symm
    rw [h1, e]
    exact .comment v c (fun y hy => h2 y (by simp [hy])) h3 (.nil r)

/-- Skipping one blank or line end. -/
theorem noise_one {t : Token} {r : List Lexeme} (h : t.tt = .newLine ∨ t.tt = .whitespace) : Noise (lx t :: r) r := by
  rcases h with h | h
  · rw [lx_eq h]; exact .line _ (.nil _)
  · rw [lx_eq h]; exact .blank _ (.nil _)

theorem rd_skipOne {st : St} {t : Token} {i r : List Lexeme} (hi : i = lx t :: r) (ht : t.tt = .newLine ∨ t.tt = .whitespace)
    (hp : RdPre st r) (h : ∀ j es, Noise i j → RdG st j es → RdG st i es) :
    RdAt (do
      let _ ← Verif.Ridl.advance
      pure (.goto st [])) i (RdStep st i) := by
  subst hi
  exact rd_advance fun _ _ => rd_none hp fun es he => h _ es (noise_one ht) he

theorem rd_skipComment {st : St} {t : Token} {i r : List Lexeme} (hi : i = lx t :: r) (ht : t.tt = .hash)
    (hp : ∀ r, RdPre st r) (h : ∀ j es, Noise i j → RdG st j es → RdG st i es) :
    RdAt (do
      continueUntilEOL
      pure (.goto st [])) i (RdStep st i) := by
  refine rd_bind rd_until ?_
  rintro _ j ⟨c, h1, h2, h3⟩
  rw [lx_eq ht] at hi
  exact rd_none (hp _) fun es he => h _ es (noise_comment hi h1 h2 h3) he

theorem rd_step_default (i : List Lexeme) : RdAt (step .default) i (RdStep .default i) := by
  change RdAt stDefault i _
  unfold stDefault
  refine rd_cursor ?_ ?_
  · rintro rfl
    exact rd_none rfl fun es h => h
  · intro t r hi h1 _
    split
    · next h => exact rd_none ⟨t.val, r, by rw [hi, lx_eq h]⟩ fun es h => h
    · next h => exact rd_none ⟨t.val, r, by rw [hi, lx_eq h]⟩ fun es h => h
    · exact rd_none trivial fun es h => h
    · next h => exact rd_none ⟨t.val, r, by rw [hi, lx_eq h]⟩ fun es h => h
    · next h => exact absurd h h1
    · exact rd_fail

theorem rd_stSkip {tt : TT} {i : List Lexeme} (ht : tt = .newLine ∨ tt = .whitespace) (hi : ∃ v r, i = (tt, v) :: r) :
    RdAt (stSkip tt) i fun x j => x = .goto .default [] ∧ Noise i j := by
  unfold stSkip
  obtain ⟨v, r, rfl⟩ := hi
  have one : ∀ v r, Noise ((tt, v) :: r) r := by
    intro v r
    rcases ht with rfl | rfl
    · exact .line _ (.nil _)
    · exact .blank _ (.nil _)
  have step : ∀ v i r, Noise i r → Noise ((tt, v) :: i) r := by
    intro v i r h
    rcases ht with rfl | rfl
    · exact .line _ h
    · exact .blank _ h
  refine rd_advance fun _ _ => ?_
  simp only [List.tail_cons]
  refine rd_bind (rd_loop (fun (_ : Unit) i (_ : Unit) r => Noise i r) fun s i => ?_) ?_
  · refine rd_cursor ?_ ?_
    · rintro rfl
      rw [if_neg (by rcases ht with rfl | rfl <;> decide)]
      exact rd_pure (.nil _)
    · intro t r hi _ _
      split
      · next h =>
        subst hi
        refine rd_advance fun _ _ => rd_pure ?_
        intro _ r' hr
        rw [lx_eq h]
        exact step _ _ _ hr
      · exact rd_pure (.nil _)
  · intro _ j hj
    exact rd_pure ⟨rfl, step _ _ _ hj⟩

theorem rd_step_declaration (i : List Lexeme) : RdAt (step .declaration) i (RdStep .declaration i) := by
  change RdAt stDeclaration i _
  unfold stDeclaration
  refine rd_cursor ?_ ?_
  · intro _
    rw [if_pos (by decide)]
    exact rd_fail
  · intro t r hi _ _
    split
    · exact rd_fail
    · next hw =>
      simp only [ne_eq, Decidable.not_not] at hw
      split
      · next h =>
        refine rd_none ⟨t.val, r, by rw [hi, lx_eq hw], ?_⟩ fun es h => h
        simpa [List.mem_cons] using h
      · split
        · next h => exact rd_none ⟨r, by rw [hi, lx_eq hw, h]⟩ fun es h => h
        · repeat' first
            | exact rd_none trivial fun es h => h
            | exact rd_fail
            | split

/-! ### Definitions, imports, errors -/

theorem rd_step_definition (i : List Lexeme) (hi : RdPre .definition i) : RdAt (step .definition) i (RdStep .definition i) := by
  obtain ⟨k, r0, hi, hk⟩ := hi
  change RdAt stDefinition i _
  unfold stDefinition
  refine rd_match (h := ?_)
  rintro ms r' ⟨u1, ms1, i1, rfl, hu1, hi1, u2, ms2, g2, i2, rfl, hg2, rfl, u3, ms3, i3, rfl, hu3, rfl, u4, ms4, g4, i4, rfl, hg4, rfl, rfl, rfl⟩
  refine rd_nth rfl (rd_takeComments fun c => rd_none ⟨rfl, rfl⟩ ?_)
  rintro es ⟨v, j, k', es', h1, h2, h3, rfl⟩
  rw [lx_eq hu1] at hi1
  have hku : k = u1.val := by
    rw [hi] at hi1; simp only [List.cons.injEq, Prod.mk.injEq] at hi1; exact hi1.1.2
  change Doc i _
  rw [hi1, lx_eq hu3]
  exact .decl (d := [_]) (.define u1.val _ c g2 g4 (hku ▸ hk) hg2 hg4 h1 h2) h3

theorem rd_step_definitionValue (dn : DefNode) (i : List Lexeme) :
    RdAt (step (.definitionValue dn)) i (RdStep (.definitionValue dn) i) := by
  change RdAt (stDefinitionValue dn) i _
  unfold stDefinitionValue
  refine rd_bind rd_value fun v j hv => rd_one trivial ?_
  rintro es ⟨k, h1, h2⟩
  exact ⟨v.val, j, k, es, hv, h1, h2, rfl⟩

/-- What the loop of `expectOptionalCommentOrEOL` does in one round. -/
def eolBody (_ : Unit) : P (Unit ⊕ Unit) := do
  let tok ← cursor
  match tok.tt with
  | .whitespace =>
    let _ ← Verif.Ridl.advance
    pure (.inl ())
  | .eof | .newLine => pure (.inr ())
  | .hash =>
    continueUntilEOL
    pure (.inr ())
  | _ => fail .unexpectedToken

/-- What the loop of `continueUntilEOL` does in one round. -/
def untilBody (_ : Unit) : P (Unit ⊕ Unit) := do
  let tok ← cursor
  if tok.tt = .newLine ∨ tok.tt = .eof then pure (.inr ())
  else
    let _ ← Verif.Ridl.advance
    pure (.inl ())

theorem until_no_error {p q : PS} {e : PErr} : continueUntilEOL p ≠ (.err e, q) := by
  have key : ∀ n p, loopN untilBody n () p ≠ (.err e, q) := by
    intro n
    induction n with
    | zero => intro p; simp [loopN]
    | succ n ih =>
      intro p h
      unfold loopN at h
      change (untilBody () >>= _) p = _ at h
      by_cases hc : p.cursor.tt = .newLine ∨ p.cursor.tt = .eof
      · rw [bind_ok (a := .inr ()) (p' := p)] at h
        · simp [loopK, P.pure] at h
        · unfold untilBody; rw [bind_ok (cursor_eq p), if_pos hc]; rfl
      · rw [bind_ok (a := .inl ()) (p' := { p with pos := p.pos + 1 })] at h
        · exact ih _ h
        · unfold untilBody; rw [bind_ok (cursor_eq p), if_neg hc, bind_ok (advance_eq (fun h => hc (.inr h)))]
          rfl
  exact key _ p

theorem eol_error {p q : PS} {e : PErr} (hp : p.Law) (h : expectOptionalCommentOrEOL p = (.err e, q)) :
    q.Law ∧ ∃ g, (∀ x ∈ g, x.1 = .whitespace) ∧ p.rest = g ++ q.rest := by
  have key : ∀ n p, p.Law → loopN eolBody n () p = (.err e, q) → q.Law ∧ ∃ g, (∀ x ∈ g, x.1 = .whitespace) ∧ p.rest = g ++ q.rest := by
    intro n
    induction n with
    | zero => intro p _ h; simp [loopN] at h
    | succ n ih =>
      intro p hp h
      unfold loopN at h
      change (eolBody () >>= _) p = _ at h
      rcases hb : eolBody () p with ⟨o, p'⟩
      have hb0 := hb
      unfold eolBody at hb
      rw [bind_ok (cursor_eq p)] at hb
      generalize hw : p.cursor.tt = k at hb
      cases k with
      | whitespace =>
        dsimp only at hb
        rw [bind_ok (advance_eq (by rw [hw]; decide))] at hb
        simp only [pure, P.pure, Prod.mk.injEq] at hb
        obtain ⟨rfl, rfl⟩ := hb
        rw [bind_ok hb0] at h
        have hl := cursor_lt (p := p) (by rw [hw]; decide)
        have hadv : p.adv = { p with pos := p.pos + 1 } := by
          have : ¬ p.pos ≥ p.tokens.length := by omega
          simp [PS.adv, this]
        have hr := adv_rest hp
        have hla := law_adv hp
        rw [hadv] at hr hla
        obtain ⟨h1, g, h2, h3⟩ := ih _ hla h
        refine ⟨h1, lx p.cursor :: g, ?_, ?_⟩
        · intro x hx
          rcases List.mem_cons.1 hx with rfl | hx
          · exact hw
          · exact h2 x hx
        · rw [rest_cons hl] at hr ⊢
          rw [hr] at h3
          simpa using h3
      | eof =>
        simp only [pure, P.pure, Prod.mk.injEq] at hb
        obtain ⟨rfl, rfl⟩ := hb
        rw [bind_ok hb0] at h
        simp [loopK, P.pure] at h
      | newLine =>
        simp only [pure, P.pure, Prod.mk.injEq] at hb
        obtain ⟨rfl, rfl⟩ := hb
        rw [bind_ok hb0] at h
        simp [loopK, P.pure] at h
      | hash =>
        dsimp only at hb
        rcases hc : continueUntilEOL p with ⟨oc, pc⟩
        cases oc with
        | ok a =>
          rw [bind_ok hc] at hb
          simp only [pure, P.pure, Prod.mk.injEq] at hb
          obtain ⟨rfl, rfl⟩ := hb
          rw [bind_ok hb0] at h
          simp [loopK, P.pure] at h
        | err x => exact absurd hc until_no_error
        | panic =>
          change P.bind _ _ p = _ at hb
          simp only [P.bind, hc, Prod.mk.injEq] at hb
          obtain ⟨rfl, rfl⟩ := hb
          change P.bind _ _ p = _ at h
          simp [P.bind, hb0] at h
        | hang =>
          change P.bind _ _ p = _ at hb
          simp only [P.bind, hc, Prod.mk.injEq] at hb
          obtain ⟨rfl, rfl⟩ := hb
          change P.bind _ _ p = _ at h
          simp [P.bind, hb0] at h
      | _ =>
        simp only [fail, Prod.mk.injEq] at hb
        obtain ⟨rfl, rfl⟩ := hb
        rw [bind_err hb0] at h
        simp only [Prod.mk.injEq] at h
        obtain ⟨_, rfl⟩ := h
        exact ⟨hp, [], by simp, rfl⟩
  exact key _ p hp h

theorem rd_step_import (i : List Lexeme) (hi : RdPre .import_ i) : RdAt (step .import_) i (RdStep .import_ i) := by
  obtain ⟨r0, hi⟩ := hi
  change RdAt stImport i _
  unfold stImport
  have first : RdAt (attempt (match_ [.word, .eol])) i fun x j => match x with
      | .ok ms => ∃ t ms', ms = t :: ms' ∧ t.tt = .word ∧ ∃ k, i = lx t :: k ∧ LineEnd k j
      | .error _ => ∃ g, (∀ x ∈ g, x.1 = .whitespace) ∧ r0 = g ++ j := by
    intro p a p' hp hpi h
    rcases hm : match_ [.word, .eol] p with ⟨o, q⟩
    cases o with
    | ok ms =>
      obtain ⟨h1, ms', h2, h3⟩ := rd_matchLoop _ [] 0 i (by decide) (by decide) p ms q hp hpi hm
      simp only [attempt, hm, Prod.mk.injEq, Out.ok.injEq] at h
      obtain ⟨rfl, rfl⟩ := h
      refine ⟨h1, ?_⟩
      simp only [List.nil_append] at h2
      obtain ⟨t, ms1, i1, e1, e2, e3, ⟨_, _⟩, e5⟩ := h3
      exact ⟨t, ms1, by rw [h2, e1], e2, i1, e3, e5⟩
    | err x =>
      simp only [attempt, hm, Prod.mk.injEq, Out.ok.injEq] at h
      obtain ⟨rfl, rfl⟩ := h
      have hl : p.pos < p.tokens.length := by
        apply Classical.byContradiction
        intro hn
        rw [(rest_nil hn).1] at hpi
        rw [hi] at hpi
        simp at hpi
      have hc := rest_cons hl
      rw [hpi, hi] at hc
      simp only [List.cons.injEq] at hc
      have hw : p.cursor.tt = .word := by
        have := congrArg Prod.fst hc.1
        exact this.symm
      unfold match_ matchLoop at hm
      have hadv : p.adv = { p with pos := p.pos + 1 } := by
        have : ¬ p.pos ≥ p.tokens.length := by omega
        simp [PS.adv, this]
      rw [bind_ok (cursor_eq p), if_pos hw, bind_ok (advance_eq (by rw [hw]; decide)), ← hadv] at hm
      unfold matchLoop at hm
      have hla := law_adv hp
      have hne : p.adv.cursor.tt ≠ .eol := by
        by_cases hl2 : p.adv.pos < p.adv.tokens.length
        · exact (hla.2 p.adv.cursor (by simp [PS.cursor, hl2])).2
        · rw [(rest_nil hl2).2]; decide
      rw [bind_ok (cursor_eq _), if_neg hne, if_pos rfl] at hm
      rcases he : expectOptionalCommentOrEOL p.adv with ⟨o2, q2⟩
      cases o2 with
      | err y =>
        rw [bind_err he] at hm
        simp only [Prod.mk.injEq] at hm
        obtain ⟨_, rfl⟩ := hm
        obtain ⟨k1, g, k2, k3⟩ := eol_error hla he
        refine ⟨k1, g, k2, ?_⟩
        rw [adv_rest hp, hpi, hi] at k3
        simpa using k3
      | ok y => rw [bind_ok he] at hm; simp [pure, P.pure] at hm
      | panic => change P.bind _ _ _ = _ at hm; simp [P.bind, he] at hm
      | hang => change P.bind _ _ _ = _ at hm; simp [P.bind, he] at hm
    | panic => simp [attempt, hm] at h
    | hang => simp [attempt, hm] at h
  refine rd_bind first ?_
  intro x j hx
  cases x with
  | ok ms =>
    obtain ⟨t, ms', rfl, ht, k, hk, hle⟩ := hx
    refine rd_nth rfl ?_
    split
    · exact rd_fail
    · refine rd_none trivial ?_
      rintro es ⟨ps, r, es', h1, h2, rfl⟩
      rw [hi] at hk
      simp only [List.cons.injEq] at hk
      obtain ⟨_, rfl⟩ := hk
      change Doc i _
      rw [hi]
      exact .decl (.imports hle h1) h2
  | error e =>
    obtain ⟨g, hg, rfl⟩ := hx
    refine rd_match (h := ?_)
    rintro ms r' ⟨u1, ms1, g1, i1, rfl, hg1, rfl, rfl, rfl⟩
    refine rd_bind rd_path fun v k hv => rd_none trivial ?_
    rintro es ⟨ms, r, es', h1, h2, rfl⟩
    change Doc i _
    rw [hi, ← List.append_assoc]
    refine .decl (d := [_]) (.import_ (g ++ g1) ?_ hv h1) h2
    intro x hx
    rcases List.mem_append.1 hx with hx | hx
    · exact hg x hx
    · rcases hg1 with rfl | ⟨w, rfl⟩
      · simp at hx
      · simp only [List.mem_singleton] at hx; subst hx; rfl

theorem noMore_lx {ks : List TT} {t : Token} {i r : List Lexeme} (hi : i = lx t :: r) (h : t.tt ∉ ks) : NoMore ks i := by
  rw [hi]; exact noMore_cons h

theorem rd_step_importValue (i : List Lexeme) : RdAt (step .importValue) i (RdStep .importValue i) := by
  change RdAt stImportValue i _
  unfold stImportValue
  have mono : ∀ j es, Noise i j → RdG .importValue j es → RdG .importValue i es := by
    rintro j es hn ⟨ps, r, es', h1, h2, h3⟩
    exact ⟨ps, r, es', .noise hn h1, h2, h3⟩
  refine rd_cursor ?_ ?_
  · rintro rfl
    exact rd_none trivial fun es h => ⟨[], [], es, .stop noMore_nil, h, rfl⟩
  · intro t r hi _ _
    split
    · next h => exact rd_skipOne hi (.inl h) trivial mono
    · next h => exact rd_skipOne hi (.inr h) trivial mono
    · refine rd_match (h := ?_)
      rintro ms r' ⟨u1, ms1, i1, rfl, hu1, hi1, u2, ms2, g2, i2, rfl, hg2, rfl, rfl, rfl⟩
      refine rd_bind rd_path fun v k hv => rd_one trivial ?_
      rintro es ⟨ps, r, es', h1, h2, rfl⟩
      rw [lx_eq hu1] at hi1
      rw [hi1]
      exact ⟨v.val :: ps, r, es', .line _ g2 hg2 hv h1, h2, rfl⟩
    · next h => exact rd_skipComment hi h (fun _ => trivial) mono
    · next h1 h2 h3 h4 =>
      exact rd_none trivial fun es h => ⟨[], i, es, .stop (noMore_lx hi (by simp only [List.mem_cons, List.not_mem_nil, or_false, not_or]; exact ⟨h1, h2, h4, h3⟩)), h, rfl⟩

theorem rd_step_importMembers (n : ImportNode) (i : List Lexeme) : RdAt (step (.importMembers n)) i (RdStep (.importMembers n) i) := by
  change RdAt (stImportMembers n) i _
  unfold stImportMembers
  have mono : ∀ j es, Noise i j → RdG (.importMembers n) j es → RdG (.importMembers n) i es := by
    rintro j es hn ⟨ps, r, es', h1, h2, h3⟩
    exact ⟨ps, r, es', .noise hn h1, h2, h3⟩
  refine rd_cursor ?_ ?_
  · rintro rfl
    exact rd_one trivial fun es h => ⟨[], [], es, .stop noMore_nil, h, by simp [Node.entry]⟩
  · intro t r hi _ _
    split
    · next h => exact rd_skipOne hi (.inl h) trivial mono
    · next h => exact rd_skipOne hi (.inr h) trivial mono
    · refine rd_match (h := ?_)
      rintro ms r' ⟨u1, ms1, i1, rfl, hu1, hi1, u2, ms2, g2, i2, rfl, hg2, rfl, rfl, rfl⟩
      refine rd_bind rd_value fun v k hv => rd_none trivial ?_
      rintro es ⟨ps, r, es', h1, h2, rfl⟩
      rw [lx_eq hu1] at hi1
      rw [hi1]
      exact ⟨v.val :: ps, r, es', .line _ g2 hg2 hv h1, h2, by simp⟩
    · next h => exact rd_skipComment hi h (fun _ => trivial) mono
    · next h1 h2 h3 h4 =>
      exact rd_one trivial fun es h => ⟨[], i, es, .stop (noMore_lx hi (by simp only [List.mem_cons, List.not_mem_nil, or_false, not_or]; exact ⟨h1, h2, h4, h3⟩)), h, by simp [Node.entry]⟩

theorem digits_ok {t : Token} {u : Unit} (h : expectNumber t t.val = .ok u) : AllDigits t.val := by
  intro c hc
  unfold expectNumber at h
  split at h
  · simp at h
  · split at h
    · next hall => simpa using List.all_eq_true.1 hall c hc
    · simp at h

theorem word_ok {t : Token} {w : Str} {u : Unit} (h : expectWord t w = .ok u) : t.val = w := by
  unfold expectWord at h
  split at h
  · simp at h
  · next hn => simp only [ne_eq, not_or, Decidable.not_not] at hn; exact hn.2

theorem rd_step_error (i : List Lexeme) : RdAt (step .error) i (RdStep .error i) := by
  change RdAt stError i _
  unfold stError
  refine rd_match (h := ?_)
  rintro ms r' ⟨u1, ms1, i1, rfl, hu1, hi1, u2, ms2, g2, i2, rfl, hg2, rfl, u3, ms3, i3, rfl, hu3, rfl, u4, ms4, g4, i4, rfl, hg4, rfl,
    u5, ms5, i5, rfl, hu5, rfl, u6, ms6, g6, i6, rfl, hg6, rfl, rfl, rfl⟩
  refine rd_nth rfl ?_
  split
  · exact rd_fail
  · next hw =>
    simp only [ne_eq, Decidable.not_not] at hw
    refine rd_nth rfl ?_
    split
    · exact rd_fail
    · next hn =>
      refine rd_nth rfl (rd_none rfl ?_)
      rintro es ⟨msg, st, j, k, r, es', h1, h2, h3, h4, rfl⟩
      change Doc i _
      rw [hi1, lx_eq hu1, lx_eq hu3, lx_eq hu5, hw]
      exact .decl (d := [_]) (.error _ _ g2 g4 g6 (digits_ok hn) hg2 hg4 hg6 h1 h2 h3) h4

theorem rd_step_errorMessage (n : ErrorNode) (i : List Lexeme) (hp : RdPre (.errorMessage n) i) :
    RdAt (step (.errorMessage n)) i (RdStep (.errorMessage n) i) := by
  change RdAt (stErrorMessage n) i _
  unfold stErrorMessage
  refine rd_cursor (fun _ => rd_fail) ?_
  intro t r hi _ _
  split
  · refine rd_bind rd_string fun v j hv => rd_none hp ?_
    rintro es ⟨st, k, r, es', h1, h2, h3, rfl⟩
    exact ⟨v.val, st, j, k, r, es', .text hv, h1, h2, h3, rfl⟩
  · next hw =>
    refine rd_advance fun _ _ => rd_none hp ?_
    rintro es ⟨st, k, r, es', h1, h2, h3, rfl⟩
    subst hi
    rw [lx_eq hw]
    exact ⟨t.val, st, _, k, r, es', .word _ _, h1, h2, h3, rfl⟩
  · exact rd_fail

theorem rd_step_errorStatus (n : ErrorNode) (i : List Lexeme) (hp : RdPre (.errorStatus n) i) :
    RdAt (step (.errorStatus n)) i (RdStep (.errorStatus n) i) := by
  change RdAt (stErrorStatus n) i _
  unfold stErrorStatus
  refine rd_try (h := ?_) (he := fun _ => ?_)
  · rintro ms r' ⟨u2, ms2, g2, i2, rfl, hg2, rfl, u3, ms3, i3, rfl, hu3, rfl, rfl, rfl⟩
    refine rd_nth rfl ?_
    split
    · refine rd_bind (R := fun _ _ => True) ?_ fun _ _ _ => rd_fail
      intro p a p' hp hi hm
      simp only [rewind] at hm
      split at hm <;> simp only [Prod.mk.injEq] at hm <;> obtain ⟨_, rfl⟩ := hm
      · exact ⟨hp, trivial⟩
      · refine ⟨⟨?_, hp.2⟩, trivial⟩
        have := hp.1
        unfold PS.Valid at this ⊢
        simp only
        omega
    · next hw =>
      refine rd_match (h := ?_)
      rintro ms r' ⟨u4, ms4, g4, i4, rfl, hg4, rfl, u5, ms5, i5, rfl, hu5, rfl, rfl, rfl⟩
      refine rd_nth rfl ?_
      split
      · refine rd_bind (R := fun _ _ => True) ?_ fun _ _ _ => rd_fail
        intro p a p' hp hi hm
        simp only [rewind] at hm
        split at hm <;> simp only [Prod.mk.injEq] at hm <;> obtain ⟨_, rfl⟩ := hm
        · exact ⟨hp, trivial⟩
        · refine ⟨⟨?_, hp.2⟩, trivial⟩
          have := hp.1
          unfold PS.Valid at this ⊢
          simp only
          omega
      · next hn =>
        refine rd_bind rd_lineEnd fun _ r hr => rd_one trivial ?_
        intro es he
        refine ⟨some u5.val, _, r, es, ?_, hr, he, rfl⟩
        rw [lx_eq hu3, lx_eq hu5, word_ok hw]
        exact .some _ g2 g4 _ hg2 hg4 (digits_ok hn)
  · refine rd_bind rd_lineEnd fun _ r hr => rd_one trivial ?_
    intro es he
    refine ⟨none, i, r, es, .none _, hr, he, ?_⟩
    simp only [Node.entry]
    rw [show n.httpStatus = none from hp]
    rfl

end Verif.Ridl
