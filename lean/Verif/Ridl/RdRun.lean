import Verif.Ridl.RdStates

/-! Documents are read as the grammar says: enums, aliases, structs, services, and whole documents. -/

namespace Verif.Ridl
open Verif.Spec hiding advance
open Verif.Spec.Grammar

theorem not_in4 {t a b c d : TT} (h1 : t = a → False) (h2 : t = b → False) (h3 : t = c → False) (h4 : t = d → False) : t ∉ [a, b, c, d] := by
  simp only [List.mem_cons, List.not_mem_nil, or_false, not_or]
  exact ⟨h1, h2, h3, h4⟩

theorem rd_step_enum (i : List Lexeme) : RdAt (step .enum) i (RdStep .enum i) := by
  change RdAt stEnum i _
  unfold stEnum
  refine rd_match (h := ?_)
  rintro ms r' ⟨u1, ms1, i1, rfl, hu1, hi1, u2, ms2, g2, i2, rfl, hg2, rfl, u3, ms3, i3, rfl, hu3, rfl, u4, ms4, i4, rfl, hu4, rfl,
    u5, ms5, g5, i5, rfl, hg5, rfl, u6, ms6, i6, rfl, hu6, rfl, ⟨u7, rfl⟩, hle⟩
  refine rd_nth rfl ?_
  split
  · exact rd_fail
  · next hw =>
    simp only [ne_eq, Decidable.not_not] at hw
    refine rd_nth rfl (rd_nth rfl (rd_takeComments fun c => rd_none trivial ?_))
    rintro es ⟨doc, ms, r, es', h1, h2, rfl⟩
    change Doc i _
    rw [hi1, lx_eq hu1, lx_eq hu3, lx_eq hu4, lx_eq hu6, hw]
    exact .decl (d := [_]) (.enum _ _ _ doc g2 g5 hg2 hg5 hle h1) h2

theorem rd_step_enumDef (n : EnumNode) (i : List Lexeme) : RdAt (step (.enumDef n)) i (RdStep (.enumDef n) i) := by
  change RdAt (stEnumDef n) i _
  unfold stEnumDef
  have mono : ∀ j es, Noise i j → RdG (.enumDef n) j es → RdG (.enumDef n) i es := by
    rintro j es hn ⟨doc, ps, r, es', h1, h2, h3⟩
    exact ⟨doc, ps, r, es', .noise hn h1, h2, h3⟩
  refine rd_cursor ?_ ?_
  · rintro rfl
    exact rd_one trivial fun es h => ⟨n.comment, [], [], es, .stop noMore_nil, h, by simp [Node.entry]⟩
  · intro t r hi _ _
    split
    · refine rd_match (h := ?_)
      rintro ms r' ⟨u1, ms1, i1, rfl, hu1, hi1, u2, ms2, g2, i2, rfl, hg2, rfl, u3, ms3, i3, rfl, hu3, rfl, rfl, rfl⟩
      refine rd_nth rfl (rd_nth rfl (rd_takeComments fun c => rd_none ⟨rfl, rfl, rfl⟩ ?_))
      rintro es ⟨doc, v, j, ms, r, es', h1, h2, h3, rfl⟩
      rw [lx_eq hu1, lx_eq hu3] at hi1
      rw [hi1]
      exact ⟨doc, _, r, es', .row _ _ c g2 hg2 h1 h2, h3, rfl⟩
    · next h => exact rd_skipOne hi (.inl h) trivial mono
    · next h => exact rd_skipOne hi (.inr h) trivial mono
    · next h => exact rd_skipComment hi h (fun _ => trivial) mono
    · next h1 h2 h3 h4 =>
      exact rd_one trivial fun es h => ⟨n.comment, [], i, es, .stop (noMore_lx hi (not_in4 h2 h3 h4 h1)), h, by simp [Node.entry]⟩

theorem rd_step_enumValue (n : EnumNode) (dn : DefNode) (i : List Lexeme) (hp : RdPre (.enumValue n dn) i) :
    RdAt (step (.enumValue n dn)) i (RdStep (.enumValue n dn) i) := by
  change RdAt (stEnumValue n dn) i _
  unfold stEnumValue
  refine rd_try (h := ?_) (he := fun _ => ?_)
  · rintro ms r' ⟨u1, ms1, g1, i1, rfl, hg1, rfl, u2, ms2, i2, rfl, hu2, rfl, u3, ms3, g3, i3, rfl, hg3, rfl, rfl, rfl⟩
    refine rd_bind rd_value fun v j hv => rd_takeComments fun c => rd_none trivial ?_
    rintro es ⟨doc, ms, r, es', h1, h2, rfl⟩
    rw [lx_eq hu2]
    refine ⟨doc, some v.val, j, ms, r, es', .some _ g1 g3 hg1 hg3 hv, h1, h2, ?_⟩
    simp [DefNode.entry]
  · refine rd_none trivial ?_
    rintro es ⟨doc, ms, r, es', h1, h2, rfl⟩
    refine ⟨doc, none, i, ms, r, es', .none _, h1, h2, ?_⟩
    simp [DefNode.entry, hp.1]

theorem rd_step_typeAlias (i : List Lexeme) : RdAt (step .typeAlias) i (RdStep .typeAlias i) := by
  change RdAt stTypeAlias i _
  unfold stTypeAlias
  refine rd_match (h := ?_)
  rintro ms r' ⟨u1, ms1, i1, rfl, hu1, hi1, u2, ms2, g2, i2, rfl, hg2, rfl, u3, ms3, i3, rfl, hu3, rfl, u4, ms4, i4, rfl, hu4, rfl,
    u5, ms5, g5, i5, rfl, hg5, rfl, rfl, rfl⟩
  refine rd_nth rfl ?_
  split
  · exact rd_fail
  · next hw =>
    simp only [ne_eq, Decidable.not_not] at hw
    refine rd_bind rd_type fun v j hv => rd_nth rfl (rd_takeComments fun c => rd_none trivial ?_)
    rintro es ⟨ms, r, es', h1, h2, rfl⟩
    change Doc i _
    rw [hi1, lx_eq hu1, lx_eq hu3, lx_eq hu4, hw]
    exact .decl (d := [_]) (.alias _ _ c g2 g5 hg2 hg5 hv h1) h2

theorem rd_step_aliasMeta (n : AliasNode) (i : List Lexeme) : RdAt (step (.aliasMeta n)) i (RdStep (.aliasMeta n) i) := by
  change RdAt (stAliasMeta n) i _
  unfold stAliasMeta
  have mono : ∀ j es, Noise i j → RdG (.aliasMeta n) j es → RdG (.aliasMeta n) i es := by
    rintro j es hn ⟨ps, r, es', h1, h2, h3⟩
    exact ⟨ps, r, es', .noise hn h1, h2, h3⟩
  refine rd_cursor ?_ ?_
  · rintro rfl
    exact rd_one trivial fun es h => ⟨[], [], es, .stop noMore_nil, h, by simp [Node.entry]⟩
  · intro t r hi _ _
    split
    · next h => exact rd_skipOne hi (.inl h) trivial mono
    · next h => exact rd_skipOne hi (.inr h) trivial mono
    · next h => exact rd_skipComment hi h (fun _ => trivial) mono
    · exact rd_none trivial fun es h => h
    · next h1 h2 h3 h4 =>
      exact rd_one trivial fun es h => ⟨[], i, es, .stop (noMore_lx hi (not_in4 h1 h2 h3 h4)), h, by simp [Node.entry]⟩

theorem rd_step_aliasMetaDef (n : AliasNode) (i : List Lexeme) : RdAt (step (.aliasMetaDef n)) i (RdStep (.aliasMetaDef n) i) := by
  change RdAt (stAliasMetaDef n) i _
  unfold stAliasMetaDef
  refine rd_bind rd_metaLine fun m j hm => rd_none trivial ?_
  rintro es ⟨ms, r, es', h1, h2, rfl⟩
  exact ⟨_, r, es', .line hm h1, h2, by simp⟩

theorem rd_step_struct (i : List Lexeme) : RdAt (step .struct) i (RdStep .struct i) := by
  change RdAt stStruct i _
  unfold stStruct
  refine rd_match (h := ?_)
  rintro ms r' ⟨u1, ms1, i1, rfl, hu1, hi1, u2, ms2, g2, i2, rfl, hg2, rfl, u3, ms3, i3, rfl, hu3, rfl, rfl, rfl⟩
  refine rd_nth rfl ?_
  split
  · exact rd_fail
  · next hw =>
    simp only [ne_eq, Decidable.not_not] at hw
    refine rd_nth rfl (rd_takeComments fun c => rd_none trivial ?_)
    rintro es ⟨fs, r, es', h1, h2, rfl⟩
    change Doc i _
    rw [hi1, lx_eq hu1, lx_eq hu3, hw]
    exact .decl (d := [_]) (.struct _ c g2 hg2 h1) h2

theorem rd_step_structField (n : StructNode) (i : List Lexeme) : RdAt (step (.structField n)) i (RdStep (.structField n) i) := by
  change RdAt (stStructField n) i _
  unfold stStructField
  have mono : ∀ j es, Noise i j → RdG (.structField n) j es → RdG (.structField n) i es := by
    rintro j es hn ⟨ps, r, es', h1, h2, h3⟩
    exact ⟨ps, r, es', .noise hn h1, h2, h3⟩
  refine rd_cursor ?_ ?_
  · rintro rfl
    exact rd_one trivial fun es h => ⟨[], [], es, .stop noMore_nil, h, by simp [Node.entry]⟩
  · intro t r hi _ _
    split
    · next h => exact rd_skipOne hi (.inl h) trivial mono
    · next h => exact rd_skipOne hi (.inr h) trivial mono
    · next h => exact rd_skipComment hi h (fun _ => trivial) mono
    · exact rd_none trivial fun es h => h
    · next h1 h2 h3 h4 =>
      exact rd_one trivial fun es h => ⟨[], i, es, .stop (noMore_lx hi (not_in4 h1 h2 h3 h4)), h, by simp [Node.entry]⟩

theorem rd_step_fieldDef (n : StructNode) (i : List Lexeme) : RdAt (step (.fieldDef n)) i (RdStep (.fieldDef n) i) := by
  change RdAt (stFieldDef n) i _
  unfold stFieldDef
  refine rd_match (h := ?_)
  rintro ms r' ⟨u1, ms1, i1, rfl, hu1, hi1, u2, ms2, g2, i2, rfl, hg2, rfl, u3, ms3, i3, rfl, hu3, rfl, rfl, rfl⟩
  refine rd_nth rfl (rd_nth rfl (rd_takeComments fun c => ?_))
  have rest : ∀ (o : Bool) (k : List Lexeme), (∀ c g j, k = (.colon, c) :: (g ++ j) → Mark i3 o ((.colon, c) :: (g ++ j))) → RdAt (do
      let _ ← match_ [.colon, .whitespace]
      let t ← expectType
      pure (.goto (.fieldMeta { n with fields := n.fields ++ [{ left := u3, right := some t, optional := o, comment := c }] }) [])) k
        (RdStep (.fieldDef n) i) := by
    intro o k ho
    refine rd_match (h := ?_)
    rintro ms r' ⟨u4, ms4, i4, rfl, hu4, rfl, u5, ms5, g5, i5, rfl, hg5, rfl, rfl, rfl⟩
    rw [lx_eq hu4] at ho
    refine rd_bind rd_type fun v j hv => rd_none (by simp [RdPre]) ?_
    rintro es ⟨init, f, ms, k, fs, r, es', h1, h2, h3, h4, rfl⟩
    have hin : init = n.fields ∧ f = { left := u3, right := some v, optional := o, comment := c } := by
      simp only at h1
      have := List.append_inj' h1.symm rfl
      exact ⟨this.1, by simpa using this.2⟩
    obtain ⟨rfl, rfl⟩ := hin
    rw [lx_eq hu1, lx_eq hu3] at hi1
    rw [hi1]
    exact ⟨_, r, es', .row _ _ _ c g2 g5 hg2 (ho _ _ _ rfl) hg5 hv h2 h3, h4, by simp [DefNode.entry]⟩
  refine rd_try (h := ?_) (he := fun _ => ?_)
  · rintro ms r' ⟨u4, ms4, i4, rfl, hu4, rfl, rfl, rfl⟩
    refine rest true _ ?_
    rintro c g j rfl
    rw [lx_eq hu4]
    exact .yes _ _
  · refine rest false _ ?_
    rintro c g j rfl
    exact .no (noMore_cons (by decide))

theorem rd_step_fieldMeta (n : StructNode) (i : List Lexeme) (hp : RdPre (.fieldMeta n) i) :
    RdAt (step (.fieldMeta n)) i (RdStep (.fieldMeta n) i) := by
  change RdAt (stFieldMeta n) i _
  unfold stFieldMeta
  have mono : ∀ j es, Noise i j → RdG (.fieldMeta n) j es → RdG (.fieldMeta n) i es := by
    rintro j es hn ⟨init, f, ms, k, fs, r, es', h0, h1, h2⟩
    exact ⟨init, f, ms, k, fs, r, es', h0, .noise hn h1, h2⟩
  have stop : ∀ es, NoMore [.newLine, .whitespace, .hash, .plusSign] i → RdG (.structField n) i es → RdG (.fieldMeta n) i es := by
    rintro es hn ⟨fs, r, es', h1, h2, rfl⟩
    have hl : n.fields = n.fields.dropLast ++ [n.fields.getLast hp] := (List.dropLast_concat_getLast hp).symm
    refine ⟨_, _, [], i, fs, r, es', hl, .stop hn, h1, h2, ?_⟩
    congr 2
    conv => lhs; rw [hl]
    simp
  refine rd_cursor ?_ ?_
  · rintro rfl
    exact rd_none trivial fun es h => stop es noMore_nil h
  · intro t r hi _ _
    split
    · next h => exact rd_skipOne hi (.inl h) hp mono
    · next h => exact rd_skipOne hi (.inr h) hp mono
    · next h => exact rd_skipComment hi h (fun _ => hp) mono
    · exact rd_none hp fun es h => h
    · next h1 h2 h3 h4 =>
      exact rd_none trivial fun es h => stop es (noMore_lx hi (not_in4 h1 h2 h3 h4)) h

theorem rd_step_fieldMetaDef (n : StructNode) (i : List Lexeme) : RdAt (step (.fieldMetaDef n)) i (RdStep (.fieldMetaDef n) i) := by
  change RdAt (stFieldMetaDef n) i _
  unfold stFieldMetaDef
  split
  · exact rd_crash
  · next f hf =>
    refine rd_bind rd_metaLine fun m j hm => rd_none (by simp [RdPre]) ?_
    rintro es ⟨init, f', ms, k, fs, r, es', h1, h2, h3, h4, rfl⟩
    simp only at h1
    have := List.append_inj' h1.symm rfl
    obtain ⟨rfl, hf'⟩ := this
    simp only [List.cons.injEq, and_true] at hf'
    subst hf'
    have hne : n.fields ≠ [] := by rintro h; rw [h] at hf; simp at hf
    have hl : n.fields = n.fields.dropLast ++ [f] := by
      have e := List.dropLast_concat_getLast hne
      rw [List.getLast?_eq_some_getLast hne] at hf
      simp only [Option.some.injEq] at hf
      rw [hf] at e
      exact e.symm
    exact ⟨_, f, _, k, fs, r, es', hl, .line hm h2, h3, h4, by simp [DefNode.entry]⟩

theorem rd_step_service (i : List Lexeme) : RdAt (step .service) i (RdStep .service i) := by
  change RdAt stService i _
  unfold stService
  refine rd_match (h := ?_)
  rintro ms r' ⟨u1, ms1, i1, rfl, hu1, hi1, u2, ms2, g2, i2, rfl, hg2, rfl, rfl, rfl⟩
  refine rd_nth rfl ?_
  split
  · exact rd_fail
  · next hw =>
    simp only [ne_eq, Decidable.not_not] at hw
    refine rd_bind rd_value fun v j hv => rd_bind rd_lineEnd fun _ k hk => rd_takeComments fun c => rd_none trivial ?_
    rintro es ⟨ms, r, es', h1, h2, rfl⟩
    change Doc i _
    rw [hi1, lx_eq hu1, hw]
    exact .decl (d := [_]) (.service c g2 hg2 hv hk h1) h2

theorem rd_step_serviceMethod (n : ServiceNode) (i : List Lexeme) : RdAt (step (.serviceMethod n)) i (RdStep (.serviceMethod n) i) := by
  change RdAt (stServiceMethod n) i _
  unfold stServiceMethod
  have mono : ∀ j es, Noise i j → RdG (.serviceMethod n) j es → RdG (.serviceMethod n) i es := by
    rintro j es hn ⟨ps, r, es', h1, h2, h3⟩
    exact ⟨ps, r, es', .noise hn h1, h2, h3⟩
  refine rd_cursor ?_ ?_
  · rintro rfl
    exact rd_one trivial fun es h => ⟨[], [], es, .stop _ noMore_nil, h, by simp [Node.entry]⟩
  · intro t r hi _ _
    split
    · next h => exact rd_skipOne hi (.inl h) trivial mono
    · next h => exact rd_skipOne hi (.inr h) trivial mono
    · refine rd_bind rd_annotations fun as j ha => rd_none trivial ?_
      rintro es ⟨ms, r, es', h1, h2, rfl⟩
      refine ⟨ms, r, es', .ann ha ?_, h2, rfl⟩
      simpa using h1
    · next h => exact rd_skipComment hi h (fun _ => trivial) mono
    · exact rd_none trivial fun es h => h
    · next h1 h2 h3 h4 h5 =>
      refine rd_one trivial fun es h => ⟨[], i, es, .stop _ (noMore_lx hi ?_), h, by simp [Node.entry]⟩
      simp only [List.mem_cons, List.not_mem_nil, or_false, not_or]
      exact ⟨h1, h2, h4, h5, h3⟩

theorem rd_prefixed {b : Bool} {t : Token} {i : List Lexeme} : RdAt (prefixedName b t) i fun u r =>
    (b = false ∧ u = t ∧ r = i) ∨ (b = true ∧ ∃ g, Gap g ∧ i = g ++ (.word, u.val) :: r) := by
  unfold prefixedName
  cases b with
  | false => exact rd_pure (.inl ⟨rfl, rfl, rfl⟩)
  | true =>
    refine rd_match (h := ?_)
    rintro ms r' ⟨u1, ms1, g1, i1, rfl, hg1, rfl, u2, ms2, i2, rfl, hu2, rfl, rfl, rfl⟩
    change RdAt (nth [u1, u2] 1) i2 _
    unfold nth
    exact rd_pure (.inr ⟨rfl, g1, hg1, by rw [lx_eq hu2]⟩)

theorem rd_step_methodDef (n : ServiceNode) (i : List Lexeme) : RdAt (step (.methodDef n)) i (RdStep (.methodDef n) i) := by
  change RdAt (stMethodDef n) i _
  unfold stMethodDef
  split
  · exact rd_fail
  · refine rd_match (h := ?_)
    rintro ms r' ⟨u1, ms1, i1, rfl, hu1, hi1, u2, ms2, g2, i2, rfl, hg2, rfl, u3, ms3, i3, rfl, hu3, rfl, rfl, rfl⟩
    refine rd_nth rfl (rd_nth rfl ?_)
    rw [lx_eq hu1, lx_eq hu3] at hi1
    refine rd_bind rd_prefixed fun n1 j1 h1 => rd_bind rd_prefixed fun n2 j2 h2 => rd_takeComments fun c => ?_
    split
    · next hp =>
      have hp := of_decide_eq_true hp
      have hs : ¬ u3.val = "stream".toList := by rw [hp]; decide
      rcases h1 with ⟨_, rfl, rfl⟩ | ⟨h1, _⟩
      · rcases h2 with ⟨h2, _⟩ | ⟨_, g, hg, rfl⟩
        · simp [hp] at h2
        · refine rd_none trivial ?_
          rintro es ⟨ms, r, es', k1, k2, rfl⟩
          rw [hi1, hp]
          refine ⟨_, r, es', .row (.proxy _ _ c g2 g _ hg2 hg) k1, k2, ?_⟩
          simp [MethodNode.entry, annRead, hs, hp]
      · exact absurd (of_decide_eq_true h1) hs
    · next hp =>
      have hpf : u3.val ≠ "proxy".toList := fun h => hp (by simp [h])
      rcases h2 with ⟨_, rfl, rfl⟩ | ⟨h2, _⟩
      · have hn : ∃ si, si = decide (u3.val = "stream".toList) ∧ MethodName ((.word, u3.val) :: i3) si n2.val j2 := by
          rcases h1 with ⟨h1, rfl, rfl⟩ | ⟨h1, g, hg, rfl⟩
          · refine ⟨false, h1.symm, .plain _ _ ?_⟩
            simp only [List.mem_cons, List.not_mem_nil, or_false, not_or]
            exact ⟨of_decide_eq_false h1, hpf⟩
          · refine ⟨true, h1.symm, ?_⟩
            rw [of_decide_eq_true h1]
            exact .stream _ g _ hg
        obtain ⟨si, hsi, hn⟩ := hn
        refine rd_bind rd_args fun ins k hins => rd_bind (rd_outputs rfl rfl) ?_
        rintro m1 l ⟨so, outs, rfl, ho⟩
        refine rd_bind (rd_errors rfl) ?_
        rintro m2 r ⟨es, rfl, he⟩
        refine rd_none trivial ?_
        rintro es0 ⟨ms, r2, es', k1, k2, rfl⟩
        rw [hi1]
        refine ⟨_, r2, es', .row (.method _ c g2 hg2 hn hins ho he) k1, k2, ?_⟩
        simp [MethodNode.entry, annRead, hsi]
        exact hpf
      · exact absurd (of_decide_eq_true h2) hpf

theorem rd_step (st : St) (i : List Lexeme) (hp : RdPre st i) : RdAt (step st) i (RdStep st i) := by
  cases st with
  | default => exact rd_step_default i
  | space =>
    exact (rd_stSkip (.inr rfl) hp).mono (by rintro x j ⟨rfl, hn⟩; exact ⟨trivial, fun es h => .noise hn h⟩)
  | newLine =>
    exact (rd_stSkip (.inl rfl) hp).mono (by rintro x j ⟨rfl, hn⟩; exact ⟨trivial, fun es h => .noise hn h⟩)
  | declaration => exact rd_step_declaration i
  | comment =>
    obtain ⟨v, r, hi⟩ := hp
    change RdAt stComment i _
    unfold stComment
    refine rd_bind rd_until ?_
    rintro _ j ⟨c, h1, h2, h3⟩
    exact rd_none trivial fun es he => .noise (noise_comment hi h1 h2 h3) he
  | eof =>
    have hp : i = [] := hp
    subst hp
    exact rd_pure Doc.nil
  | eol =>
    change RdAt stEOL i _
    unfold stEOL
    refine rd_bind rd_lineEnd fun _ j hj => rd_none ?_ fun es he => ⟨j, hj, he⟩
    clear hp
    induction hj with
    | nil h => exact h
    | blank v h ih => exact ih
    | comment v c hc he => exact he
  | continue_ =>
    change RdAt stContinue i _
    unfold stContinue
    refine rd_advance fun b hb => ?_
    have hp : AtEnd i := hp
    cases b with
    | false =>
      have := hb rfl
      subst this
      exact rd_none rfl fun es he => he
    | true =>
      rcases hp with rfl | ⟨v, r, rfl⟩
      · exact rd_none trivial fun es he => he
      · exact rd_none trivial fun es he => .noise (.line v (.nil _)) he
  | definition => exact rd_step_definition i hp
  | definitionValue dn => exact rd_step_definitionValue dn i
  | import_ => exact rd_step_import i hp
  | importValue => exact rd_step_importValue i
  | importMembers n => exact rd_step_importMembers n i
  | error => exact rd_step_error i
  | errorMessage n => exact rd_step_errorMessage n i hp
  | errorStatus n => exact rd_step_errorStatus n i hp
  | enum => exact rd_step_enum i
  | enumDef n => exact rd_step_enumDef n i
  | enumValue n dn => exact rd_step_enumValue n dn i hp
  | typeAlias => exact rd_step_typeAlias i
  | aliasMeta n => exact rd_step_aliasMeta n i
  | aliasMetaDef n => exact rd_step_aliasMetaDef n i
  | struct => exact rd_step_struct i
  | structField n => exact rd_step_structField n i
  | fieldMeta n => exact rd_step_fieldMeta n i hp
  | fieldMetaDef n => exact rd_step_fieldMetaDef n i
  | fieldDef n => exact rd_step_fieldDef n i
  | service => exact rd_step_service i
  | serviceMethod n => exact rd_step_serviceMethod n i
  | methodDef n => exact rd_step_methodDef n i

theorem rd_run (fuel : Nat) (st : St) (p : PS) (nodes out : List Node) (hl : p.Law) (hp : RdPre st p.rest)
    (h : runN fuel st p nodes = .ok out) : ∃ es, out.map Node.entry = nodes.map Node.entry ++ es ∧ RdG st p.rest es := by
  induction fuel generalizing st p nodes with
  | zero => simp [runN] at h
  | succ fuel ih =>
    unfold runN at h
    rcases hm : step st p with ⟨o, p'⟩
    rw [hm] at h
    cases o with
    | ok x =>
      have hs := rd_step st p.rest hp p x p' hl rfl hm
      cases x with
      | done =>
        simp only [ParseResult.ok.injEq] at h
        exact ⟨[], by simp [h], hs.2⟩
      | goto st' em =>
        obtain ⟨es, h1, h2⟩ := ih st' p' (nodes ++ em) hs.1 hs.2.1 h
        exact ⟨em.map Node.entry ++ es, by rw [h1]; simp, hs.2.2 es h2⟩
    | err e => simp at h
    | panic => simp at h
    | hang => simp at h

end Verif.Ridl
