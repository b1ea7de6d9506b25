import Verif.Ridl.LexRows
/-! # Running the parser over the rows of a document: comments, blank rows, pending items -/

namespace Verif.Ridl
open Verif.Spec

theorem runs_then {st : St} {es : List Shape} {cm : Comments} {R S : St → List Shape → Comments → List Node → Prop}
    (h : Runs st es cm R) (hs : ∀ st' es' cm' ns, R st' es' cm' ns → Runs st' es' cm' fun st'' es'' cm'' ns' => S st'' es'' cm'' (ns ++ ns')) :
    Runs st es cm S := runs_bind (h.mono hs)

/-- A transition that emits nothing. -/
theorem runs_goto {st : St} {es : List Shape} {cm : Comments} {R : St → List Shape → Comments → List Node → Prop}
    (h : Ex (step st) es cm fun s es' cm' => ∃ st', s = .goto st' [] ∧ Runs st' es' cm' R) : Runs st es cm R := by
  refine runs_step (h.mono ?_)
  rintro s es' cm' ⟨st', rfl, h⟩
  exact h.mono fun _ _ _ _ h => h

/-! ### Doc comments -/

theorem fresh_next {l : Nat} {r : Str} {rows : List Str} {cm : Comments} (h : Fresh l (r :: rows) cm) (hr : rowComment r = none) :
    Fresh (l + 1) rows cm := by
  refine ⟨?_, ?_⟩
  · intro i
    have := h.1 (i + 1)
    rw [show l + (i + 1) = l + 1 + i by omega] at this
    rw [this]; rfl
  · intro k hk
    have := h.1 0
    obtain rfl : k = l := by omega
    simpa [hr] using this

theorem fresh_nexts {l : Nat} {a rows : List Str} {cm : Comments} (h : Fresh l (a ++ rows) cm) (hr : ∀ r ∈ a, rowComment r = none) :
    Fresh (l + a.length) rows cm := by
  induction a generalizing l with
  | nil => exact h
  | cons r a ih =>
    have := ih (fresh_next h (hr r (by simp))) fun x hx => hr x (by simp [hx])
    rw [show l + (r :: a).length = l + 1 + a.length by simp; omega]
    exact this

theorem block_docs {l : Nat} {docs : List Str} {cm : Comments} (h0 : cm.get l = none) (h : ∀ i d, docs[i]? = some d → cm.get (l + 1 + i) = some d) :
    ∀ n ≤ docs.length, (commentBlock cm (l + n)).map (·.2) = docs.take n ∧
      ∀ k, k ∈ (commentBlock cm (l + n)).map (·.1) ↔ l < k ∧ k ≤ l + n := by
  intro n
  induction n with
  | zero =>
    intro _
    rw [Nat.add_zero, commentBlock_none h0]
    simp
  | succ n ih =>
    intro hn
    obtain ⟨h1, h2⟩ := ih (by omega)
    have hd : docs[n]? = some docs[n] := List.getElem?_eq_getElem (by omega)
    have := h n _ hd
    rw [show l + 1 + n = l + (n + 1) by omega] at this
    rw [commentBlock_some this]
    rw [show above cm (l + (n + 1)) = commentBlock cm (l + n) from rfl]
    refine ⟨?_, ?_⟩
    · rw [List.map_append, h1]
      simp
    · intro k
      rw [List.map_append, List.mem_append, h2]
      simp; omega

theorem kept_docs {ls : List (Nat × Str)} {docs : List Str} (h : ls.map (·.2) = docs) (hb : ∀ d ∈ docs, d.head? ≠ some '!') :
    docText ls = docOf docs := by
  unfold docText docOf
  rw [h, List.filter_eq_self.2]
  intro d hd
  simpa using hb d hd

/-- Taking the doc comment of an item: the comment rows `drows` say `docs`; the item has the rows `mid`. -/
theorem fresh_take {l : Nat} {drows docs mid rest : List Str} {cm : Comments} (hl : 1 ≤ l) (h : Fresh l (drows ++ mid ++ rest) cm)
    (hd : drows.map rowComment = docs.map some) (hb : ∀ d ∈ docs, d.head? ≠ some '!') (hm : ∀ r ∈ mid, rowComment r = none)
    {j : Nat} (hj : j < mid.length) {line : Nat} (hline : line = l + docs.length + j) :
    docText (docLines cm line) = (if j = 0 then docOf docs else []) ∧
    ∀ cm' : Comments, (∀ k, cm'.get k = if k ∈ (docLines cm line).map (·.1) then none else cm.get k) →
      Fresh (l + drows.length + mid.length) rest cm' ∧ docLines cm' line = [] := by
  subst hline
  obtain ⟨l, rfl⟩ : ∃ k, l = k + 1 := ⟨l - 1, by omega⟩
  have hlen : drows.length = docs.length := by simpa using congrArg List.length hd
  have h0 : cm.get l = none := h.2 l rfl
  have hdocs : ∀ i d, docs[i]? = some d → cm.get (l + 1 + i) = some d := by
    intro i d hi
    have hlt : i < docs.length := by
      rw [List.getElem?_eq_some_iff] at hi; exact hi.1
    rw [h.1 i, List.getElem?_append_left (by simp; omega), List.getElem?_append_left (by omega)]
    have : (drows.map rowComment)[i]? = (docs.map some)[i]? := by rw [hd]
    rw [List.getElem?_map, List.getElem?_map, hi] at this
    cases hr : drows[i]? with
    | none => rw [hr] at this; cases this
    | some r =>
      rw [hr] at this
      simpa using this
  have hmid : ∀ j < mid.length, cm.get (l + 1 + docs.length + j) = none := by
    intro j hj
    have := h.1 (docs.length + j)
    rw [show l + 1 + (docs.length + j) = l + 1 + docs.length + j by omega] at this
    rw [this, List.append_assoc, List.getElem?_append_right (by omega), List.getElem?_append_left (by omega), hlen,
      show docs.length + j - docs.length = j by omega, List.getElem?_eq_getElem hj]
    exact hm _ (List.getElem_mem hj)
  obtain ⟨b1, b2⟩ := block_docs h0 hdocs docs.length (Nat.le_refl _)
  have hrest : ∀ i, cm.get (l + 1 + docs.length + mid.length + i) = rest[i]?.bind rowComment := by
    intro i
    have := h.1 (docs.length + mid.length + i)
    rw [show l + 1 + (docs.length + mid.length + i) = l + 1 + docs.length + mid.length + i by omega] at this
    rw [this, List.getElem?_append_right (by simp; omega)]
    simp [hlen]
  by_cases hj0 : j = 0
  · subst hj0
    rw [if_pos rfl, Nat.add_zero]
    have hdl : docLines cm (l + 1 + docs.length) = commentBlock cm (l + docs.length) := by
      have := hmid 0 hj
      rw [Nat.add_zero] at this
      unfold docLines
      rw [this, show l + 1 + docs.length = (l + docs.length) + 1 by omega]
    rw [hdl]
    refine ⟨kept_docs (by rw [b1, List.take_length]) hb, ?_⟩
    intro cm' hcm'
    refine ⟨⟨?_, ?_⟩, ?_⟩
    · intro i
      rw [hcm', hlen, if_neg (by rw [b2]; omega), hrest]
    · intro k hk
      rw [hcm']
      split
      · rfl
      · rename_i hk'
        have := hmid (mid.length - 1) (by omega)
        rw [show k = l + 1 + docs.length + (mid.length - 1) by omega]
        exact this
    · have g1 : cm'.get (l + 1 + docs.length) = none := by
        have := hmid 0 hj
        rw [Nat.add_zero] at this
        rw [hcm', this]; split <;> rfl
      have g2 : cm'.get (l + docs.length) = none := by
        rw [hcm']
        split
        · rfl
        · rename_i hk'
          rw [b2] at hk'
          have : docs.length = 0 := by omega
          rw [this]; exact h0
      unfold docLines
      rw [g1, show l + 1 + docs.length = (l + docs.length) + 1 by omega]
      exact commentBlock_none g2
  · have hline := hmid j hj
    have hprev := hmid (j - 1) (by omega)
    rw [show l + 1 + docs.length + (j - 1) = l + docs.length + j by omega] at hprev
    have hdl : docLines cm (l + 1 + docs.length + j) = [] := by
      unfold docLines
      rw [hline, show l + 1 + docs.length + j = (l + docs.length + j) + 1 by omega]
      exact commentBlock_none hprev
    rw [hdl, if_neg hj0]
    refine ⟨rfl, ?_⟩
    intro cm' hcm'
    have hsame : ∀ k, cm'.get k = cm.get k := fun k => by rw [hcm']; simp
    refine ⟨⟨?_, ?_⟩, ?_⟩
    · intro i
      rw [hsame, hlen, hrest]
    · intro k hk
      rw [hsame]
      have := hmid (mid.length - 1) (by omega)
      rw [show k = l + 1 + docs.length + (mid.length - 1) by omega]
      exact this
    · unfold docLines
      rw [hsame, hline, show l + 1 + docs.length + j = (l + docs.length + j) + 1 by omega]
      simp only
      apply commentBlock_none
      rw [hsame]; exact hprev

/-! ### Pending items -/

/-- States that skip blanks, newlines and comments, and what they emit when the item is over. -/
inductive Pend : St → List Node → Prop
  | default : Pend .default []
  | importValue : Pend .importValue []
  | importMembers (n : ImportNode) : Pend (.importMembers n) [.import_ n]
  | enumDef (n : EnumNode) : Pend (.enumDef n) [.enum n]
  | aliasMeta (n : AliasNode) : Pend (.aliasMeta n) [.alias n]
  | structField (n : StructNode) : Pend (.structField n) [.struct n]
  | fieldMeta (n : StructNode) : Pend (.fieldMeta n) [.struct n]
  | serviceMethod (n : ServiceNode) : Pend (.serviceMethod n) [.service n]

theorem ex_continue {toks : List (TT × Str)} {l : Nat} {es : List Shape} {cm : Comments} (h : ∀ t ∈ toks, t.1 ≠ .newLine ∧ t.1 ≠ .eof) :
    Ex continueUntilEOL (lift l toks ++ (.newLine, ['\n'], l) :: es) cm fun _ es' cm' => es' = (.newLine, ['\n'], l) :: es ∧ cm' = cm := by
  unfold continueUntilEOL
  induction toks with
  | nil =>
    refine ex_loop ?_
    refine ex_cursor fun p c => ?_
    rw [if_pos (.inl rfl)]
    exact ex_pure ⟨rfl, rfl⟩
  | cons t toks ih =>
    have ht := h t (by simp)
    refine ex_loop ?_
    refine ex_cursor fun p c => ?_
    rw [if_neg (not_or.2 ht)]
    refine ex_advance (ex_pure ⟨by simp [lift], ?_⟩)
    exact ih fun x hx => h x (by simp [hx])

/-- `stSkip` on one token of the class. -/
theorem ex_skip {tt : TT} {v : Str} {l : Nat} {es : List Shape} {cm : Comments} (htt : tt ≠ .eof) (h : ∀ e, es.head? = some e → e.1 ≠ tt) :
    Ex (stSkip tt) ((tt, v, l) :: es) cm fun s es' cm' => s = .goto .default [] ∧ es' = es ∧ cm' = cm := by
  unfold stSkip
  refine ex_advance ?_
  refine ex_then (R := fun _ es' cm' => es' = es ∧ cm' = cm) ?_ ?_
  · refine ex_loop ?_
    cases es with
    | nil =>
      refine ex_cursor_nil ?_
      rw [if_neg (by show ¬ TT.eof = tt; exact fun h => htt h.symm)]
      exact ex_pure ⟨rfl, rfl⟩
    | cons e es =>
      obtain ⟨t, w, k⟩ := e
      refine ex_cursor fun p c => ?_
      rw [if_neg (h _ rfl)]
      exact ex_pure ⟨rfl, rfl⟩
  · rintro _ es' cm' ⟨rfl, rfl⟩
    exact ex_pure ⟨rfl, rfl, rfl⟩

def Same (st : St) (es : List Shape) (cm : Comments) (st' : St) (es' : List Shape) (cm' : Comments) (ns : List Node) : Prop :=
  st' = st ∧ es' = es ∧ cm' = cm ∧ ns = []

theorem pend_blank {st : St} {ns : List Node} (h : Pend st ns) {tt : TT} (htt : tt = .whitespace ∨ tt = .newLine) {v : Str} {l : Nat} {es : List Shape}
    {cm : Comments} (he : st = .default → ∀ e, es.head? = some e → e.1 ≠ tt) : Runs st ((tt, v, l) :: es) cm (Same st es cm) := by
  have hdef : st = .default → Runs st ((tt, v, l) :: es) cm (Same st es cm) := by
    rintro rfl
    have he := he rfl
    refine runs_goto ?_
    show Ex stDefault _ _ _
    unfold stDefault
    refine ex_cursor fun p c => ?_
    rcases htt with rfl | rfl
    · refine ex_pure ⟨.space, rfl, ?_⟩
      refine runs_goto ((ex_skip (tt := .whitespace) (by decide) he).mono ?_)
      rintro s es' cm' ⟨rfl, rfl, rfl⟩
      exact ⟨_, rfl, runs_refl ⟨rfl, rfl, rfl, rfl⟩⟩
    · refine ex_pure ⟨.newLine, rfl, ?_⟩
      refine runs_goto ((ex_skip (tt := .newLine) (by decide) he).mono ?_)
      rintro s es' cm' ⟨rfl, rfl, rfl⟩
      exact ⟨_, rfl, runs_refl ⟨rfl, rfl, rfl, rfl⟩⟩
  cases h with
  | default => exact hdef rfl
  | importValue | importMembers n | enumDef n | aliasMeta n | structField n | fieldMeta n | serviceMethod n =>
    clear hdef he
    refine runs_goto ?_
    unfold step
    simp only [stImportValue, stImportMembers, stEnumDef, stAliasMeta, stStructField, stFieldMeta, stServiceMethod]
    refine ex_cursor fun p c => ?_
    rcases htt with rfl | rfl <;> exact ex_advance (ex_pure ⟨_, rfl, runs_refl ⟨rfl, rfl, rfl, rfl⟩⟩)

theorem pend_hash {st : St} {ns : List Node} (h : Pend st ns) {v : Str} {toks : List (TT × Str)} {l : Nat} {es : List Shape} {cm : Comments}
    (ht : ∀ t ∈ toks, t.1 ≠ .newLine ∧ t.1 ≠ .eof) :
    Runs st ((.hash, v, l) :: (lift l toks ++ (.newLine, ['\n'], l) :: es)) cm (Same st ((.newLine, ['\n'], l) :: es) cm) := by
  have hc := ex_continue (toks := (.hash, v) :: toks) (l := l) (es := es) (cm := cm) (by
    intro t h
    rcases List.mem_cons.1 h with rfl | h
    · exact ⟨by simp, by simp⟩
    · exact ht t h)
  rw [lift_cons, List.cons_append] at hc
  cases h with
  | default =>
    refine runs_goto ?_
    show Ex stDefault _ _ _
    unfold stDefault
    refine ex_cursor fun p c => ?_
    refine ex_pure ⟨.comment, rfl, ?_⟩
    refine runs_goto ?_
    show Ex stComment _ _ _
    unfold stComment
    refine ex_then hc ?_
    rintro _ es' cm' ⟨rfl, rfl⟩
    exact ex_pure ⟨_, rfl, runs_refl ⟨rfl, rfl, rfl, rfl⟩⟩
  | importValue | importMembers n | enumDef n | aliasMeta n | structField n | fieldMeta n | serviceMethod n =>
    refine runs_goto ?_
    unfold step
    simp only [stImportValue, stImportMembers, stEnumDef, stAliasMeta, stStructField, stFieldMeta, stServiceMethod]
    refine ex_cursor fun p c => ?_
    refine ex_then hc ?_
    rintro _ es' cm' ⟨rfl, rfl⟩
    exact ex_pure ⟨_, rfl, runs_refl ⟨rfl, rfl, rfl, rfl⟩⟩

/-- A word at the start of a row ends the item. -/
theorem pend_word {st : St} {ns : List Node} (h : Pend st ns) {w : Str} {l : Nat} {es : List Shape} {cm : Comments} :
    Runs st ((.word, w, l) :: es) cm fun st' es' cm' em => st' = .default ∧ es' = (.word, w, l) :: es ∧ cm' = cm ∧ em = ns := by
  have one : ∀ {st : St} {ns : List Node}, Ex (step st) ((.word, w, l) :: es) cm (fun s es' cm' => s = .goto .default ns ∧ es' = (.word, w, l) :: es ∧ cm' = cm) →
      Runs st ((.word, w, l) :: es) cm fun st' es' cm' em => st' = .default ∧ es' = (.word, w, l) :: es ∧ cm' = cm ∧ em = ns := by
    intro st ns h
    refine runs_step (h.mono ?_)
    rintro s es' cm' ⟨rfl, rfl, rfl⟩
    exact runs_refl ⟨rfl, rfl, rfl, by simp⟩
  cases h with
  | default => exact runs_refl ⟨rfl, rfl, rfl, rfl⟩
  | importValue | importMembers n | enumDef n | aliasMeta n | structField n | serviceMethod n =>
    refine one ?_
    unfold step
    simp only [stImportValue, stImportMembers, stEnumDef, stAliasMeta, stStructField, stServiceMethod]
    refine ex_cursor fun p c => ?_
    exact ex_pure ⟨rfl, rfl, rfl⟩
  | fieldMeta n =>
    refine runs_goto ?_
    unfold step
    simp only [stFieldMeta]
    refine ex_cursor fun p c => ?_
    refine ex_pure ⟨_, rfl, one ?_⟩
    unfold step
    simp only [stStructField]
    refine ex_cursor fun p c => ?_
    exact ex_pure ⟨rfl, rfl, rfl⟩

/-- The end of the document ends the item. -/
theorem pend_end {st : St} {ns : List Node} (h : Pend st ns) {cm : Comments} :
    Runs st [] cm fun st' _ _ em => st' = .eof ∧ em = ns := by
  have last : ∀ {ns : List Node}, Runs .default [] cm fun st' _ _ em => st' = .eof ∧ ns ++ em = ns := by
    intro ns
    refine runs_goto ?_
    show Ex stDefault _ _ _
    unfold stDefault
    refine ex_cursor_nil ?_
    exact ex_pure ⟨_, rfl, runs_refl ⟨rfl, by simp⟩⟩
  have one : ∀ {st : St} {ns : List Node}, Ex (step st) [] cm (fun s es' cm' => s = .goto .default ns ∧ es' = [] ∧ cm' = cm) →
      Runs st [] cm fun st' _ _ em => st' = .eof ∧ em = ns := by
    intro st ns h
    refine runs_step (h.mono ?_)
    rintro s es' cm' ⟨rfl, rfl, rfl⟩
    exact last
  cases h with
  | default => exact (last (ns := [])).mono fun _ _ _ _ h => h
  | importValue | importMembers n | enumDef n | aliasMeta n | structField n | serviceMethod n =>
    refine one ?_
    unfold step
    simp only [stImportValue, stImportMembers, stEnumDef, stAliasMeta, stStructField, stServiceMethod]
    refine ex_cursor_nil ?_
    exact ex_pure ⟨rfl, rfl, rfl⟩
  | fieldMeta n =>
    refine runs_goto ?_
    unfold step
    simp only [stFieldMeta]
    refine ex_cursor_nil ?_
    refine ex_pure ⟨_, rfl, one ?_⟩
    unfold step
    simp only [stStructField]
    refine ex_cursor_nil ?_
    exact ex_pure ⟨rfl, rfl, rfl⟩

end Verif.Ridl
