import Verif.Ridl.ExecService
/-! # Running the parser over whole documents -/

namespace Verif.Ridl
open Verif.Spec

theorem fresh_exists (l : Nat) (rows : List Str) : ∃ cm : Comments, (∀ i, cm.get (l + i) = rows[i]?.bind rowComment) ∧ ∀ k < l, cm.get k = none := by
  induction rows generalizing l with
  | nil => exact ⟨[], by intro i; rfl, by intro k _; rfl⟩
  | cons r rows ih =>
    obtain ⟨cm, h1, h2⟩ := ih (l + 1)
    cases hr : rowComment r with
    | none =>
      refine ⟨cm, ?_, fun k hk => h2 k (by omega)⟩
      intro i
      cases i with
      | zero => rw [h2 _ (by omega)]; simp [hr]
      | succ i => rw [show l + (i + 1) = l + 1 + i by omega, h1]; simp
    | some c =>
      refine ⟨(l, c) :: cm, ?_, ?_⟩
      · intro i
        cases i with
        | zero => simp [Comments.get, hr]
        | succ i =>
          have := h1 i
          rw [show l + (i + 1) = l + 1 + i by omega]
          simp only [Comments.get] at this ⊢
          rw [List.find?_cons, beq_eq_false_iff_ne.2 (by dsimp only; omega)]
          simpa using this
      · intro k hk
        have := h2 k (by omega)
        simp only [Comments.get] at this ⊢
        rw [List.find?_cons, beq_eq_false_iff_ne.2 (by dsimp only; omega)]
        exact this

/-- What the parser does with an item. -/
structure Understood (i : Item) (doc : List Str) (header : Str) (body : List Str) : Prop where
  rows : i.rows = docRows "" doc ++ header :: body
  docs : ∀ d ∈ doc, DocLine d
  word : ∃ w toks, rowToks header = (.word, w) :: toks
  ok : ∀ r ∈ header :: body, RowOK r
  reads : ∀ l rest cm, 1 ≤ l → (∀ l, NoBlank (layout l rest)) → Fresh l (i.rows ++ [] :: rest) cm →
    Reads (layout (l + doc.length) (header :: (body ++ [] :: rest))) cm rest (l + i.rows.length + 1) i.entries

theorem good_of {i : Item} {doc : List Str} {header : Str} {body : List Str} (hrows : i.rows = docRows "" doc ++ header :: body) (hd : ∀ d ∈ doc, DocLine d)
    (h : ∀ l rest cm, 1 ≤ l → (∀ l, NoBlank (layout l rest)) → Fresh l (docRows "" doc ++ header :: (body ++ [] :: rest)) cm →
      (∃ w toks, rowToks header = (.word, w) :: toks) ∧ (∀ r ∈ header :: body, RowOK r) ∧
      Reads (layout (l + doc.length) (header :: (body ++ [] :: rest))) cm rest (l + doc.length + body.length + 2) i.entries) : Understood i doc header body := by
  obtain ⟨cm, f1, f2⟩ := fresh_exists 1 (docRows "" doc ++ header :: (body ++ [] :: []))
  have h0 := h 1 [] cm (Nat.le_refl _) (by intro l e he; cases he) ⟨f1, fun k hk => f2 k (by omega)⟩
  refine ⟨hrows, hd, h0.1, h0.2.1, ?_⟩
  intro l rest cm hl hb hf
  rw [hrows, List.append_assoc, List.cons_append] at hf
  have := (h l rest cm hl hb hf).2.2
  have hlen : l + i.rows.length + 1 = l + doc.length + body.length + 2 := by
    rw [hrows]; simp [docRows]; omega
  rw [hlen]; exact this

theorem item_good {i : Item} (hi : i.Ok) : ∃ doc header body, Understood i doc header body := by
  cases i with
  | define doc key v =>
    obtain ⟨h1, h2, h3⟩ := hi
    have hk : Keyword key .definition := by
      simp only [List.mem_cons, List.not_mem_nil, or_false] at h2
      rcases h2 with rfl | rfl | rfl | rfl
      · exact .webrpc
      · exact .name
      · exact .version
      · exact .basepath
    refine ⟨doc, _, [], good_of rfl h1 ?_⟩
    intro l rest cm hl hb hf
    obtain ⟨g1, g2, g3⟩ := reads_define h1 hk h3 hl hb (by simpa using hf)
    exact ⟨⟨_, g1⟩, by simpa using g2, g3⟩
  | importFiles paths =>
    refine ⟨[], _, _, good_of rfl (by simp) ?_⟩
    intro l rest cm hl hb hf
    obtain ⟨g1, g2, g3⟩ := reads_importFiles hi hl hf
    refine ⟨⟨_, g1⟩, g2, ?_⟩
    rw [List.length_map]; exact g3
  | importFile path members =>
    refine ⟨[], _, _, good_of rfl (by simp) ?_⟩
    intro l rest cm hl hb hf
    obtain ⟨g1, g2, g3⟩ := reads_importFile hi.1 hi.2 hl hf
    refine ⟨⟨_, g1⟩, g2, ?_⟩
    rw [List.length_map]; exact g3
  | error code name msg status =>
    obtain ⟨_, h1, h2, h3, h4⟩ := hi
    refine ⟨[], _, [], good_of rfl (by simp) ?_⟩
    intro l rest cm hl hb hf
    obtain ⟨g1, g2, g3⟩ := reads_error h1 h2 h3 h4 hb hf
    refine ⟨⟨_, g1⟩, ?_, g3⟩
    intro r hr
    rw [List.mem_singleton.1 hr]; exact g2
  | enum doc name type members =>
    obtain ⟨h1, h2, h3, h4⟩ := hi
    refine ⟨doc, "enum ".toList ++ name ++ ": ".toList ++ type, members.flatMap Member.rows, good_of (List.append_assoc _ _ _) h1 ?_⟩
    intro l rest cm hl hb hf
    obtain ⟨g1, g2, g3⟩ := reads_enum h1 h2 h3 h4 hl (by simpa using hf)
    exact ⟨⟨_, g1⟩, g2, g3⟩
  | alias doc name type metas =>
    obtain ⟨h1, h2, h3, h4⟩ := hi
    refine ⟨doc, "type ".toList ++ name ++ ": ".toList ++ type.text, metas.map (metaRow "  "), good_of (List.append_assoc _ _ _) h1 ?_⟩
    intro l rest cm hl hb hf
    obtain ⟨g1, g2, g3⟩ := reads_alias h1 h2 h3 h4 hl (by simpa using hf)
    refine ⟨⟨_, g1⟩, g2, ?_⟩
    rw [List.length_map]; exact g3
  | struct doc name fields =>
    obtain ⟨h1, h2, h3⟩ := hi
    refine ⟨doc, "struct ".toList ++ name, fields.flatMap FieldDecl.rows, good_of (List.append_assoc _ _ _) h1 ?_⟩
    intro l rest cm hl hb hf
    obtain ⟨g1, g2, g3⟩ := reads_struct h1 h2 h3 hl (by simpa using hf)
    exact ⟨⟨_, g1⟩, g2, g3⟩
  | service doc name methods =>
    obtain ⟨h1, h2, h3, h4⟩ := hi
    refine ⟨doc, "service ".toList ++ name, methods.flatMap MethodDecl.rows, good_of (List.append_assoc _ _ _) h1 ?_⟩
    intro l rest cm hl hb hf
    obtain ⟨g1, g2, g3⟩ := reads_service h1 h2 h3 h4 hl (by simpa using hf)
    exact ⟨⟨_, g1⟩, g2, g3⟩

def itemRows (items : List Item) : List Str := items.flatMap fun i => i.rows ++ [[]]

theorem items_ok {items : List Item} (h : ∀ i ∈ items, i.Ok) : ∀ r ∈ itemRows items, RowOK r := by
  intro r hr
  obtain ⟨i, hi, hr⟩ := List.mem_flatMap.1 hr
  obtain ⟨doc, header, body, g⟩ := item_good (h i hi)
  rw [g.rows] at hr
  rcases List.mem_append.1 hr with hr | hr
  · rcases List.mem_append.1 hr with hr | hr
    · exact (doc_rows (ind := "") (by decide) g.docs).2.1 r hr
    · exact g.ok r hr
  · rw [List.mem_singleton.1 hr]; exact rowOK_nil

theorem items_noBlank {items : List Item} (h : ∀ i ∈ items, i.Ok) (l : Nat) : NoBlank (layout l (itemRows items)) := by
  cases items with
  | nil => intro e he; cases he
  | cons i items =>
    obtain ⟨doc, header, body, g⟩ := item_good (h i (by simp))
    unfold itemRows
    rw [List.flatMap_cons, g.rows]
    cases doc with
    | nil =>
      obtain ⟨w, toks, hw⟩ := g.word
      show NoBlank (layout l (header :: _))
      rw [layout_cons, hw]
      intro e he
      simp [lift] at he; subst he; simp
    | cons d doc =>
      obtain ⟨lt, h1, _⟩ := doc_row (ind := []) (by simp) (g.docs d (by simp))
      show NoBlank (layout l (([] ++ "# ".toList ++ d) :: _))
      rw [layout_cons, h1]
      intro e he
      simp [lift] at he; subst he; simp

theorem run_items {items : List Item} (h : ∀ i ∈ items, i.Ok) {st : St} {ns : List Node} (hst : Pend st ns) {l : Nat} {cm : Comments} (hl : 1 ≤ l) (hf : Fresh l (itemRows items) cm) :
    Runs st (layout l (itemRows items)) cm fun st' _ _ em => st' = .eof ∧ em.map Node.entry = ns.map Node.entry ++ items.flatMap Item.entries := by
  induction items generalizing st ns l cm with
  | nil =>
    refine (pend_end hst).mono ?_
    rintro st' _ _ em ⟨rfl, rfl⟩
    exact ⟨rfl, by simp⟩
  | cons i items ih =>
    have h' := fun x hx => h x (List.mem_cons_of_mem i hx)
    obtain ⟨doc, header, body, g⟩ := item_good (h i (by simp))
    have e : itemRows (i :: items) = i.rows ++ [] :: itemRows items := by simp [itemRows]
    rw [e] at hf ⊢
    have hreads := g.reads l (itemRows items) cm hl (items_noBlank h') hf
    obtain ⟨w, toks, hw⟩ := g.word
    rw [g.rows, List.append_assoc, List.cons_append]
    refine item_start hst g.docs hw ?_
    refine runs_then hreads ?_
    rintro st' es' cm' em ⟨ns', hp, rfl, hfr, hent⟩
    refine (ih h' hp (by omega) hfr).mono ?_
    rintro st'' _ _ em' ⟨rfl, he⟩
    refine ⟨rfl, ?_⟩
    rw [List.map_append, List.map_append, he, List.flatMap_cons, ← hent]
    simp

end Verif.Ridl
