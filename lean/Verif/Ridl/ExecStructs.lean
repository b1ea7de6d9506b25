import Verif.Ridl.ExecTypes
/-! # Running the parser over structs -/

namespace Verif.Ridl
open Verif.Spec

def fieldRow (f : FieldDecl) : Str := "  - ".toList ++ f.name ++ optMark f.optional ++ ": ".toList ++ f.type.text

theorem field_rows (f : FieldDecl) : f.rows = docRows "  " f.doc ++ [fieldRow f] ++ f.metas.map (metaRow "    ") := rfl

/-- `<name>[?]: <type>`. -/
def paramToks (name : Str) (optional : Bool) (type : Ty) : List (TT × Str) :=
  (.word, name) :: ((if optional then [(.questionMark, ['?'])] else []) ++ ((.colon, [':']) :: (.whitespace, [' ']) :: tyToks type))

theorem piece_param {name : Str} {type : Ty} {optional : Bool} (hn : IsWord name) (ht : type.Writable) {post : Str} (hp : Ends post) :
    Piece (name ++ optMark optional ++ ": ".toList ++ type.text) (paramToks name optional type) post := by
  have tail : Piece (':' :: ' ' :: type.text) ((.colon, [':']) :: (.whitespace, [' ']) :: tyToks type) post :=
    piece_s rfl (by decide) (by decide) (piece_1 (type_solid ht _) (piece_type ht hp))
  have e : name ++ optMark optional ++ ": ".toList ++ type.text = name ++ (optMark optional ++ (':' :: ' ' :: type.text)) := by
    rw [show ": ".toList = [':', ' '] from rfl]; simp
  rw [e]
  cases optional with
  | false => exact piece_w hn (ends_cons (wordEnd_of (by decide))) tail
  | true => exact piece_w hn (ends_cons (wordEnd_of (by decide))) (piece_s rfl (by decide) (by decide) tail)

theorem field_row {f : FieldDecl} (hf : f.Ok) :
    Piece (fieldRow f) ((.whitespace, [' ', ' ']) :: (.minusSign, ['-']) :: (.whitespace, [' ']) :: paramToks f.name f.optional f.type) ['\n'] := by
  obtain ⟨_, h2, h3, _⟩ := hf
  have e : fieldRow f = "  - ".toList ++ (f.name ++ optMark f.optional ++ ": ".toList ++ f.type.text) := by simp [fieldRow]
  rw [e]
  refine piece_minus (piece_param h2 h3 ends_nl) ?_
  simp only [List.append_assoc]
  exact solid_word h2

theorem run_fieldMeta {n : StructNode} {fs : List DefNode} {f : DefNode} (hn : n.fields = fs ++ [f]) {m : Str × Lit} (hm : MetaOk m) {l : Nat} {rest : List Str} {cm : Comments} (hf : Fresh l ([metaRow "    " m] ++ rest) cm) :
    Runs (.fieldMeta n) (layout l ([metaRow "    " m] ++ rest)) cm fun st' es' cm' em =>
      (em = [] ∧ ∃ t : Token × Token, (t.1.val, t.2.val) = metaEntry m ∧ st' = .fieldMeta { n with fields := fs ++ [{ f with metas := f.metas ++ [t] }] }) ∧
      es' = layout (l + 1) rest ∧ Fresh (l + 1) rest cm' := by
  obtain ⟨bt, h1, h2⟩ := meta_row (ind := "    ") (by decide) (by decide) hm
  have hf' := fresh_row h2 hf
  rw [List.singleton_append, layout_cons, (piece_row h2).1]
  simp only [metaToks, lift_cons, List.cons_append]
  refine runs_ws (.fieldMeta n) (by simp) ?_
  refine runs_goto ?_
  show Ex (stFieldMeta n) _ _ _
  unfold stFieldMeta
  refine ex_cursor fun p' c => ?_
  refine ex_pure ⟨_, rfl, ?_⟩
  refine runs_goto ?_
  show Ex (stFieldMetaDef n) _ _ _
  unfold stFieldMetaDef
  have hlast : n.fields.getLast? = some f := by rw [hn]; simp
  have hdrop : n.fields.dropLast = fs := by rw [hn]; simp
  rw [hlast, hdrop]
  refine ex_then (ex_metaLine hm.2.1 h1) ?_
  rintro t es' cm' ⟨t1, t2, rfl, rfl⟩
  refine ex_pure ⟨_, rfl, ?_⟩
  exact runs_nl (.fieldMeta _) (by simp) ⟨⟨rfl, t, by rw [t1, t2]; rfl, rfl⟩, rfl, hf'⟩

/-- The states between two fields. -/
inductive AtStruct (n : StructNode) : St → Prop
  | field : AtStruct n (.structField n)
  | metas : AtStruct n (.fieldMeta n)

theorem AtStruct.pend {n : StructNode} {st : St} (h : AtStruct n st) : Pend st [.struct n] ∧ st ≠ .default := by
  cases h
  · exact ⟨.structField n, by simp⟩
  · exact ⟨.fieldMeta n, by simp⟩

theorem run_field {n : StructNode} {st : St} (hst : AtStruct n st) {f : FieldDecl} (hok : f.Ok) {l : Nat} {rest : List Str} {cm : Comments} (hl : 1 ≤ l)
    (hf : Fresh l (f.rows ++ rest) cm) :
    Runs st (layout l (f.rows ++ rest)) cm fun st' es' cm' em =>
      (em = [] ∧ ∃ d : DefNode, d.entry = f.entry ∧ AtStruct { n with fields := n.fields ++ [d] } st') ∧
      es' = layout (l + f.rows.length) rest ∧ Fresh (l + f.rows.length) rest cm' := by
  have h2 := field_row hok
  obtain ⟨r1, r2, r3⟩ := piece_row h2
  obtain ⟨d1, d2, d3⟩ := doc_rows (ind := "  ") (by decide) hok.1
  rw [field_rows] at hf ⊢
  rw [List.append_assoc] at hf ⊢
  obtain ⟨f1, f2⟩ := fresh_take hl hf d1 (fun d hd' => (hok.1 d hd').2.2.2.2) (by simpa using r2) (j := 0) (by simp) (line := l + f.doc.length) rfl
  rw [List.append_assoc]
  refine runs_same (skip_docs hst.pend.1 (by decide) hok.1 fun e => absurd e hst.pend.2) ?_
  rw [List.singleton_append, layout_cons, r1]
  simp only [lift_cons, List.cons_append]
  refine runs_ws hst.pend.1 hst.pend.2 ?_
  rw [d3] at f2
  have hlen : l + (docRows "  " f.doc ++ [fieldRow f] ++ f.metas.map (metaRow "    ")).length = l + f.doc.length + 1 + f.metas.length := by
    simp only [List.length_append, d3, List.length_singleton, List.length_map]; omega
  rw [hlen]
  generalize hk : l + f.doc.length = k at *
  have main : Runs (.fieldDef n) ((.minusSign, ['-'], k) :: (.whitespace, [' '], k) :: (lift k (paramToks f.name f.optional f.type) ++ (.newLine, ['\n'], k) :: layout (k + 1) (f.metas.map (metaRow "    ") ++ rest))) cm
      fun st' es' cm' em => (em = [] ∧ ∃ d : DefNode, d.entry = f.entry ∧ AtStruct { n with fields := n.fields ++ [d] } st') ∧
        es' = layout (k + 1 + f.metas.length) rest ∧ Fresh (k + 1 + f.metas.length) rest cm' := by
    refine runs_goto ?_
    show Ex (stFieldDef n) _ _ _
    unfold stFieldDef
    refine ex_match (vs := [(.minusSign, ['-'], k), (.whitespace, [' '], k), (.word, f.name, k)])
      (es' := lift k ((if f.optional then [(.questionMark, ['?'])] else []) ++ ((.colon, [':']) :: (.whitespace, [' ']) :: tyToks f.type)) ++ (.newLine, ['\n'], k) :: layout (k + 1) (f.metas.map (metaRow "    ") ++ rest)) rfl (by decide) ?_
    intro vs hvs
    refine ex_nth hvs rfl fun p2 c2 => ?_
    refine ex_nth hvs rfl fun p0 c0 => ?_
    refine ex_takeComments fun cm' hcm' => ?_
    have hf' := (f2 cm' hcm').1
    dsimp only
    rw [f1, if_pos rfl]
    have fin : Ex (do
        let _ ← match_ [.colon, .whitespace]
        let t ← expectType
        pure (Step.goto (.fieldMeta { n with fields := n.fields ++ [{ left := ⟨.word, f.name, p2, k, c2⟩, right := some t, optional := f.optional, comment := docOf f.doc }] }) []))
        ((.colon, [':'], k) :: (.whitespace, [' '], k) :: (lift k (tyToks f.type) ++ (.newLine, ['\n'], k) :: layout (k + 1) (f.metas.map (metaRow "    ") ++ rest))) cm'
        fun s es' cm' => ∃ st', s = .goto st' [] ∧ Runs st' es' cm' fun st' es' cm' em =>
          (em = [] ∧ ∃ d : DefNode, d.entry = f.entry ∧ AtStruct { n with fields := n.fields ++ [d] } st') ∧
          es' = layout (k + 1 + f.metas.length) rest ∧ Fresh (k + 1 + f.metas.length) rest cm' := by
      refine ex_match (vs := [(.colon, [':'], k), (.whitespace, [' '], k)])
        (es' := lift k (tyToks f.type) ++ (.newLine, ['\n'], k) :: layout (k + 1) (f.metas.map (metaRow "    ") ++ rest)) rfl (by decide) ?_
      intro vs hvs
      refine ex_then (ex_type f.type (writable_ok hok.2.2.1) (.inl rfl)) ?_
      rintro t _ cm2 ⟨t1, t2, rfl, rfl⟩
      refine ex_pure ⟨_, rfl, ?_⟩
      refine runs_same (pend_blank (.fieldMeta _) (.inr rfl) (by simp)) ?_
      have hfl : f.metas.map (metaRow "    ") = f.metas.flatMap fun m => [metaRow "    " m] := (flatMap_single _ _).symm
      rw [hfl] at hf' ⊢
      refine (runs_elems (γ := Str × Lit) (rowsOf := fun m => [metaRow "    " m]) (ok := MetaOk) (Quiet := fun _ => True)
        (Inv := fun done em st => em = [] ∧ ∃ vs : List (Token × Token), st = .fieldMeta { n with fields := n.fields ++ [{ left := ⟨.word, f.name, p2, k, c2⟩, right := some t, optional := f.optional, comment := docOf f.doc, metas := vs }] } ∧ (vs.map fun m => (m.1.val, m.2.val)) = done.map metaEntry)
        (fun _ _ _ _ => trivial) ?_ hok.2.2.2 (done := []) (em0 := [])
        ⟨rfl, [], rfl, rfl⟩ (by omega) (fun _ => trivial) hf').mono ?_
      · rintro done em0 st a l rest cm ha ⟨rfl, ms, rfl, hi⟩ hl _ hf
        refine (run_fieldMeta (fs := n.fields) rfl ha hf).mono ?_
        rintro st' es' cm' em ⟨⟨rfl, t, ht, rfl⟩, rfl, h4⟩
        exact ⟨⟨rfl, ms ++ [t], rfl, by simp [hi, ht]⟩, rfl, h4⟩
      · rintro st' es' cm' em ⟨⟨hem, ms, rfl, h1⟩, rfl, h3⟩
        simp only [List.nil_append] at hem
        subst hem
        have hlen : (f.metas.flatMap fun m => [metaRow "    " m]).length = f.metas.length := by rw [flatMap_single]; simp
        rw [hlen] at h3 ⊢
        refine ⟨⟨rfl, _, ?_, .metas⟩, rfl, h3⟩
        simp only [List.nil_append] at h1
        simp [DefNode.entry, FieldDecl.entry, t1, h1]
    cases ho : f.optional with
    | false =>
      rw [ho] at fin
      exact ex_try_fail (by simp [matchShape]) (by decide) (by decide) fun _ => fin
    | true =>
      rw [ho] at fin
      exact ex_try (vs := [(.questionMark, ['?'], k)]) (es' := (.colon, [':'], k) :: (.whitespace, [' '], k) :: (lift k (tyToks f.type) ++ (.newLine, ['\n'], k) :: layout (k + 1) (f.metas.map (metaRow "    ") ++ rest)))
        rfl (by decide) fun _ _ => fin
  have fromField : Runs (.structField n) ((.minusSign, ['-'], k) :: (.whitespace, [' '], k) :: (lift k (paramToks f.name f.optional f.type) ++ (.newLine, ['\n'], k) :: layout (k + 1) (f.metas.map (metaRow "    ") ++ rest))) cm
      fun st' es' cm' em => (em = [] ∧ ∃ d : DefNode, d.entry = f.entry ∧ AtStruct { n with fields := n.fields ++ [d] } st') ∧
        es' = layout (k + 1 + f.metas.length) rest ∧ Fresh (k + 1 + f.metas.length) rest cm' := by
    refine runs_goto ?_
    show Ex (stStructField n) _ _ _
    unfold stStructField
    refine ex_cursor fun p' c => ?_
    exact ex_pure ⟨_, rfl, main⟩
  cases hst with
  | field => exact fromField
  | metas =>
    refine runs_goto ?_
    show Ex (stFieldMeta n) _ _ _
    unfold stFieldMeta
    refine ex_cursor fun p' c => ?_
    exact ex_pure ⟨_, rfl, fromField⟩

theorem reads_struct {doc : List Str} {name : Str} {fields : List FieldDecl} (hd : ∀ d ∈ doc, DocLine d) (hn : IsWord name) (hm : ∀ f ∈ fields, f.Ok)
    {l : Nat} {rest : List Str} {cm : Comments} (hl : 1 ≤ l)
    (hf : Fresh l (docRows "" doc ++ ["struct ".toList ++ name] ++ (fields.flatMap FieldDecl.rows ++ [] :: rest)) cm) :
    (∃ toks, rowToks ("struct ".toList ++ name) = (.word, "struct".toList) :: toks) ∧
    (∀ r ∈ ("struct ".toList ++ name) :: fields.flatMap FieldDecl.rows, RowOK r) ∧
    Reads (layout (l + doc.length) (("struct ".toList ++ name) :: (fields.flatMap FieldDecl.rows ++ [] :: rest))) cm rest
      (l + doc.length + (fields.flatMap FieldDecl.rows).length + 2) [.struct (docOf doc) name (fields.map FieldDecl.entry)] := by
  have h0 : Piece ("struct ".toList ++ name) [(.word, "struct".toList), (.whitespace, [' ']), (.word, name)] ['\n'] := by
    rw [show "struct ".toList = "struct".toList ++ [' '] from rfl, List.append_assoc]
    refine piece_w (keyword_word .struct) (ends_cons (wordEnd_of (by decide))) ?_
    exact piece_1 (solid_word hn) (piece_word hn ends_nl)
  obtain ⟨r1, r2, r3⟩ := piece_row h0
  refine ⟨⟨_, r1⟩, ?_, ?_⟩
  · intro r hr
    rcases List.mem_cons.1 hr with rfl | hr
    · exact r3
    · obtain ⟨m, hmm, hr⟩ := List.mem_flatMap.1 hr
      have ok := hm m hmm
      rw [field_rows] at hr
      rcases List.mem_append.1 hr with hr | hr
      · rcases List.mem_append.1 hr with hr | hr
        · exact (doc_rows (ind := "  ") (by decide) ok.1).2.1 r hr
        · rw [List.mem_singleton.1 hr]
          exact (piece_row (field_row ok)).2.2
      · obtain ⟨x, hx, rfl⟩ := List.mem_map.1 hr
        obtain ⟨bt, _, g⟩ := meta_row (ind := "    ") (by decide) (by decide) (ok.2.2.2 x hx)
        exact (piece_row g).2.2
  obtain ⟨d1, d2, d3⟩ := doc_rows (ind := "") (by decide) hd
  obtain ⟨f1, f2⟩ := fresh_take hl hf d1 (fun d hd' => (hd d hd').2.2.2.2) (by simpa using r2) (j := 0) (by simp) (line := l + doc.length) rfl
  unfold Reads
  rw [layout_cons, r1]
  simp only [lift_cons, List.cons_append, lift_nil, List.nil_append]
  refine runs_keyword .struct ?_
  refine runs_goto ?_
  show Ex stStruct _ _ _
  unfold stStruct
  rw [d3] at f2
  generalize hk : l + doc.length = k at *
  refine ex_match (vs := [(.word, "struct".toList, k), (.whitespace, [' '], k), (.word, name, k)])
    (es' := (.newLine, ['\n'], k) :: layout (k + 1) (fields.flatMap FieldDecl.rows ++ [] :: rest)) rfl (by decide) ?_
  intro vs hvs
  refine ex_nth hvs rfl fun p0 c0 => ?_
  rw [if_neg (by simp)]
  refine ex_nth hvs rfl fun p2 c2 => ?_
  refine ex_takeComments fun cm' hcm' => ?_
  have hf' := (f2 cm' hcm').1
  dsimp only
  rw [f1, if_pos rfl]
  refine ex_pure ⟨_, rfl, ?_⟩
  refine runs_same (pend_blank (.structField _) (.inr rfl) (by simp)) ?_
  refine runs_then (runs_elems (γ := FieldDecl) (rowsOf := FieldDecl.rows) (ok := FieldDecl.Ok) (Quiet := fun _ => True)
    (Inv := fun done em st => em = [] ∧ ∃ vs : List DefNode, AtStruct { name := ⟨.word, name, p2, k, c2⟩, fields := vs, comment := docOf doc, line := k } st ∧ vs.map DefNode.entry = done.map FieldDecl.entry) (fun _ _ _ _ => trivial) ?_ hm (done := []) (em0 := [])
    ⟨rfl, [], .field, rfl⟩ (by omega) (fun _ => trivial) hf') ?_
  · rintro done em0 st a l rest cm ha ⟨rfl, ms, hat, hi⟩ hl _ hf
    refine (run_field hat ha hl hf).mono ?_
    rintro st' es' cm' em ⟨⟨rfl, t, ht, hst'⟩, rfl, h4⟩
    exact ⟨⟨rfl, ms ++ [t], hst', by simp [hi, ht]⟩, rfl, h4⟩
  · rintro st' es' cm' em ⟨⟨hem, ms, hat, h1⟩, rfl, h3⟩
    simp only [List.nil_append] at hem
    subst hem
    rw [show k + (fields.flatMap FieldDecl.rows).length + 2 = k + 1 + (fields.flatMap FieldDecl.rows).length + 1 by omega]
    refine reads_blank hat.pend.1 (fun e => absurd e hat.pend.2) h3 (pre := []) ?_
    simp only [List.nil_append, List.map_cons, List.map_nil, Node.entry, h1]

end Verif.Ridl
