import Verif.Ridl.LexItems
/-! # Running the parser over the items of a document -/

namespace Verif.Ridl
open Verif.Spec

/-- The next token is not a newline. -/
def NoBlank (es : List Shape) : Prop := ∀ e, es.head? = some e → e.1 ≠ .newLine

theorem runs_same {st st1 : St} {es es1 : List Shape} {cm cm1 : Comments} {R : St → List Shape → Comments → List Node → Prop}
    (h : Runs st es cm (Same st1 es1 cm1)) (h1 : Runs st1 es1 cm1 R) : Runs st es cm R := by
  refine runs_then h ?_
  rintro _ _ _ _ ⟨rfl, rfl, rfl, rfl⟩
  exact h1.mono fun _ _ _ _ h => h

theorem skip_docs {st : St} {ns : List Node} (h : Pend st ns) {ind : String} (hind : ∀ c ∈ ind.toList, c = ' ') {doc : List Str}
    (hd : ∀ d ∈ doc, DocLine d) {l : Nat} {rest : List Str} {cm : Comments} (hb : st = .default → NoBlank (layout (l + doc.length) rest)) :
    Runs st (layout l (docRows ind doc ++ rest)) cm (Same st (layout (l + doc.length) rest) cm) := by
  induction doc generalizing l with
  | nil => exact runs_refl ⟨rfl, rfl, rfl, rfl⟩
  | cons d doc ih =>
    obtain ⟨lt, h1, h2, h3, h4⟩ := doc_row hind (hd d (by simp))
    have hd' := fun x hx => hd x (List.mem_cons_of_mem d hx)
    have e : docRows ind (d :: doc) ++ rest = (ind.toList ++ "# ".toList ++ d) :: (docRows ind doc ++ rest) := rfl
    rw [e, layout_cons, h1]
    have hlen : l + (d :: doc).length = l + 1 + doc.length := by simp; omega
    rw [hlen] at hb ⊢
    have ih := ih hd' (l := l + 1) hb
    have tail : Runs st (lift l ((.hash, ['#']) :: lt) ++ (.newLine, ['\n'], l) :: layout (l + 1) (docRows ind doc ++ rest)) cm (Same st (layout (l + 1 + doc.length) rest) cm) := by
      refine runs_same (pend_hash h h2) ?_
      refine runs_same (pend_blank h (.inr rfl) ?_) ih
      intro hdef
      cases doc with
      | nil => exact hb hdef
      | cons d2 doc =>
        obtain ⟨lt2, g1, _⟩ := doc_row hind (hd' d2 (by simp))
        have e2 : docRows ind (d2 :: doc) ++ rest = (ind.toList ++ "# ".toList ++ d2) :: (docRows ind doc ++ rest) := rfl
        rw [e2, layout_cons, g1]
        intro e he
        split at he <;> (simp at he; subst he; simp)
    split
    · exact tail
    · refine runs_same (pend_blank h (.inl rfl) ?_) tail
      intro _ e he
      simp at he; subst he; simp

/-! ### Keywords -/

/-- The state a keyword leads to. -/
inductive Keyword : Str → St → Prop
  | webrpc : Keyword "webrpc".toList .definition
  | name : Keyword "name".toList .definition
  | version : Keyword "version".toList .definition
  | basepath : Keyword "basepath".toList .definition
  | import_ : Keyword "import".toList .import_
  | error : Keyword "error".toList .error
  | enum : Keyword "enum".toList .enum
  | alias : Keyword "type".toList .typeAlias
  | struct : Keyword "struct".toList .struct
  | service : Keyword "service".toList .service

theorem runs_keyword {w : Str} {st : St} (hk : Keyword w st) {l : Nat} {es : List Shape} {cm : Comments} {R : St → List Shape → Comments → List Node → Prop}
    (h : Runs st ((.word, w, l) :: es) cm R) : Runs .default ((.word, w, l) :: es) cm R := by
  refine runs_goto ?_
  show Ex stDefault _ _ _
  unfold stDefault
  refine ex_cursor fun p c => ?_
  refine ex_pure ⟨.declaration, rfl, ?_⟩
  refine runs_goto ?_
  show Ex stDeclaration _ _ _
  unfold stDeclaration
  refine ex_cursor fun p c => ?_
  cases hk <;> exact ex_pure ⟨_, rfl, h⟩

theorem keyword_word {w : Str} {st : St} (hk : Keyword w st) : IsWord w := by
  have key : ∀ (c : Char) (cs : Str), (WordStart c ∧ ∀ x ∈ cs, ¬ WordEnd x) → IsWord (c :: cs) := fun c cs h => ⟨c, cs, rfl, h⟩
  cases hk <;> (apply key; unfold WordStart WordEnd; decide +kernel)

/-- The rows of an item up to its first word. -/
theorem item_start {st : St} {ns : List Node} (h : Pend st ns) {doc : List Str} (hd : ∀ d ∈ doc, DocLine d) {row : Str} {w : Str} {toks : List (TT × Str)}
    (hr : rowToks row = (.word, w) :: toks) {l : Nat} {rest : List Str} {cm : Comments} {S : St → List Shape → Comments → List Node → Prop}
    (hs : Runs .default (layout (l + doc.length) (row :: rest)) cm fun st' es' cm' em => S st' es' cm' (ns ++ em)) :
    Runs st (layout l (docRows "" doc ++ row :: rest)) cm S := by
  have e : layout (l + doc.length) (row :: rest) = (.word, w, l + doc.length) :: (lift (l + doc.length) toks ++ (.newLine, ['\n'], l + doc.length) :: layout (l + doc.length + 1) rest) := by
    rw [layout_cons, hr]; rfl
  refine runs_same (skip_docs h (by decide) hd ?_) ?_
  · intro _ x hx
    rw [e] at hx
    simp at hx; subst hx; simp
  · rw [e] at hs ⊢
    refine runs_then (pend_word h) ?_
    rintro _ _ _ _ ⟨rfl, rfl, rfl, rfl⟩
    exact hs

/-- Elements of an item, one after the other. -/
theorem runs_elems {γ : Type} {rowsOf : γ → List Str} {ok : γ → Prop} {Quiet : List Shape → Prop} {Inv : List γ → List Node → St → Prop}
    (hq : ∀ a l rest, ok a → Quiet (layout l (rowsOf a ++ rest)))
    (hstep : ∀ done em0 st a l rest cm, ok a → Inv done em0 st → 1 ≤ l → Quiet (layout (l + (rowsOf a).length) rest) → Fresh l (rowsOf a ++ rest) cm →
      Runs st (layout l (rowsOf a ++ rest)) cm fun st' es' cm' em =>
        Inv (done ++ [a]) (em0 ++ em) st' ∧ es' = layout (l + (rowsOf a).length) rest ∧ Fresh (l + (rowsOf a).length) rest cm')
    {xs : List γ} (hxs : ∀ a ∈ xs, ok a) {done : List γ} {em0 : List Node} {st : St} {l : Nat} {rest : List Str} {cm : Comments} (hi : Inv done em0 st) (hl : 1 ≤ l)
    (hrest : ∀ l, Quiet (layout l rest)) (hf : Fresh l (xs.flatMap rowsOf ++ rest) cm) :
    Runs st (layout l (xs.flatMap rowsOf ++ rest)) cm fun st' es' cm' em =>
      Inv (done ++ xs) (em0 ++ em) st' ∧ es' = layout (l + (xs.flatMap rowsOf).length) rest ∧ Fresh (l + (xs.flatMap rowsOf).length) rest cm' := by
  induction xs generalizing done em0 st l cm with
  | nil => exact runs_refl ⟨by simpa using hi, rfl, hf⟩
  | cons a xs ih =>
    have ha := hxs a (by simp)
    have hxs' := fun x hx => hxs x (List.mem_cons_of_mem a hx)
    rw [List.flatMap_cons, List.append_assoc] at hf ⊢
    refine runs_then (hstep done em0 st a l _ cm ha hi hl ?_ hf) ?_
    · cases xs with
      | nil => exact hrest _
      | cons b xs =>
        rw [List.flatMap_cons, List.append_assoc]
        exact hq b _ _ (hxs' b (by simp))
    · rintro st' es' cm' em ⟨h1, rfl, h3⟩
      refine (ih hxs' h1 (by omega) h3).mono ?_
      rintro st'' es'' cm'' em' ⟨g1, rfl, g3⟩
      have e : l + (rowsOf a ++ xs.flatMap rowsOf).length = l + (rowsOf a).length + (xs.flatMap rowsOf).length := by simp; omega
      rw [e]
      refine ⟨?_, rfl, g3⟩
      simpa using g1

/-! ### What an item does -/

/-- The parser reads an item from its first word on, and is then at row `l'`. -/
def Reads (es : List Shape) (cm : Comments) (rest : List Str) (l' : Nat) (entries : List Entry) : Prop :=
  Runs .default es cm fun st' es' cm' em =>
    ∃ ns, Pend st' ns ∧ es' = layout l' rest ∧ Fresh l' rest cm' ∧ (em ++ ns).map Node.entry = entries

/-- The blank row that ends an item. -/
theorem reads_blank {st : St} {ns : List Node} (h : Pend st ns) {l : Nat} {rest : List Str} {cm : Comments} (hb : st = .default → NoBlank (layout (l + 1) rest))
    (hf : Fresh l ([] :: rest) cm) {pre : List Node} {entries : List Entry} (he : (pre ++ ns).map Node.entry = entries) :
    Runs st (layout l ([] :: rest)) cm fun st' es' cm' em =>
      ∃ ns, Pend st' ns ∧ es' = layout (l + 1) rest ∧ Fresh (l + 1) rest cm' ∧ (pre ++ em ++ ns).map Node.entry = entries := by
  rw [layout_cons, rowToks_nil]
  refine (pend_blank h (.inr rfl) hb).mono ?_
  rintro _ _ _ _ ⟨rfl, rfl, rfl, rfl⟩
  exact ⟨ns, h, rfl, fresh_next hf (by unfold rowComment; rw [rowToks_nil]; rfl), by simpa using he⟩

/-! ### Definitions -/

theorem ex_plain {l : Nat} {bt : List (TT × Str)} {v : Str} {e : Shape} {es : List Shape} {cm : Comments} (h : LitToks isPlain bt v)
    (he : e.1 = .newLine ∨ e.1 = .whitespace) :
    Ex expectLiteralValue (lift l bt ++ e :: es) cm fun t es' cm' => t.val = v ∧ t.line = l ∧ es' = e :: es ∧ cm' = cm := by
  refine ex_literal (isTok := isPlain) h ?_
  rcases he with h | h <;> rw [h] <;> decide

theorem ex_path {l : Nat} {bt : List (TT × Str)} {v : Str} {e : Shape} {es : List Shape} {cm : Comments} (h : LitToks isPath bt v)
    (he : e.1 = .newLine ∨ e.1 = .whitespace) :
    Ex expectPath (lift l bt ++ e :: es) cm fun t es' cm' => t.val = v ∧ t.line = l ∧ es' = e :: es ∧ cm' = cm := by
  refine ex_literal (isTok := isPath) h ?_
  rcases he with h | h <;> rw [h] <;> decide

theorem ex_eol {l : Nat} {es : List Shape} {cm : Comments} :
    Ex expectOptionalCommentOrEOL ((.newLine, ['\n'], l) :: es) cm fun _ es' cm' => es' = (.newLine, ['\n'], l) :: es ∧ cm' = cm := by
  unfold expectOptionalCommentOrEOL
  refine ex_loop ?_
  refine ex_cursor fun p c => ?_
  exact ex_pure ⟨rfl, rfl⟩

theorem reads_define {doc : List Str} {key : Str} {v : Lit} (hd : ∀ d ∈ doc, DocLine d) (hk : Keyword key .definition) (hv : v.Plain)
    {l : Nat} {rest : List Str} {cm : Comments} (hl : 1 ≤ l) (hb : ∀ l, NoBlank (layout l rest))
    (hf : Fresh l (docRows "" doc ++ [key ++ " = ".toList ++ v.text] ++ [] :: rest) cm) :
    (∃ toks, rowToks (key ++ " = ".toList ++ v.text) = (.word, key) :: toks) ∧ RowOK (key ++ " = ".toList ++ v.text) ∧
    Reads (layout (l + doc.length) ((key ++ " = ".toList ++ v.text) :: [] :: rest)) cm rest (l + doc.length + 2)
      [.define { doc := docOf doc, name := key, value := some v.value, optional := false, metas := [] }] := by
  obtain ⟨bt, h1, h2⟩ := piece_plain (post := ['\n']) hv (ends_cons (wordEnd_of (by decide)))
  have e : key ++ " = ".toList ++ v.text = key ++ (' ' :: '=' :: ' ' :: v.text) := by rw [show " = ".toList = [' ', '=', ' '] from rfl]; simp
  have hp : Piece (key ++ (' ' :: '=' :: ' ' :: v.text)) ((.word, key) :: (.whitespace, [' ']) :: (.equal, ['=']) :: (.whitespace, [' ']) :: bt) ['\n'] := by
    refine piece_w (keyword_word hk) (ends_cons (wordEnd_of (by decide))) ?_
    refine piece_1 (solid_cons (by unfold Blank; decide)) ?_
    refine piece_eq (by simp) ?_
    exact piece_1 (plain_solid hv _) h2
  rw [← e] at hp
  obtain ⟨r1, r2, r3⟩ := piece_row hp
  refine ⟨⟨_, r1⟩, r3, ?_⟩
  obtain ⟨d1, d2, d3⟩ := doc_rows (ind := "") (by decide) hd
  obtain ⟨f1, f2⟩ := fresh_take hl hf d1 (fun d hd' => (hd d hd').2.2.2.2) (by simpa using r2) (j := 0) (by simp) (line := l + doc.length) rfl
  unfold Reads
  rw [layout_cons, r1]
  simp only [lift_cons, List.cons_append]
  refine runs_keyword hk ?_
  refine runs_goto ?_
  show Ex stDefinition _ _ _
  unfold stDefinition
  refine ex_match (vs := [(.word, key, l + doc.length), (.whitespace, [' '], l + doc.length), (.equal, ['='], l + doc.length), (.whitespace, [' '], l + doc.length)])
    (es' := lift (l + doc.length) bt ++ (.newLine, ['\n'], l + doc.length) :: layout (l + doc.length + 1) ([] :: rest)) rfl (by decide) ?_
  intro vs hvs
  refine ex_nth hvs rfl fun p c => ?_
  refine ex_takeComments fun cm' hcm' => ?_
  have hf' := (f2 cm' hcm').1
  rw [d3] at hf'
  refine ex_pure ⟨_, rfl, ?_⟩
  refine runs_step ?_
  show Ex (stDefinitionValue _) _ _ _
  unfold stDefinitionValue
  refine ex_then (ex_plain h1 (.inl rfl)) ?_
  rintro t es' cm'' ⟨t1, t2, rfl, rfl⟩
  refine ex_pure ?_
  refine runs_goto ?_
  show Ex stEOL _ _ _
  unfold stEOL
  refine ex_then ex_eol ?_
  rintro _ es' cm'' ⟨rfl, rfl⟩
  refine ex_pure ⟨_, rfl, ?_⟩
  refine runs_goto ?_
  show Ex stContinue _ _ _
  unfold stContinue
  refine ex_advance ?_
  refine ex_pure ⟨_, rfl, ?_⟩
  refine reads_blank .default (fun _ => hb _) hf' ?_
  simp only [List.append_nil, List.map_cons, List.map_nil, Node.entry, DefNode.entry]
  rw [f1, if_pos rfl, Option.map_some, t1]

end Verif.Ridl
