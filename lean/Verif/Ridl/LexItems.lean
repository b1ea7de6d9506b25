import Verif.Ridl.ExecRows
/-! # Lexing the rows of a document's items -/

namespace Verif.Ridl
open Verif.Spec

/-- The text `s` before `post` is made of the tokens `l`, none of them a `#`, and may stand in a row. -/
structure Piece (s : Str) (l : List (TT × Str)) (post : Str) : Prop where
  lexes : Lexes s l post
  noHash : ∀ t ∈ l, t.1 ≠ .hash
  row : RowOK s

theorem rowOK_nil : RowOK [] := ⟨by simp, by simp⟩

theorem rowOK_append {a b : Str} (ha : RowOK a) (hb : RowOK b) : RowOK (a ++ b) :=
  ⟨by simp [ha.1, hb.1], by simp [ha.2, hb.2]⟩

theorem rowOK_cons {c : Char} {b : Str} (h1 : c ≠ '\n') (h2 : c ≠ '\x00') (hb : RowOK b) : RowOK (c :: b) :=
  rowOK_append (a := [c]) ⟨by simpa using h1.symm, by simpa using h2.symm⟩ hb

theorem rowOK_word {w : Str} (h : IsWord w) : RowOK w := by
  obtain ⟨c, cs, rfl, hc, hcs⟩ := h
  have key : ∀ d : Char, WordEnd d → ¬ WordStart d → d ∉ c :: cs := by
    intro d hd hs hm
    rcases List.mem_cons.1 hm with rfl | hm
    · exact hs hc
    · exact hcs d hm hd
  exact ⟨key _ (wordEnd_of (by decide)) (by unfold WordStart; decide), key _ (wordEnd_of (by decide)) (by unfold WordStart; decide)⟩

theorem piece_nil (post : Str) : Piece [] [] post := ⟨lexes_nil post, by simp, rowOK_nil⟩

theorem piece_append {a b post : Str} {la lb : List (TT × Str)} (ha : Piece a la (b ++ post)) (hb : Piece b lb post) :
    Piece (a ++ b) (la ++ lb) post := by
  refine ⟨lexes_append ha.lexes hb.lexes, ?_, rowOK_append ha.row hb.row⟩
  intro t ht
  rcases List.mem_append.1 ht with h | h
  · exact ha.noHash t h
  · exact hb.noHash t h

theorem piece_tok {tt : TT} {v post : Str} (h : Tok tt v post) (hh : tt ≠ .hash) (hr : RowOK v) : Piece v [(tt, v)] post :=
  ⟨lexes_tok h, by simpa using hh, hr⟩

theorem piece_word {w post : Str} (h : IsWord w) (hp : Ends post) : Piece w [(.word, w)] post := piece_tok (tok_word h hp) (by decide) (rowOK_word h)

/-! Pieces in front of other pieces. -/

theorem piece_w {w s post : Str} {l : List (TT × Str)} (h : IsWord w) (hp : Ends (s ++ post)) (hs : Piece s l post) :
    Piece (w ++ s) ((.word, w) :: l) post := piece_append (la := [(.word, w)]) (piece_word h hp) hs

theorem piece_b {v s post : Str} {l : List (TT × Str)} (hne : v ≠ []) (hv : ∀ c ∈ v, c = ' ') (hp : Solid (s ++ post)) (hs : Piece s l post) :
    Piece (v ++ s) ((.whitespace, v) :: l) post := by
  refine piece_append (la := [(.whitespace, v)]) (piece_tok (tok_blank hne hv hp) (by decide) ?_) hs
  constructor <;> (intro h; have := hv _ h; revert this; decide)

theorem piece_1 {s post : Str} {l : List (TT × Str)} (hp : Solid (s ++ post)) (hs : Piece s l post) :
    Piece (' ' :: s) ((.whitespace, [' ']) :: l) post := piece_b (v := [' ']) (by decide) (by decide) hp hs

theorem piece_s {c : Char} {tt : TT} {s post : Str} {l : List (TT × Str)} (h : Spec.symbol c = some tt) (hh : tt ≠ .hash) (hn : tt ≠ .newLine)
    (hs : Piece s l post) : Piece (c :: s) ((tt, [c]) :: l) post := by
  refine piece_append (a := [c]) (la := [(tt, [c])]) (piece_tok (tok_sym h) hh (rowOK_cons ?_ ?_ rowOK_nil)) hs
  · rintro rfl; simp [Spec.symbol] at h; exact hn h.symm
  · rintro rfl; simp [Spec.symbol] at h

theorem piece_eq {s post : Str} {l : List (TT × Str)} (h : (s ++ post).head? ≠ some '>') (hs : Piece s l post) :
    Piece ('=' :: s) ((.equal, ['=']) :: l) post :=
  piece_append (a := ['=']) (la := [(.equal, ['='])]) (piece_tok (.equal _ h) (by decide) (by unfold RowOK; decide)) hs

theorem piece_rocket {s post : Str} {l : List (TT × Str)} (hs : Piece s l post) :
    Piece ('=' :: '>' :: s) ((.rocket, ['=', '>']) :: l) post :=
  piece_append (a := ['=', '>']) (la := [(.rocket, ['=', '>'])]) (piece_tok (.rocket _) (by decide) (by unfold RowOK; decide)) hs

theorem rowOK_type {t : Ty} (h : t.Writable) : RowOK t.text := by
  induction t with
  | omitted => exact h.elim
  | scalar n => exact rowOK_word h.1
  | named n => exact rowOK_word h.1
  | list t ih => exact rowOK_append (a := ['[', ']']) (by unfold RowOK; decide) (ih h)
  | map k v ih =>
    simp only [Ty.text]
    refine rowOK_append (rowOK_append (rowOK_append (rowOK_append ?_ (rowOK_word h.1.1)) ?_) (ih h.2)) ?_ <;> (unfold RowOK; decide)

theorem piece_type {t : Ty} (h : t.Writable) {post : Str} (hp : Ends post) : Piece t.text (tyToks t) post := by
  refine ⟨lexes_type h hp, ?_, rowOK_type h⟩
  clear hp
  induction t with
  | omitted => exact h.elim
  | scalar n => simp [tyToks]
  | named n => simp [tyToks]
  | list t ih =>
    intro x hx
    simp only [tyToks, List.mem_cons] at hx
    rcases hx with rfl | rfl | hx
    · decide
    · decide
    · exact ih h x hx
  | map k v ih =>
    intro x hx
    simp only [tyToks, List.mem_cons, List.mem_append, List.not_mem_nil, or_false, or_assoc] at hx
    rcases hx with h' | h' | h' | h' | hx | h'
    · simp [h']
    · simp [h']
    · simp [h']
    · simp [h']
    · exact ih h.2 x hx
    · simp [h']

theorem type_solid {t : Ty} (h : t.Writable) (post : Str) : Solid (t.text ++ post) := by
  cases t with
  | omitted => exact h.elim
  | scalar n => exact solid_word h.1
  | named n => exact solid_word h.1
  | list t => exact solid_cons (c := '[') (post := [']'] ++ t.text ++ post) (by unfold Blank; decide)
  | map k v =>
    have : (Ty.map k v).text ++ post = 'm' :: ("ap<".toList ++ (k ++ ([','] ++ (v.text ++ ['>']))) ++ post) := by
      simp only [Ty.text]
      rw [show Verif.Schema.S "map<" = 'm' :: "ap<".toList from rfl, show Verif.Schema.S "," = [','] from rfl, show Verif.Schema.S ">" = ['>'] from rfl]
      simp
    rw [this]
    exact solid_cons (by unfold Blank; decide)

theorem rowOK_quoted {s : Str} (h : Quotable s) : RowOK (['"'] ++ escape s ++ ['"']) := by
  refine rowOK_append (rowOK_append (by unfold RowOK; decide) ⟨escape_no_newline s, ?_⟩) (by unfold RowOK; decide)
  exact escape_no h.2.2.2.2 (by decide) (by decide) (by decide)

theorem rowOK_lit {lead : List Char} {v : Lit} (hl : '\n' ∉ lead ∧ '\x00' ∉ lead) (h : v.Ok (Led lead)) : RowOK v.text := by
  cases v with
  | quoted s => exact rowOK_quoted h
  | bare s =>
    obtain ⟨_, _, p, w, e, hp, hw⟩ := h
    show RowOK s
    rw [e]
    refine rowOK_append ⟨fun h => hl.1 (hp _ h), fun h => hl.2 (hp _ h)⟩ ?_
    rcases hw with rfl | hw
    · exact rowOK_nil
    · exact rowOK_word hw

def isPlain (tt : TT) : Bool := tt == .word || tt == .slash
def isPath (tt : TT) : Bool := tt == .word || tt == .dot || tt == .slash

theorem piece_plain {v : Lit} {post : Str} (h : v.Plain) (hp : Ends post) : ∃ bt, LitToks isPlain bt v.value ∧ Piece v.text bt post := by
  obtain ⟨bt, h1, h2, h3⟩ := lexes_lit (lead := ['/']) (isTok := isPlain) (by
    intro c hc
    simp only [List.mem_cons, List.not_mem_nil, or_false] at hc
    subst hc
    exact ⟨.slash, rfl, rfl, by decide, by decide⟩) rfl h hp
  exact ⟨bt, h1, h3, h2, rowOK_lit (by decide) h⟩

theorem piece_path {v : Lit} {post : Str} (h : v.Path) (hp : Ends post) : ∃ bt, LitToks isPath bt v.value ∧ Piece v.text bt post := by
  obtain ⟨bt, h1, h2, h3⟩ := lexes_lit (lead := ['.', '/']) (isTok := isPath) (by
    intro c hc
    simp only [List.mem_cons, List.not_mem_nil, or_false] at hc
    rcases hc with rfl | rfl
    · exact ⟨.dot, rfl, rfl, by decide, by decide⟩
    · exact ⟨.slash, rfl, rfl, by decide, by decide⟩) rfl h hp
  exact ⟨bt, h1, h3, h2, rowOK_lit (by decide) h⟩

/-- The first character of a literal. -/
theorem lit_head {lead : List Char} {v : Lit} (hl : ∀ c ∈ lead, ¬ Blank c ∧ c ≠ '>') (h : v.Ok (Led lead)) (post : Str) :
    ∃ c r, v.text ++ post = c :: r ∧ ¬ Blank c ∧ c ≠ '>' := by
  cases v with
  | quoted s => exact ⟨'"', _, rfl, by unfold Blank; decide, by decide⟩
  | bare s =>
    obtain ⟨hne, _, p, w, e, hp, hw⟩ := h
    show ∃ c r, s ++ post = _ ∧ _
    subst e
    cases p with
    | cons c p => exact ⟨c, p ++ w ++ post, rfl, hl c (hp c (by simp))⟩
    | nil =>
      rcases hw with rfl | hw
      · exact absurd rfl hne
      · obtain ⟨c, cs, rfl, hc, _⟩ := hw
        refine ⟨c, cs ++ post, rfl, fun hb => blank_not_word hb hc, ?_⟩
        rintro rfl; revert hc; unfold WordStart; decide

theorem plain_solid {v : Lit} (h : v.Plain) (post : Str) : Solid (v.text ++ post) := by
  obtain ⟨c, r, e, h1, _⟩ := lit_head (lead := ['/']) (by unfold Blank; decide) h post
  rw [e]; exact solid_cons h1

theorem path_solid {v : Lit} (h : v.Path) (post : Str) : Solid (v.text ++ post) := by
  obtain ⟨c, r, e, h1, _⟩ := lit_head (lead := ['.', '/']) (by unfold Blank; decide) h post
  rw [e]; exact solid_cons h1

/-- One word or a quoted text. -/
inductive WordToks : List (TT × Str) → Str → Prop
  | bare (w : Str) : WordToks [(.word, w)] w
  | quoted {bt : List (TT × Str)} {v : Str} (hb : InnerToks bt) (hu : unescapeString (bt.flatMap (·.2)) = .ok v) :
      WordToks ((.quote, ['"']) :: (bt ++ [(.quote, ['"'])])) v

theorem piece_quoted {s : Str} (h : Quotable s) (post : Str) :
    ∃ bt, InnerToks bt ∧ unescapeString (bt.flatMap (·.2)) = .ok s ∧ Piece (['"'] ++ escape s ++ ['"']) ((.quote, ['"']) :: (bt ++ [(.quote, ['"'])])) post := by
  obtain ⟨bt, h1, h2, h3, h4⟩ := lexes_quoted h
  refine ⟨bt, h1, h2, h4 post, ?_, rowOK_quoted h⟩
  intro t ht
  simp only [List.mem_cons, List.mem_append, List.not_mem_nil, or_false] at ht
  rcases ht with rfl | ht | rfl
  · decide
  · exact h3 t ht
  · decide

theorem piece_wordLit {v : Lit} {post : Str} (h : v.Word) (hp : Ends post) : ∃ bt, WordToks bt v.value ∧ Piece v.text bt post := by
  cases v with
  | bare s => exact ⟨_, .bare s, piece_word h hp⟩
  | quoted s =>
    obtain ⟨bt, h1, h2, h3⟩ := piece_quoted h post
    exact ⟨_, .quoted h1 h2, h3⟩

theorem wordLit_solid {v : Lit} (h : v.Word) (post : Str) : Solid (v.text ++ post) := by
  cases v with
  | bare s => exact solid_word h
  | quoted s => exact solid_cons (by unfold Blank; decide)

/-- Tokens of the value of a `+` line. -/
inductive MetaToks : List (TT × Str) → Str → Prop
  | bare {bt : List (TT × Str)} {v : Str} (hne : bt ≠ []) (h : ∀ t ∈ bt, t.1 ≠ .whitespace ∧ t.1 ≠ .newLine ∧ t.1 ≠ .eof)
      (hq : ∀ t, bt.head? = some t → t.1 ≠ .quote) (hu : unescapeString (bt.flatMap (·.2)) = .ok v) : MetaToks bt v
  | quoted {bt : List (TT × Str)} {v : Str} (hb : InnerToks bt) (hu : unescapeString (bt.flatMap (·.2)) = .ok v) :
      MetaToks ((.quote, ['"']) :: (bt ++ [(.quote, ['"'])])) v

theorem tok_blank_char {v post : Str} (h : Tok .whitespace v post) : ∃ c ∈ v, Blank c := by
  generalize ht : TT.whitespace = tt at h
  cases h with
  | blank c cs _ h _ => exact ⟨c, by simp, h c (by simp)⟩
  | symbol c _ _ h => subst ht; unfold Spec.symbol at h; split at h <;> simp at h
  | _ => cases ht

theorem tok_hash_char {v post : Str} (h : Tok .hash v post) : '#' ∈ v := by
  generalize ht : TT.hash = tt at h
  cases h with
  | symbol c _ _ h =>
    subst ht
    unfold Spec.symbol at h
    split at h <;> simp at h ⊢
  | _ => cases ht

theorem piece_meta {v : Lit} (h : v.Meta) : ∃ bt, MetaToks bt v.value ∧ Piece v.text bt ['\n'] := by
  cases v with
  | quoted s =>
    obtain ⟨bt, h1, h2, h3⟩ := piece_quoted h ['\n']
    exact ⟨_, .quoted h1 h2, h3⟩
  | bare s =>
    obtain ⟨hne, hcl, hq, hc⟩ := h
    have h0 : '\x00' ∉ s := fun h => (hc _ h).2.2.2 rfl
    have hn : '\n' ∉ s := fun h => (hc _ h).2.1 rfl
    obtain ⟨h1, h2⟩ := row_lexes h0 []
    have htok := rowToks_tok h0
    refine ⟨rowToks s, .bare ?_ ?_ ?_ ?_, h1, ?_, hn, h0⟩
    · intro he; rw [he] at h2; exact hne (by simpa using h2.symm)
    · intro t ht
      obtain ⟨post, hp⟩ := htok t ht
      refine ⟨fun he => ?_, (row_no_newline h0 hn t ht).1, (tok_special hp).2.2.2⟩
      rw [he] at hp
      obtain ⟨c, hcm, hb⟩ := tok_blank_char hp
      exact (hc c (mem_row h0 ht hcm)).1 hb
    · intro t ht he
      obtain ⟨post, hp⟩ := htok t (List.mem_of_head? ht)
      have hv := (tok_special hp).1 he
      cases hr : rowToks s with
      | nil => rw [hr] at ht; cases ht
      | cons x r =>
        rw [hr] at ht h2
        simp only [List.head?_cons, Option.some.injEq] at ht
        subst ht
        apply hq
        rw [← h2, List.flatMap_cons, hv]; rfl
    · rw [h2]; exact unescape_plain hcl.1 hcl.2
    · intro t ht he
      obtain ⟨post, hp⟩ := htok t ht
      rw [he] at hp
      exact (hc _ (mem_row h0 ht (tok_hash_char hp))).2.2.1 rfl

theorem meta_solid {v : Lit} (h : v.Meta) (post : Str) : Solid (v.text ++ post) := by
  cases v with
  | quoted s => exact solid_cons (by unfold Blank; decide)
  | bare s =>
    obtain ⟨hne, _, _, hc⟩ := h
    cases s with
    | nil => exact absurd rfl hne
    | cons c s => exact solid_cons (hc c (by simp)).1

/-! ### Rows -/

theorem dropWhile_all {γ : Type} {p : γ → Bool} {l : List γ} (h : ∀ x ∈ l, p x = true) : l.dropWhile p = [] := by
  induction l with
  | nil => rfl
  | cons x l ih => rw [List.dropWhile_cons, if_pos (h x (by simp))]; exact ih fun y hy => h y (by simp [hy])

theorem piece_row {s : Str} {l : List (TT × Str)} (h : Piece s l ['\n']) : rowToks s = l ∧ rowComment s = none ∧ RowOK s := by
  have h1 := rowToks_eq h.lexes
  refine ⟨h1, ?_, h.row⟩
  unfold rowComment lineComment
  rw [h1, dropWhile_all]
  intro t ht
  simpa using h.noHash t ht

theorem layout_cons (l : Nat) (r : Str) (rest : List Str) : layout l (r :: rest) = lift l (rowToks r) ++ (.newLine, ['\n'], l) :: layout (l + 1) rest := rfl

theorem rowToks_nil : rowToks [] = [] := rowToks_eq (lexes_nil _)

theorem commentChars_plain {l : List (TT × Str)} (h : ∀ t ∈ l, t.1 ≠ .hash) : commentChars l = l.flatMap (·.2) := by
  have hb : ∀ l : List (TT × Str), (∀ t ∈ l, t.1 ≠ .hash) → beforeHash l = false := by
    intro l
    induction l with
    | nil => intro _; rfl
    | cons t l ih =>
      intro h
      obtain ⟨tt, v⟩ := t
      have := h _ (List.mem_cons_self ..)
      simp only [beforeHash, ih fun x hx => h x (by simp [hx])]
      simpa using this
  induction l with
  | nil => rfl
  | cons t l ih =>
    obtain ⟨tt, v⟩ := t
    have h0 := h _ (List.mem_cons_self ..)
    have h1 := fun x hx => h x (List.mem_cons_of_mem _ hx)
    unfold commentChars
    rw [if_neg h0, if_neg (by simp [hb l h1]), ih h1]
    rfl

/-- A comment row. -/
theorem doc_row {ind : Str} (hind : ∀ c ∈ ind, c = ' ') {d : Str} (h : DocLine d) :
    ∃ lt, rowToks (ind ++ "# ".toList ++ d) = (if ind = [] then [] else [(.whitespace, ind)]) ++ (.hash, ['#']) :: lt ∧
      (∀ t ∈ lt, t.1 ≠ .newLine ∧ t.1 ≠ .eof) ∧ rowComment (ind ++ "# ".toList ++ d) = some d ∧ RowOK (ind ++ "# ".toList ++ d) := by
  obtain ⟨hj, hh, hn, hz, hx⟩ := h
  have hz' : '\x00' ∉ ' ' :: d := by simp [hz]
  have hn' : '\n' ∉ ' ' :: d := by simp [hn]
  have hh' : '#' ∉ ' ' :: d := by simp [hh]
  obtain ⟨h1, h2⟩ := row_lexes hz' []
  have htok := rowToks_tok hz'
  have hnh : ∀ t ∈ rowToks (' ' :: d), t.1 ≠ .hash := by
    intro t ht he
    obtain ⟨post, hp⟩ := htok t ht
    rw [he] at hp
    exact hh' (mem_row hz' ht (tok_hash_char hp))
  have e : ind ++ "# ".toList ++ d = ind ++ (['#'] ++ (' ' :: d)) := by
    rw [show "# ".toList = ['#', ' '] from rfl]; simp
  have hl : Lexes (ind ++ (['#'] ++ (' ' :: d))) ((if ind = [] then [] else [(.whitespace, ind)]) ++ (.hash, ['#']) :: rowToks (' ' :: d)) ['\n'] := by
    refine lexes_append ?_ (lexes_cons (tok_sym rfl) h1)
    split
    · rename_i h; subst h; exact lexes_nil _
    · rename_i hne
      exact lexes_tok (tok_blank hne hind (solid_cons (by unfold Blank; decide)))
  have hr := rowToks_eq hl
  rw [e]
  refine ⟨_, hr, ?_, ?_, ?_⟩
  · intro t ht
    obtain ⟨post, hp⟩ := htok t ht
    exact ⟨(row_no_newline hz' hn' t ht).1, (tok_special hp).2.2.2⟩
  · unfold rowComment lineComment
    rw [hr]
    have : ((if ind = [] then [] else [(TT.whitespace, ind)]) ++ (.hash, ['#']) :: rowToks (' ' :: d)).dropWhile (fun t => decide (t.1 ≠ .hash)) = (.hash, ['#']) :: rowToks (' ' :: d) := by
      split <;> simp
    rw [this]
    show some (join [' '] (fields (commentChars (rowToks (' ' :: d))))) = some d
    rw [commentChars_plain hnh, h2]
    have : fields (' ' :: d) = fields d := by rw [fields]; rfl
    rw [this, hj]
  · refine rowOK_append ?_ (rowOK_cons (by decide) (by decide) (rowOK_cons (by decide) (by decide) ⟨hn, hz⟩))
    constructor <;> (intro h; have := hind _ h; revert this; decide)

theorem doc_rows {ind : String} (hind : ∀ c ∈ ind.toList, c = ' ') {doc : List Str} (h : ∀ d ∈ doc, DocLine d) :
    (docRows ind doc).map rowComment = doc.map some ∧ (∀ r ∈ docRows ind doc, RowOK r) ∧ (docRows ind doc).length = doc.length := by
  unfold docRows
  refine ⟨?_, ?_, by simp⟩
  · rw [List.map_map]
    apply List.map_congr_left
    intro d hd
    obtain ⟨lt, _, _, h3, _⟩ := doc_row hind (h d hd)
    exact h3
  · intro r hr
    obtain ⟨d, hd, rfl⟩ := List.mem_map.1 hr
    obtain ⟨lt, _, _, _, h4⟩ := doc_row hind (h d hd)
    exact h4

end Verif.Ridl
