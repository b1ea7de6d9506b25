import Verif.Spec.Lexing

namespace Verif.Ridl
open Verif.Spec

/-- Position of the next character. -/
def Lx.nextPos (s : Lx) : Nat × Nat := (if s.col < 1 then s.line + 1 else s.line, s.col + 1)

def eats (s : Lx) (v : Str) : Lx := v.foldl Lx.eat s

@[simp] theorem eats_nil (s : Lx) : eats s [] = s := rfl
@[simp] theorem eats_cons (s : Lx) (c : Char) (v : Str) : eats s (c :: v) = eats (s.eat c) v := rfl

theorem eats_append (s : Lx) (u v : Str) : eats s (u ++ v) = eats (eats s u) v := by
  simp [eats]

theorem eats_cur (s : Lx) (v : Str) : (eats s v).cur = s.cur ++ v := by
  induction v generalizing s with
  | nil => simp
  | cons c v ih => simp [ih, Lx.eat]

theorem eats_pos (s : Lx) (v : Str) : (eats s v).pos = s.pos + v.length := by
  induction v generalizing s with
  | nil => simp
  | cons c v ih => simp [ih, Lx.eat]; omega

theorem eat_linecol (s : Lx) (c : Char) : ((s.eat c).line, (s.eat c).col) = s.nextPos := rfl

theorem eat_nextPos (s : Lx) (c : Char) (h : c ≠ '\n') : (s.eat c).nextPos = advance s.nextPos c := by
  simp [Lx.eat, Lx.nextPos, advance, h]

theorem eats_nextPos (s : Lx) (v : Str) (h : ∀ c ∈ v, c ≠ '\n') :
    (eats s v).nextPos = v.foldl advance s.nextPos := by
  induction v generalizing s with
  | nil => simp
  | cons c v ih =>
    have := eat_nextPos s c (h c (by simp))
    simp [ih (s.eat c) (fun x hx => h x (by simp [hx])), this]

theorem eats_linecol (s : Lx) (v : Str) (hv : v ≠ []) (h : ∀ c ∈ v.dropLast, c ≠ '\n') :
    ((eats s v).line, (eats s v).col) = v.dropLast.foldl advance s.nextPos := by
  obtain ⟨u, c, rfl⟩ : ∃ u c, v = u ++ [c] := ⟨v.dropLast, v.getLast hv, (List.dropLast_concat_getLast hv).symm⟩
  simp only [List.dropLast_concat] at h ⊢
  rw [eats_append]
  simp only [eats_cons, eats_nil, eat_linecol]
  exact eats_nextPos s u h

theorem isSpace_iff (c : Char) : isSpace c = true ↔ Blank c := by
  simp [isSpace, Blank, or_assoc]

theorem isWord_iff (c : Char) : isWord c = true ↔ WordStart c := by
  simp only [isWord, WordStart, Bool.or_eq_true, Bool.and_eq_true, decide_eq_true_eq, beq_iff_eq,
    Char.le_def, UInt32.le_iff_toNat_le, Char.toNat]
  grind

theorem isWordBreak_iff (c : Char) : isWordBreak c = true ↔ WordEnd c := by
  simp only [isWordBreak, WordEnd, List.contains_iff_mem]
  rfl

theorem wordLoop_spec (s : Lx) (c : Char) (r : Str) :
    ∃ v post, c :: r = c :: v ++ post ∧ wordLoop s (c :: r) = (eats s (c :: v), post) ∧
      (∀ x ∈ v, ¬ WordEnd x) ∧ (∀ d, post.head? = some d → WordEnd d) := by
  induction r generalizing s c with
  | nil => exact ⟨[], [], by simp, by
    have : isWordBreak (peek []) = true := by decide
    simp [wordLoop, this], by simp, by simp⟩
  | cons d r ih =>
    unfold wordLoop
    by_cases h : isWordBreak (peek (d :: r))
    · refine ⟨[], d :: r, by simp, by simp [h], by simp, ?_⟩
      intro x hx; simp at hx; subst hx
      exact (isWordBreak_iff _).1 h
    · obtain ⟨v, post, h1, h2, h3, h4⟩ := ih (s.eat c) d
      refine ⟨d :: v, post, by simp_all, by simp_all, ?_, h4⟩
      intro x hx
      rcases List.mem_cons.1 hx with rfl | hx
      · intro hc; exact h ((isWordBreak_iff _).2 hc)
      · exact h3 x hx

theorem spaceLoop_spec (s : Lx) (r : Str) :
    ∃ v post, r = v ++ post ∧ spaceLoop s r = (eats s v, post) ∧
      (∀ x ∈ v, Blank x) ∧ (∀ d, post.head? = some d → ¬ Blank d) := by
  induction r generalizing s with
  | nil => exact ⟨[], [], by simp, rfl, by simp, by simp⟩
  | cons d r ih =>
    unfold spaceLoop
    by_cases h : isSpace d
    · obtain ⟨v, post, h1, h2, h3, h4⟩ := ih (s.eat d)
      refine ⟨d :: v, post, by simp [h1], by simp [h, h2], ?_, h4⟩
      intro x hx
      rcases List.mem_cons.1 hx with rfl | hx
      · exact (isSpace_iff _).1 h
      · exact h3 x hx
    · refine ⟨[], d :: r, by simp, by simp [h], by simp, ?_⟩
      intro x hx; simp at hx; subst hx
      exact fun hb => h ((isSpace_iff _).2 hb)

/-- What one round of the lexer does. -/
structure StepOK (s : Lx) (rest : Str) (t : Token) (s' : Lx) (rest' : Str) : Prop where
  split : rest = t.val ++ rest'
  tok : Tok t.tt t.val rest'
  cur : s'.cur = []
  pos : s'.pos = s.pos + t.val.length
  tpos : t.pos = s'.pos
  next : s'.nextPos = t.val.foldl advance s.nextPos
  linecol : (t.line, t.col) = t.val.dropLast.foldl advance s.nextPos

theorem _root_.Verif.Spec.Blank.ne_nl {c : Char} (h : Blank c) : c ≠ '\n' := by
  rcases h with rfl | rfl | rfl <;> decide

theorem _root_.Verif.Spec.WordStart.ne_nl {c : Char} (h : WordStart c) : c ≠ '\n' := by
  intro hc; subst hc; revert h; rw [← isWord_iff]; decide

theorem nl_wordEnd : WordEnd '\n' := by rw [← isWordBreak_iff]; decide

theorem stepOK_eats (s : Lx) (hs : s.cur = []) (tt : TT) (v rest' : Str) (hv : v ≠ [])
    (ht : Tok tt v rest') (hnl : ∀ c ∈ v, c ≠ '\n') :
    StepOK s (v ++ rest') ((eats s v).emit tt).1 ((eats s v).emit tt).2 rest' := by
  have hcur := eats_cur s v
  simp only [hs, List.nil_append] at hcur
  constructor
  · simp [Lx.emit, hcur]
  · simpa [Lx.emit, hcur] using ht
  · simp [Lx.emit]
  · simp [Lx.emit, eats_pos, hcur]
  · simp [Lx.emit]
  · have := eats_nextPos s v hnl
    simpa [Lx.emit, Lx.nextPos, hcur] using this
  · have := eats_linecol s v hv (fun c hc => hnl c (List.dropLast_subset _ hc))
    simpa [Lx.emit, hcur] using this

theorem pushToken_ok (s : Lx) (hs : s.cur = []) (tt : TT) (c : Char) (r : Str)
    (h : Tok tt [c] r) (hc : c ≠ '\n') :
    StepOK s (c :: r) (pushToken tt s (c :: r)).1 (pushToken tt s (c :: r)).2.1
      (pushToken tt s (c :: r)).2.2 :=
  stepOK_eats s hs tt [c] r (by simp) h (by simpa using hc)

theorem lexNewLine_ok (s : Lx) (hs : s.cur = []) (r : Str) :
    StepOK s ('\n' :: r) (lexNewLine s ('\n' :: r)).1 (lexNewLine s ('\n' :: r)).2.1
      (lexNewLine s ('\n' :: r)).2.2 := by
  constructor
  · simp [lexNewLine, next, Lx.emit, Lx.eat, hs]
  · simp only [lexNewLine, next, Lx.emit, Lx.eat, hs, List.nil_append]
    exact Tok.symbol '\n' .newLine r (by rfl)
  · simp [lexNewLine, next, Lx.emit]
  · simp [lexNewLine, next, Lx.emit, Lx.eat, hs]
  · simp [lexNewLine, next, Lx.emit]
  · simp [lexNewLine, next, Lx.emit, Lx.eat, hs, Lx.nextPos, advance]
  · simp [lexNewLine, next, Lx.emit, Lx.eat, hs, Lx.nextPos]

theorem lexEqual_ok (s : Lx) (hs : s.cur = []) (r : Str) :
    StepOK s ('=' :: r) (lexEqual s ('=' :: r)).1 (lexEqual s ('=' :: r)).2.1
      (lexEqual s ('=' :: r)).2.2 := by
  rcases r with _ | ⟨d, r⟩
  · exact stepOK_eats s hs .equal ['='] [] (by simp) (Tok.equal [] (by simp)) (by simp)
  · by_cases h : d = '>'
    · subst h
      exact stepOK_eats s hs .rocket ['=', '>'] r (by simp) (Tok.rocket r) (by simp)
    · have := stepOK_eats s hs .equal ['='] (d :: r) (by simp) (Tok.equal _ (by simpa using h)) (by simp)
      simpa [lexEqual, next, peek, h] using this

theorem lexWord_ok (s : Lx) (hs : s.cur = []) (c : Char) (r : Str) (hc : isWord c = true) :
    StepOK s (c :: r) (lexWord s (c :: r)).1 (lexWord s (c :: r)).2.1 (lexWord s (c :: r)).2.2 := by
  obtain ⟨v, post, h1, h2, h3, h4⟩ := wordLoop_spec s c r
  have hc' := (isWord_iff c).1 hc
  rw [h1] at h2 ⊢
  simp only [lexWord, h2]
  refine stepOK_eats s hs .word (c :: v) post (by simp) (Tok.word c v post hc' h3 h4) ?_
  intro x hx
  rcases List.mem_cons.1 hx with rfl | hx
  · exact hc'.ne_nl
  · rintro rfl; exact h3 _ hx nl_wordEnd

theorem lexSpace_ok (s : Lx) (hs : s.cur = []) (c : Char) (r : Str) (hc : isSpace c = true) :
    StepOK s (c :: r) (lexSpace s (c :: r)).1 (lexSpace s (c :: r)).2.1 (lexSpace s (c :: r)).2.2 := by
  obtain ⟨v, post, h1, h2, h3, h4⟩ := spaceLoop_spec (s.eat c) r
  have hc' := (isSpace_iff c).1 hc
  have hb : ∀ x ∈ c :: v, Blank x := by
    intro x hx
    rcases List.mem_cons.1 hx with rfl | hx
    · exact hc'
    · exact h3 x hx
  have h2' : spaceLoop (s.eat c) r = (eats s (c :: v), post) := by simpa using h2
  subst h1
  simp only [lexSpace, next, h2']
  exact stepOK_eats s hs .whitespace (c :: v) post (by simp) (Tok.blank c v post hb h4)
    (fun x hx => (hb x hx).ne_nl)

theorem symbol_none_of {c : Char} (h : ∀ x ∈ "\"/\\\n()<>[]#+-:?,|.@".toList, c ≠ x) :
    symbol c = none := by
  unfold symbol
  split <;> first | rfl | (exfalso; exact h _ (by decide) rfl)

/-- Every round of the lexer yields one token as specified. -/
theorem lexStep_ok (s : Lx) (hs : s.cur = []) (rest : Str) :
    (lexStep s rest = none ∧ (rest = [] ∨ ∃ r, rest = '\x00' :: r)) ∨
    ∃ t s' rest', lexStep s rest = some (t, s', rest') ∧ StepOK s rest t s' rest' := by
  rcases rest with _ | ⟨c, r⟩
  · left; exact ⟨rfl, Or.inl rfl⟩
  by_cases h0 : c = '\x00'
  · left; subst h0; exact ⟨rfl, Or.inr ⟨r, rfl⟩⟩
  right
  have h0' : isEmpty (peek (c :: r)) = false := by simpa [isEmpty, peek, emptyRune] using h0
  suffices ∃ x : Token × Lx × Str, lexStep s (c :: r) = some x ∧ StepOK s (c :: r) x.1 x.2.1 x.2.2 by
    obtain ⟨⟨t, s', r'⟩, h1, h2⟩ := this; exact ⟨t, s', r', h1, h2⟩
  refine ⟨_, by simp only [lexStep, h0', Bool.false_eq_true, if_false]; rfl, ?_⟩
  simp only [peek, beq_iff_eq]
  by_cases h : c = '"'
  · subst h; simpa using pushToken_ok s hs .quote '"' r (.symbol _ _ _ rfl) (by decide)
  by_cases h2 : c = '/'
  · subst h2; simpa using pushToken_ok s hs .slash '/' r (.symbol _ _ _ rfl) (by decide)
  by_cases h3 : c = '\\'
  · subst h3; simpa using pushToken_ok s hs .backslash '\\' r (.symbol _ _ _ rfl) (by decide)
  by_cases h4 : isSpace c = true
  · simpa [h, h2, h3, h4] using lexSpace_ok s hs c r h4
  by_cases h5 : c = '\n'
  · subst h5; simpa [isSpace] using lexNewLine_ok s hs r
  by_cases h6 : c = '('
  · subst h6; simpa [isSpace] using pushToken_ok s hs .openParen '(' r (.symbol _ _ _ rfl) (by decide)
  by_cases h7 : c = ')'
  · subst h7; simpa [isSpace] using pushToken_ok s hs .closeParen ')' r (.symbol _ _ _ rfl) (by decide)
  by_cases h8 : c = '<'
  · subst h8; simpa [isSpace] using pushToken_ok s hs .openAngle '<' r (.symbol _ _ _ rfl) (by decide)
  by_cases h9 : c = '>'
  · subst h9; simpa [isSpace] using pushToken_ok s hs .closeAngle '>' r (.symbol _ _ _ rfl) (by decide)
  by_cases h10 : c = '['
  · subst h10; simpa [isSpace] using pushToken_ok s hs .openBracket '[' r (.symbol _ _ _ rfl) (by decide)
  by_cases h11 : c = ']'
  · subst h11; simpa [isSpace] using pushToken_ok s hs .closeBracket ']' r (.symbol _ _ _ rfl) (by decide)
  by_cases h12 : c = '#'
  · subst h12; simpa [isSpace] using pushToken_ok s hs .hash '#' r (.symbol _ _ _ rfl) (by decide)
  by_cases h13 : c = '='
  · subst h13; simpa [isSpace] using lexEqual_ok s hs r
  by_cases h14 : c = '+'
  · subst h14; simpa [isSpace] using pushToken_ok s hs .plusSign '+' r (.symbol _ _ _ rfl) (by decide)
  by_cases h15 : c = '-'
  · subst h15; simpa [isSpace] using pushToken_ok s hs .minusSign '-' r (.symbol _ _ _ rfl) (by decide)
  by_cases h16 : c = ':'
  · subst h16; simpa [isSpace] using pushToken_ok s hs .colon ':' r (.symbol _ _ _ rfl) (by decide)
  by_cases h17 : c = '?'
  · subst h17; simpa [isSpace] using pushToken_ok s hs .questionMark '?' r (.symbol _ _ _ rfl) (by decide)
  by_cases h18 : c = ','
  · subst h18; simpa [isSpace] using pushToken_ok s hs .comma ',' r (.symbol _ _ _ rfl) (by decide)
  by_cases h19 : c = '|'
  · subst h19; simpa [isSpace] using pushToken_ok s hs .bar '|' r (.symbol _ _ _ rfl) (by decide)
  by_cases h20 : c = '.'
  · subst h20; simpa [isSpace] using pushToken_ok s hs .dot '.' r (.symbol _ _ _ rfl) (by decide)
  by_cases h21 : isWord c = true
  · simpa [h, h2, h3, h4, h5, h6, h7, h8, h9, h10, h11, h12, h13, h14, h15, h16, h17, h18, h19, h20, h21]
      using lexWord_ok s hs c r h21
  by_cases h22 : c = '@'
  · subst h22; simpa [isSpace, isWord] using pushToken_ok s hs .at_ '@' r (.symbol _ _ _ rfl) (by decide)
  · simp only [h, h2, h3, h4, h5, h6, h7, h8, h9, h10, h11, h12, h13, h14, h15, h16, h17, h18, h19, h20,
      h21, h22, Bool.false_eq_true, if_false]
    refine pushToken_ok s hs .extra c r (.extra c r h0 ?_ ?_ ?_ h13) h5
    · rwa [← isSpace_iff]
    · rwa [← isWord_iff]
    · refine symbol_none_of ?_
      intro x hx
      rw [show "\"/\\\n()<>[]#+-:?,|.@".toList = ['"', '/', '\\', '\n', '(', ')', '<', '>', '[', ']', '#', '+', '-', ':',
        '?', ',', '|', '.', '@'] from rfl] at hx
      simp only [List.mem_cons, List.not_mem_nil, or_false] at hx
      rintro rfl
      simp_all

theorem _root_.Verif.Spec.Tok.ne_nil {tt : TT} {v post : Str} (h : Tok tt v post) : v ≠ [] := by
  cases h <;> simp

theorem _root_.Verif.Spec.Tok.no_nul {tt : TT} {v post : Str} (h : Tok tt v post) : ∀ c ∈ v, c ≠ '\x00' := by
  cases h with
  | blank c cs _ h _ => intro x hx; rcases h x hx with rfl | rfl | rfl <;> decide
  | word c cs _ hc h _ =>
    intro x hx
    rcases List.mem_cons.1 hx with rfl | hx
    · rintro rfl; revert hc; rw [← isWord_iff]; decide
    · rintro rfl; exact h _ hx (by rw [← isWordBreak_iff]; decide)
  | rocket => simp
  | equal => simp
  | symbol c tt _ h =>
    intro x hx; simp at hx; subst hx; rintro rfl; simp [Spec.symbol] at h
  | extra c _ h0 => intro x hx; simp at hx; subst hx; exact h0

/-- Relation between the emitted tokens and the text, from any lexer state. -/
structure RunOK (src : Str) (p0 : Nat) (pos0 : Nat × Nat) (ts : List Token) : Prop where
  seg : Segments src (ts.map fun t => (t.tt, t.val))
  at_ : ∀ pre t post, ts = pre ++ t :: post →
    t.pos = p0 + ((pre ++ [t]).flatMap (·.val)).length ∧
    (t.line, t.col) = (((pre ++ [t]).flatMap (·.val)).dropLast).foldl advance pos0

theorem lexRun_ok (fuel : Nat) (s : Lx) (hs : s.cur = []) (rest : Str) (hf : rest.length < fuel) :
    ∃ ts e, lexRun fuel s rest = some (ts ++ [e]) ∧ e.tt = .eof ∧ RunOK rest s.pos s.nextPos ts := by
  induction fuel generalizing s rest with
  | zero => omega
  | succ fuel ih =>
    rcases lexStep_ok s hs rest with ⟨h1, h2⟩ | ⟨t, s', rest', h1, hok⟩
    · refine ⟨[], (s.emit .eof).1, by simp [lexRun, h1], rfl, ?_, by simp⟩
      rcases h2 with rfl | ⟨r, rfl⟩
      · exact .nil
      · exact .nul r
    · have hlen : rest'.length < fuel := by
        have := congrArg List.length hok.split
        have hne := List.length_pos_iff.2 hok.tok.ne_nil
        simp at this; omega
      obtain ⟨ts, e, h2, h3, h4⟩ := ih s' hok.cur rest' hlen
      refine ⟨t :: ts, e, by simp [lexRun, h1, h2], h3, ?_, ?_⟩
      · simp only [List.map_cons]
        rw [hok.split]
        exact .cons _ _ _ _ hok.tok h4.seg
      · intro pre u post hu
        rcases pre with _ | ⟨a, pre⟩
        · simp only [List.nil_append, List.cons.injEq] at hu
          obtain ⟨rfl, rfl⟩ := hu
          refine ⟨?_, ?_⟩
          · rw [hok.tpos, hok.pos]; simp
          · rw [hok.linecol]; simp
        · simp only [List.cons_append, List.cons.injEq] at hu
          obtain ⟨rfl, rfl⟩ := hu
          obtain ⟨g1, g2⟩ := h4.at_ pre u post rfl
          refine ⟨?_, ?_⟩
          · rw [g1, hok.pos]; simp; omega
          · rw [g2, hok.next]
            have hune : (pre ++ [u]).flatMap (·.val) ≠ [] := by
              have : u.val ≠ [] := by
                have hm : Tok u.tt u.val (post.flatMap (·.val)) ∨ u.val ≠ [] := by
                  right
                  have hall : ∀ (src : Str) (l : List (TT × Str)), Segments src l → ∀ x ∈ l, x.2 ≠ [] := by
                    intro src l hl
                    induction hl with
                    | nil => simp
                    | nul => simp
                    | cons tt v post ts h hr ih =>
                      intro x hx
                      rcases List.mem_cons.1 hx with rfl | hx
                      · exact h.ne_nil
                      · exact ih x hx
                  exact hall _ _ h4.seg (u.tt, u.val) (by simp)
                rcases hm with h | h
                · exact h.ne_nil
                · exact h
              simp [this]
            rw [List.cons_append, List.flatMap_cons, List.dropLast_append_of_ne_nil hune,
              List.foldl_append]

end Verif.Ridl
