import Verif.Ridl.ParserRun
import Verif.Ridl.TokenizerLemmas

/-! # C08-C09: the parser ends and does not crash -/

namespace Verif.Props
open Verif.Ridl Verif.Spec

/-- Every `@` of the text is directly followed by a letter, digit or underscore. -/
def AtsAreNamed (src : Str) : Prop :=
  ∀ pre post, src = pre ++ '@' :: post → ∃ c, post.head? = some c ∧ WordStart c

theorem symbol_at {c : Char} (h : Spec.symbol c = some .at_) : c = '@' := by
  unfold Spec.symbol at h
  split at h <;> simp at h ⊢

theorem segments_head_word {src : Str} {l : List (TT × Str)} (h : Segments src l) {c : Char}
    (hc : src.head? = some c) (hw : WordStart c) : ∃ w B, l = (.word, w) :: B := by
  cases h with
  | nil => simp at hc
  | nul post =>
    simp at hc
    subst hc
    exact absurd hw (by unfold WordStart; decide)
  | cons tt v post ts ht hr =>
    cases ht with
    | blank d cs _ hb =>
      simp at hc; subst hc
      exact absurd hw (blank_not_word (hb d (by simp)))
    | word d cs _ _ _ _ => exact ⟨_, _, rfl⟩
    | rocket => simp at hc; subst hc; exact absurd hw (by unfold WordStart; decide)
    | equal => simp at hc; subst hc; exact absurd hw (by unfold WordStart; decide)
    | symbol d _ _ hs =>
      simp at hc; subst hc
      exact absurd hw (symbol_class d tt hs).2.1
    | extra d _ _ _ h2 => simp at hc; subst hc; exact absurd hw h2

theorem at_followed {src : Str} {l : List (TT × Str)} (h : Segments src l) (ha : AtsAreNamed src) :
    ∀ A v B, l = A ++ (.at_, v) :: B → ∃ w B', B = (.word, w) :: B' := by
  induction h with
  | nil => intro A v B h; simp at h
  | nul post => intro A v B h; simp at h
  | cons tt v post ts ht hr ih =>
    intro A v' B h
    cases A with
    | nil =>
      simp only [List.nil_append, List.cons.injEq, Prod.mk.injEq] at h
      obtain ⟨⟨rfl, rfl⟩, rfl⟩ := h
      cases ht with
      | symbol c _ _ hs =>
        have := symbol_at hs; subst this
        obtain ⟨c, h1, h2⟩ := ha [] post rfl
        exact segments_head_word hr h1 h2
    | cons a A =>
      simp only [List.cons_append, List.cons.injEq] at h
      refine ih (fun pre post' hp => ?_) A v' B h.2
      exact ha (v ++ pre) post' (by rw [hp]; simp)

/-- The parser state for a document: its tokens, cursor at the start. -/
theorem newParser_eq (src : Str) : ∃ ts cm, tokenize src = some (ts, cm) ∧
    newParser src = some { tokens := ts, comments := cm } := by
  obtain ⟨ts, h1, _⟩ := tokenize_ok src
  exact ⟨ts, _, h1, by simp [newParser, h1]⟩

/-- C08: exactly when is the parser's run endless?  When it gets to an `@` in a service body that is
not followed by a word; in every other case it ends. -/
theorem C08_ends_iff (src : Str) (p : PS) (h : newParser src = some p) :
    (∃ fuel, parseN fuel src ≠ .outOfFuel) ↔
      ¬ ∃ n q, Reaches .default p (.serviceMethod n) q ∧ AtStuck q := by
  obtain ⟨ts, cm, h1, h2⟩ := newParser_eq src
  have hp : p.Valid := by rw [h2] at h; simp at h; subst h; simp [PS.Valid]
  constructor
  · rintro ⟨fuel, hf⟩ ⟨n, q, hr, hq⟩
    apply hf
    simp only [parseN, h]
    exact stuck_forever hr hq [] fuel
  · intro hno
    refine ⟨8 * (p.tokens.length - p.pos) + rank .default + 1, ?_⟩
    simp only [parseN, h]
    rcases run_cases (8 * (p.tokens.length - p.pos) + rank .default + 1) .default p [] hp trivial with
      ⟨l, hl⟩ | ⟨e, q, hl, _⟩ | ⟨hl, hc⟩
    · rw [hl]; simp
    · rw [hl]; simp
    · exact absurd (hc (by omega)) hno

/-- Where every `@` is followed by a name, the parser never gets to the place it cannot leave. -/
theorem not_stuck {src : Str} (h : AtsAreNamed src) {ts : List Token} (h2 : RunOK src 0 (1, 1) ts) :
    ¬ ∃ n q, Reaches .default
      { tokens := ts, comments := (ts.foldl tokenizeStep {}).lineComments } (.serviceMethod n) q ∧
      AtStuck q := by
  have hv : ({ tokens := ts, comments := (ts.foldl tokenizeStep {}).lineComments } : PS).Valid := by
    simp [PS.Valid]
  rintro ⟨n, q, hr, hq1, hq2⟩
  have he := (hr.ok hv trivial).1
  have ht : q.tokens = ts := he.tokens
  have hlt := cursor_lt (p := q) (by rw [hq1]; decide)
  rw [ht] at hlt
  have hcur : q.cursor = ts[q.pos] := by simp [PS.cursor, ht, hlt]
  have hsplit : ts = ts.take q.pos ++ ts[q.pos] :: ts.drop (q.pos + 1) := by
    rw [List.getElem_cons_drop, List.take_append_drop]
  have := at_followed h2.seg h ((ts.take q.pos).map fun t => (t.tt, t.val)) ts[q.pos].val
    ((ts.drop (q.pos + 1)).map fun t => (t.tt, t.val)) (by
      conv => lhs; rw [hsplit]
      simp only [List.map_append, List.map_cons]
      rw [← hcur, hq1])
  obtain ⟨w, B', hB⟩ := this
  cases hd : ts.drop (q.pos + 1) with
  | nil => simp [hd] at hB
  | cons u r =>
    have hu : u.tt = .word := by simp [hd] at hB; exact hB.1.1
    apply hq2
    have : ts[q.pos + 1]? = some u := by
      have := congrArg List.head? hd
      simpa [List.head?_drop] using this
    simp [PS.cursor, ht, this, hu]

/-- C08: a document in which every `@` is followed by a name is parsed to a tree or an error within a
number of transitions linear in its length, and the result no longer changes after that. -/
theorem C08_finishes_partial (src : Str) (h : AtsAreNamed src) :
    ∃ r, r ≠ .outOfFuel ∧ ∀ fuel, 8 * src.length + 8 ≤ fuel → parseN fuel src = r := by
  obtain ⟨ts, h1, h2⟩ := tokenize_ok src
  have hnp : newParser src = some { tokens := ts, comments := (ts.foldl tokenizeStep {}).lineComments } := by
    simp [newParser, h1]
  have hv : ({ tokens := ts, comments := (ts.foldl tokenizeStep {}).lineComments } : PS).Valid := by
    simp [PS.Valid]
  have hnostuck := not_stuck h h2
  have hlen : ts.length ≤ src.length := by
    have hval : ∀ t ∈ ts, t.val ≠ [] := by
      intro t ht
      obtain ⟨post, hp⟩ := segments_mem h2.seg (t.tt, t.val) (List.mem_map_of_mem ht)
      exact hp.ne_nil
    have hv := segments_visible h2.seg
    have hl : (visible src).length ≤ src.length := (List.takeWhile_prefix (p := (· ≠ '\x00'))).length_le
    rw [← hv, List.flatMap_map] at hl
    refine Nat.le_trans ?_ hl
    exact flatMap_length_ge ts hval
  refine ⟨parseN (8 * src.length + 8) src, ?_, ?_⟩
  · simp only [parseN, hnp]
    rcases run_cases (8 * src.length + 8) .default
        { tokens := ts, comments := (ts.foldl tokenizeStep {}).lineComments } [] hv trivial with
      ⟨l, hl⟩ | ⟨e, q, hl, _⟩ | ⟨hl, hc⟩
    · rw [hl]; simp
    · rw [hl]; simp
    · exact absurd (hc (by simp [rank]; omega)) hnostuck
  · intro fuel hf
    obtain ⟨k, rfl⟩ := Nat.exists_eq_add_of_le hf
    simp only [parseN, hnp]
    refine run_mono _ k _ _ _ _ rfl ?_
    rcases run_cases (8 * src.length + 8) .default
        { tokens := ts, comments := (ts.foldl tokenizeStep {}).lineComments } [] hv trivial with
      ⟨l, hl⟩ | ⟨e, q, hl, _⟩ | ⟨hl, hc⟩
    · rw [hl]; simp
    · rw [hl]; simp
    · exact absurd (hc (by simp [rank]; omega)) hnostuck

/-- The bound used by `parseDoc` suffices. -/
theorem parseDoc_ends {src : Str} (h : AtsAreNamed src) : parseDoc src ≠ .outOfFuel := by
  obtain ⟨ts, h1, h2⟩ := tokenize_ok src
  have hnp : newParser src = some { tokens := ts, comments := (ts.foldl tokenizeStep {}).lineComments } := by
    simp [newParser, h1]
  simp only [parseDoc, hnp]
  rcases run_cases (bound { tokens := ts, comments := (ts.foldl tokenizeStep {}).lineComments }) .default
      { tokens := ts, comments := (ts.foldl tokenizeStep {}).lineComments } [] (by simp [PS.Valid]) trivial with
    ⟨l, hl⟩ | ⟨e, q, hl, _⟩ | ⟨hl, hc⟩
  · rw [hl]; simp
  · rw [hl]; simp
  · exact absurd (hc (by simp [rank, bound])) (not_stuck h h2)

/-- `parseDoc` gives up only on documents on which the parser runs forever. -/
theorem parseDoc_hangs {src : Str} (h : parseDoc src = .outOfFuel) (fuel : Nat) : parseN fuel src = .outOfFuel := by
  obtain ⟨ts, cm, h1, h2⟩ := newParser_eq src
  simp only [parseDoc, h2] at h
  simp only [parseN, h2]
  rcases run_cases (bound { tokens := ts, comments := cm }) .default { tokens := ts, comments := cm } []
      (by simp [PS.Valid]) trivial with ⟨l, hl⟩ | ⟨e, q, hl, _⟩ | ⟨hl, hc⟩
  · rw [hl] at h; simp at h
  · rw [hl] at h; simp at h
  · obtain ⟨n, q, hr, hq⟩ := hc (by simp [rank, bound])
    exact stuck_forever hr hq [] fuel

/-- The hypothesis of `C08_finishes_partial` covers documents with annotations. -/
example : AtsAreNamed "service A\n  @acl:admin\n  - Ping()\n".toList := by
  intro pre post h
  have hmem : ∀ (s : Str) (pre post : Str), s = pre ++ '@' :: post →
      (s.dropWhile (· ≠ '@')).drop 1 = post ∨ '@' ∈ pre := by
    intro s pre post h
    by_cases hp : '@' ∈ pre
    · exact Or.inr hp
    · left
      subst h
      rw [List.dropWhile_append_of_pos]
      · simp
      · intro x hx
        simp only [ne_eq, decide_not, Bool.not_eq_eq_eq_not, Bool.not_true, decide_eq_false_iff_not]
        rintro rfl; exact hp hx
  rcases hmem _ pre post h with h' | h'
  · subst h'
    exact ⟨'a', by decide, by unfold WordStart; decide⟩
  · have hc := congrArg (List.count '@') h
    simp only [List.count_append, List.count_cons_self] at hc
    have h1 : List.count '@' "service A\n  @acl:admin\n  - Ping()\n".toList = 1 := by decide
    have h2 := List.count_pos_iff.2 h'
    omega

/-- C08 without the restriction on `@` is false: this document is never rejected nor accepted. -/
theorem C08_hangs : ∀ fuel, parseN fuel "service A\n@\n".toList = .outOfFuel :=
  stuckAfter_hangs 4 _ (by decide +kernel)

/-- C09: no document makes the parser panic, however long it runs. -/
theorem C09_never_panics (src : Str) (fuel : Nat) : parseN fuel src ≠ .panic := by
  obtain ⟨ts, cm, h1, h2⟩ := newParser_eq src
  simp only [parseN, h2]
  rcases run_cases fuel .default { tokens := ts, comments := cm } [] (by simp [PS.Valid]) trivial with
    ⟨l, hl⟩ | ⟨e, q, hl, _⟩ | ⟨hl, _⟩ <;> rw [hl] <;> simp

/-- C09: whatever state the parser gets to, its cursor is inside the token list of the document (or
just after its end), and the token list is unchanged. -/
theorem C09_cursor_in_range (src : Str) (p0 : PS) (h : newParser src = some p0) (st : St) (p : PS)
    (hr : Reaches .default p0 st p) : p.tokens = p0.tokens ∧ p.pos ≤ p0.tokens.length := by
  obtain ⟨ts, cm, h1, h2⟩ := newParser_eq src
  have hp : p0.Valid := by rw [h2] at h; simp at h; subst h; simp [PS.Valid]
  have := (hr.ok hp trivial).1
  exact ⟨this.tokens, by have h := this.le; rw [this.tokens] at h; exact h⟩

/-- C09: a reported syntax error names the text and position of a token of the document, or the end
of the document. -/
theorem C09_errors_point_at_a_token (src : Str) (fuel line col : Nat) (near : Str) (e : PErr)
    (h : parseN fuel src = .err line col near e) :
    (∃ ts cm, tokenize src = some (ts, cm) ∧ ∃ t ∈ ts, t.line = line ∧ t.col = col ∧ t.val = near) ∨
    (line = 0 ∧ col = 0 ∧ near = []) := by
  obtain ⟨ts, cm, h1, h2⟩ := newParser_eq src
  simp only [parseN, h2] at h
  rcases run_cases fuel .default { tokens := ts, comments := cm } [] (by simp [PS.Valid]) trivial with
    ⟨l, hl⟩ | ⟨e, q, hl, hq⟩ | ⟨hl, _⟩
  · rw [hl] at h; simp at h
  · rw [hl] at h
    simp only [ParseResult.err.injEq] at h
    obtain ⟨rfl, rfl, rfl, rfl⟩ := h
    by_cases hlt : q.pos < ts.length
    · left
      refine ⟨ts, cm, h1, ts[q.pos], List.getElem_mem _, ?_⟩
      have : q.tokens = ts := hq.tokens
      simp [PS.cursor, this, hlt]
    · right
      have : q.tokens = ts := hq.tokens
      have hn : q.tokens[q.pos]? = none := by rw [this]; exact List.getElem?_eq_none (by omega)
      simp [PS.cursor, hn, eofToken]
  · rw [hl] at h; simp at h

example : parseN 100 "webrpc = v1\nstruct 1 2 +\n".toList = .err 2 10 "2".toList .unexpectedToken := by
  decide +kernel

end Verif.Props
