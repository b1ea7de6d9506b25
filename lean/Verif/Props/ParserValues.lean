import Verif.Ridl.CommentLemmas
import Verif.Ridl.Post
import Verif.Props.Parser

/-! # C06, C07, C10-C12: strings, patterns, comments, annotations -/

namespace Verif.Props
open Verif.Ridl Verif.Spec

/-! ## C07 -/

/-- C07: for ASCII text, unescaping is the relation `Unescaped`: it yields a text exactly when all
escapes are `\n`, `\t` or `\"`, and then that text. -/
theorem C07_unescape_iff (s t : Str) (h : Ascii s) : unescapeString s = .ok t ↔ Unescaped s t := by
  unfold unescapeString
  rw [bytes_ascii s h]
  exact unescapeBytes_iff s t

/-- C07: escaping and then unescaping gives the text back (ASCII text without a backslash, which has
no escape). -/
theorem C07_escape_unescape (s : Str) (h : Ascii s) (hb : '\\' ∉ s) : unescapeString (escape s) = .ok s :=
  (C07_unescape_iff _ _ (escape_ascii s h)).2 (unescaped_escape s hb)

example : escape "a\tb \"q\"\n".toList = "a\\tb \\\"q\\\"\\n".toList ∧
    unescapeString "a\\tb \\\"q\\\"\\n".toList = .ok "a\tb \"q\"\n".toList := by
  decide +kernel

/-- C07: text without a backslash is unchanged. -/
theorem C07_plain_unchanged (s : Str) (h : Ascii s) (hb : '\\' ∉ s) : unescapeString s = .ok s :=
  (C07_unescape_iff _ _ h).2 (unescaped_self s hb)

/-- C07: any other escape and a trailing backslash are rejected. -/
theorem C07_bad_escape_rejected (a r : Str) (c : Char) (hc : c ≠ 'n' ∧ c ≠ 't' ∧ c ≠ '"')
    (ha : '\\' ∉ a) (h : Ascii (a ++ '\\' :: c :: r)) :
    (∃ e, unescapeString (a ++ '\\' :: c :: r) = .error e) ∧ (∃ e, unescapeString (a ++ ['\\']) = .error e) := by
  have key : ∀ (a tl : Str), '\\' ∉ a → (∀ t, ¬ Unescaped ('\\' :: tl) t) → ∀ t, ¬ Unescaped (a ++ '\\' :: tl) t := by
    intro a tl ha hno
    induction a with
    | nil => exact hno
    | cons x a ih =>
      intro t ht
      have hx : x ≠ '\\' := fun hh => ha (by simp [hh])
      generalize hg : (x :: a) ++ '\\' :: tl = g at ht
      cases ht with
      | nil => simp at hg
      | plain c s t hc hr =>
        simp only [List.cons_append, List.cons.injEq] at hg
        obtain ⟨_, rfl⟩ := hg
        exact ih (fun hh => ha (by simp [hh])) _ hr
      | newline => simp only [List.cons_append, List.cons.injEq] at hg; exact hx hg.1
      | tab => simp only [List.cons_append, List.cons.injEq] at hg; exact hx hg.1
      | quote => simp only [List.cons_append, List.cons.injEq] at hg; exact hx hg.1
  constructor
  · cases hu : unescapeString (a ++ '\\' :: c :: r) with
    | error e => exact ⟨e, rfl⟩
    | ok t =>
      refine absurd ((C07_unescape_iff _ _ h).1 hu) (key a (c :: r) ha ?_ t)
      intro t ht
      cases ht with
      | plain _ _ _ h => exact h rfl
      | newline => exact hc.1 rfl
      | tab => exact hc.2.1 rfl
      | quote => exact hc.2.2 rfl
  · cases hu : unescapeString (a ++ ['\\']) with
    | error e => exact ⟨e, rfl⟩
    | ok t =>
      refine absurd ((C07_unescape_iff _ _ ?_).1 hu) (key a [] ha ?_ t)
      · intro x hx
        refine h x ?_
        simp only [List.mem_append, List.mem_cons, List.not_mem_nil, or_false] at hx ⊢
        rcases hx with hx | hx
        · exact Or.inl hx
        · exact Or.inr (Or.inl hx)
      · intro t ht
        cases ht with
        | plain _ _ _ h => exact h rfl

example : unescapeString "ab\\x".toList = .error (.msg "unexpected character after backslash".toList) := by
  decide +kernel

/-- C07: the ASCII restriction is needed: bytes are taken for characters, so `é` comes out as two
characters; and no source text denotes a backslash. -/
theorem C07_non_ascii_and_backslash :
    unescapeString ['é'] = .ok ['Ã', '©'] ∧ ∀ s t, Ascii s → unescapeString s = .ok t → '\\' ∉ t :=
  ⟨by decide +kernel, fun s t h hu => ((C07_unescape_iff s t h).1 hu).no_backslash⟩

/-! ## C06 -/

/-- C06: take any document that contains a quoted literal `"s"`, where `s` is non-empty ASCII text on
one line without a quote in it and `v` is the text it denotes.  The opening quote is a token, and
reading a string value there gives exactly `v` and moves just behind the closing quote. -/
theorem C06_quoted_value (src pre s post v : Str) (hsrc : src = pre ++ '"' :: (s ++ '"' :: post))
    (hpre : '\x00' ∉ pre) (hs : s ≠ []) (ha : Ascii s) (hq : '"' ∉ s) (hnl : '\n' ∉ s) (hz : '\x00' ∉ s)
    (hv : Unescaped s v) :
    ∃ A q B c C cm, tokenize src = some (A ++ q :: (B ++ c :: C), cm) ∧
      A.flatMap (·.val) = pre ∧ q.val = ['"'] ∧ B.flatMap (·.val) = s ∧ c.val = ['"'] ∧
      ∀ cm', ∃ tok, tok.val = v ∧
        expectStringValue { tokens := A ++ q :: (B ++ c :: C), pos := A.length, comments := cm' } =
          (.ok tok, { tokens := A ++ q :: (B ++ c :: C), pos := A.length + B.length + 2, comments := cm' }) := by
  obtain ⟨ts, h1, h2⟩ := tokenize_ok src
  obtain ⟨l1, l2, hl, hl1, hseg⟩ := segments_quote h2.seg hsrc hpre
  obtain ⟨l3, l4, hl', hl3, _⟩ := segments_quote hseg rfl hz
  subst hl'
  obtain ⟨A, R, hts, hA, hR⟩ := List.map_eq_append_iff.1 hl
  obtain ⟨q, R', hRq, hq1, hR'⟩ := List.map_eq_cons_iff.1 hR
  obtain ⟨B, R'', hRB, hB, hR''⟩ := List.map_eq_append_iff.1 hR'
  obtain ⟨c, C, hRc, hc1, hC⟩ := List.map_eq_cons_iff.1 hR''
  simp only [Prod.mk.injEq] at hq1 hc1
  have hBs : B.flatMap (·.val) = s := by rw [← hl3, ← hB, List.flatMap_map]
  have hAs : A.flatMap (·.val) = pre := by rw [← hl1, ← hA, List.flatMap_map]
  have hts' : ts = A ++ q :: (B ++ c :: C) := by rw [hts, hRq, hRB, hRc]
  have htok : ∀ t ∈ B, ∃ post, Tok t.tt t.val post := fun t ht =>
    segments_mem h2.seg (t.tt, t.val) (List.mem_map_of_mem (by simp [hts', ht]))
  have hsub : ∀ t ∈ B, ∀ x ∈ t.val, x ∈ s := fun t ht x hx => by
    rw [← hBs]; exact List.mem_flatMap.2 ⟨t, ht, hx⟩
  refine ⟨A, q, B, c, C, _, by rw [h1, hts'], hAs, hq1.2, hBs, hc1.2, ?_⟩
  intro cm'
  have hinner : ∀ t ∈ B, Inner t := by
    intro t ht
    obtain ⟨post, hp⟩ := htok t ht
    obtain ⟨g1, g2, g3, g4⟩ := tok_special hp
    refine ⟨fun h => hq (hsub t ht _ ?_), fun h => hnl (hsub t ht _ ?_), g4⟩
    · rw [g1 h]; simp
    · rw [g2 h]; simp
  have hlastb : ∀ v', Unescaped s v' → s.getLast? ≠ some '\\' := by
    intro v' hv'
    clear hsrc h1 h2 hl hts hts' hR hRq hRB hRc hsub hinner
    clear hseg hl3 hBs hB hR' hR'' hv
    induction hv' with
    | nil => exact absurd rfl hs
    | plain c s t hc hr ih =>
      intro h
      cases hr with
      | nil => simp at h; exact hc h
      | _ =>
        refine ih (by simp) (fun x hx => ha x (by simp [hx])) (fun hh => hq (by simp [hh]))
          (fun hh => hnl (by simp [hh])) (fun hh => hz (by simp [hh])) ?_
        simpa using h
    | newline s t hr ih =>
      intro h
      cases hr with
      | nil => simp at h
      | _ =>
        refine ih (by simp) (fun x hx => ha x (by simp [hx])) (fun hh => hq (by simp [hh]))
          (fun hh => hnl (by simp [hh])) (fun hh => hz (by simp [hh])) ?_
        simpa using h
    | tab s t hr ih =>
      intro h
      cases hr with
      | nil => simp at h
      | _ =>
        refine ih (by simp) (fun x hx => ha x (by simp [hx])) (fun hh => hq (by simp [hh]))
          (fun hh => hnl (by simp [hh])) (fun hh => hz (by simp [hh])) ?_
        simpa using h
    | quote s t _ _ => simp at hq
  have hlast : ∀ t, B.getLast? = some t → t.tt ≠ .backslash := by
    intro t ht hbs
    obtain ⟨B', rfl⟩ : ∃ B', B = B' ++ [t] := by
      have hne : B ≠ [] := by rintro rfl; simp at ht
      rw [List.getLast?_eq_some_getLast hne] at ht
      simp only [Option.some.injEq] at ht
      exact ⟨B.dropLast, by rw [← ht, List.dropLast_concat_getLast hne]⟩
    obtain ⟨post, hp⟩ := htok t (by simp)
    have := (tok_special hp).2.2.1 hbs
    apply hlastb v hv
    rw [← hBs]
    simp [this]
  have hBne : B ≠ [] := by rintro rfl; exact hs (by simpa using hBs.symm)
  rw [expectString_eq A B C q c _ rfl rfl hq1.1 hc1.1 hinner hlast]
  obtain ⟨b, B', rfl⟩ := List.exists_cons_of_ne_nil hBne
  refine ⟨{ tt := .composed, val := v, line := b.line, col := b.col }, rfl, ?_⟩
  unfold composedValue
  simp only
  rw [hBs, (C07_unescape_iff s v ha).2 hv]
  rfl

/-- C06: in particular a literal without backslashes is delivered unchanged. -/
theorem C06_plain_string_preserved (pre s post : Str) (hpre : '\x00' ∉ pre) (hs : s ≠ [])
    (ha : Ascii s) (hq : '"' ∉ s) (hnl : '\n' ∉ s) (hz : '\x00' ∉ s) (hb : '\\' ∉ s) :
    ∃ ts cm i j, tokenize (pre ++ '"' :: (s ++ '"' :: post)) = some (ts, cm) ∧
      (ts.take i).flatMap (·.val) = pre ∧ (ts.drop j).flatMap (·.val) = visible post ∧
      ∀ cm', ∃ tok, tok.val = s ∧
        expectStringValue { tokens := ts, pos := i, comments := cm' } =
          (.ok tok, { tokens := ts, pos := j, comments := cm' }) := by
  obtain ⟨A, q, B, c, C, cm, h1, h2, h3, h4, h5, h6⟩ :=
    C06_quoted_value _ pre s post s rfl hpre hs ha hq hnl hz (unescaped_self s hb)
  refine ⟨_, cm, A.length, A.length + B.length + 2, h1, by simp [h2], ?_, h6⟩
  obtain ⟨ts', g1, g2⟩ := tokenize_ok (pre ++ '"' :: (s ++ '"' :: post))
  rw [h1] at g1
  simp only [Option.some.injEq, Prod.mk.injEq] at g1
  have hv := segments_visible g2.seg
  rw [← g1.1, List.flatMap_map] at hv
  have hd : (A ++ q :: (B ++ c :: C)).drop (A.length + B.length + 2) = C := by
    have : A ++ q :: (B ++ c :: C) = (A ++ q :: (B ++ [c])) ++ C := by simp
    rw [this, List.drop_append_of_le_length (by simp; omega)]
    rw [List.drop_eq_nil_of_le (by simp; omega)]; rfl
  rw [hd]
  have hvis : visible (pre ++ '"' :: (s ++ '"' :: post)) = pre ++ '"' :: (s ++ '"' :: visible post) := by
    unfold visible
    rw [List.takeWhile_append_of_pos (by
      intro x hx; simp only [decide_eq_true_eq]; rintro rfl; exact hpre hx)]
    rw [List.takeWhile_cons_of_pos (by decide)]
    rw [List.takeWhile_append_of_pos (by
      intro x hx; simp only [decide_eq_true_eq]; rintro rfl; exact hz hx)]
    rw [List.takeWhile_cons_of_pos (by decide)]
  have hv' : A.flatMap (·.val) ++ (q.val ++ (B.flatMap (·.val) ++ (c.val ++ C.flatMap (·.val)))) =
      visible (pre ++ '"' :: (s ++ '"' :: post)) := by
    rw [← hv]; simp
  rw [h2, h3, h4, h5, hvis] at hv'
  simpa using hv'

example : (tokenize "x \"a  b, {c} # d/e\" y".toList).map (fun r =>
      (expectStringValue { tokens := r.1, pos := 2, comments := r.2 }).1) =
    some (.ok { tt := .composed, val := "a  b, {c} # d/e".toList, line := 1, col := 4 }) := by
  decide +kernel

/-- C06: limits.  An escaped quote that follows a word is not an escape (the backslash belongs to the
word), an empty literal is an error, and non-ASCII text is changed. -/
theorem C06_limits :
    (parseN 20 "name = \"a\\\"b\"\n".toList = .err 1 12 "b".toList
        (.msg "unexpected end after backslash".toList) ∧
     parseN 20 "name = \"\"\n".toList = .err 1 10 "\n".toList (.msg "expecting token".toList)) ∧
    (∃ d, parseN 20 "name = \"é\"\n".toList = .ok [.defn d] ∧ d.right.map (·.val) = some ['Ã', '©']) := by
  refine ⟨⟨by decide +kernel, by decide +kernel⟩, ⟨{ left := { tt := .word, val := "name".toList, pos := 4, line := 1, col := 4 }, right := some { tt := .composed, val := ['Ã', '©'], line := 1, col := 9 } }, by decide +kernel, rfl⟩⟩

/-! ## C10 -/

/-- C10: a fixed pattern (no end-of-line marker) either matches, giving one value per element and
moving behind what it took, or leaves the parser untouched; it matches exactly when the specification
`Matched` says so. -/
theorem C10_match_all_or_nothing (tts : List TT) (p : PS) (hp : p.Valid) (hl : TT.eol ∉ tts)
    (hne : TT.eof ∉ tts) :
    (∃ vs rest, Matched tts (p.tokens.drop p.pos) vs rest ∧ vs.length = tts.length ∧
      match_ tts p = (.ok vs, { p with pos := p.tokens.length - rest.length })) ∨
    ((¬ ∃ vs rest, Matched tts (p.tokens.drop p.pos) vs rest) ∧ ∃ e, match_ tts p = (.err e, p)) := by
  rcases matchLoop_iff tts [] 0 p p hp rfl rfl (by simp) hl hne with ⟨vs, rest, h1, h2⟩ | h
  · refine Or.inl ⟨vs, rest, h1, ?_, by unfold match_; simpa using h2⟩
    clear h2
    generalize p.tokens.drop p.pos = ts at h1
    induction h1 with
    | nil => rfl
    | take _ _ ih =>
      simp only [List.length_cons, Nat.add_right_cancel_iff]
      exact ih (fun h => hl (by simp [h])) (fun h => hne (by simp [h]))
    | gap _ _ _ _ ih =>
      simp only [List.length_cons, Nat.add_right_cancel_iff]
      exact ih (fun h => hl (by simp [h])) (fun h => hne (by simp [h]))
  · exact Or.inr h

/-- C10: what was taken is a prefix of what was left, and the values are the taken tokens in order,
with blanks filled in. -/
theorem C10_values_are_the_taken_tokens (tts : List TT) (ts vs rest : List Token)
    (h : Matched tts ts vs rest) :
    ∃ used, ts = used ++ rest ∧ used.Sublist vs ∧
      ∀ v ∈ vs, v ∈ used ∨ (v.tt = .whitespace ∧ v.val = [' ']) := by
  induction h with
  | nil ts => exact ⟨[], rfl, .slnil, by simp⟩
  | @take want pat t ts vs rest h hr ih =>
    obtain ⟨used, h1, h2, h3⟩ := ih
    refine ⟨t :: used, by simp [h1], h2.cons_cons t, ?_⟩
    intro v hv
    rcases List.mem_cons.1 hv with rfl | hv
    · simp
    · rcases h3 v hv with h | h
      · simp [h]
      · exact Or.inr h
  | gap b h hb hr ih =>
    obtain ⟨used, h1, h2, h3⟩ := ih
    refine ⟨used, h1, h2.cons b, ?_⟩
    intro v hv
    rcases List.mem_cons.1 hv with rfl | hv
    · exact Or.inr hb
    · exact h3 v hv

example : ∃ vs p', match_ [.word, .whitespace, .equal, .whitespace]
    { tokens := [{ tt := .word, val := ['a'] }, { tt := .equal, val := ['='] }, { tt := .word, val := ['b'] }] }
      = (.ok vs, p') ∧ vs.length = 4 ∧ p'.pos = 2 := ⟨_, _, rfl, rfl, rfl⟩

/-- C10: with an end-of-line marker in the pattern the claim is false: after a failed match the
position has moved. -/
theorem C10_eol_pattern_moves :
    ∃ p e p', p.Valid ∧ match_ [.word, .eol] p = (.err e, p') ∧ p'.pos ≠ p.pos :=
  ⟨{ tokens := [{ tt := .word, val := ['a'] }, { tt := .whitespace, val := [' '] }, { tt := .word, val := ['b'] }] },
    _, _, by simp [PS.Valid], rfl, by decide⟩

/-! ## C11 -/

/-- C11: the comment given to an item on `line` is made of `docLines`: the block of commented lines
ending at that line or the one above; exactly these lines are removed from the table. -/
theorem C11_doc_comment (p : PS) (line : Nat) :
    ∃ p', takeComments line p = (.ok (docText (docLines p.comments line)), p') ∧
      p'.tokens = p.tokens ∧ p'.pos = p.pos ∧
      ∀ k, p'.comments.get k =
        if k ∈ (docLines p.comments line).map (·.1) then none else p.comments.get k := by
  obtain ⟨h1, h2⟩ := parseComments_spec p.comments line
  refine ⟨{ p with comments := (parseComments p.comments line).2 }, ?_, rfl, rfl, h2⟩
  rw [← h1]; rfl

/-- C11: the lines documenting an item are commented lines at or above it. -/
theorem C11_only_lines_above (cm : Comments) (line : Nat) :
    ∀ x ∈ docLines cm line, x.1 ≤ line ∧ cm.get x.1 = some x.2 := by
  intro x hx
  unfold docLines at hx
  split at hx
  · exact commentBlock_keys _ _ x hx
  · simp at hx
  · have := commentBlock_keys _ _ x hx
    exact ⟨by omega, this.2⟩

/-- C11: along a run of the parser comments are only ever removed. -/
theorem C11_comments_only_removed (src : Str) (p0 : PS) (h : newParser src = some p0)
    (st st' : St) (p p' : PS) (hr : Reaches .default p0 st p) (hr' : Reaches st p st' p') (k : Nat) (v : Str)
    (hk : p'.comments.get k = some v) : p.comments.get k = some v ∧ p0.comments.get k = some v := by
  obtain ⟨ts, cm, h1, h2⟩ := newParser_eq src
  have hp : p0.Valid := by rw [h2] at h; simp at h; subst h; simp [PS.Valid]
  obtain ⟨e1, s1⟩ := hr.ok hp trivial
  obtain ⟨e2, _⟩ := hr'.ok e1.valid s1
  exact ⟨e2.comm k v hk, e1.comm k v (e2.comm k v hk)⟩

/-- C11: so a comment line that has documented one item does not document another one later. -/
theorem C11_at_most_once (p q r : PS) (line line' : Nat) (text : Str)
    (h : takeComments line p = (.ok text, q)) (hr : CSub r.comments q.comments) (k : Nat)
    (hk : k ∈ (docLines p.comments line).map (·.1)) : k ∉ (docLines r.comments line').map (·.1) := by
  obtain ⟨p', h1, _, _, h2⟩ := C11_doc_comment p line
  rw [h] at h1
  simp only [Prod.mk.injEq] at h1
  obtain ⟨_, rfl⟩ := h1
  intro hk'
  obtain ⟨x, hx, rfl⟩ := List.mem_map.1 hk'
  have := hr _ _ (C11_only_lines_above _ _ x hx).2
  rw [h2, if_pos hk] at this
  simp at this

example : docLines [(1, "a".toList), (2, "!b".toList), (3, "c".toList), (5, "d".toList)] 4 =
      [(1, "a".toList), (2, "!b".toList), (3, "c".toList)] ∧
    docText (docLines [(1, "a".toList), (2, "!b".toList), (3, "c".toList), (5, "d".toList)] 4) = "a\nc".toList := by
  decide

/-! ## C12 -/

/-- C12: in every accepted document the annotations of a method have pairwise different names. -/
theorem C12_annotations_unique (src : Str) (fuel : Nat) (nodes : List Node)
    (h : parseN fuel src = .ok nodes) (sn : ServiceNode) (hs : Node.service sn ∈ nodes)
    (m : MethodNode) (hm : m ∈ sn.methods) : (m.annotations.map fun a => a.annType.val).Nodup := by
  obtain ⟨ts, cm, _, h2⟩ := newParser_eq src
  simp only [parseN, h2] at h
  have := run_invariant (I := StSvcOK) (N := NodeSvcOK) svc_invariant fuel .default _ [] trivial (by simp)
    nodes h (.service sn) hs
  exact this m hm

/-- C12: a method line whose pending annotations repeat a name is an error. -/
theorem C12_duplicate_rejected (n : ServiceNode) (p : PS)
    (h : ¬ (n.methodAnnotations.map fun a => a.annType.val).Nodup) :
    ∃ e, step (.methodDef n) p = (.err e, p) := by
  refine ⟨.msg "duplicate annotation type".toList, ?_⟩
  change stMethodDef n p = _
  unfold stMethodDef
  rw [if_pos (hasDup_true _ h)]
  rfl

example : ∃ e l c t, parseN 100 "service A\n@a:1\n\n@a:2\n- B()\n".toList = .err l c t e := by
  refine ⟨.msg "duplicate annotation type".toList, 5, 1, "-".toList, by decide +kernel⟩

end Verif.Props
