import Verif.Ridl.TokenizerLemmas

/-! # C01-C05: tokenization -/

namespace Verif.Props
open Verif.Ridl Verif.Spec

/-- C01: concatenating the token texts gives back the source up to the first NUL. -/
theorem C01_tokens_reassemble (src : Str) :
    ∃ ts cm, tokenize src = some (ts, cm) ∧ ts.flatMap (·.val) = visible src := by
  obtain ⟨ts, h1, h2⟩ := tokenize_ok src
  refine ⟨ts, _, h1, ?_⟩
  have := segments_visible h2.seg
  simpa [List.flatMap_map] using this

/-- C01, for documents without NUL: nothing is lost. -/
theorem C01_lossless (src : Str) (h : '\x00' ∉ src) :
    ∃ ts cm, tokenize src = some (ts, cm) ∧ ts.flatMap (·.val) = src := by
  obtain ⟨ts, cm, h1, h2⟩ := C01_tokens_reassemble src
  refine ⟨ts, cm, h1, h2.trans ?_⟩
  unfold visible
  have := List.takeWhile_append_of_pos (p := fun c : Char => decide (c ≠ '\x00')) (l₁ := src) (l₂ := []) ?_
  · simpa using this
  · intro c hc
    simp only [ne_eq, decide_not, Bool.not_eq_eq_eq_not, Bool.not_true, decide_eq_false_iff_not]
    rintro rfl; exact h hc

example : '\x00' ∉ "webrpc = v1 # c\nstruct A\n  - b: map<string,[]int>\n".toList := by decide

/-- C01, the full claim without the NUL restriction is false: text after a NUL is dropped silently. -/
theorem C01_nul_truncates : ∃ src ts cm, tokenize src = some (ts, cm) ∧ ts.flatMap (·.val) ≠ src := by
  refine ⟨"name = a\x00\nerror".toList, _, _, rfl, ?_⟩
  decide

/-- C02: tokenizing stops (the rounds needed are bounded by the length of the text), every token is
non-empty, and there are at most as many tokens as characters. -/
theorem C02_tokenizing_finishes (src : Str) :
    ∃ ts cm, tokenize src = some (ts, cm) ∧ (∀ t ∈ ts, t.val ≠ []) ∧ ts.length ≤ src.length := by
  obtain ⟨ts, h1, h2⟩ := tokenize_ok src
  have hne : ∀ t ∈ ts, t.val ≠ [] := by
    intro t ht
    obtain ⟨post, hp⟩ := segments_mem h2.seg (t.tt, t.val) (List.mem_map_of_mem ht)
    exact hp.ne_nil
  refine ⟨ts, _, h1, hne, ?_⟩
  have hv := segments_visible h2.seg
  have hlen : (visible src).length ≤ src.length := (List.takeWhile_prefix (p := (· ≠ '\x00'))).length_le
  rw [← hv, List.flatMap_map] at hlen
  refine Nat.le_trans ?_ hlen
  change ts.length ≤ (ts.flatMap fun a => a.val).length
  clear h1 h2 hv hlen
  induction ts with
  | nil => simp
  | cons t ts ih =>
    have := List.length_pos_iff.2 (hne t (by simp))
    have := ih (fun x hx => hne x (by simp [hx]))
    simp only [List.flatMap_cons, List.length_append, List.length_cons]
    omega

/-- C03: a token's recorded offset is the end of its text in the source, and its line and column
are those of its last character. -/
theorem C03_positions (src : Str) (ts : List Token) (cm : Comments) (h : tokenize src = some (ts, cm))
    (pre post : List Token) (t : Token) (ht : ts = pre ++ t :: post) :
    t.pos = ((pre ++ [t]).flatMap (·.val)).length ∧
    src.take t.pos = (pre ++ [t]).flatMap (·.val) ∧
    (t.line, t.col) = position src (t.pos - 1) := by
  obtain ⟨ts', h1, h2⟩ := tokenize_ok src
  rw [h] at h1
  simp only [Option.some.injEq, Prod.mk.injEq] at h1
  obtain ⟨rfl, _⟩ := h1
  obtain ⟨g1, g2⟩ := h2.at_ pre t post ht
  have hv := segments_visible h2.seg
  rw [List.flatMap_map] at hv
  have hpre : (pre ++ [t]).flatMap (·.val) <+: src := by
    refine List.IsPrefix.trans ?_ (List.takeWhile_prefix (p := (· ≠ '\x00')))
    unfold visible at hv
    rw [← hv, ht]
    exact ⟨post.flatMap (·.val), by simp⟩
  have htake : src.take t.pos = (pre ++ [t]).flatMap (·.val) := by
    rw [g1, Nat.zero_add]; exact (List.prefix_iff_eq_take.1 hpre).symm
  refine ⟨by omega, htake, ?_⟩
  rw [g2, position, ← htake, List.dropLast_eq_take, List.take_take, List.length_take]
  have hl : t.pos ≤ src.length := by
    have := hpre.length_le; omega
  congr 2
  omega

example : ∃ ts cm pre t post, tokenize "a\nbc d".toList = some (ts, cm) ∧ ts = pre ++ t :: post ∧
    t.val = "bc".toList ∧ (t.line, t.col) = (2, 2) :=
  ⟨_, _, [_, _], _, [_, _], rfl, rfl, rfl, rfl⟩

/-- C04: the tokens are the segmentation described by `Spec.Segments` (words, maximal blanks, `=>`,
single symbols), and it is the only one. -/
theorem C04_segmentation (src : Str) (ts : List Token) (cm : Comments)
    (h : tokenize src = some (ts, cm)) (l : List (TT × Str)) :
    Segments src l ↔ l = ts.map fun t => (t.tt, t.val) := by
  obtain ⟨ts', h1, h2⟩ := tokenize_ok src
  rw [h] at h1
  simp only [Option.some.injEq, Prod.mk.injEq] at h1
  obtain ⟨rfl, _⟩ := h1
  exact ⟨fun hl => segments_unique hl h2.seg, fun hl => hl ▸ h2.seg⟩

example : ∃ ts cm, tokenize "a-b.c=>x ==> 1".toList = some (ts, cm) ∧
    ts.map (fun t => (t.tt, t.val)) = [(.word, "a-b.c".toList), (.rocket, "=>".toList),
      (.word, "x".toList), (.whitespace, " ".toList), (.equal, "=".toList), (.rocket, "=>".toList),
      (.whitespace, " ".toList), (.word, "1".toList)] := ⟨_, _, rfl, by decide⟩

/-- C05: the comment recorded for a newline-terminated line `L` is `lineComment L`: nothing when the
line has no `#` token, otherwise the words after the first one. -/
theorem C05_line_comment (src : Str) (ts : List Token) (cm : Comments)
    (h : tokenize src = some (ts, cm)) (A L B : List Token) (nl : Token)
    (hd : ts = A ++ (L ++ nl :: B)) (hA : WholeLines A) (hL : ∀ t ∈ L, t.tt ≠ .newLine)
    (hn : nl.tt = .newLine) :
    cm.get nl.line = lineComment (L.map fun t => (t.tt, t.val)) := by
  obtain ⟨ts', h1, h2⟩ := tokenize_ok src
  rw [h] at h1
  simp only [Option.some.injEq, Prod.mk.injEq] at h1
  obtain ⟨rfl, rfl⟩ := h1
  have hdist : ∀ t ∈ A, t.tt = .newLine → t.line ≠ nl.line := by
    intro t ht hnl
    obtain ⟨A1, A2, rfl⟩ := List.append_of_mem ht
    have := newline_lines h2 (A := A1) (B := A2 ++ L) (C := B) (a := t) (b := nl) (by simp [hd]) hnl hn
    omega
  have hdist' : ∀ t ∈ B, t.tt = .newLine → t.line ≠ nl.line := by
    intro t ht hnl
    obtain ⟨B1, B2, rfl⟩ := List.append_of_mem ht
    have := newline_lines h2 (A := A ++ L) (B := B1) (C := B2) (a := nl) (b := t) (by simp [hd]) hn hnl
    omega
  have hsplit : ts = A ++ ((L ++ [nl]) ++ B) := by simp [hd]
  have htok : ∀ t ∈ L, t.tt ≠ .newLine ∧ ∃ post, Tok t.tt t.val post := fun t ht =>
    ⟨hL t ht, segments_mem h2.seg (t.tt, t.val) (List.mem_map_of_mem (by simp [hd, ht]))⟩
  rw [hsplit, List.foldl_append, List.foldl_append, get_fold B _ _ hdist']
  rw [fold_line L nl _ (clean_whole A hA) hn htok]
  have hA0 : (A.foldl tokenizeStep {}).lineComments.get nl.line = none := by
    rw [get_fold A _ _ hdist]; rfl
  change (setOpt _ nl.line (lineComment (L.map pr))).get nl.line = lineComment (L.map pr)
  cases lineComment (L.map pr) with
  | none => exact hA0
  | some v => simp [setOpt, Comments.get_set]

/-- C05: conversely, an entry only exists for a line that is terminated by a newline and has a `#`
token. -/
theorem C05_only_comments (src : Str) (ts : List Token) (cm : Comments)
    (h : tokenize src = some (ts, cm)) (n : Nat) (c : Str) (hc : cm.get n = some c) :
    ∃ A L B nl, ts = A ++ (L ++ nl :: B) ∧ WholeLines A ∧ (∀ t ∈ L, t.tt ≠ .newLine) ∧
      nl.tt = .newLine ∧ nl.line = n ∧ (∃ t ∈ L, t.tt = .hash) ∧
      lineComment (L.map fun t => (t.tt, t.val)) = some c := by
  obtain ⟨ts', h1, h2⟩ := tokenize_ok src
  have h0 := h
  rw [h] at h1
  simp only [Option.some.injEq, Prod.mk.injEq] at h1
  obtain ⟨rfl, rfl⟩ := h1
  have hex : ∃ nl ∈ ts, nl.tt = .newLine ∧ nl.line = n := by
    refine Classical.byContradiction fun hno => ?_
    rw [get_fold ts {} n (fun t ht hn hl => hno ⟨t, ht, hn, hl⟩)] at hc
    simp [Comments.get] at hc
  obtain ⟨nl, hmem, hnl, hline⟩ := hex
  obtain ⟨P, B, rfl⟩ := List.append_of_mem hmem
  -- split P after its last newline
  obtain ⟨A, L, rfl, hA, hL⟩ := split_line P
  have hcm := C05_line_comment src _ _ h0 A L B nl (by simp) hA hL hnl
  rw [hline] at hcm
  rw [hcm] at hc
  refine ⟨A, L, B, nl, by simp, hA, hL, hnl, hline, ?_, hc⟩
  refine Classical.byContradiction fun hno => ?_
  have : (L.map fun t => (t.tt, t.val)).dropWhile (fun t => decide (t.1 ≠ .hash)) = [] := by
    have := List.dropWhile_append_of_pos (p := fun t : TT × Str => decide (t.1 ≠ .hash))
      (l₁ := L.map fun t => (t.tt, t.val)) (l₂ := []) (by
        intro x hx
        obtain ⟨t, ht, rfl⟩ := List.mem_map.1 hx
        simp only [ne_eq, decide_not, Bool.not_eq_eq_eq_not, Bool.not_true, decide_eq_false_iff_not]
        exact fun hh => hno ⟨t, ht, hh⟩)
    simpa using this
  unfold lineComment at hc
  rw [this] at hc
  simp at hc

/-- C05: when `#` occurs once in the line, the comment is the text after it, blanks collapsed. -/
theorem C05_plain_comment (src : Str) (ts : List Token) (cm : Comments)
    (h : tokenize src = some (ts, cm)) (A P Q B : List Token) (hash nl : Token)
    (hd : ts = A ++ (P ++ hash :: (Q ++ nl :: B))) (hA : WholeLines A)
    (hP : ∀ t ∈ P, t.tt ≠ .newLine ∧ t.tt ≠ .hash) (hQ : ∀ t ∈ Q, t.tt ≠ .newLine ∧ t.tt ≠ .hash)
    (hh : hash.tt = .hash) (hn : nl.tt = .newLine) :
    cm.get nl.line = some (join [' '] (fields (Q.flatMap (·.val)))) := by
  rw [C05_line_comment src ts cm h A (P ++ hash :: Q) B nl (by simp [hd]) hA ?_ hn]
  · have h1 : ((P ++ hash :: Q).map fun t => (t.tt, t.val)).dropWhile (fun t => decide (t.1 ≠ .hash))
        = (hash :: Q).map fun t => (t.tt, t.val) := by
      rw [List.map_append, List.dropWhile_append_of_pos]
      · simp [hh]
      · intro x hx
        obtain ⟨t, ht, rfl⟩ := List.mem_map.1 hx
        simpa using (hP t ht).2
    have h2 : ∀ Q : List Token, (∀ t ∈ Q, t.tt ≠ .hash) →
        beforeHash (Q.map fun t => (t.tt, t.val)) = false ∧
        commentChars (Q.map fun t => (t.tt, t.val)) = Q.flatMap (·.val) := by
      intro Q
      induction Q with
      | nil => simp [beforeHash, commentChars]
      | cons t Q ih =>
        intro hQ
        have ih := ih (fun x hx => hQ x (by simp [hx]))
        have ht := hQ t (by simp)
        simp [beforeHash, commentChars, ih, ht]
    simp only [lineComment, h1, List.map_cons, (h2 Q (fun t ht => (hQ t ht).2)).2]
  · intro t ht
    rcases List.mem_append.1 ht with ht | ht
    · exact (hP t ht).1
    · rcases List.mem_cons.1 ht with rfl | ht
      · rw [hh]; decide
      · exact (hQ t ht).1

example : ∃ ts cm, tokenize "a = 1 # see  http://x/y, ok \nb\n".toList = some (ts, cm) ∧
    cm.get 1 = some "see http://x/y, ok".toList ∧ cm.get 2 = none := ⟨_, _, rfl, by decide, by decide⟩

/-- C05: the stronger reading "the comment is the text after the first `#`" is false: a second `#`
is dropped and the word after it is glued to the previous one; a comment on an unterminated last
line is lost. -/
theorem C05_second_hash_glues :
    (∃ ts cm, tokenize "# foo #bar\n".toList = some (ts, cm) ∧ cm.get 1 = some "foobar".toList) ∧
    (∃ ts cm, tokenize "# foo".toList = some (ts, cm) ∧ ∀ n, cm.get n = none) :=
  ⟨⟨_, _, rfl, by decide⟩, ⟨_, _, rfl, fun _ => rfl⟩⟩

end Verif.Props
