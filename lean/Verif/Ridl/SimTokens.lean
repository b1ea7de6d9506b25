import Verif.Ridl.LexRows
import Verif.Ridl.SimRun

/-! # The tokens and comments of two joined documents (for C98) -/

namespace Verif.Ridl
open Verif.Spec
open Verif.Schema hiding Str

theorem RunOK.get {src : Str} {p0 : Nat} {pos0 : Nat × Nat} {ts : List Token} (h : RunOK src p0 pos0 ts) {i : Nat} {t : Token}
    (ht : ts[i]? = some t) :
    t.pos = p0 + (((ts.map pr).take (i + 1)).flatMap (·.2)).length ∧
    (t.line, t.col) = (((ts.map pr).take (i + 1)).flatMap (·.2)).dropLast.foldl Spec.advance pos0 := by
  obtain ⟨hi, rfl⟩ := List.getElem?_eq_some_iff.1 ht
  have hs : ts = ts.take i ++ ts[i] :: ts.drop (i + 1) := by
    rw [← List.drop_eq_getElem_cons hi, List.take_append_drop]
  have := h.at_ _ _ _ hs
  have e : ((ts.map pr).take (i + 1)).flatMap (·.2) = (ts.take i ++ [ts[i]]).flatMap (·.val) := by
    rw [← List.map_take, List.flatMap_map, List.take_append_getElem]
    rfl
  rw [e]
  exact this

/-- Where the text after whole lines starts. -/
theorem advance_lines (a : Str) (p : Nat × Nat) : (a ++ ['\n']).foldl Spec.advance p = (p.1 + (a ++ ['\n']).count '\n', 1) := by
  have h := foldl_advance_line (a ++ ['\n']) p
  refine Prod.ext h ?_
  rw [List.foldl_append]
  rfl

theorem advance_shift (v : Str) : ∀ (p : Nat × Nat) (d : Nat), v.foldl Spec.advance (p.1 + d, p.2) = ((v.foldl Spec.advance p).1 + d, (v.foldl Spec.advance p).2) := by
  induction v with
  | nil => intro p d; rfl
  | cons c v ih =>
    intro p d
    have : Spec.advance (p.1 + d, p.2) c = ((Spec.advance p c).1 + d, (Spec.advance p c).2) := by
      unfold Spec.advance
      split
      · simp only [Prod.mk.injEq, and_true]; omega
      · rfl
    rw [List.foldl_cons, List.foldl_cons, this, ih]

theorem pointwise_of_get {α β : Type} {R : α → β → Prop} : ∀ {l : List α} {l' : List β}, l.length = l'.length →
    (∀ (i : Nat) x y, l[i]? = some x → l'[i]? = some y → R x y) → Pointwise R l l'
  | [], [], _, _ => .nil
  | [], _ :: _, h, _ => (nomatch h)
  | _ :: _, [], h, _ => (nomatch h)
  | a :: l, b :: l', h, hg => .cons (hg 0 a b rfl rfl) (pointwise_of_get (by simpa using h) fun i x y hx hy => hg (i + 1) x y (by simpa using hx) (by simpa using hy))

/-- A text followed by an empty line. -/
def closed (a : Str) : Str := a ++ ['\n', '\n']

def closedToks (a : Str) : List (TT × Str) := rowToks a ++ [(.newLine, ['\n']), (.newLine, ['\n'])]

theorem lexes_closed {a : Str} (hn : '\x00' ∉ a) (post : Str) : Lexes (closed a) (closedToks a) post := by
  refine lexes_append (b := ['\n', '\n']) (row_lexes hn ('\n' :: post)).1 ?_
  exact lexes_cons (b := ['\n']) (tok_newline _) (lexes_tok (tok_newline _))

theorem closed_text {a : Str} (hn : '\x00' ∉ a) : (closedToks a).flatMap (·.2) = closed a := by
  unfold closedToks closed
  rw [List.flatMap_append, (row_lexes hn []).2]
  rfl

theorem run_segments {src : Str} {p0 : Nat} {pos0 : Nat × Nat} {ts : List Token} (h : RunOK src p0 pos0 ts) : Segments src (ts.map pr) := h.seg

theorem closed_run {a : Str} (hn : '\x00' ∉ a) {ta : List Token} (h : RunOK (closed a) 0 (1, 1) ta) : ta.map pr = closedToks a := by
  have := lexes_closed hn [] [] .nil
  rw [List.append_nil, List.append_nil] at this
  exact segments_unique (run_segments h) this

theorem run_val {src : Str} {p0 : Nat} {pos0 : Nat × Nat} {ts : List Token} (h : RunOK src p0 pos0 ts) {t : Token} (ht : t ∈ ts) :
    t.val ≠ [] ∧ t.tt ≠ .eof := by
  obtain ⟨post, hp⟩ := segments_mem h.seg (t.tt, t.val) (List.mem_map_of_mem ht)
  exact ⟨hp.ne_nil, tok_ne_eof hp⟩

theorem pr_eq {t t' : Token} (h : pr t' = pr t) : t'.tt = t.tt ∧ t'.val = t.val := by
  unfold pr at h; injection h with h1 h2; exact ⟨h1, h2⟩

/-- The tokens of two joined documents: those of the first, then those of the second, further down. -/
theorem joined_tokens {a b : Str} (hn : '\x00' ∉ a) {ta tb t : List Token} (ha : RunOK (closed a) 0 (1, 1) ta) (hb : RunOK b 0 (1, 1) tb)
    (h : RunOK (closed a ++ b) 0 (1, 1) t) :
    ∃ tb', t = ta ++ tb' ∧ Pointwise (MovedBy ((closed a).count '\n')) tb tb' := by
  have hp : t.map pr = ta.map pr ++ tb.map pr := by
    rw [closed_run hn ha]
    exact segments_unique (run_segments h) (lexes_closed hn b _ (run_segments hb))
  obtain ⟨t1, t2, rfl, h1, h2⟩ := List.map_eq_append_iff.1 hp
  have l1 : t1.length = ta.length := by simpa using congrArg List.length h1
  have l2 : t2.length = tb.length := by simpa using congrArg List.length h2
  refine ⟨t2, ?_, ?_⟩
  · refine congrArg (· ++ t2) ?_
    refine List.ext_getElem? fun i => ?_
    by_cases hi : i < ta.length
    · have g1 : t1[i]? = some t1[i] := List.getElem?_eq_getElem (by omega)
      have g2 : ta[i]? = some ta[i] := List.getElem?_eq_getElem hi
      have g3 : (t1 ++ t2)[i]? = some t1[i] := by rw [List.getElem?_append_left (by omega)]; exact g1
      obtain ⟨k1, k2⟩ := ha.get g2
      obtain ⟨k3, k4⟩ := h.get g3
      have e : (((t1 ++ t2).map pr).take (i + 1)) = (ta.map pr).take (i + 1) := by
        rw [hp, List.take_append_of_le_length (by rw [List.length_map]; omega)]
      rw [e] at k3 k4
      have k5 : pr t1[i] = pr ta[i] := by
        have := congrArg (·[i]?) h1
        simpa [g1, g2] using this
      rw [g1, g2]
      obtain ⟨m1, m2⟩ := pr_eq k5
      have m3 := k4.trans k2.symm
      injection m3 with m3 m4
      have m5 := k3.trans k1.symm
      generalize t1[i] = x at *
      generalize ta[i] = y at *
      cases x; cases y
      simp only at m1 m2 m3 m4 m5
      subst m1; subst m2; subst m3; subst m4; subst m5; rfl
    · rw [List.getElem?_eq_none (by omega), List.getElem?_eq_none (by omega)]
  · refine pointwise_of_get l2.symm fun i x y hx hy => ?_
    have hy' : (t1 ++ t2)[ta.length + i]? = some y := by rw [List.getElem?_append_right (by omega)]; rw [show ta.length + i - t1.length = i by omega]; exact hy
    obtain ⟨-, k2⟩ := hb.get hx
    obtain ⟨-, k4⟩ := h.get hy'
    have e : ((t1 ++ t2).map pr).take (ta.length + i + 1) = ta.map pr ++ (tb.map pr).take (i + 1) := by
      rw [hp, List.take_append, List.take_of_length_le (by simp; omega)]
      congr 2
      simp; omega
    rw [e, List.flatMap_append, closed_run hn ha, closed_text hn] at k4
    have hne : ((tb.map pr).take (i + 1)).flatMap (·.2) ≠ [] := by
      intro hc
      obtain ⟨hi, rfl⟩ := List.getElem?_eq_some_iff.1 hx
      have := List.flatMap_eq_nil_iff.1 hc (pr tb[i]) (by
        rw [← List.map_take, List.mem_map]
        exact ⟨tb[i], List.mem_of_getElem? (i := i) (by rw [List.getElem?_take_of_lt (by omega)]; exact hx), rfl⟩)
      exact (run_val hb (List.getElem_mem hi)).1 this
    rw [List.dropLast_append_of_ne_nil hne, List.foldl_append] at k4
    rw [show closed a = (a ++ ['\n']) ++ ['\n'] by simp [closed], advance_lines] at k4
    have sh := advance_shift (((tb.map pr).take (i + 1)).flatMap (·.2)).dropLast (1, 1) ((a ++ ['\n'] ++ ['\n']).count '\n')
    simp only at sh
    rw [sh, ← k2] at k4
    have k5 : pr y = pr x := by
      have := congrArg (·[i]?) h2
      simpa [hx, hy] using this
    obtain ⟨m1, m2⟩ := pr_eq k5
    injection k4 with k4 k6
    exact ⟨m1, m2, by rw [k4, show closed a = (a ++ ['\n']) ++ ['\n'] by simp [closed]], k6⟩

/-- The tokens of a document closed by an empty line. -/
structure ClosedToks (d : Nat) (ta : List Token) : Prop where
  split : ∃ x n1 n2, ta = x ++ [n1, n2] ∧ n1.tt = .newLine ∧ n2.tt = .newLine ∧ n2.line = d ∧ (∀ t ∈ x ++ [n1], t.tt = .newLine → t.line < d)
    ∧ ∀ t, x.getLast? = some t → t.tt ≠ .backslash
  lines : ∀ t ∈ ta, 1 ≤ t.line ∧ t.line ≤ d
  noEof : ∀ t ∈ ta, t.tt ≠ .eof

theorem backslash_val {v post : Str} (h : Tok .backslash v post) : v = ['\\'] := by
  generalize ht : TT.backslash = tt at h
  cases h with
  | symbol c _ _ hs => subst ht; unfold Spec.symbol at hs; split at hs <;> simp_all
  | _ => cases ht

theorem run_lines {src : Str} {ts : List Token} (h : RunOK src 0 (1, 1) ts) {t : Token} (ht : t ∈ ts) : 1 ≤ t.line := by
  obtain ⟨u, v, rfl⟩ := List.append_of_mem ht
  have := lined_run h u t v rfl
  omega

theorem closed_tokens {a : Str} (hn : '\x00' ∉ a) (hb : a.getLast? ≠ some '\\') {ta : List Token} (h : RunOK (closed a) 0 (1, 1) ta) :
    ClosedToks ((closed a).count '\n') ta := by
  have hm := closed_run hn h
  unfold closedToks at hm
  obtain ⟨x, y, rfl, h1, h2⟩ := List.map_eq_append_iff.1 hm
  obtain ⟨n1, y, rfl, h3, h4⟩ := List.map_eq_cons_iff.1 h2
  obtain ⟨n2, y, rfl, h5, h6⟩ := List.map_eq_cons_iff.1 h4
  rw [List.map_eq_nil_iff] at h6
  subst h6
  have t1 : n1.tt = .newLine := congrArg Prod.fst h3
  have t2 : n2.tt = .newLine := congrArg Prod.fst h5
  have v1 : n1.val = ['\n'] := congrArg Prod.snd h3
  have v2 : n2.val = ['\n'] := congrArg Prod.snd h5
  have hx : x.flatMap (·.val) = a := by
    rw [← (row_lexes hn []).2, ← h1, List.flatMap_map]; rfl
  have hl := lined_run h
  have l2 : n2.line = (closed a).count '\n' := by
    have := hl (x ++ [n1]) n2 [] (by simp)
    rw [this]
    simp [hx, v1, v2, closed, List.dropLast_append_of_ne_nil]
    omega
  refine ⟨⟨x, n1, n2, rfl, t1, t2, l2, ?_, ?_⟩, ?_, fun t ht => (run_val h ht).2⟩
  · intro t ht hnl
    obtain ⟨u, v, hu⟩ := List.append_of_mem ht
    rw [← l2]
    refine newline_lines h (A := u) (B := v) (C := []) (a := t) (b := n2) ?_ hnl t2
    rw [show x ++ [n1, n2] = (x ++ [n1]) ++ [n2] by simp, hu]
    simp
  · intro t ht hbs
    obtain ⟨post, hp⟩ := segments_mem h.seg (t.tt, t.val) (List.mem_map_of_mem (by
      have := List.mem_of_getLast? ht
      simp [this]))
    simp only [hbs] at hp
    have := backslash_val hp
    obtain ⟨u, hu⟩ := List.getLast?_eq_some_iff.1 ht
    subst hu
    refine hb ?_
    rw [← hx]
    simp [this]
  · intro t ht
    refine ⟨run_lines h ht, ?_⟩
    obtain ⟨u, v, hu⟩ := List.append_of_mem ht
    have := hl u t v hu
    rw [this]
    have hne : t.val ≠ [] := (run_val h (by rw [hu]; simp)).1
    have hall : (u ++ t :: v).flatMap (·.val) = closed a := by
      rw [← hu]; simp [hx, v1, v2, closed]
    rw [← hall]
    by_cases hv : v = []
    · subst hv
      have hu' : u = x ++ [n1] ∧ t = n2 := by
        have : u ++ [t] = (x ++ [n1]) ++ [n2] := by rw [← hu]; simp
        exact ⟨(List.append_inj' this rfl).1, by simpa using (List.append_inj' this rfl).2⟩
      obtain ⟨rfl, rfl⟩ := hu'
      simp [v1, v2, List.dropLast_append_of_ne_nil]
      omega
    · have hn2 : n2 ∈ v := by
        have := congrArg List.getLast? hu
        rw [List.getLast?_append, List.getLast?_append] at this
        have hz := List.getLast?_eq_some_getLast hv
        generalize v.getLast hv = z at hz
        simp only [List.getLast?_cons (l := v), hz] at this
        simp at this
        rw [this]
        exact List.mem_of_getLast? hz
      have : 1 ≤ (v.flatMap (·.val)).count '\n' := by
        rw [List.one_le_count_iff, List.mem_flatMap]
        exact ⟨n2, hn2, by rw [v2]; simp⟩
      have hle : ((u ++ [t]).flatMap (·.val)).dropLast.count '\n' ≤ ((u ++ [t]).flatMap (·.val)).count '\n' :=
        (List.dropLast_sublist _).count_le _
      rw [show u ++ t :: v = (u ++ [t]) ++ v by simp, List.flatMap_append (xs := u ++ [t]), List.count_append]
      omega

/-! ### Comments -/

theorem fold_none (ts : List Token) (n : Nat) (hn : ∀ t ∈ ts, t.tt = .newLine → t.line ≠ n) : (ts.foldl tokenizeStep {}).lineComments.get n = none := by
  rw [get_fold _ _ _ hn]; rfl

theorem closed_clean {d : Nat} {ta : List Token} (h : ClosedToks d ta) : (ta.foldl tokenizeStep {}).Clean := by
  obtain ⟨x, n1, n2, rfl, h1, h2, -⟩ := h.split
  refine clean_whole _ fun t ht => ?_
  simp at ht
  rw [← ht]; exact h2

theorem closed_blank {d : Nat} {ta : List Token} (h : ClosedToks d ta) : (ta.foldl tokenizeStep {}).lineComments.get d = none := by
  obtain ⟨x, n1, n2, rfl, h1, h2, h3, h4, -⟩ := h.split
  rw [show x ++ [n1, n2] = (x ++ [n1]) ++ [n2] by simp, List.foldl_append]
  have hc : ((x ++ [n1]).foldl tokenizeStep {}).Clean := clean_whole _ fun t ht => by
    simp at ht
    rw [← ht]; exact h1
  have hn := fold_none (x ++ [n1]) d (fun t ht hn => by have := h4 t ht hn; omega)
  generalize (x ++ [n1]).foldl tokenizeStep {} = st at hc hn ⊢
  show (tokenizeStep st n2).lineComments.get d = none
  unfold tokenizeStep
  simp [h2, hc.1, hn]

/-- The tokenizers on the second document, alone and after the first. -/
structure TkRel (d : Nat) (st st' : TkSt) : Prop where
  pc : st'.parsingComment = st.parsingComment
  ct : st'.commentTokens = st.commentTokens
  last : st.parsingComment = true → ∃ p p', st.tokens.getLast? = some p ∧ st'.tokens.getLast? = some p' ∧ p'.tt = p.tt
  get : ∀ k, 1 ≤ k → st'.lineComments.get (k + d) = st.lineComments.get k

theorem tk_step {d : Nat} {st st' : TkSt} {t t' : Token} (h : TkRel d st st') (ht : MovedBy d t t') : TkRel d (tokenizeStep st t) (tokenizeStep st' t') := by
  have hl : ∃ p p', (tokenizeStep st t).tokens.getLast? = some p ∧ (tokenizeStep st' t').tokens.getLast? = some p' ∧ p'.tt = p.tt :=
    ⟨t, t', by rw [tokenizeStep_tokens]; simp, by rw [tokenizeStep_tokens]; simp, ht.tt⟩
  have hstr : t'.str = t.str := by unfold Token.str; rw [ht.val, ht.tt]
  have hpct : st.parsingComment = true → parseCommentToken t' st'.tokens st'.commentTokens = parseCommentToken t st.tokens st.commentTokens := by
    intro hp
    obtain ⟨p, p', g1, g2, g3⟩ := h.last hp
    unfold parseCommentToken
    rw [g1, g2, h.ct, hstr]
    simp only [g3]
  suffices hs : (tokenizeStep st' t').parsingComment = (tokenizeStep st t).parsingComment ∧ (tokenizeStep st' t').commentTokens = (tokenizeStep st t).commentTokens ∧
      ∀ k, 1 ≤ k → (tokenizeStep st' t').lineComments.get (k + d) = (tokenizeStep st t).lineComments.get k from
    ⟨hs.1, hs.2.1, fun _ => hl, hs.2.2⟩
  clear hl
  unfold tokenizeStep
  rw [ht.tt]
  by_cases hh : t.tt = .hash
  · simp only [hh, if_true]
    exact ⟨trivial, h.ct, h.get⟩
  · simp only [if_neg hh, h.pc]
    cases hp : st.parsingComment with
    | false => simp [h.pc, hp, h.ct]; exact h.get
    | true =>
      by_cases hn : t.tt = .newLine
      · simp [hn, h.ct, Comments.get_set, ht.line, h.pc, hp]
        intro k hk
        split
        · rfl
        · exact h.get k hk
      · by_cases hw : t.tt = .whitespace
        · simp [hw, h.ct, h.pc, hp]; exact h.get
        · simp [hw, hn, hpct hp, h.pc, hp]; exact h.get

theorem tk_fold {d : Nat} {tb tb' : List Token} (ht : Pointwise (MovedBy d) tb tb') : ∀ {st st' : TkSt}, TkRel d st st' →
    TkRel d (tb.foldl tokenizeStep st) (tb'.foldl tokenizeStep st') := by
  induction ht with
  | nil => exact fun h => h
  | cons h1 _ ih => exact fun h => ih (tk_step h h1)

/-- Comments of two joined documents. -/
theorem joined_comments {d : Nat} {ta tb tb' : List Token} (ha : ClosedToks d ta) (ht : Pointwise (MovedBy d) tb tb') (hl : ∀ t ∈ tb, 1 ≤ t.line) :
    (∀ k, k ≤ d → ((ta ++ tb').foldl tokenizeStep {}).lineComments.get k = (ta.foldl tokenizeStep {}).lineComments.get k) ∧
    (∀ k, ((ta ++ tb').foldl tokenizeStep {}).lineComments.get (k + d) = (tb.foldl tokenizeStep {}).lineComments.get k) ∧
    (ta.foldl tokenizeStep {}).lineComments.get d = none ∧ (ta.foldl tokenizeStep {}).lineComments.get 0 = none ∧
    (tb.foldl tokenizeStep {}).lineComments.get 0 = none := by
  have h1 : ∀ k, k ≤ d → ((ta ++ tb').foldl tokenizeStep {}).lineComments.get k = (ta.foldl tokenizeStep {}).lineComments.get k := by
    intro k hk
    rw [List.foldl_append]
    refine get_fold _ _ _ fun t ht' _ => ?_
    obtain ⟨x, hx, hr⟩ := ht.mem_right ht'
    have := hr.line
    have := hl x hx
    omega
  have hb := closed_blank ha
  have h0 : (tb.foldl tokenizeStep {}).lineComments.get 0 = none := fold_none tb 0 (fun t ht _ => by have := hl t ht; omega)
  refine ⟨h1, ?_, hb, fold_none ta 0 (fun t ht _ => by have := ha.lines t ht; omega), h0⟩
  intro k
  cases k with
  | zero => rw [Nat.zero_add, h1 d (Nat.le_refl _), hb, h0]
  | succ k =>
    rw [List.foldl_append]
    have hc := closed_clean ha
    refine (tk_fold ht ⟨hc.1, hc.2, (fun h => by cases h), ?_⟩).get (k + 1) (by omega)
    intro j hj
    rw [fold_none ta (j + d) (fun t ht _ => by have := ha.lines t ht; omega)]
    rfl

/-! ### The beginning of the second document -/

theorem newline_val {v post : Str} (h : Tok .newLine v post) : v = ['\n'] := by
  generalize ht : TT.newLine = tt at h
  cases h with
  | symbol c _ _ hs => subst ht; unfold Spec.symbol at hs; split at hs <;> simp_all
  | _ => cases ht

theorem tok_wordStart {c : Char} {tt : TT} {v post r : Str} (h : Tok tt v post) (hv : v ++ post = c :: r) (hc : WordStart c) : tt = .word := by
  have hw0 : ¬ WordStart '=' := by rw [← isWord_iff]; decide
  cases h with
  | blank c' cs _ hb => simp at hv; obtain ⟨rfl, -⟩ := hv; exact absurd hc (blank_not_word (hb _ (by simp)))
  | word => rfl
  | rocket => simp at hv; obtain ⟨rfl, -⟩ := hv; exact absurd hc hw0
  | equal => simp at hv; obtain ⟨rfl, -⟩ := hv; exact absurd hc hw0
  | symbol c' _ _ hs => simp at hv; obtain ⟨rfl, -⟩ := hv; exact absurd hc (symbol_class _ _ hs).2.1
  | extra c' _ _ _ h2 => simp at hv; obtain ⟨rfl, -⟩ := hv; exact absurd hc h2

theorem opening_tokens {b : Str} (h : Opening b) : ∀ {l : List (TT × Str)}, Segments b l → ∃ n, OpenT (l.map (·.1)) n := by
  induction h with
  | nothing => intro l hl; rw [segments_unique hl .nil]; exact ⟨0, .done (Or.inl rfl)⟩
  | @word c r hc =>
    intro l hl
    generalize hs : c :: r = src at hl
    cases hl with
    | nil => cases hs
    | nul post => injection hs with h1 h2; subst h1; exact absurd hc (by rw [← isWord_iff]; decide)
    | cons tt v post ts ht hr => exact ⟨0, .done (Or.inr ⟨_, by rw [List.map_cons, tok_wordStart ht hs.symm hc]⟩)⟩
  | @blank r _ ih =>
    intro l hl
    obtain ⟨ts, -, h3⟩ := tokenize_ok r
    obtain ⟨n, hn⟩ := ih (run_segments h3)
    have := segments_unique hl (.cons _ ['\n'] r _ (tok_newline r) (run_segments h3))
    rw [this]
    exact ⟨_, .newline hn⟩
  | @comment row r h1 h2 _ ih =>
    intro l hl
    obtain ⟨ts, -, h3⟩ := tokenize_ok r
    obtain ⟨n, hn⟩ := ih (run_segments h3)
    have hs := lexes_cons (b := row) (tok_sym (c := '#') (tt := .hash) (post := row ++ '\n' :: r) rfl) (row_lexes h2 r).1
      _ (.cons _ ['\n'] r _ (tok_newline r) (run_segments h3))
    have := segments_unique (hl : Segments (['#'] ++ row ++ '\n' :: r) l) hs
    rw [this]
    refine ⟨(rowToks row).length + 2 + n, ?_⟩
    have hr := row_no_newline h2 h1
    have := OpenT.comment (cs := (rowToks row).map (·.1)) (l := (ts.map pr).map (·.1)) (n := n) (by
      intro t ht
      obtain ⟨x, hx, rfl⟩ := List.mem_map.1 ht
      obtain ⟨post, hp⟩ := rowToks_tok h2 x hx
      exact ⟨(hr x hx).1, tok_ne_eof hp⟩) hn
    simpa using this

theorem opening_first {b : Str} (h : Opening b) (hb : b.head? ≠ some '\n') {ts : List Token} (hr : RunOK b 0 (1, 1) ts) (hne : b ≠ []) :
    ∃ t r, ts = t :: r ∧ (t.tt = .word ∨ t.tt = .hash) := by
  cases ts with
  | nil =>
    have := hr.seg
    simp only [List.map_nil] at this
    generalize hl : ([] : List (TT × Str)) = l at this
    cases this with
    | nil => exact absurd rfl hne
    | nul post => generalize hs : '\x00' :: post = src at h; cases h with
      | nothing => cases hs
      | word hc => injection hs with h1 h2; subst h1; exact absurd hc (by rw [← isWord_iff]; decide)
      | blank => cases hs
      | comment => cases hs
    | cons => cases hl
  | cons t r =>
    refine ⟨t, r, rfl, ?_⟩
    obtain ⟨n, hn⟩ := opening_tokens h (run_segments hr)
    generalize hl : ((t :: r).map pr).map (·.1) = l at hn
    cases hn with
    | done hd =>
      rcases hd with rfl | ⟨r', rfl⟩
      · cases hl
      · injection hl with h1 h2; exact Or.inl h1
    | newline _ =>
      injection hl with h1 h2
      exfalso
      have hs := hr.seg
      generalize hl : (t :: r).map (fun t => (t.tt, t.val)) = l at hs
      cases hs with
      | nil => cases hl
      | nul => cases hl
      | cons tt v post ts ht _ =>
        injection hl with h3 h4
        obtain rfl : t.tt = tt := congrArg Prod.fst h3
        change t.tt = .newLine at h1
        rw [h1] at ht
        rw [newline_val ht] at hb
        exact hb rfl
    | comment _ _ => injection hl with h1 h2; exact Or.inr h1

end Verif.Ridl
