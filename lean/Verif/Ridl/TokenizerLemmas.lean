import Verif.Ridl.LexerLemmas

namespace Verif.Ridl
open Verif.Spec

theorem tok_ne_eof {tt : TT} {v post : Str} (h : Tok tt v post) : tt ≠ .eof := by
  cases h with
  | symbol c tt _ h => rintro rfl; unfold Spec.symbol at h; split at h <;> simp at h
  | _ => simp

theorem segments_mem {src : Str} {l : List (TT × Str)} (h : Segments src l) :
    ∀ x ∈ l, ∃ post, Tok x.1 x.2 post := by
  induction h with
  | nil => simp
  | nul => simp
  | cons tt v post ts h hr ih =>
    intro x hx
    rcases List.mem_cons.1 hx with rfl | hx
    · exact ⟨_, h⟩
    · exact ih x hx

theorem segments_visible {src : Str} {l : List (TT × Str)} (h : Segments src l) :
    l.flatMap (·.2) = visible src := by
  induction h with
  | nil => rfl
  | nul => simp [visible]
  | cons tt v post ts h hr ih =>
    have := h.no_nul
    simp only [List.flatMap_cons, ih, visible]
    rw [List.takeWhile_append_of_pos]
    simpa using this

theorem symbol_class (c : Char) (tt : TT) (h : Spec.symbol c = some tt) :
    ¬ Blank c ∧ ¬ WordStart c ∧ c ≠ '=' ∧ c ≠ '\x00' := by
  rw [← isSpace_iff, ← isWord_iff]
  unfold Spec.symbol at h
  split at h <;> first | (simp at h; done) | decide

theorem blank_not_word {c : Char} (h : Blank c) : ¬ WordStart c := by
  rw [← isWord_iff]; rcases h with rfl | rfl | rfl <;> decide

theorem run_unique {P : Char → Prop} {u p v q : Str} (h : u ++ p = v ++ q) (hu : ∀ x ∈ u, P x)
    (hv : ∀ x ∈ v, P x) (hp : ∀ d, p.head? = some d → ¬ P d) (hq : ∀ d, q.head? = some d → ¬ P d) :
    u = v ∧ p = q := by
  induction u generalizing v with
  | nil =>
    cases v with
    | nil => simpa using h
    | cons d v =>
      simp at h; subst h
      exact absurd (hv d (by simp)) (hp d (by simp))
  | cons c u ih =>
    cases v with
    | nil =>
      simp at h; subst h
      exact absurd (hu c (by simp)) (hq c (by simp))
    | cons d v =>
      simp only [List.cons_append, List.cons.injEq] at h
      obtain ⟨rfl, h⟩ := h
      have := ih h (fun x hx => hu x (by simp [hx])) (fun x hx => hv x (by simp [hx]))
      simp [this]

theorem tok_unique {tt tt' : TT} {v p v' p' : Str} (h : Tok tt v p) (h' : Tok tt' v' p')
    (he : v ++ p = v' ++ p') : tt = tt' ∧ v = v' ∧ p = p' := by
  have hb0 : ¬ Blank '=' := by rw [← isSpace_iff]; decide
  have hw0 : ¬ WordStart '=' := by rw [← isWord_iff]; decide
  cases h with
  | blank c cs _ h hmax =>
    have hc := h c (by simp)
    cases h' with
    | blank c' cs' _ h' hmax' =>
      have := run_unique he h h' hmax hmax'; simp [this]
    | word c' cs' _ hc' =>
      simp at he; obtain ⟨rfl, _⟩ := he; exact absurd hc' (blank_not_word hc)
    | rocket => simp at he; obtain ⟨rfl, _⟩ := he; exact absurd hc hb0
    | equal => simp at he; obtain ⟨rfl, _⟩ := he; exact absurd hc hb0
    | symbol c' _ _ hs => simp at he; obtain ⟨rfl, _⟩ := he; exact absurd hc (symbol_class _ _ hs).1
    | extra c' _ _ h1 => simp at he; obtain ⟨rfl, _⟩ := he; exact absurd hc h1
  | word c cs _ hc h hmax =>
    cases h' with
    | blank c' cs' _ h' hmax' =>
      simp at he; obtain ⟨rfl, _⟩ := he; exact absurd hc (blank_not_word (h' _ (by simp)))
    | word c' cs' _ hc' h' hmax' =>
      simp only [List.cons_append, List.cons.injEq] at he
      obtain ⟨rfl, he⟩ := he
      have := run_unique (P := fun c => ¬ WordEnd c) he h h' (fun d hd => by simpa using hmax d hd)
        (fun d hd => by simpa using hmax' d hd)
      simp [this]
    | rocket => simp at he; obtain ⟨rfl, _⟩ := he; exact absurd hc hw0
    | equal => simp at he; obtain ⟨rfl, _⟩ := he; exact absurd hc hw0
    | symbol c' _ _ hs => simp at he; obtain ⟨rfl, _⟩ := he; exact absurd hc (symbol_class _ _ hs).2.1
    | extra c' _ _ h1 h2 => simp at he; obtain ⟨rfl, _⟩ := he; exact absurd hc h2
  | rocket =>
    cases h' with
    | blank c' cs' _ h' => simp at he; obtain ⟨rfl, _⟩ := he; exact absurd (h' _ (by simp)) hb0
    | word c' cs' _ hc' => simp at he; obtain ⟨rfl, _⟩ := he; exact absurd hc' hw0
    | rocket => simpa using he
    | equal _ hn => simp at he; subst he; simp at hn
    | symbol c' _ _ hs => simp at he; obtain ⟨rfl, _⟩ := he; exact absurd rfl (symbol_class _ _ hs).2.2.1
    | extra c' _ _ h1 h2 h3 h4 => simp at he; obtain ⟨rfl, _⟩ := he; exact absurd rfl h4
  | equal _ hn =>
    cases h' with
    | blank c' cs' _ h' => simp at he; obtain ⟨rfl, _⟩ := he; exact absurd (h' _ (by simp)) hb0
    | word c' cs' _ hc' => simp at he; obtain ⟨rfl, _⟩ := he; exact absurd hc' hw0
    | rocket => simp at he; subst he; simp at hn
    | equal => simpa using he
    | symbol c' _ _ hs => simp at he; obtain ⟨rfl, _⟩ := he; exact absurd rfl (symbol_class _ _ hs).2.2.1
    | extra c' _ _ h1 h2 h3 h4 => simp at he; obtain ⟨rfl, _⟩ := he; exact absurd rfl h4
  | symbol c _ _ hs =>
    have hcl := symbol_class _ _ hs
    cases h' with
    | blank c' cs' _ h' => simp at he; obtain ⟨rfl, _⟩ := he; exact absurd (h' _ (by simp)) hcl.1
    | word c' cs' _ hc' => simp at he; obtain ⟨rfl, _⟩ := he; exact absurd hc' hcl.2.1
    | rocket => simp at he; exact absurd he.1 hcl.2.2.1
    | equal => simp at he; exact absurd he.1 hcl.2.2.1
    | symbol c' _ _ hs' => simp at he; obtain ⟨rfl, rfl⟩ := he; rw [hs] at hs'; simpa using hs'
    | extra c' _ _ h1 h2 h3 h4 => simp at he; obtain ⟨rfl, _⟩ := he; rw [hs] at h3; simp at h3
  | extra c _ h0 h1 h2 h3 h4 =>
    cases h' with
    | blank c' cs' _ h' => simp at he; obtain ⟨rfl, _⟩ := he; exact absurd (h' _ (by simp)) h1
    | word c' cs' _ hc' => simp at he; obtain ⟨rfl, _⟩ := he; exact absurd hc' h2
    | rocket => simp at he; exact absurd he.1 h4
    | equal => simp at he; exact absurd he.1 h4
    | symbol c' _ _ hs' => simp at he; obtain ⟨rfl, rfl⟩ := he; rw [h3] at hs'; simp at hs'
    | extra => simpa using he

theorem segments_unique {src : Str} {l l' : List (TT × Str)} (h : Segments src l)
    (h' : Segments src l') : l = l' := by
  induction h generalizing l' with
  | nil =>
    generalize hs : ([] : Str) = src at h'
    cases h' with
    | nil => rfl
    | nul => simp at hs
    | cons tt v post ts h hr => have := h.ne_nil; simp_all
  | nul post =>
    generalize hs : ('\x00' :: post : Str) = src at h'
    cases h' with
    | nil => rfl
    | nul => rfl
    | cons tt v post ts h hr =>
      have hne := h.ne_nil; have := h.no_nul
      cases v with
      | nil => simp at hne
      | cons c v => simp at hs; obtain ⟨rfl, _⟩ := hs; exact absurd rfl (this '\x00' (by simp))
  | cons tt v post ts h hr ih =>
    generalize hs : (v ++ post : Str) = src at h'
    cases h' with
    | nil => have := h.ne_nil; simp_all
    | nul =>
      have hne := h.ne_nil; have := h.no_nul
      cases v with
      | nil => simp at hne
      | cons c v => simp at hs; obtain ⟨rfl, _⟩ := hs; exact absurd rfl (this '\x00' (by simp))
    | cons tt' v' post' ts' h' hr' =>
      obtain ⟨rfl, rfl, rfl⟩ := tok_unique h h' hs
      rw [ih hr']

theorem tokenizeStep_tokens (st : TkSt) (t : Token) :
    (tokenizeStep st t).tokens = st.tokens ++ [t] := by
  unfold tokenizeStep; split
  · rfl
  · simp only []; split <;> split <;> rfl

theorem tokenizeLoop_fold (st : TkSt) (ts : List Token) (e : Token) (he : e.tt = .eof)
    (hts : ∀ t ∈ ts, t.tt ≠ .eof) : tokenizeLoop st (ts ++ [e]) = ts.foldl tokenizeStep st := by
  induction ts generalizing st with
  | nil => simp [tokenizeLoop, he]
  | cons t ts ih =>
    simp only [List.cons_append, tokenizeLoop, List.foldl_cons]
    rw [if_neg (hts t (by simp)), ih _ (fun x hx => hts x (by simp [hx]))]

theorem foldl_tokens (st : TkSt) (ts : List Token) :
    (ts.foldl tokenizeStep st).tokens = st.tokens ++ ts := by
  induction ts generalizing st with
  | nil => simp
  | cons t ts ih => simp [ih, tokenizeStep_tokens]

/-- Everything about one run of `tokenize`. -/
theorem tokenize_ok (src : Str) :
    ∃ ts, tokenize src = some (ts, (ts.foldl tokenizeStep {}).lineComments) ∧
      RunOK src 0 (1, 1) ts := by
  obtain ⟨ts, e, h1, h2, h3⟩ := lexRun_ok (src.length + 1) {} rfl src (by omega)
  refine ⟨ts, ?_, h3⟩
  have hne : ∀ t ∈ ts, t.tt ≠ .eof := by
    intro t ht
    obtain ⟨post, hp⟩ := segments_mem h3.seg (t.tt, t.val) (List.mem_map_of_mem ht)
    exact tok_ne_eof hp
  simp only [tokenize, lexAll, h1, Option.map_some, tokenizeLoop_fold _ _ _ h2 hne]
  rw [foldl_tokens]; rfl

theorem flatMap_length_ge (ts : List Token) (hne : ∀ t ∈ ts, t.val ≠ []) :
    ts.length ≤ (ts.flatMap fun a => a.val).length := by
  induction ts with
  | nil => simp
  | cons t ts ih =>
    have := List.length_pos_iff.2 (hne t (by simp))
    have := ih (fun x hx => hne x (by simp [hx]))
    simp only [List.flatMap_cons, List.length_append, List.length_cons]
    omega

/-! ### Comments -/

theorem startsSolid_fields_ne {x : Str} (h : startsSolid x = true) : fields x ≠ [] := by
  cases x with
  | nil => simp [startsSolid] at h
  | cons c r =>
    simp only [startsSolid, Bool.not_eq_true'] at h
    unfold fields
    simp only [h, Bool.false_eq_true, if_false]
    split
    · split <;> simp
    · simp

def consHead (v : Str) : List Str → List Str
  | [] => [v]
  | w :: ws => (v ++ w) :: ws

theorem isSpace_def (c : Char) : (c == ' ' || c == '\t' || c == '\r') = isSpace c := rfl

theorem fields_solid (v x : Str) (hv : v ≠ []) (hs : ∀ c ∈ v, isSpace c = false) :
    fields (v ++ x) = if startsSolid x then consHead v (fields x) else v :: fields x := by
  induction v with
  | nil => simp at hv
  | cons c v ih =>
    have hc := hs c (by simp)
    simp only [List.cons_append]
    rw [fields]
    simp only [isSpace_def, hc, Bool.false_eq_true, if_false]
    cases v with
    | nil =>
      simp only [List.nil_append]
      by_cases h : startsSolid x
      · simp only [h, if_true]
        have := startsSolid_fields_ne h
        cases hf : fields x with
        | nil => simp [hf] at this
        | cons w ws => simp [consHead]
      · simp [h]
    | cons d v =>
      have hd := hs d (by simp)
      have hsol : startsSolid (d :: v ++ x) = true := by
        simp [startsSolid, isSpace_def, hd]
      rw [if_pos hsol, ih (by simp) (fun y hy => hs y (by simp [hy]))]
      by_cases h : startsSolid x
      · simp only [h, if_true]
        cases hf : fields x with
        | nil => simp [consHead]
        | cons w ws => simp [consHead]
      · simp [h]

theorem fields_blank (v x : Str) (hs : ∀ c ∈ v, isSpace c = true) : fields (v ++ x) = fields x := by
  induction v with
  | nil => simp
  | cons c v ih =>
    have hc := hs c (by simp)
    simp only [List.cons_append]
    rw [fields]
    simp [isSpace_def, hc, ih (fun y hy => hs y (by simp [hy]))]

/-- Append the words of `x` to `C`, gluing when `x` starts with a non-blank. -/
def glue (C : List Str) (x : Str) : List Str :=
  if startsSolid x then
    match C.getLast?, fields x with
    | some w, f :: fs => C.dropLast ++ (w ++ f) :: fs
    | _, fs => C ++ fs
  else C ++ fields x

/-- The comment-relevant part of the tokenizer state after one token. -/
def cstep (p : TT × List Str) (t : TT × Str) : TT × List Str :=
  (t.1, if t.1 = .hash ∨ t.1 = .whitespace then p.2
    else if p.1 = .whitespace then p.2 ++ [t.2]
    else match p.2.getLast? with
      | some w => p.2.dropLast ++ [w ++ t.2]
      | none => p.2 ++ [t.2])

theorem cstep_spec (q : List (TT × Str)) (p : TT) (C : List Str)
    (hq : ∀ t ∈ q, t.2 ≠ [] ∧ (t.1 = .whitespace → ∀ c ∈ t.2, isSpace c = true) ∧
      (t.1 ≠ .whitespace → ∀ c ∈ t.2, isSpace c = false)) :
    (q.foldl cstep (p, C)).2 =
      if p = .whitespace ∧ beforeHash q = false then C ++ fields (commentChars q)
      else glue C (commentChars q) := by
  induction q generalizing p C with
  | nil => simp [commentChars, glue, startsSolid, fields]
  | cons t r ih =>
    obtain ⟨tt, v⟩ := t
    obtain ⟨hv, hb, hn⟩ := hq (tt, v) (by simp)
    simp only at hv hb hn
    have ih := fun p C => ih p C (fun t ht => hq t (by simp [ht]))
    simp only [List.foldl_cons]
    by_cases hh : tt = .hash
    · subst hh
      simp [cstep, ih, beforeHash, commentChars]
    by_cases hw : tt = .whitespace
    · subst hw
      simp only [cstep, or_true, if_true, ih, true_and, beforeHash, commentChars, reduceCtorEq, if_false]
      by_cases hbh : beforeHash r
      · simp [hbh]
      · have hf := fields_blank v (commentChars r) (hb rfl)
        have hns : startsSolid (v ++ commentChars r) = false := by
          cases v with
          | nil => simp at hv
          | cons c v => simp [startsSolid, isSpace_def, hb rfl c (by simp)]
        simp [hbh, hf, glue, hns]
    · have hf := fields_solid v (commentChars r) hv (hn hw)
      have hns : startsSolid (v ++ commentChars r) = true := by
        cases v with
        | nil => simp at hv
        | cons c v => simp [startsSolid, isSpace_def, hn hw c (by simp)]
      have hcc : commentChars ((tt, v) :: r) = v ++ commentChars r := by simp [commentChars, hh, hw]
      have hbh : beforeHash ((tt, v) :: r) = false := by simp [beforeHash, hh, hw]
      simp only [hcc, hbh, and_true]
      have e1 : cstep (p, C) (tt, v) = (tt, if p = .whitespace then C ++ [v] else
        match C.getLast? with
        | some w => C.dropLast ++ [w ++ v]
        | none => C ++ [v]) := by simp [cstep, hh, hw]
      rw [e1, ih]
      simp only [hw, false_and, if_false]
      by_cases hp : p = .whitespace
      · simp only [hp, if_true, hf, glue]
        by_cases hx : startsSolid (commentChars r)
        · simp only [hx, if_true]
          cases hfx : fields (commentChars r) with
          | nil => exact absurd hfx (startsSolid_fields_ne hx)
          | cons f fs => simp [consHead]
        · simp [hx]
      · simp only [hp, if_false]
        unfold glue
        rw [hns, hf]
        cases hC : C.getLast? with
        | none =>
          have : C = [] := by simpa using hC
          subst this
          by_cases hx : startsSolid (commentChars r)
          · simp only [hx, if_true]
            cases hfx : fields (commentChars r) with
            | nil => exact absurd hfx (startsSolid_fields_ne hx)
            | cons f fs => simp [consHead]
          · simp [hx]
        | some w =>
          by_cases hx : startsSolid (commentChars r)
          · simp only [hx, if_true]
            cases hfx : fields (commentChars r) with
            | nil => exact absurd hfx (startsSolid_fields_ne hx)
            | cons f fs => simp [consHead]
          · simp [hx]

theorem tok_blank_class {tt : TT} {v post : Str} (h : Tok tt v post) :
    v ≠ [] ∧ (tt = .whitespace → ∀ c ∈ v, isSpace c = true) ∧
      (tt ≠ .whitespace → ∀ c ∈ v, isSpace c = false) := by
  refine ⟨h.ne_nil, ?_, ?_⟩
  · rintro rfl
    cases h with
    | blank c cs _ h => intro x hx; exact (isSpace_iff x).2 (h x hx)
    | symbol c _ _ h => exfalso; unfold Spec.symbol at h; split at h <;> simp at h
  · intro hne
    have key : ∀ c, ¬ Blank c → isSpace c = false := by
      intro c hc; rw [← isSpace_iff] at hc; simpa using hc
    cases h with
    | blank => exact absurd rfl hne
    | word c cs _ hc h =>
      intro x hx
      rcases List.mem_cons.1 hx with rfl | hx
      · exact key _ (fun hb => blank_not_word hb hc)
      · refine key _ (fun hb => h _ hx ?_)
        rw [← isWordBreak_iff]
        rcases hb with rfl | rfl | rfl <;> decide
    | rocket => intro x hx; simp at hx; rcases hx with rfl | rfl <;> decide
    | equal => intro x hx; simp at hx; subst hx; decide
    | symbol c _ _ h => intro x hx; simp at hx; subst hx; exact key _ (symbol_class _ _ h).1
    | extra c _ _ h1 => intro x hx; simp at hx; subst hx; exact key _ h1

/-! ### The comment table -/

def pr (t : Token) : TT × Str := (t.tt, t.val)

theorem parseCommentToken_eq (t p : Token) (T : List Token) (C : List Str) (hp : T.getLast? = some p)
    (hv : t.val ≠ []) : parseCommentToken t T C =
      if p.tt = .whitespace then C ++ [t.val]
      else match C.getLast? with
        | some w => C.dropLast ++ [w ++ t.val]
        | none => C ++ [t.val] := by
  simp only [parseCommentToken, hp, Token.str, hv, if_false]
  cases C.getLast? <;> rfl

theorem fold_comment (L : List Token) (st : TkSt) (p : Token) (hp : st.tokens.getLast? = some p)
    (hc : st.parsingComment = true) (hL : ∀ t ∈ L, t.tt ≠ .newLine ∧ t.val ≠ []) :
    L.foldl tokenizeStep st = { st with
      tokens := st.tokens ++ L, commentTokens := ((L.map pr).foldl cstep (p.tt, st.commentTokens)).2 } := by
  induction L generalizing st p with
  | nil => simp
  | cons t L ih =>
    obtain ⟨h1, h2⟩ := hL t (by simp)
    simp only [List.foldl_cons, List.map_cons]
    have hst : tokenizeStep st t = { st with tokens := st.tokens ++ [t], commentTokens := (cstep (p.tt, st.commentTokens) (pr t)).2 } := by
      unfold tokenizeStep cstep pr
      by_cases hh : t.tt = .hash
      · simp [hh]; exact hc.symm ▸ rfl
      · by_cases hw : t.tt = .whitespace
        · simp [hw, hc]
        · simp [hh, hw, hc, h1, parseCommentToken_eq t p _ _ hp h2]
    rw [hst, ih _ t (by simp) (by exact hc) (fun x hx => hL x (by simp [hx]))]
    have : cstep (p.tt, st.commentTokens) (pr t) = (t.tt, (cstep (p.tt, st.commentTokens) (pr t)).2) := rfl
    rw [this]
    simp

theorem fold_plain (L : List Token) (st : TkSt) (hc : st.parsingComment = false)
    (hL : ∀ t ∈ L, t.tt ≠ .hash) :
    L.foldl tokenizeStep st = { st with tokens := st.tokens ++ L } := by
  induction L generalizing st with
  | nil => simp
  | cons t L ih =>
    have h1 := hL t (by simp)
    have hst : tokenizeStep st t = { st with tokens := st.tokens ++ [t] } := by
      simp [tokenizeStep, h1, hc]
    simp only [List.foldl_cons, hst]
    rw [ih _ (by exact hc) (fun x hx => hL x (by simp [hx]))]; simp

/-- Between lines the tokenizer is not inside a comment. -/
def TkSt.Clean (st : TkSt) : Prop := st.parsingComment = false ∧ st.commentTokens = []

def setOpt (m : Comments) (k : Nat) : Option Str → Comments
  | none => m
  | some v => m.set k v

theorem dropWhile_pr (L : List Token) :
    (L.map pr).dropWhile (fun t => t.1 ≠ .hash) = (L.dropWhile (fun t => t.tt ≠ .hash)).map pr := by
  induction L with
  | nil => rfl
  | cons t L ih =>
    simp only [List.map_cons, List.dropWhile_cons, pr]
    split <;> simp_all [pr]

/-- One whole line. -/
theorem fold_line (L : List Token) (nl : Token) (st : TkSt) (hc : st.Clean) (hn : nl.tt = .newLine)
    (hL : ∀ t ∈ L, t.tt ≠ .newLine ∧ ∃ post, Tok t.tt t.val post) :
    (L ++ [nl]).foldl tokenizeStep st = (TkSt.mk (st.tokens ++ L ++ [nl])
      (setOpt st.lineComments nl.line (lineComment (L.map pr))) false []) := by
  obtain ⟨T, cm, pc, ct⟩ := st
  obtain ⟨hc1, hc2⟩ := hc
  simp only at hc1 hc2
  subst hc1; subst hc2
  have hsplit := List.takeWhile_append_dropWhile (p := fun t : Token => decide (t.tt ≠ .hash)) (l := L)
  have htk : ∀ t ∈ L.takeWhile (fun t : Token => decide (t.tt ≠ .hash)), t.tt ≠ .hash := by
    intro t ht
    have := List.all_takeWhile (p := fun t : Token => decide (t.tt ≠ .hash)) (l := L)
    rw [List.all_eq_true] at this
    simpa using this t ht
  generalize hA : L.takeWhile (fun t : Token => decide (t.tt ≠ .hash)) = A at hsplit htk
  unfold lineComment
  rw [dropWhile_pr]
  generalize hB : L.dropWhile (fun t : Token => decide (t.tt ≠ .hash)) = B at hsplit
  rw [← hsplit]
  simp only [List.foldl_append, List.foldl_cons, List.foldl_nil]
  rw [fold_plain A _ rfl htk]
  cases B with
  | nil =>
    simp [tokenizeStep, hn, setOpt]
  | cons h q =>
    have hh : h.tt = .hash := by
      have := List.head?_dropWhile_not (fun t : Token => decide (t.tt ≠ .hash)) L
      rw [hB] at this; simpa using this
    have hq : ∀ t ∈ q, t.tt ≠ .newLine ∧ ∃ post, Tok t.tt t.val post := by
      intro t ht; exact hL t (by rw [← hsplit]; simp [ht])
    simp only [List.foldl_cons]
    have h1 : tokenizeStep { tokens := T ++ A, lineComments := cm, parsingComment := false, commentTokens := [] } h
        = { tokens := T ++ A ++ [h], lineComments := cm, parsingComment := true, commentTokens := [] } := by
      simp [tokenizeStep, hh]
    rw [h1, fold_comment q _ h (by simp) rfl (fun t ht => ⟨(hq t ht).1, by
      obtain ⟨_, post, hp⟩ := hq t ht; exact hp.ne_nil⟩)]
    have h2 := cstep_spec (q.map pr) h.tt [] (by
      intro t ht
      obtain ⟨x, hx, rfl⟩ := List.mem_map.1 ht
      obtain ⟨_, post, hp⟩ := hq x hx
      exact tok_blank_class hp)
    have h3 : glue [] (commentChars (q.map pr)) = fields (commentChars (q.map pr)) := by
      unfold glue; split <;> simp
    simp only [hh, reduceCtorEq, false_and, if_false, h3] at h2
    simp only [hh]
    rw [h2]
    simp [tokenizeStep, hn, setOpt]

theorem clean_step (st : TkSt) (t : Token) (h : st.parsingComment = false → st.commentTokens = []) :
    ((tokenizeStep st t).parsingComment = false → (tokenizeStep st t).commentTokens = []) ∧
    (t.tt = .newLine → (tokenizeStep st t).parsingComment = false) := by
  unfold tokenizeStep
  by_cases hh : t.tt = .hash
  · simp [hh]
  · by_cases hn : t.tt = .newLine
    · by_cases hp : st.parsingComment = true
      · simp [hn, hp]
      · simp at hp; simp [hn, hp, h]
    · by_cases hp : st.parsingComment = true
      · simp only [hh, hn, hp, if_false]; split <;> simp [hp]
      · simp at hp; simp [hh, hn, hp, h]

theorem clean_fold (ts : List Token) (st : TkSt) (h : st.parsingComment = false → st.commentTokens = []) :
    ((ts.foldl tokenizeStep st).parsingComment = false → (ts.foldl tokenizeStep st).commentTokens = []) := by
  induction ts generalizing st with
  | nil => exact h
  | cons t ts ih => exact ih _ (clean_step st t h).1

theorem clean_whole (A : List Token) (h : WholeLines A) : (A.foldl tokenizeStep {}).Clean := by
  rcases List.eq_nil_or_concat A with rfl | ⟨B, t, rfl⟩
  · exact ⟨rfl, rfl⟩
  · have ht : t.tt = .newLine := h t (by simp)
    have h0 := clean_fold B {} (by simp)
    rw [List.concat_eq_append, List.foldl_append]
    have := clean_step (B.foldl tokenizeStep {}) t h0
    exact ⟨this.2 ht, this.1 (this.2 ht)⟩

theorem Comments.get_set (m : Comments) (k j : Nat) (v : Str) :
    (m.set k v).get j = if j = k then some v else m.get j := by
  unfold Comments.set Comments.get
  rw [List.find?_append]
  by_cases h : j = k
  · subst h
    rw [if_pos rfl]
    rw [List.find?_eq_none.2 (by intro x hx; have := (List.mem_filter.1 hx).2; simpa using this)]
    simp
  · rw [if_neg h]
    have : List.find? (fun x => x.1 == j) [(k, v)] = none := by
      have : (k == j) = false := by simpa using fun hh => h hh.symm
      simp [List.find?, this]
    rw [this, Option.or_none, List.find?_filter]
    congr 2
    funext x
    by_cases hx : x.1 = j <;> simp [hx, h]

theorem get_step (st : TkSt) (t : Token) (n : Nat) (hn : t.tt = .newLine → t.line ≠ n) :
    (tokenizeStep st t).lineComments.get n = st.lineComments.get n := by
  unfold tokenizeStep
  by_cases hh : t.tt = .hash
  · simp [hh]
  · simp only [hh, if_false]
    by_cases hnl : t.tt = .newLine
    · have : n ≠ t.line := fun h => hn hnl h.symm
      by_cases hp : st.parsingComment = true
      · simp [hnl, hp, Comments.get_set, this]
      · simp [hnl, hp]
    · simp only [hnl, false_and, if_false]; split <;> rfl

theorem get_fold (ts : List Token) (st : TkSt) (n : Nat)
    (hn : ∀ t ∈ ts, t.tt = .newLine → t.line ≠ n) :
    (ts.foldl tokenizeStep st).lineComments.get n = st.lineComments.get n := by
  induction ts generalizing st with
  | nil => rfl
  | cons t ts ih =>
    rw [List.foldl_cons, ih _ (fun x hx => hn x (by simp [hx])), get_step _ _ _ (hn t (by simp))]

theorem foldl_advance_line (v : Str) (p : Nat × Nat) :
    (v.foldl advance p).1 = p.1 + v.count '\n' := by
  induction v generalizing p with
  | nil => simp
  | cons c v ih =>
    simp only [List.foldl_cons, ih, advance, List.count_cons]
    split <;> simp_all; omega

/-- Newline tokens sit on pairwise different lines. -/
theorem newline_lines {src : Str} {ts : List Token} (h : RunOK src 0 (1, 1) ts)
    {A B C : List Token} {a b : Token} (hd : ts = A ++ a :: (B ++ b :: C)) (ha : a.tt = .newLine)
    (hb : b.tt = .newLine) : a.line < b.line := by
  have hval : ∀ t ∈ ts, t.tt = .newLine → t.val = ['\n'] := by
    intro t ht hn
    obtain ⟨post, hp⟩ := segments_mem h.seg (t.tt, t.val) (List.mem_map_of_mem ht)
    simp only at hp
    rw [hn] at hp
    generalize t.val = v at hp
    cases hp with
    | symbol c _ _ hs => unfold Spec.symbol at hs; split at hs <;> simp_all
  have ha' := hval a (by simp [hd]) ha
  have hb' := hval b (by simp [hd]) hb
  obtain ⟨_, h1⟩ := h.at_ A a _ hd
  obtain ⟨_, h2⟩ := h.at_ (A ++ a :: B) b C (by simp [hd])
  have h1 := congrArg Prod.fst h1
  have h2 := congrArg Prod.fst h2
  simp only [foldl_advance_line, List.flatMap_append, List.flatMap_cons, List.flatMap_nil,
    List.append_nil, ha', hb', List.append_assoc] at h1 h2
  rw [List.dropLast_concat] at h1
  have : (A.flatMap (·.val) ++ (['\n'] ++ (B.flatMap (·.val) ++ ['\n']))).dropLast =
      A.flatMap (·.val) ++ (['\n'] ++ B.flatMap (·.val)) := by
    rw [← List.append_assoc, ← List.append_assoc, List.dropLast_concat, List.append_assoc]
  rw [this] at h2
  simp only [List.count_append, List.count_singleton_self] at h2
  omega

theorem split_line (P : List Token) :
    ∃ A L, P = A ++ L ∧ WholeLines A ∧ ∀ t ∈ L, t.tt ≠ .newLine := by
  induction P with
  | nil => exact ⟨[], [], rfl, by simp [WholeLines], by simp⟩
  | cons t P ih =>
    obtain ⟨A, L, rfl, hA, hL⟩ := ih
    rcases List.eq_nil_or_concat A with rfl | ⟨A', x, rfl⟩
    · by_cases ht : t.tt = .newLine
      · exact ⟨[t], L, rfl, by simpa [WholeLines] using ht, hL⟩
      · exact ⟨[], t :: L, rfl, by simp [WholeLines], by simpa using ⟨ht, hL⟩⟩
    · refine ⟨t :: (A'.concat x), L, rfl, ?_, hL⟩
      intro y hy
      refine hA y ?_
      simpa [List.getLast?_cons] using hy

end Verif.Ridl
