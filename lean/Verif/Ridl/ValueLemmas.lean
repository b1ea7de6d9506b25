import Verif.Ridl.ParserRun
import Verif.Ridl.TokenizerLemmas
import Verif.Spec.Parsing

/-! Lemmas for pattern matching, strings, comments. -/

namespace Verif.Ridl
open Verif.Spec

theorem cursor_drop (p : PS) : p.cursor = ((p.tokens.drop p.pos).head?).getD eofToken := by
  simp [PS.cursor, List.head?_drop]

theorem drop_cons_of_cursor {p : PS} (h : p.cursor.tt ≠ .eof) :
    p.tokens.drop p.pos = p.cursor :: p.tokens.drop (p.pos + 1) := by
  have := cursor_lt h
  rw [List.drop_eq_getElem_cons this]
  simp [PS.cursor, this]

theorem Matched.length_rest {pat : List TT} {ts vs rest : List Token} (h : Matched pat ts vs rest) :
    rest.length ≤ ts.length := by
  induction h with
  | nil => simp
  | take _ _ ih => simp; omega
  | gap _ _ _ _ ih => exact ih

theorem matchLoop_iff (tts : List TT) (acc : List Token) (n : Nat) (p0 p : PS) (hp : p.Valid)
    (ht : p.tokens = p0.tokens) (hc : p.comments = p0.comments) (hn : p.pos = p0.pos + n)
    (hl : TT.eol ∉ tts) (hne : TT.eof ∉ tts) :
    (∃ vs rest, Matched tts (p.tokens.drop p.pos) vs rest ∧
      matchLoop tts acc n p = (.ok (acc ++ vs), { p with pos := p.tokens.length - rest.length })) ∨
    ((¬ ∃ vs rest, Matched tts (p.tokens.drop p.pos) vs rest) ∧
      ∃ e, matchLoop tts acc n p = (.err e, p0)) := by
  induction tts generalizing acc n p with
  | nil =>
    refine Or.inl ⟨[], _, .nil _, ?_⟩
    have : p.tokens.length - (p.tokens.length - p.pos) = p.pos := by
      have : p.pos ≤ p.tokens.length := hp; omega
    simp only [List.length_drop, this, List.append_nil]; rfl
  | cons want rest ih =>
    have hl' : TT.eol ∉ rest := fun h => hl (by simp [h])
    have hne' : TT.eof ∉ rest := fun h => hne (by simp [h])
    unfold matchLoop
    rw [bind_ok (cursor_eq p)]
    by_cases hw : p.cursor.tt = want
    · rw [if_pos hw]
      have hcur : p.cursor.tt ≠ .eof := by rw [hw]; rintro rfl; exact hne (by simp)
      rw [bind_ok (advance_eq hcur)]
      have hlt := cursor_lt hcur
      rw [drop_cons_of_cursor hcur]
      rcases ih (acc ++ [p.cursor]) (n + 1) { p with pos := p.pos + 1 } (by simp [PS.Valid]; omega) ht hc
        (by simp; omega) hl' hne' with ⟨vs, r, h1, h2⟩ | ⟨h1, e, h2⟩
      · exact Or.inl ⟨p.cursor :: vs, r, .take hw h1, by rw [h2]; simp⟩
      · refine Or.inr ⟨?_, e, h2⟩
        rintro ⟨vs, r, hm⟩
        cases hm with
        | take _ hr => exact h1 ⟨_, _, hr⟩
        | gap b hg => exact hg p.cursor rfl hw
    · rw [if_neg hw]
      have heol : want ≠ .eol := fun h => hl (by simp [h])
      rw [if_neg heol]
      have hhead : ∀ t, (p.tokens.drop p.pos).head? = some t → t.tt ≠ want := by
        intro t h
        have := cursor_drop p
        rw [h] at this
        rw [← Option.getD_some (a := t) (b := eofToken), ← this]; exact hw
      by_cases hws : want ≠ .whitespace
      · rw [if_pos hws]
        have hr : rewind n p = (.ok true, p0) := by
          unfold rewind
          rw [if_neg (by omega)]
          cases p; cases p0; simp_all
        rw [bind_ok hr]
        refine Or.inr ⟨?_, _, rfl⟩
        rintro ⟨vs, r, hm⟩
        generalize p.tokens.drop p.pos = ts at hm hhead
        cases hm with
        | take h _ => exact hhead _ rfl h
        | gap b => exact hws rfl
      · rw [if_neg hws]
        have hww : want = .whitespace := by simpa using hws
        subst hww
        rcases ih (acc ++ [{ tt := .whitespace, val := [' '], line := p.cursor.line, col := p.cursor.col }])
          n p hp ht hc hn hl' hne' with ⟨vs, r, h1, h2⟩ | ⟨h1, e, h2⟩
        · exact Or.inl ⟨_, r, .gap _ hhead ⟨rfl, rfl⟩ h1, by rw [h2]; simp; rfl⟩
        · refine Or.inr ⟨?_, e, h2⟩
          rintro ⟨vs, r, hm⟩
          generalize p.tokens.drop p.pos = ts at hm hhead h1
          cases hm with
          | take h _ => exact hhead _ rfl h
          | gap b _ _ hr => exact h1 ⟨_, _, hr⟩

/-! ### Escapes -/

theorem utf8_ascii {c : Char} (h : c.toNat < 128) : utf8 c = [c.toNat] := by
  unfold utf8; rw [if_pos (by omega)]

theorem bytes_ascii (s : Str) (h : Ascii s) : bytes s = s.map Char.toNat := by
  unfold bytes
  induction s with
  | nil => rfl
  | cons c s ih =>
    rw [List.flatMap_cons, utf8_ascii (h c (by simp)), ih (fun x hx => h x (by simp [hx]))]
    rfl

theorem ofNat_toNat (c : Char) : Char.ofNat c.toNat = c := by
  exact Char.ofNat_toNat c

theorem char_toNat_inj {c d : Char} (h : c.toNat = d.toNat) : c = d := by
  rw [← ofNat_toNat c, ← ofNat_toNat d, h]

theorem unescapeBytes_iff (s t : Str) :
    unescapeBytes (s.map Char.toNat) = .ok t ↔ Unescaped s t := by
  constructor
  · intro h
    induction hn : s.length using Nat.strongRecOn generalizing s t with
    | ind n ih =>
      subst hn
      cases s with
      | nil => simp [unescapeBytes] at h; subst h; exact .nil
      | cons c r =>
        rw [List.map_cons] at h
        unfold unescapeBytes at h
        by_cases hc : c.toNat = '\\'.toNat
        · have hc' := char_toNat_inj hc
          rw [if_pos hc] at h
          cases r with
          | nil => simp at h
          | cons d r =>
            simp only [List.map_cons] at h
            subst hc'
            split at h
            · rename_i hd
              have hd := char_toNat_inj hd; subst hd
              cases hu : unescapeBytes (r.map Char.toNat) with
              | error e => rw [hu] at h; simp [Except.map] at h
              | ok u =>
                rw [hu] at h; simp [Except.map] at h; subst h
                exact .newline _ _ (ih r.length (by simp; omega) r u hu rfl)
            · split at h
              · rename_i hd
                have hd := char_toNat_inj hd; subst hd
                cases hu : unescapeBytes (r.map Char.toNat) with
                | error e => rw [hu] at h; simp [Except.map] at h
                | ok u =>
                  rw [hu] at h; simp [Except.map] at h; subst h
                  exact .tab _ _ (ih r.length (by simp; omega) r u hu rfl)
              · split at h
                · rename_i hd
                  have hd := char_toNat_inj hd; subst hd
                  cases hu : unescapeBytes (r.map Char.toNat) with
                  | error e => rw [hu] at h; simp [Except.map] at h
                  | ok u =>
                    rw [hu] at h; simp [Except.map] at h; subst h
                    exact .quote _ _ (ih r.length (by simp; omega) r u hu rfl)
                · simp at h
        · rw [if_neg hc] at h
          cases hu : unescapeBytes (r.map Char.toNat) with
          | error e => rw [hu] at h; simp [Except.map] at h
          | ok u =>
            rw [hu] at h; simp [Except.map] at h; subst h
            exact .plain c r u (by rintro rfl; exact hc rfl) (ih r.length (by simp) r u hu rfl)
  · intro h
    induction h with
    | nil => rfl
    | plain c s t hc _ ih =>
      rw [List.map_cons]
      unfold unescapeBytes
      rw [if_neg (fun h => hc (char_toNat_inj h)), ih, ofNat_toNat]; rfl
    | newline s t _ ih =>
      simp only [List.map_cons]
      unfold unescapeBytes
      rw [if_pos rfl]; simp [ih, Except.map]
    | tab s t _ ih =>
      simp only [List.map_cons]
      unfold unescapeBytes
      rw [if_pos rfl]; simp [ih, Except.map]
    | quote s t _ ih =>
      simp only [List.map_cons]
      unfold unescapeBytes
      rw [if_pos rfl]; simp [ih, Except.map]

theorem unescaped_escape (s : Str) (h : '\\' ∉ s) : Unescaped (escape s) s := by
  induction s with
  | nil => exact .nil
  | cons c r ih =>
    have ih := ih (fun hh => h (by simp [hh]))
    have hc : c ≠ '\\' := fun hh => h (by simp [hh])
    unfold escape
    split
    · contradiction
    · rename_i h; simp only [List.cons.injEq] at h; obtain ⟨rfl, rfl⟩ := h; exact .newline _ _ ih
    · rename_i h; simp only [List.cons.injEq] at h; obtain ⟨rfl, rfl⟩ := h; exact .tab _ _ ih
    · rename_i h; simp only [List.cons.injEq] at h; obtain ⟨rfl, rfl⟩ := h; exact .quote _ _ ih
    · rename_i h; simp only [List.cons.injEq] at h; obtain ⟨rfl, rfl⟩ := h; exact .plain _ _ _ hc ih

theorem unescaped_self (s : Str) (h : '\\' ∉ s) : Unescaped s s := by
  induction s with
  | nil => exact .nil
  | cons c r ih => exact .plain _ _ _ (fun hh => h (by simp [hh])) (ih (fun hh => h (by simp [hh])))

theorem escape_ascii (s : Str) (h : Ascii s) : Ascii (escape s) := by
  induction s with
  | nil => exact h
  | cons c r ih =>
    have ih := ih (fun x hx => h x (by simp [hx]))
    have hc := h c (by simp)
    unfold escape
    split
    · contradiction
    · rename_i h; simp only [List.cons.injEq] at h; obtain ⟨rfl, rfl⟩ := h
      intro x hx; simp at hx; rcases hx with rfl | rfl | hx <;> first | decide | exact ih x hx
    · rename_i h; simp only [List.cons.injEq] at h; obtain ⟨rfl, rfl⟩ := h
      intro x hx; simp at hx; rcases hx with rfl | rfl | hx <;> first | decide | exact ih x hx
    · rename_i h; simp only [List.cons.injEq] at h; obtain ⟨rfl, rfl⟩ := h
      intro x hx; simp at hx; rcases hx with rfl | rfl | hx <;> first | decide | exact ih x hx
    · rename_i h; simp only [List.cons.injEq] at h; obtain ⟨rfl, rfl⟩ := h
      intro x hx; simp at hx; rcases hx with rfl | hx
      · exact hc
      · exact ih x hx

theorem _root_.Verif.Spec.Unescaped.no_backslash {s t : Str} (h : Unescaped s t) : '\\' ∉ t := by
  induction h with
  | nil => simp
  | plain c s t hc _ ih => simp only [List.mem_cons, not_or]; exact ⟨Ne.symm hc, ih⟩
  | newline s t _ ih => simp only [List.mem_cons, not_or]; exact ⟨by decide, ih⟩
  | tab s t _ ih => simp only [List.mem_cons, not_or]; exact ⟨by decide, ih⟩
  | quote s t _ ih => simp only [List.mem_cons, not_or]; exact ⟨by decide, ih⟩

end Verif.Ridl

namespace Verif.Ridl
open Verif.Spec

/-! ### Quoted strings -/

theorem cursor_at {A : List Token} {t : Token} {C : List Token} {p : PS} (ht : p.tokens = A ++ t :: C)
    (hp : p.pos = A.length) : p.cursor = t := by
  simp [PS.cursor, ht, hp]

theorem advance_at {A : List Token} {t : Token} {C : List Token} {p : PS} (ht : p.tokens = A ++ t :: C)
    (hp : p.pos = A.length) : advance p = (.ok true, { p with pos := p.pos + 1 }) := by
  unfold advance; rw [if_neg (by rw [ht, hp]; simp)]

/-- Tokens that may stand inside a quoted string. -/
def Inner (t : Token) : Prop := t.tt ≠ .quote ∧ t.tt ≠ .newLine ∧ t.tt ≠ .eof

theorem string_loop (fuel : Nat) (A B C : List Token) (c : Token) (acc : List Token) (p : PS)
    (ht : p.tokens = A ++ (B ++ c :: C)) (hp : p.pos = A.length) (hc : c.tt = .quote)
    (hB : ∀ t ∈ B, Inner t) (hlast : ∀ t, B.getLast? = some t → t.tt ≠ .backslash)
    (hf : B.length < fuel) :
    loopN stringBody fuel acc p = (.ok (acc ++ B), { p with pos := A.length + B.length + 1 }) := by
  induction fuel generalizing A B acc p with
  | zero => omega
  | succ fuel ih =>
    unfold loopN P.bind
    cases B with
    | nil =>
      have h1 : stringBody acc p = (.ok (.inr acc), { p with pos := p.pos + 1 }) := by
        unfold stringBody
        rw [bind_ok (cursor_eq p), bind_ok (advance_at ht hp), cursor_at ht hp]
        simp only [hc]; rfl
      rw [h1]
      simp [loopK, P.pure, hp]
    | cons t B =>
      have ht' : p.tokens = A ++ t :: (B ++ c :: C) := ht
      have hti := hB t (by simp)
      by_cases hbs : t.tt = .backslash
      · cases B with
        | nil => exact absurd hbs (hlast t rfl)
        | cons u B =>
          have ht1 : p.tokens = (A ++ [t]) ++ u :: (B ++ c :: C) := by rw [ht]; simp
          have h1 : stringBody acc p = (.ok (.inl (acc ++ [t] ++ [u])), { p with pos := p.pos + 1 + 1 }) := by
            unfold stringBody
            rw [bind_ok (cursor_eq p), bind_ok (advance_at ht' hp), cursor_at ht' hp]
            simp only [hbs]
            have hp1 : ({ p with pos := p.pos + 1 } : PS).pos = (A ++ [t]).length := by simp [hp]
            have ht2 : ({ p with pos := p.pos + 1 } : PS).tokens = (A ++ [t]) ++ u :: (B ++ c :: C) := ht1
            rw [bind_ok (cursor_eq _), bind_ok (advance_at ht2 hp1), cursor_at ht2 hp1]
            rfl
          rw [h1]
          simp only [loopK]
          rw [ih (A ++ [t, u]) B (acc ++ [t] ++ [u]) { p with pos := p.pos + 1 + 1 } (by simp [ht])
            (by simp [hp]) (fun x hx => hB x (by simp [hx]))
            (fun x hx => hlast x (by
              cases B with
              | nil => simp at hx
              | cons b B => simp only [List.getLast?_cons_cons] at hx ⊢; exact hx))
            (by simp at hf; omega)]
          simp; omega
      · have h1 : stringBody acc p = (.ok (.inl (acc ++ [t])), { p with pos := p.pos + 1 }) := by
          unfold stringBody
          rw [bind_ok (cursor_eq p), bind_ok (advance_at ht' hp), cursor_at ht' hp]
          obtain ⟨h1, h2, h3⟩ := hti
          cases htt : t.tt <;> first | contradiction | rfl
        rw [h1]
        simp only [loopK]
        rw [ih (A ++ [t]) B (acc ++ [t]) { p with pos := p.pos + 1 } (by simp [ht]) (by simp [hp])
          (fun x hx => hB x (by simp [hx]))
          (fun x hx => hlast x (by
            cases B with
            | nil => simp at hx
            | cons b B => simp only [List.getLast?_cons_cons]; exact hx))
          (by simp at hf; omega)]
        simp; omega

theorem expectString_eq (A B C : List Token) (q c : Token) (p : PS)
    (ht : p.tokens = A ++ q :: (B ++ c :: C)) (hp : p.pos = A.length) (hq : q.tt = .quote)
    (hc : c.tt = .quote) (hB : ∀ t ∈ B, Inner t)
    (hlast : ∀ t, B.getLast? = some t → t.tt ≠ .backslash) :
    expectStringValue p = composedValue B { p with pos := A.length + B.length + 2 } := by
  unfold expectStringValue
  rw [bind_ok (cursor_eq p), bind_ok (advance_at ht hp), cursor_at ht hp, if_neg (by simp [hq])]
  have : loop stringBody [] { p with pos := p.pos + 1 } =
      (.ok ([] ++ B), { p with pos := A.length + B.length + 2 }) := by
    unfold loop
    rw [string_loop _ (A ++ [q]) B C c [] _ (by simp [ht]) (by simp [hp]) hc hB hlast]
    · simp; omega
    · simp [ht, hp]; omega
  rw [bind_ok this]
  rfl

/-- A quote is always a token of its own. -/
theorem segments_quote {src : Str} {l : List (TT × Str)} (h : Segments src l) {pre post : Str}
    (hs : src = pre ++ '"' :: post) (hn : '\x00' ∉ pre) :
    ∃ l1 l2, l = l1 ++ (.quote, ['"']) :: l2 ∧ l1.flatMap (·.2) = pre ∧ Segments post l2 := by
  induction h generalizing pre with
  | nil => simp at hs
  | nul post' =>
    cases pre with
    | nil => simp at hs
    | cons c pre => simp at hs; exact absurd hs.1 (by rintro rfl; simp at hn)
  | cons tt v post' ts ht hr ih =>
    rcases List.append_eq_append_iff.1 hs with ⟨a, ha, hb⟩ | ⟨a, ha, hb⟩
    · obtain ⟨l1, l2, h1, h2, h3⟩ := ih hb (fun hh => hn (by rw [ha]; simp [hh]))
      exact ⟨(tt, v) :: l1, l2, by simp [h1], by simp [h2, ha], h3⟩
    · cases a with
      | nil =>
        simp only [List.append_nil] at ha
        simp only [List.nil_append] at hb
        obtain ⟨l1, l2, h1, h2, h3⟩ := ih (pre := []) (by simpa using hb.symm) (by simp)
        exact ⟨(tt, v) :: l1, l2, by simp [h1], by simp [h2, ha], h3⟩
      | cons d a =>
        simp only [List.cons_append, List.cons.injEq] at hb
        obtain ⟨rfl, hb⟩ := hb
        have hmem : '"' ∈ v := by rw [ha]; simp
        cases ht with
        | blank c cs _ hbl =>
          have := hbl '"' hmem
          exact absurd this (by unfold Blank; decide)
        | word c cs _ hc hcs =>
          rcases List.mem_cons.1 hmem with rfl | hm
          · exact absurd hc (by unfold WordStart; decide)
          · exact absurd (by unfold WordEnd; decide) (hcs '"' hm)
        | rocket => simp at hmem
        | equal => simp at hmem
        | symbol c _ _ hsy =>
          simp only [List.mem_singleton] at hmem; subst hmem
          have : pre = [] ∧ a = [] := by
            have hl := congrArg List.length ha
            simp at hl
            exact ⟨List.eq_nil_of_length_eq_zero (by omega), List.eq_nil_of_length_eq_zero (by omega)⟩
          obtain ⟨rfl, rfl⟩ := this
          have : tt = .quote := by simp [Spec.symbol] at hsy; exact hsy.symm
          subst this
          refine ⟨[], ts, rfl, rfl, ?_⟩
          simp only [List.nil_append] at hb
          rw [hb]; exact hr
        | extra c _ _ _ _ h3 =>
          simp only [List.mem_singleton] at hmem; subst hmem
          simp [Spec.symbol] at h3

theorem tok_special {tt : TT} {v post : Str} (h : Tok tt v post) :
    (tt = .quote → v = ['"']) ∧ (tt = .newLine → v = ['\n']) ∧ (tt = .backslash → v = ['\\']) ∧ tt ≠ .eof := by
  cases h with
  | symbol c _ _ hs =>
    unfold Spec.symbol at hs
    split at hs <;> simp at hs <;> subst hs <;> simp
  | _ => simp

end Verif.Ridl
