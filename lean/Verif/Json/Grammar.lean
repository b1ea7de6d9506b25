import Verif.Spec.JsonText
/-!
# The decoder accepts exactly the JSON grammar
-/

namespace Verif.Json
open Verif.Schema hiding Json
open Verif.Spec

/-! ### White space -/

theorem isWs_iff {c : Char} : isWs c = true ↔ c = ' ' ∨ c = '\t' ∨ c = '\n' ∨ c = '\r' := by
  unfold isWs
  simp only [Bool.or_eq_true, beq_iff_eq]
  constructor
  · rintro (((h | h) | h) | h) <;> simp [h]
  · rintro (h | h | h | h) <;> simp [h]

theorem mem_takeWhile {p : Char → Bool} {s : Str} {c : Char} (h : c ∈ s.takeWhile p) : p c = true := by
  induction s with
  | nil => cases h
  | cons x s ih =>
    by_cases hx : p x = true
    · rw [List.takeWhile_cons_of_pos hx] at h
      rcases List.mem_cons.1 h with rfl | h
      · exact hx
      · exact ih h
    · rw [List.takeWhile_cons_of_neg hx] at h
      cases h

theorem skipWs_split (s : Str) : ∃ w, s = w ++ skipWs s ∧ JBlank w := by
  refine ⟨s.takeWhile isWs, (List.takeWhile_append_dropWhile).symm, ?_⟩
  intro c hc
  exact isWs_iff.1 (mem_takeWhile hc)

theorem skipWs_blank {w : Str} (h : JBlank w) (s : Str) : skipWs (w ++ s) = skipWs s := by
  induction w with
  | nil => rfl
  | cons c w ih =>
    unfold skipWs
    rw [List.cons_append, List.dropWhile_cons_of_pos (isWs_iff.2 (h c (by simp)))]
    exact ih fun x hx => h x (by simp [hx])

theorem skipWs_all {w : Str} (h : JBlank w) : skipWs w = [] := by
  have := skipWs_blank h []
  rwa [List.append_nil] at this

/-! ### Characters -/

theorem hexVal_iff {c : Char} {n : Nat} : hexVal c = some n ↔ JHexDigit c n := by
  constructor
  · intro h
    unfold hexVal at h
    have hle : ∀ a b : Char, a ≤ b ↔ a.toNat ≤ b.toNat := fun a b => Iff.rfl
    by_cases h1 : '0' ≤ c ∧ c ≤ '9'
    · rw [if_pos h1] at h
      cases h
      rw [hle, hle] at h1
      have : c = Char.ofNat c.toNat := (Char.ofNat_toNat c).symm
      obtain ⟨k, hk⟩ : ∃ k : Fin 10, c.toNat = 48 + k.val := ⟨⟨c.toNat - 48, by have : '9'.toNat = 57 := rfl; have : '0'.toNat = 48 := rfl; omega⟩, by have : '0'.toNat = 48 := rfl; simp only; omega⟩
      have gen : ∀ k : Fin 10, JHexDigit (Char.ofNat (48 + k.val)) ((Char.ofNat (48 + k.val)).toNat - '0'.toNat) := by unfold JHexDigit; decide
      rw [this, hk]
      exact gen k
    · rw [if_neg h1] at h
      by_cases h2 : 'a' ≤ c ∧ c ≤ 'f'
      · rw [if_pos h2] at h
        cases h
        rw [hle, hle] at h2
        have : c = Char.ofNat c.toNat := (Char.ofNat_toNat c).symm
        obtain ⟨k, hk⟩ : ∃ k : Fin 6, c.toNat = 97 + k.val := ⟨⟨c.toNat - 97, by have : 'f'.toNat = 102 := rfl; have : 'a'.toNat = 97 := rfl; omega⟩, by have : 'a'.toNat = 97 := rfl; simp only; omega⟩
        have gen : ∀ k : Fin 6, JHexDigit (Char.ofNat (97 + k.val)) ((Char.ofNat (97 + k.val)).toNat - 'a'.toNat + 10) := by unfold JHexDigit; decide
        rw [this, hk]
        exact gen k
      · rw [if_neg h2] at h
        by_cases h3 : 'A' ≤ c ∧ c ≤ 'F'
        · rw [if_pos h3] at h
          cases h
          rw [hle, hle] at h3
          have : c = Char.ofNat c.toNat := (Char.ofNat_toNat c).symm
          obtain ⟨k, hk⟩ : ∃ k : Fin 6, c.toNat = 65 + k.val := ⟨⟨c.toNat - 65, by have : 'F'.toNat = 70 := rfl; have : 'A'.toNat = 65 := rfl; omega⟩, by have : 'A'.toNat = 65 := rfl; simp only; omega⟩
          have gen : ∀ k : Fin 6, JHexDigit (Char.ofNat (65 + k.val)) ((Char.ofNat (65 + k.val)).toNat - 'A'.toNat + 10) := by unfold JHexDigit; decide
          rw [this, hk]
          exact gen k
        · rw [if_neg h3] at h; cases h
  · intro h
    have hn : n < 16 := by
      rcases h with h | h <;> exact (List.getElem?_eq_some_iff.1 h).1
    obtain ⟨k, rfl⟩ : ∃ k : Fin 16, n = k.val := ⟨⟨n, hn⟩, rfl⟩
    rcases h with h | h
    · have : ∀ k : Fin 16, hexVal ("0123456789abcdef".toList[k.val]?.getD ' ') = some k.val := by decide
      have := this k
      rwa [h] at this
    · have : ∀ k : Fin 16, hexVal ("0123456789ABCDEF".toList[k.val]?.getD ' ') = some k.val := by decide
      have := this k
      rwa [h] at this

theorem hexVal4_iff {a b c d : Char} {n : Nat} : hexVal4 a b c d = some n ↔ CodeUnit ['\\', 'u', a, b, c, d] n := by
  unfold hexVal4
  constructor
  · intro h
    split at h
    · rename_i w x y z h1 h2 h3 h4
      cases h
      exact ⟨a, b, c, d, w, x, y, z, rfl, hexVal_iff.1 h1, hexVal_iff.1 h2, hexVal_iff.1 h3, hexVal_iff.1 h4, by omega⟩
    · cases h
  · rintro ⟨a', b', c', d', w, x, y, z, e, h1, h2, h3, h4, rfl⟩
    cases e
    rw [hexVal_iff.2 h1, hexVal_iff.2 h2, hexVal_iff.2 h3, hexVal_iff.2 h4]
    simp only [Option.some.injEq]
    omega

theorem codeUnit_lt {u : Str} {n : Nat} (h : CodeUnit u n) : n < 65536 := by
  obtain ⟨a, b, c, d, w, x, y, z, -, h1, h2, h3, h4, rfl⟩ := h
  have g : ∀ {c n}, JHexDigit c n → n < 16 := by
    rintro c n (h | h) <;> exact (List.getElem?_eq_some_iff.1 h).1
  have := g h1; have := g h2; have := g h3; have := g h4
  omega

theorem jhexDigit_plain {c : Char} {n : Nat} (h : JHexDigit c n) : c ≠ '"' := by
  rintro rfl
  have := hexVal_iff.2 h
  rw [show hexVal '"' = none by decide] at this
  cases this

/-- The second half of a pair, written. -/
theorem lowSurrogate_iff {s : Str} {l : Nat} {r : Str} :
    lowSurrogate s = some (l, r) ↔ ∃ v, s = v ++ r ∧ CodeUnit v l ∧ Low l := by
  constructor
  · intro h
    unfold lowSurrogate at h
    split at h
    · rename_i a b c d r'
      split at h
      · rename_i n hn
        by_cases hl : 0xDC00 ≤ n ∧ n < 0xE000
        · rw [if_pos hl] at h
          cases h
          exact ⟨_, rfl, hexVal4_iff.1 hn, hl.1, by omega⟩
        · rw [if_neg hl] at h; cases h
      · cases h
    · cases h
  · rintro ⟨v, rfl, hv, hl⟩
    have hv' := hv
    obtain ⟨a, b, c, d, w, x, y, z, rfl, -⟩ := hv'
    have := hexVal4_iff.2 hv
    show lowSurrogate ('\\' :: 'u' :: a :: b :: c :: d :: r) = _
    rw [lowSurrogate, this]
    dsimp only
    rw [if_pos ⟨hl.1, by have := hl.2; omega⟩]

theorem lowSurrogate_none {s : Str} : lowSurrogate s = none ↔ ¬ ∃ v l r, s = v ++ r ∧ CodeUnit v l ∧ Low l := by
  constructor
  · rintro h ⟨v, l, r, h1, h2, h3⟩
    rw [lowSurrogate_iff.2 ⟨v, h1, h2, h3⟩] at h
    cases h
  · intro h
    cases e : lowSurrogate s with
    | none => rfl
    | some p =>
      obtain ⟨v, h1, h2, h3⟩ := lowSurrogate_iff.1 (show lowSurrogate s = some (p.1, p.2) from e)
      exact absurd ⟨v, p.1, p.2, h1, h2, h3⟩ h

/-- A code unit at the start of a text with a quote: it stands before the quote. -/
theorem codeUnit_before {t r v x : Str} {l : Nat} (h : t ++ '"' :: r = v ++ x) (hv : CodeUnit v l) : ∃ t', t = v ++ t' ∧ x = t' ++ '"' :: r := by
  obtain ⟨a, b, c, d, p, q, m, z, rfl, h1, h2, h3, h4, -⟩ := hv
  have g1 := jhexDigit_plain h1; have g2 := jhexDigit_plain h2; have g3 := jhexDigit_plain h3; have g4 := jhexDigit_plain h4
  have hq : ∀ y ∈ ['\\', 'u', a, b, c, d], y ≠ '"' := by
    intro y hy
    simp only [List.mem_cons, List.not_mem_nil, or_false] at hy
    rcases hy with rfl | rfl | rfl | rfl | rfl | rfl <;> first | decide | assumption
  generalize ['\\', 'u', a, b, c, d] = v at h hq
  clear h1 h2 h3 h4
  induction v generalizing t with
  | nil => exact ⟨t, rfl, h.symm⟩
  | cons y v ih =>
    cases t with
    | nil =>
      rw [List.nil_append, List.cons_append] at h
      cases h
      exact absurd rfl (hq _ (by simp))
    | cons y' t =>
      rw [List.cons_append, List.cons_append] at h
      injection h with e h
      subst e
      obtain ⟨t', h5, h6⟩ := ih h fun y hy => hq y (by simp [hy])
      exact ⟨t', by rw [h5]; rfl, h6⟩

theorem simpleEsc_iff {e c : Char} : simpleEsc e = some c ↔ (e, c) ∈ escapeLetters := by
  unfold simpleEsc escapeLetters
  constructor
  · intro h
    by_cases h1 : e = '"'
    · rw [if_pos h1] at h; cases h; subst h1; decide
    rw [if_neg h1] at h
    by_cases h2 : e = '\\'
    · rw [if_pos h2] at h; cases h; subst h2; decide
    rw [if_neg h2] at h
    by_cases h3 : e = '/'
    · rw [if_pos h3] at h; cases h; subst h3; decide
    rw [if_neg h3] at h
    by_cases h4 : e = 'b'
    · rw [if_pos h4] at h; cases h; subst h4; decide
    rw [if_neg h4] at h
    by_cases h5 : e = 'f'
    · rw [if_pos h5] at h; cases h; subst h5; decide
    rw [if_neg h5] at h
    by_cases h6 : e = 'n'
    · rw [if_pos h6] at h; cases h; subst h6; decide
    rw [if_neg h6] at h
    by_cases h7 : e = 'r'
    · rw [if_pos h7] at h; cases h; subst h7; decide
    rw [if_neg h7] at h
    by_cases h8 : e = 't'
    · rw [if_pos h8] at h; cases h; subst h8; decide
    rw [if_neg h8] at h; cases h
  · intro h
    simp only [List.mem_cons, List.not_mem_nil, or_false, Prod.mk.injEq] at h
    rcases h with ⟨rfl, rfl⟩ | ⟨rfl, rfl⟩ | ⟨rfl, rfl⟩ | ⟨rfl, rfl⟩ | ⟨rfl, rfl⟩ | ⟨rfl, rfl⟩ | ⟨rfl, rfl⟩ | ⟨rfl, rfl⟩ <;> decide

theorem toNat_ofNat {n : Nat} (h : n.isValidChar) : (Char.ofNat n).toNat = n := by
  unfold Char.ofNat
  rw [dif_pos h]
  rfl

/-- What the decoder reads as one character is one of the grammar. -/
theorem unesc_sound {c : Char} {r : Str} {x : Char} {r' : Str} (hq : c ≠ '"') (h : unesc c r = some (x, r')) :
    (c :: r).length > r'.length ∧ ∃ u, c :: r = u ++ r' ∧ ∀ t s, Chars t s → (∃ z, r' = t ++ '"' :: z) → Chars (u ++ t) (x :: s) := by
  unfold unesc at h
  by_cases hb : c = '\\'
  · subst hb
    rw [if_pos rfl] at h
    cases r with
    | nil => cases h
    | cons e r =>
      dsimp only at h
      by_cases he : e = 'u'
      · subst he
        rw [if_pos rfl] at h
        unfold uEsc at h
        split at h
        · rename_i a b c d r
          cases hn : hexVal4 a b c d with
          | none => rw [hn] at h; cases h
          | some n =>
            rw [hn] at h
            dsimp only at h
            have hu := hexVal4_iff.1 hn
            have hlt := codeUnit_lt hu
            by_cases hs : 0xD800 ≤ n ∧ n < 0xE000
            · rw [if_pos hs] at h
              by_cases hh : n < 0xDC00
              · rw [if_pos hh] at h
                cases hl : lowSurrogate r with
                | none =>
                  rw [hl] at h
                  cases h
                  refine ⟨by simp; omega, ['\\', 'u', a, b, c, d], rfl, fun t s ht hz => ?_⟩
                  obtain ⟨z, rfl⟩ := hz
                  refine .half hu (.inl ⟨hs.1, by omega⟩) (fun _ => ?_) ht
                  rintro ⟨v, l, y, rfl, h1, h2⟩
                  exact lowSurrogate_none.1 hl ⟨v, l, y ++ '"' :: z, by simp, h1, h2⟩
                | some p =>
                  obtain ⟨m, y⟩ := p
                  rw [hl] at h
                  simp only [Option.some.injEq, Prod.mk.injEq] at h
                  obtain ⟨rfl, rfl⟩ := h
                  obtain ⟨v, rfl, h1, h2⟩ := lowSurrogate_iff.1 hl
                  refine ⟨by simp; omega, ['\\', 'u', a, b, c, d] ++ v, by simp, fun t s ht hz => ?_⟩
                  rw [List.append_assoc]
                  refine .pair hu ⟨hs.1, by omega⟩ h1 h2 ?_ ht
                  rw [toNat_ofNat]
                  · omega
                  · right
                    have := h2.1; have := h2.2
                    omega
              · rw [if_neg hh] at h
                cases h
                refine ⟨by simp; omega, ['\\', 'u', a, b, c, d], rfl, fun t s ht hz => ?_⟩
                exact .half hu (.inr ⟨by omega, by omega⟩) (fun hx => absurd hx.2 (by omega)) ht
            · rw [if_neg hs] at h
              cases h
              refine ⟨by simp; omega, ['\\', 'u', a, b, c, d], rfl, fun t s ht hz => ?_⟩
              refine .unit ?_ ht
              rw [toNat_ofNat]
              · exact hu
              · by_cases hx : n < 0xD800
                · exact .inl hx
                · exact .inr (by omega)
        · cases h
      · rw [if_neg he] at h
        cases hs : simpleEsc e with
        | none => rw [hs] at h; cases h
        | some y =>
          rw [hs] at h
          cases h
          refine ⟨by simp; omega, ['\\', e], rfl, fun t s ht _ => ?_⟩
          exact .letter (simpleEsc_iff.1 hs) ht
  · rw [if_neg hb] at h
    by_cases hc : c.toNat < 0x20
    · rw [if_pos hc] at h; cases h
    · rw [if_neg hc] at h
      cases h
      exact ⟨by simp, [c], rfl, fun t s ht _ => .plain (by omega) hq hb ht⟩

theorem unesc_u (r : Str) : unesc '\\' ('u' :: r) = uEsc r := by
  rw [unesc, if_pos rfl, if_pos rfl]

/-- Strings. -/
theorem parseStr_sound {n : Nat} {s x r : Str} (h : parseStr n s = some (x, r)) : ∃ t, s = t ++ '"' :: r ∧ Chars t x := by
  induction n generalizing s x with
  | zero => rw [parseStr] at h; cases h
  | succ n ih =>
    cases s with
    | nil => rw [parseStr] at h; cases h
    | cons c s =>
      rw [parseStr] at h
      by_cases hq : c = '"'
      · rw [if_pos hq] at h
        cases h
        exact ⟨[], by rw [hq]; rfl, .nil⟩
      · rw [if_neg hq] at h
        cases hu : unesc c s with
        | none => rw [hu] at h; cases h
        | some p =>
          obtain ⟨y, s'⟩ := p
          rw [hu] at h
          dsimp only at h
          cases hp : parseStr n s' with
          | none => rw [hp] at h; cases h
          | some p =>
            obtain ⟨z, r'⟩ := p
            rw [hp] at h
            cases h
            obtain ⟨t, e, ht⟩ := ih hp
            obtain ⟨-, u, hu1, hu2⟩ := unesc_sound hq hu
            exact ⟨u ++ t, by rw [hu1, e, List.append_assoc], hu2 t z ht ⟨r, e⟩⟩

theorem parseStr_complete {t x : Str} (h : Chars t x) (r : Str) (n : Nat) (hn : t.length < n) :
    parseStr n (t ++ '"' :: r) = some (x, r) := by
  induction h generalizing n with
  | nil =>
    cases n with
    | zero => cases hn
    | succ n => rw [List.nil_append, parseStr, if_pos rfl]
  | @plain c t s h1 h2 h3 _ ih =>
    cases n with
    | zero => cases hn
    | succ n =>
      rw [List.cons_append, parseStr, if_neg h2, unesc.eq_def, if_neg h3, if_neg (by omega)]
      dsimp only
      rw [ih n (by simp at hn; omega)]
  | @letter e c t s h1 _ ih =>
    cases n with
    | zero => cases hn
    | succ n =>
      have he : e ≠ 'u' := by
        rintro rfl
        revert h1
        unfold escapeLetters
        simp
      have hu : unesc '\\' (e :: (t ++ '"' :: r)) = some (c, t ++ '"' :: r) := by
        rw [unesc, if_pos rfl, if_neg he, simpleEsc_iff.2 h1]
        rfl
      show parseStr (n + 1) ('\\' :: e :: (t ++ '"' :: r)) = _
      rw [parseStr, if_neg (by decide), hu]
      dsimp only
      rw [ih n (by simp at hn; omega)]
  | @unit u c t s h1 _ ih =>
    cases n with
    | zero => cases hn
    | succ n =>
      have h1' := h1
      obtain ⟨a, b, d, e, w, x, y, z, rfl, -⟩ := h1'
      have hv := hexVal4_iff.2 h1
      show parseStr (n + 1) ('\\' :: 'u' :: a :: b :: d :: e :: (t ++ '"' :: r)) = _
      rw [parseStr, if_neg (by decide), unesc_u, uEsc, hv]
      dsimp only
      have hval : ¬ (0xD800 ≤ c.toNat ∧ c.toNat < 0xE000) := by
        have := c.valid
        rcases this with h | h
        · have : c.toNat < 0xd800 := h
          omega
        · have : 0xdfff < c.toNat := h.1
          omega
      rw [if_neg hval, Char.ofNat_toNat]
      dsimp only
      rw [ih n (by simp at hn; omega)]
  | @pair u v hh l c t s h1 h2 h3 h4 h5 _ ih =>
    cases n with
    | zero => cases hn
    | succ n =>
      have h1' := h1
      obtain ⟨a, b, d, e, w, x, y, z, rfl, -⟩ := h1'
      have hv := hexVal4_iff.2 h1
      have hlen : v.length = 6 := by
        obtain ⟨_, _, _, _, _, _, _, _, rfl, -⟩ := h3
        rfl
      rw [show ['\\', 'u', a, b, d, e] ++ (v ++ t) ++ '"' :: r = '\\' :: 'u' :: a :: b :: d :: e :: (v ++ (t ++ '"' :: r)) by simp]
      rw [parseStr, if_neg (by decide), unesc_u, uEsc, hv]
      dsimp only
      have := h2.1; have := h2.2; have := h4.1; have := h4.2
      rw [if_pos ⟨by omega, by omega⟩, if_pos (by omega), lowSurrogate_iff.2 ⟨v, rfl, h3, h4⟩]
      dsimp only
      rw [show (hh - 55296) * 1024 + (l - 56320) + 65536 = c.toNat by omega, Char.ofNat_toNat, ih n (by simp at hn; omega)]
  | @half u m t s h1 h2 h3 _ ih =>
    cases n with
    | zero => cases hn
    | succ n =>
      have h1' := h1
      obtain ⟨a, b, d, e, w, x, y, z, rfl, -⟩ := h1'
      have hv := hexVal4_iff.2 h1
      show parseStr (n + 1) ('\\' :: 'u' :: a :: b :: d :: e :: (t ++ '"' :: r)) = _
      rw [parseStr, if_neg (by decide), unesc_u, uEsc, hv]
      dsimp only
      have hs : 0xD800 ≤ m ∧ m < 0xE000 := by
        rcases h2 with h | h
        · have := h.1; have := h.2; omega
        · have := h.1; have := h.2; omega
      rw [if_pos hs]
      by_cases hh : m < 0xDC00
      · have : lowSurrogate (t ++ '"' :: r) = none := by
          rw [lowSurrogate_none]
          rintro ⟨v, l, y', e1, e2, e3⟩
          obtain ⟨t', e4, -⟩ := codeUnit_before e1 e2
          exact h3 ⟨hs.1, by omega⟩ ⟨v, l, t', e4, e2, e3⟩
        rw [if_pos hh, this]
        dsimp only
        rw [ih n (by simp at hn; omega)]
      · rw [if_neg hh]
        dsimp only
        rw [ih n (by simp at hn; omega)]

/-! ### Numbers -/

theorem digit_mem {c : Char} (h : isDigit c = true) : c ∈ "0123456789".toList := by
  unfold isDigit at h
  rw [decide_eq_true_eq] at h
  have hle : ∀ a b : Char, a ≤ b ↔ a.toNat ≤ b.toNat := fun a b => Iff.rfl
  rw [hle, hle] at h
  have : c = Char.ofNat c.toNat := (Char.ofNat_toNat c).symm
  obtain ⟨k, hk⟩ : ∃ k : Fin 10, c.toNat = 48 + k.val := ⟨⟨c.toNat - 48, by have : '9'.toNat = 57 := rfl; have : '0'.toNat = 48 := rfl; omega⟩, by have : '0'.toNat = 48 := rfl; simp only; omega⟩
  have gen : ∀ k : Fin 10, Char.ofNat (48 + k.val) ∈ "0123456789".toList := by decide
  rw [this, hk]
  exact gen k

theorem digits_mem {s : Str} : ∀ c ∈ s.takeWhile isDigit, c ∈ "0123456789".toList := fun _ h => digit_mem (mem_takeWhile h)

theorem digits_split (s : Str) : s = s.takeWhile isDigit ++ s.dropWhile isDigit := (List.takeWhile_append_dropWhile).symm

theorem parseNat_sound {s t r : Str} (h : parseNat s = some (t, r)) : ∃ int frac exp, s = int ++ (frac ++ exp) ++ r ∧ t = int ++ (frac ++ exp) ∧
    (int = ['0'] ∨ (int ≠ [] ∧ (∀ c ∈ int, c ∈ "0123456789".toList) ∧ int.head? ≠ some '0')) ∧
    (frac = [] ∨ ∃ ds, frac = '.' :: ds ∧ ds ≠ [] ∧ ∀ c ∈ ds, c ∈ "0123456789".toList) ∧
    (exp = [] ∨ ∃ e sgn ds, exp = e :: (sgn ++ ds) ∧ (e = 'e' ∨ e = 'E') ∧ (sgn = [] ∨ sgn = ['+'] ∨ sgn = ['-']) ∧
      ds ≠ [] ∧ ∀ c ∈ ds, c ∈ "0123456789".toList) := by
  unfold parseNat at h
  cases h1 : parseIntPart s with
  | none => rw [h1] at h; cases h
  | some p =>
    obtain ⟨a, r1⟩ := p
    rw [h1] at h
    dsimp only at h
    cases h2 : parseFrac r1 with
    | none => rw [h2] at h; cases h
    | some p =>
      obtain ⟨b, r2⟩ := p
      rw [h2] at h
      dsimp only at h
      cases h3 : parseExp r2 with
      | none => rw [h3] at h; cases h
      | some p =>
        obtain ⟨c, r3⟩ := p
        rw [h3] at h
        cases h
        have e1 : s = a ++ r1 ∧ (a = ['0'] ∨ (a ≠ [] ∧ (∀ c ∈ a, c ∈ "0123456789".toList) ∧ a.head? ≠ some '0')) := by
          rw [parseIntPart.eq_def] at h1
          split at h1
          · cases h1
            exact ⟨rfl, .inl rfl⟩
          · rename_i x y hx
            by_cases hd : isDigit x = true
            · rw [if_pos hd] at h1
              cases h1
              refine ⟨digits_split _, .inr ⟨?_, digits_mem, ?_⟩⟩
              · rw [List.takeWhile_cons_of_pos hd]; simp
              · rw [List.takeWhile_cons_of_pos hd]
                intro h0
                cases h0
                exact hx rfl
            · rw [if_neg hd] at h1; cases h1
          · cases h1
        have e2 : r1 = b ++ r2 ∧ (b = [] ∨ ∃ ds, b = '.' :: ds ∧ ds ≠ [] ∧ ∀ c ∈ ds, c ∈ "0123456789".toList) := by
          rw [parseFrac.eq_def] at h2
          split at h2
          · rename_i y
            by_cases hd : y.takeWhile isDigit = []
            · rw [if_pos hd] at h2; cases h2
            · rw [if_neg hd] at h2
              cases h2
              exact ⟨by rw [List.cons_append, ← digits_split], .inr ⟨_, rfl, hd, digits_mem⟩⟩
          · cases h2
            exact ⟨rfl, .inl rfl⟩
        have e3 : r2 = c ++ r ∧ (c = [] ∨ ∃ e sgn ds, c = e :: (sgn ++ ds) ∧ (e = 'e' ∨ e = 'E') ∧ (sgn = [] ∨ sgn = ['+'] ∨ sgn = ['-']) ∧
            ds ≠ [] ∧ ∀ c ∈ ds, c ∈ "0123456789".toList) := by
          rw [parseExp.eq_def] at h3
          split at h3
          · rename_i e y
            by_cases he : e = 'e' ∨ e = 'E'
            · rw [if_pos he] at h3
              by_cases hd : (expSign y).2.takeWhile isDigit = []
              · rw [if_pos hd] at h3; cases h3
              · rw [if_neg hd] at h3
                cases h3
                have hy : y = (expSign y).1 ++ (expSign y).2 ∧ ((expSign y).1 = [] ∨ (expSign y).1 = ['+'] ∨ (expSign y).1 = ['-']) := by
                  rw [expSign.eq_def]
                  split <;> simp
                refine ⟨?_, .inr ⟨e, _, _, rfl, he, hy.2, hd, digits_mem⟩⟩
                rw [List.cons_append, List.append_assoc, ← digits_split, ← hy.1]
            · rw [if_neg he] at h3
              cases h3
              exact ⟨rfl, .inl rfl⟩
          · cases h3
            exact ⟨rfl, .inl rfl⟩
        refine ⟨a, b, c, ?_, by simp, e1.2, e2.2, e3.2⟩
        rw [e1.1, e2.1, e3.1]
        simp

theorem parseNum_sound {s t r : Str} (h : parseNum s = some (t, r)) : s = t ++ r ∧ NumText t := by
  rw [parseNum.eq_def] at h
  split at h
  · rename_i y
    cases hn : parseNat y with
    | none => rw [hn] at h; cases h
    | some p =>
      obtain ⟨t', r'⟩ := p
      rw [hn] at h
      cases h
      obtain ⟨int, frac, exp, h1, h2, h3, h4, h5⟩ := parseNat_sound hn
      exact ⟨by rw [h1, h2]; simp, ⟨['-'], int, frac, exp, by rw [h2]; rfl, .inr rfl, h3, h4, h5⟩⟩
  · obtain ⟨int, frac, exp, h1, h2, h3, h4, h5⟩ := parseNat_sound h
    exact ⟨by rw [h1, h2], ⟨[], int, frac, exp, by rw [h2]; rfl, .inl rfl, h3, h4, h5⟩⟩

/-! ### Values -/

theorem word_sound {w : Str} {j j' : Json} {s r : Str} (h : parseWord w j s = some (j', r)) : j' = j ∧ s = w ++ r := by
  unfold parseWord at h
  by_cases hp : w.isPrefixOf s = true
  · rw [if_pos hp] at h
    cases h
    obtain ⟨t, rfl⟩ := List.isPrefixOf_iff_prefix.1 hp
    exact ⟨rfl, by rw [List.drop_left]⟩
  · rw [if_neg hp] at h; cases h

/-- Whatever the decoder reads is in the grammar. -/
theorem parse_sound (n : Nat) :
    (∀ s j r, parseVal n s = some (j, r) → ∃ w t, s = w ++ (t ++ r) ∧ JBlank w ∧ ValueText t j) ∧
    (∀ s l r, parseElems n s = some (l, r) → ∃ t, s = t ++ ']' :: r ∧ ElemsText t l) ∧
    (∀ s l r, parseMembers n s = some (l, r) → ∃ t, s = t ++ '}' :: r ∧ MembersText t l) := by
  induction n with
  | zero => refine ⟨?_, ?_, ?_⟩ <;> intro s j r h <;> simp [parseVal, parseElems, parseMembers] at h
  | succ n ih =>
    obtain ⟨ihv, ihe, ihm⟩ := ih
    refine ⟨?_, ?_, ?_⟩
    · intro s j r h
      rw [parseVal] at h
      obtain ⟨w, hw, hb⟩ := skipWs_split s
      refine ⟨w, ?_⟩
      suffices hx : ∃ t, skipWs s = t ++ r ∧ ValueText t j by
        obtain ⟨t, h1, h2⟩ := hx
        exact ⟨t, by rw [← h1]; exact hw, hb, h2⟩
      cases hs : skipWs s with
      | nil => rw [hs] at h; cases h
      | cons c u =>
        rw [hs] at h
        dsimp only at h
        by_cases h1 : c = '"'
        · rw [if_pos h1] at h
          cases hp : parseStr (u.length + 1) u with
          | none => rw [hp] at h; cases h
          | some p =>
            obtain ⟨x, r'⟩ := p
            rw [hp] at h
            simp only [Option.map_some, Option.some.injEq, Prod.mk.injEq] at h
            obtain ⟨rfl, rfl⟩ := h
            obtain ⟨t, rfl, ht⟩ := parseStr_sound hp
            refine ⟨'"' :: (t ++ ['"']), by rw [h1]; simp, ?_⟩
            rw [show (t ++ '"' :: r').length - r'.length - 1 = t.length by simp; omega, List.take_left]
            exact .str ht
        rw [if_neg h1] at h
        by_cases h2 : c = '['
        · rw [if_pos h2] at h
          split at h
          · rename_i r' heq
            cases h
            obtain ⟨w', hw', hb'⟩ := skipWs_split u
            refine ⟨'[' :: (w' ++ [']']), ?_, .noElems hb'⟩
            rw [h2, hw', heq]; simp
          · cases hp : parseElems n u with
            | none => rw [hp] at h; cases h
            | some p =>
              obtain ⟨l, r'⟩ := p
              rw [hp] at h
              cases h
              obtain ⟨t, rfl, ht⟩ := ihe u l r' hp
              exact ⟨'[' :: (t ++ [']']), by rw [h2]; simp, .elems ht⟩
        rw [if_neg h2] at h
        by_cases h3 : c = '{'
        · rw [if_pos h3] at h
          split at h
          · rename_i r' heq
            cases h
            obtain ⟨w', hw', hb'⟩ := skipWs_split u
            refine ⟨'{' :: (w' ++ ['}']), ?_, .noMembers hb'⟩
            rw [h3, hw', heq]; simp
          · cases hp : parseMembers n u with
            | none => rw [hp] at h; cases h
            | some p =>
              obtain ⟨l, r'⟩ := p
              rw [hp] at h
              cases h
              obtain ⟨t, rfl, ht⟩ := ihm u l r' hp
              exact ⟨'{' :: (t ++ ['}']), by rw [h3]; simp, .members ht⟩
        rw [if_neg h3] at h
        by_cases h4 : c = 'n'
        · rw [if_pos h4] at h
          obtain ⟨rfl, e⟩ := word_sound h
          exact ⟨_, e, .null⟩
        rw [if_neg h4] at h
        by_cases h5 : c = 't'
        · rw [if_pos h5] at h
          obtain ⟨rfl, e⟩ := word_sound h
          exact ⟨_, e, .true⟩
        rw [if_neg h5] at h
        by_cases h6 : c = 'f'
        · rw [if_pos h6] at h
          obtain ⟨rfl, e⟩ := word_sound h
          exact ⟨_, e, .false⟩
        rw [if_neg h6] at h
        cases hp : parseNum (c :: u) with
        | none => rw [hp] at h; cases h
        | some p =>
          obtain ⟨t, r'⟩ := p
          rw [hp] at h
          cases h
          obtain ⟨e, ht⟩ := parseNum_sound hp
          exact ⟨t, e, .num ht⟩
    · intro s l r h
      rw [parseElems] at h
      cases hv : parseVal n s with
      | none => rw [hv] at h; cases h
      | some p =>
        obtain ⟨j, r1⟩ := p
        rw [hv] at h
        dsimp only at h
        obtain ⟨w, t, rfl, hb, ht⟩ := ihv _ _ _ hv
        obtain ⟨x, hx, hbx⟩ := skipWs_split r1
        split at h
        · rename_i r2 heq
          cases hp : parseElems n r2 with
          | none => rw [hp] at h; cases h
          | some p =>
            obtain ⟨l', r'⟩ := p
            rw [hp] at h
            cases h
            obtain ⟨u, rfl, hu⟩ := ihe _ _ _ hp
            exact ⟨_, by rw [hx, heq]; simp, .more hb ht hbx hu⟩
        · rename_i r2 heq
          cases h
          exact ⟨_, by rw [hx, heq]; simp, .one hb ht hbx⟩
        · cases h
    · intro s l r h
      rw [parseMembers] at h
      obtain ⟨w, hw, hbw⟩ := skipWs_split s
      split at h
      · rename_i r0 heq0
        cases hk : parseStr (r0.length + 1) r0 with
        | none => rw [hk] at h; cases h
        | some p =>
          obtain ⟨k, r1⟩ := p
          rw [hk] at h
          dsimp only at h
          obtain ⟨q, rfl, hq⟩ := parseStr_sound hk
          obtain ⟨x, hx, hbx⟩ := skipWs_split r1
          split at h
          · rename_i r2 heq1
            cases hv : parseVal n r2 with
            | none => rw [hv] at h; cases h
            | some p =>
              obtain ⟨j, r3⟩ := p
              rw [hv] at h
              dsimp only at h
              obtain ⟨y, t, rfl, hby, ht⟩ := ihv _ _ _ hv
              obtain ⟨z, hz, hbz⟩ := skipWs_split r3
              split at h
              · rename_i r4 heq2
                cases hp : parseMembers n r4 with
                | none => rw [hp] at h; cases h
                | some p =>
                  obtain ⟨l', r'⟩ := p
                  rw [hp] at h
                  cases h
                  obtain ⟨u, rfl, hu⟩ := ihm _ _ _ hp
                  refine ⟨_, ?_, .more hbw hq hbx hby ht hbz hu⟩
                  rw [hw, heq0, hx, heq1, hz, heq2]; simp
              · rename_i r4 heq2
                cases h
                refine ⟨_, ?_, .one hbw hq hbx hby ht hbz⟩
                rw [hw, heq0, hx, heq1, hz, heq2]; simp
              · cases h
          · cases h
      · cases h

/-- The first character of a value. -/
theorem value_head {t : Str} {j : Json} (h : ValueText t j) : ∃ c u, t = c :: u ∧ isWs c = false ∧ c ≠ ']' ∧ c ≠ '}' := by
  cases h with
  | null => exact ⟨'n', _, rfl, by decide⟩
  | true => exact ⟨'t', _, rfl, by decide⟩
  | false => exact ⟨'f', _, rfl, by decide⟩
  | str _ => exact ⟨'"', _, rfl, by decide⟩
  | noElems _ => exact ⟨'[', _, rfl, by decide⟩
  | elems _ => exact ⟨'[', _, rfl, by decide⟩
  | noMembers _ => exact ⟨'{', _, rfl, by decide⟩
  | members _ => exact ⟨'{', _, rfl, by decide⟩
  | num h =>
    obtain ⟨c, r, e, hc⟩ := numText_head h
    refine ⟨c, r, e, (head_plain hc).1, ?_, ?_⟩
    · rintro rfl; rcases hc with hc | hc
      · cases hc
      · revert hc; decide
    · rintro rfl; rcases hc with hc | hc
      · cases hc
      · revert hc; decide

theorem numEnd_blank {x : Str} (hx : JBlank x) {r : Str} (hr : NumEnd r) : NumEnd (x ++ r) := by
  cases x with
  | nil => exact hr
  | cons c x =>
    intro d hd
    cases hd
    rcases hx c (by simp) with rfl | rfl | rfl | rfl <;> decide

theorem numEnd_cons {c : Char} (h : isDigit c = false ∧ c ≠ '.' ∧ c ≠ 'e' ∧ c ≠ 'E') (r : Str) : NumEnd (c :: r) := by
  intro d hd
  cases hd
  exact h

theorem elems_head {t : Str} {l : List Json} (h : ElemsText t l) : ∃ w c u, t = w ++ c :: u ∧ JBlank w ∧ isWs c = false ∧ c ≠ ']' := by
  cases h with
  | one h1 h2 h3 =>
    obtain ⟨c, u, rfl, g1, g2, -⟩ := value_head h2
    exact ⟨_, c, _, rfl, h1, g1, g2⟩
  | more h1 h2 h3 h4 =>
    obtain ⟨c, u, rfl, g1, g2, -⟩ := value_head h2
    exact ⟨_, c, _, rfl, h1, g1, g2⟩

theorem members_head {t : Str} {l : List (Str × Json)} (h : MembersText t l) : ∃ w u, t = w ++ '"' :: u ∧ JBlank w := by
  cases h with
  | one h1 => exact ⟨_, _, rfl, h1⟩
  | more h1 => exact ⟨_, _, rfl, h1⟩

/-- Whatever is in the grammar is read. -/
theorem parse_complete (n : Nat) :
    (∀ t j, ValueText t j → 2 * t.length ≤ n → ∀ r, NumEnd r → parseVal n (t ++ r) = some (j, r)) ∧
    (∀ t l, ElemsText t l → 2 * t.length + 1 ≤ n → ∀ r, parseElems n (t ++ ']' :: r) = some (l, r)) ∧
    (∀ t l, MembersText t l → 2 * t.length + 1 ≤ n → ∀ r, parseMembers n (t ++ '}' :: r) = some (l, r)) := by
  induction n with
  | zero =>
    refine ⟨?_, fun _ _ _ h => absurd h (by omega), fun _ _ _ h => absurd h (by omega)⟩
    intro t j h hn
    obtain ⟨c, u, rfl, -⟩ := value_head h
    simp at hn
  | succ n ih =>
    obtain ⟨ihv, ihe, ihm⟩ := ih
    have ihv' : ∀ w t j, JBlank w → ValueText t j → 2 * t.length ≤ n → ∀ r, NumEnd r → parseVal n (w ++ (t ++ r)) = some (j, r) := by
      intro w t j hw ht hn r hr
      have := ihv t j ht hn r hr
      rw [← parseVal_skip] at this ⊢
      rwa [skipWs_blank hw]
    refine ⟨?_, ?_, ?_⟩
    · intro t j h hn r hr
      have hsk : skipWs (t ++ r) = t ++ r := by
        obtain ⟨c, u, rfl, hc, -⟩ := value_head h
        exact skip_cons hc _
      rw [parseVal, hsk]
      cases h with
      | null => rfl
      | true => rfl
      | false => rfl
      | num h =>
        obtain ⟨c, u, e, hc⟩ := numText_head h
        obtain ⟨-, p2, p3, p4, p5, p6, p7⟩ := head_plain hc
        have hp := parseNum_text h r hr
        rw [e, List.cons_append]
        dsimp only
        rw [if_neg p2, if_neg p3, if_neg p4, if_neg p5, if_neg p6, if_neg p7]
        rw [← List.cons_append, ← e, hp]
        rfl
      | @str t s h =>
        have hp := parseStr_complete h r ((t ++ '"' :: r).length + 1) (by simp; omega)
        rw [show '"' :: (t ++ ['"']) ++ r = '"' :: (t ++ '"' :: r) by simp]
        dsimp only
        rw [if_pos rfl, hp]
        simp only [Option.map_some]
        rw [show (t ++ '"' :: r).length - r.length - 1 = t.length by simp; omega, List.take_left]
      | @noElems w h =>
        rw [show '[' :: (w ++ [']']) ++ r = '[' :: (w ++ ']' :: r) by simp]
        dsimp only
        rw [if_neg (by decide), if_pos rfl, skipWs_blank h, skip_cons (by decide)]
        rfl
      | @elems t l h =>
        have hp := ihe t l h (by simp at hn; omega) r
        rw [show '[' :: (t ++ [']']) ++ r = '[' :: (t ++ ']' :: r) by simp]
        dsimp only
        rw [if_neg (by decide), if_pos rfl, hp]
        obtain ⟨w, c, u, rfl, g1, g2, g3⟩ := elems_head h
        rw [List.append_assoc, skipWs_blank g1, List.cons_append, skip_cons g2]
        split
        · rename_i heq; cases heq; exact absurd rfl g3
        · rfl
      | @noMembers w h =>
        rw [show '{' :: (w ++ ['}']) ++ r = '{' :: (w ++ '}' :: r) by simp]
        dsimp only
        rw [if_neg (by decide), if_neg (by decide), if_pos rfl, skipWs_blank h, skip_cons (by decide)]
        rfl
      | @members t l h =>
        have hp := ihm t l h (by simp at hn; omega) r
        rw [show '{' :: (t ++ ['}']) ++ r = '{' :: (t ++ '}' :: r) by simp]
        dsimp only
        rw [if_neg (by decide), if_neg (by decide), if_pos rfl, hp]
        obtain ⟨w, u, rfl, g1⟩ := members_head h
        rw [List.append_assoc, skipWs_blank g1, List.cons_append, skip_cons (by decide)]
        rfl
    · intro t l h hn r
      rw [parseElems]
      cases h with
      | @one w t x j h1 h2 h3 =>
        simp only [List.length_append] at hn
        rw [show w ++ (t ++ x) ++ ']' :: r = w ++ (t ++ (x ++ ']' :: r)) by simp,
          ihv' w t j h1 h2 (by omega) _ (numEnd_blank h3 (numEnd_cons (by decide) r))]
        dsimp only
        rw [skipWs_blank h3, skip_cons (by decide)]
        rfl
      | @more w t x j u l h1 h2 h3 h4 =>
        simp only [List.length_append, List.length_cons] at hn
        rw [show w ++ (t ++ (x ++ ',' :: u)) ++ ']' :: r = w ++ (t ++ (x ++ ',' :: (u ++ ']' :: r))) by simp,
          ihv' w t j h1 h2 (by omega) _ (numEnd_blank h3 (numEnd_cons (by decide) _))]
        dsimp only
        rw [skipWs_blank h3, skip_cons (by decide)]
        show (parseElems n (u ++ ']' :: r)).map _ = _
        rw [ihe u l h4 (by omega) r]
        rfl
    · intro t l h hn r
      cases h with
      | @one w q k x y t z j h1 h2 h3 h4 h5 h6 =>
        simp only [List.length_append, List.length_cons] at hn
        have a0 : skipWs (w ++ '"' :: (q ++ '"' :: (x ++ ':' :: (y ++ (t ++ z)))) ++ '}' :: r) =
            '"' :: (q ++ '"' :: (x ++ ':' :: (y ++ (t ++ (z ++ '}' :: r))))) := by
          rw [List.append_assoc, skipWs_blank h1, List.cons_append, skip_cons (by decide)]; simp
        have a1 := parseStr_complete h2 (x ++ ':' :: (y ++ (t ++ (z ++ '}' :: r)))) ((q ++ '"' :: (x ++ ':' :: (y ++ (t ++ (z ++ '}' :: r))))).length + 1) (by simp; omega)
        have a2 : skipWs (x ++ ':' :: (y ++ (t ++ (z ++ '}' :: r)))) = ':' :: (y ++ (t ++ (z ++ '}' :: r))) := by
          rw [skipWs_blank h3, skip_cons (by decide)]
        have a3 := ihv' y t j h4 h5 (by omega) (z ++ '}' :: r) (numEnd_blank h6 (numEnd_cons (by decide) _))
        have a4 : skipWs (z ++ '}' :: r) = '}' :: r := by rw [skipWs_blank h6, skip_cons (by decide)]
        simp only [parseMembers, a0, a1, a2, a3, a4]
      | @more w q k x y t z j u l h1 h2 h3 h4 h5 h6 h7 =>
        simp only [List.length_append, List.length_cons] at hn
        have a0 : skipWs (w ++ '"' :: (q ++ '"' :: (x ++ ':' :: (y ++ (t ++ (z ++ ',' :: u))))) ++ '}' :: r) =
            '"' :: (q ++ '"' :: (x ++ ':' :: (y ++ (t ++ (z ++ ',' :: (u ++ '}' :: r)))))) := by
          rw [List.append_assoc, skipWs_blank h1, List.cons_append, skip_cons (by decide)]; simp
        have a1 := parseStr_complete h2 (x ++ ':' :: (y ++ (t ++ (z ++ ',' :: (u ++ '}' :: r))))) ((q ++ '"' :: (x ++ ':' :: (y ++ (t ++ (z ++ ',' :: (u ++ '}' :: r)))))).length + 1) (by simp; omega)
        have a2 : skipWs (x ++ ':' :: (y ++ (t ++ (z ++ ',' :: (u ++ '}' :: r))))) = ':' :: (y ++ (t ++ (z ++ ',' :: (u ++ '}' :: r)))) := by
          rw [skipWs_blank h3, skip_cons (by decide)]
        have a3 := ihv' y t j h4 h5 (by omega) (z ++ ',' :: (u ++ '}' :: r)) (numEnd_blank h6 (numEnd_cons (by decide) _))
        have a4 : skipWs (z ++ ',' :: (u ++ '}' :: r)) = ',' :: (u ++ '}' :: r) := by rw [skipWs_blank h6, skip_cons (by decide)]
        simp only [parseMembers, a0, a1, a2, a3, a4, ihm u l h7 (by omega) r, Option.map_some]

/-- The decoder accepts exactly the JSON texts. -/
theorem parse_iff {s : Str} {j : Json} : parse s = some j ↔ JsonText s j := by
  unfold parse
  constructor
  · intro h
    cases hv : parseVal (2 * s.length + 2) s with
    | none => rw [hv] at h; cases h
    | some p =>
      obtain ⟨j', r⟩ := p
      rw [hv] at h
      dsimp only at h
      by_cases hr : skipWs r = []
      · rw [if_pos hr] at h
        cases h
        obtain ⟨w, t, e, hw, ht⟩ := (parse_sound _).1 _ _ _ hv
        obtain ⟨x, hx, hbx⟩ := skipWs_split r
        rw [hr, List.append_nil] at hx
        subst hx
        exact ⟨w, t, r, e, hw, ht, hbx⟩
      · rw [if_neg hr] at h; cases h
  · rintro ⟨w, t, x, rfl, hw, ht, hx⟩
    have hn : NumEnd x := by
      have := numEnd_blank hx (r := []) (by intro c hc; cases hc)
      rwa [List.append_nil] at this
    have := (parse_complete (2 * (w ++ (t ++ x)).length + 2)).1 t j ht (by simp only [List.length_append]; omega) x hn
    rw [← parseVal_skip, ← skipWs_blank hw, parseVal_skip] at this
    rw [this]
    dsimp only
    rw [if_pos (skipWs_all hx)]

end Verif.Json
