import Verif.Json.Json
import Verif.Spec.GenFuncs
import Verif.Props.GenFuncs
/-!
# Decoding inverts encoding
-/

namespace Verif.Json
open Verif.Schema
open Verif.Spec (numeral)

/-- An integer as the encoder writes it. -/
def intText (i : Int) : Str := if i < 0 then '-' :: numeral i.natAbs else numeral i.natAbs

/-- A number as JSON allows it: no leading zeros, an optional fraction and an optional exponent. -/
structure NumText (t : Str) : Prop where
  parts : ∃ sign int frac exp, t = sign ++ (int ++ (frac ++ exp)) ∧ (sign = [] ∨ sign = ['-']) ∧
    (int = ['0'] ∨ (int ≠ [] ∧ (∀ c ∈ int, c ∈ "0123456789".toList) ∧ int.head? ≠ some '0')) ∧
    (frac = [] ∨ ∃ ds, frac = '.' :: ds ∧ ds ≠ [] ∧ ∀ c ∈ ds, c ∈ "0123456789".toList) ∧
    (exp = [] ∨ ∃ e sgn ds, exp = e :: (sgn ++ ds) ∧ (e = 'e' ∨ e = 'E') ∧ (sgn = [] ∨ sgn = ['+'] ∨ sgn = ['-']) ∧
      ds ≠ [] ∧ ∀ c ∈ ds, c ∈ "0123456789".toList)

mutual
/-- All numbers are well-formed, and all strings are written as an encoder writes them. -/
def Nums : Json → Prop
  | .num t => NumText t
  | .arr l => NumsList l
  | .obj l => NumsMembers l
  | .str raw => ∃ html s, raw = escape html s
  | .null | .bool _ => True
/-- All numbers are well-formed. -/
def NumsList : List Json → Prop
  | [] => True
  | j :: l => Nums j ∧ NumsList l
/-- All numbers are well-formed. -/
def NumsMembers : List (Str × Json) → Prop
  | [] => True
  | (_, j) :: l => Nums j ∧ NumsMembers l
end

theorem NumsList_iff {l : List Json} : NumsList l ↔ ∀ j ∈ l, Nums j := by
  induction l with
  | nil => simp [NumsList]
  | cons j l ih => simp [NumsList, ih]

theorem NumsMembers_iff {l : List (Str × Json)} : NumsMembers l ↔ ∀ p ∈ l, Nums p.2 := by
  induction l with
  | nil => simp [NumsMembers]
  | cons p l ih => obtain ⟨k, j⟩ := p; simp [NumsMembers, ih]

/-! ### Strings -/

theorem hexVal_digit : ∀ n : Fin 16, hexVal (hexDigit n.val) = some n.val := by decide

theorem hexVal4_hex4 {n : Nat} (h : n < 65536) :
    hexVal4 (hexDigit (n / 4096 % 16)) (hexDigit (n / 256 % 16)) (hexDigit (n / 16 % 16)) (hexDigit (n % 16)) = some n := by
  have f : ∀ m, hexVal (hexDigit (m % 16)) = some (m % 16) := fun m => hexVal_digit ⟨m % 16, by omega⟩
  unfold hexVal4
  rw [f, f, f, f]
  dsimp only
  congr 1
  omega

theorem unesc_escChar (html : Bool) (c : Char) (r : Str) :
    ∃ d r', escChar html c ++ r = d :: r' ∧ d ≠ '"' ∧ unesc d r' = some (c, r) := by
  unfold escChar
  by_cases h1 : c = '"'
  · subst h1; exact ⟨'\\', _, rfl, by decide, rfl⟩
  rw [if_neg h1]
  by_cases h2 : c = '\\'
  · subst h2; exact ⟨'\\', _, rfl, by decide, rfl⟩
  rw [if_neg h2]
  by_cases h3 : c = '\x08'
  · subst h3; exact ⟨'\\', _, rfl, by decide, rfl⟩
  rw [if_neg h3]
  by_cases h4 : c = '\x0c'
  · subst h4; exact ⟨'\\', _, rfl, by decide, rfl⟩
  rw [if_neg h4]
  by_cases h5 : c = '\n'
  · subst h5; exact ⟨'\\', _, rfl, by decide, rfl⟩
  rw [if_neg h5]
  by_cases h6 : c = '\r'
  · subst h6; exact ⟨'\\', _, rfl, by decide, rfl⟩
  rw [if_neg h6]
  by_cases h7 : c = '\t'
  · subst h7; exact ⟨'\\', _, rfl, by decide, rfl⟩
  rw [if_neg h7]
  split
  · rename_i h
    refine ⟨'\\', _, rfl, by decide, ?_⟩
    have hlt : c.toNat < 0xD800 := by
      rcases h with h | ⟨-, h⟩ | h | h
      · omega
      · rcases h with rfl | rfl | rfl <;> decide
      · omega
      · omega
    unfold unesc
    rw [if_pos rfl]
    rw [show ∀ x : Str, ('u' :: x).append r = 'u' :: (x ++ r) from fun _ => rfl]
    dsimp only
    rw [if_pos rfl]
    unfold hex4
    simp only [List.cons_append, List.nil_append]
    rw [uEsc, hexVal4_hex4 (n := c.toNat) (by omega)]
    dsimp only
    rw [if_neg (by omega)]
    rw [Char.ofNat_toNat]
  · rename_i h
    refine ⟨c, r, rfl, h1, ?_⟩
    unfold unesc
    rw [if_neg h2, if_neg (fun hh => h (Or.inl hh))]

theorem escChar_pos (html : Bool) (c : Char) : 1 ≤ (escChar html c).length := by
  obtain ⟨d, r', h, -⟩ := unesc_escChar html c []
  rw [List.append_nil] at h
  rw [h]; simp

theorem parseStr_quote (html : Bool) (s r : Str) (n : Nat) (hn : s.length < n) :
    parseStr n (s.flatMap (escChar html) ++ '"' :: r) = some (s, r) := by
  induction s generalizing n with
  | nil =>
    cases n with
    | zero => simp at hn
    | succ n => rfl
  | cons c s ih =>
    cases n with
    | zero => simp at hn
    | succ n =>
      rw [List.flatMap_cons, List.append_assoc]
      obtain ⟨d, r', h, hd, hu⟩ := unesc_escChar html c (s.flatMap (escChar html) ++ '"' :: r)
      rw [h, parseStr, if_neg hd, hu]
      dsimp only
      rw [ih n (by simp at hn; omega)]

theorem quote_length (html : Bool) (s : Str) : s.length ≤ (s.flatMap (escChar html)).length := by
  induction s with
  | nil => simp
  | cons c s ih =>
    rw [List.flatMap_cons, List.length_append, List.length_cons]
    have := escChar_pos html c
    omega

/-- A quoted string is read back, with what follows. -/
theorem parseStr_quoted (html : Bool) (s r : Str) :
    ∃ t, quote html s ++ r = '"' :: t ∧ parseStr (t.length + 1) t = some (s, r) := by
  refine ⟨s.flatMap (escChar html) ++ '"' :: r, by simp [quote], ?_⟩
  apply parseStr_quote
  have := quote_length html s
  rw [List.length_append, List.length_cons]; omega

theorem cook_escape (html : Bool) (s : Str) : cook (escape html s) = some s := by
  unfold cook escape
  rw [parseStr_quote html s [] _ (by have := quote_length html s; omega)]

theorem nums_ofStr (html : Bool) (s : Str) : Nums (.ofStr html s) := by
  unfold Json.ofStr
  rw [Nums]
  exact ⟨html, s, rfl⟩

/-! ### Numbers -/

theorem isDigit_iff {c : Char} (h : c ∈ "0123456789".toList) : isDigit c = true := by
  have h2 : c ∈ ['0', '1', '2', '3', '4', '5', '6', '7', '8', '9'] := h
  simp only [List.mem_cons, List.not_mem_nil, or_false] at h2
  rcases h2 with rfl | rfl | rfl | rfl | rfl | rfl | rfl | rfl | rfl | rfl <;> decide

/-- What follows does not continue a number. -/
def NumEnd (r : Str) : Prop := ∀ c, r.head? = some c → isDigit c = false ∧ c ≠ '.' ∧ c ≠ 'e' ∧ c ≠ 'E'

theorem numeral_head {n : Nat} (h : n ≠ 0) : (numeral n).head? ≠ some '0' := by
  have h0 : numeral n = Nat.toDigits 10 n := by simp [numeral, Nat.repr]
  rw [h0]
  induction n using Nat.strongRecOn with
  | _ n ih =>
    by_cases hn : n < 10
    · rw [Nat.toDigits_of_lt_base hn]
      have : ∀ d : Fin 10, d.val ≠ 0 → some (Nat.digitChar d.val) ≠ some '0' := by decide
      exact this ⟨n, hn⟩ h
    · rw [Nat.toDigits_of_base_le (by omega) (by omega)]
      have hx := ih (n / 10) (by omega) (by omega) (by simp [Nat.repr, numeral])
      have hp := Nat.length_toDigits_pos (b := 10) (n := n / 10)
      cases hq : Nat.toDigits 10 (n / 10) with
      | nil => rw [hq] at hp; simp at hp
      | cons c t => rw [hq] at hx; exact hx

theorem takeWhile_digits (a r : Str) (ha : ∀ c ∈ a, c ∈ "0123456789".toList) (hr : ∀ c, r.head? = some c → isDigit c = false) :
    (a ++ r).takeWhile isDigit = a ∧ (a ++ r).dropWhile isDigit = r := by
  induction a with
  | nil =>
    cases r with
    | nil => simp
    | cons c r =>
      have := hr c rfl
      simp [this]
  | cons c a ih =>
    have h1 := isDigit_iff (ha c (by simp))
    obtain ⟨h2, h3⟩ := ih fun x hx => ha x (by simp [hx])
    rw [List.cons_append, List.takeWhile_cons_of_pos h1, List.dropWhile_cons_of_pos h1, h2, h3]
    exact ⟨rfl, rfl⟩

theorem numText_int (i : Int) : NumText (intText i) := by
  have hi : numeral i.natAbs = ['0'] ∨ (numeral i.natAbs ≠ [] ∧ (∀ c ∈ numeral i.natAbs, c ∈ "0123456789".toList) ∧
      (numeral i.natAbs).head? ≠ some '0') := by
    obtain ⟨hne, hd⟩ := Verif.Props.numeral_digits i.natAbs
    by_cases hn : i.natAbs = 0
    · rw [hn]; exact Or.inl rfl
    · exact Or.inr ⟨hne, hd, numeral_head hn⟩
  unfold intText
  split
  · exact ⟨['-'], numeral i.natAbs, [], [], by simp, Or.inr rfl, hi, Or.inl rfl, Or.inl rfl⟩
  · exact ⟨[], numeral i.natAbs, [], [], by simp, Or.inl rfl, hi, Or.inl rfl, Or.inl rfl⟩

theorem exp_head {exp r : Str} (hr : NumEnd r)
    (h : exp = [] ∨ ∃ e sgn ds, exp = e :: (sgn ++ ds) ∧ (e = 'e' ∨ e = 'E') ∧ (sgn = [] ∨ sgn = ['+'] ∨ sgn = ['-']) ∧
      ds ≠ [] ∧ ∀ c ∈ ds, c ∈ "0123456789".toList) :
    ∀ c, (exp ++ r).head? = some c → isDigit c = false ∧ c ≠ '.' := by
  intro c hc
  rcases h with rfl | ⟨e, sgn, ds, rfl, he, -⟩
  · exact ⟨(hr c hc).1, (hr c hc).2.1⟩
  · simp only [List.cons_append, List.head?_cons, Option.some.injEq] at hc
    subst hc
    rcases he with rfl | rfl <;> decide

theorem parseNat_text {int frac exp r : Str} (hr : NumEnd r)
    (h1 : int = ['0'] ∨ (int ≠ [] ∧ (∀ c ∈ int, c ∈ "0123456789".toList) ∧ int.head? ≠ some '0'))
    (h2 : frac = [] ∨ ∃ ds, frac = '.' :: ds ∧ ds ≠ [] ∧ ∀ c ∈ ds, c ∈ "0123456789".toList)
    (h3 : exp = [] ∨ ∃ e sgn ds, exp = e :: (sgn ++ ds) ∧ (e = 'e' ∨ e = 'E') ∧ (sgn = [] ∨ sgn = ['+'] ∨ sgn = ['-']) ∧
      ds ≠ [] ∧ ∀ c ∈ ds, c ∈ "0123456789".toList) :
    parseNat (int ++ (frac ++ exp) ++ r) = some (int ++ (frac ++ exp), r) := by
  have e3 : parseExp (exp ++ r) = some (exp, r) := by
    rcases h3 with rfl | ⟨e, sgn, ds, rfl, he, hs, hd, hds⟩
    · rw [List.nil_append, parseExp.eq_def]
      cases r with
      | nil => rfl
      | cons e r =>
        dsimp only
        rw [if_neg]
        rintro (rfl | rfl)
        · exact absurd rfl (hr 'e' rfl).2.2.1
        · exact absurd rfl (hr 'E' rfl).2.2.2
    · have hsgn : expSign (sgn ++ (ds ++ r)) = (sgn, ds ++ r) := by
        rcases hs with rfl | rfl | rfl
        · cases ds with
          | nil => exact absurd rfl hd
          | cons c ds =>
            have hc := Verif.Props.digit_not (hds c (by simp))
            rw [List.nil_append, List.cons_append, expSign.eq_def]
            split
            · rename_i heq; cases heq; exact absurd rfl hc.2.1
            · rename_i heq; cases heq; exact absurd rfl hc.1
            · rfl
        · rfl
        · rfl
      obtain ⟨t1, t2⟩ := takeWhile_digits ds r hds fun c hc => (hr c hc).1
      rw [List.cons_append, List.append_assoc]
      unfold parseExp
      rw [if_pos he, hsgn]
      dsimp only
      rw [t1, t2, if_neg hd]
  have hx := exp_head hr h3
  have e2 : parseFrac (frac ++ (exp ++ r)) = some (frac, exp ++ r) := by
    rcases h2 with rfl | ⟨ds, rfl, hd, hds⟩
    · rw [List.nil_append, parseFrac.eq_def]
      split
      · rename_i r' heq
        exact absurd rfl (hx '.' (by rw [heq]; rfl)).2
      · rfl
    · obtain ⟨t1, t2⟩ := takeWhile_digits ds (exp ++ r) hds fun c hc => (hx c hc).1
      rw [List.cons_append, parseFrac]
      rw [t1, t2, if_neg hd]
  have hf : ∀ c, (frac ++ (exp ++ r)).head? = some c → isDigit c = false := by
    intro c hc
    rcases h2 with rfl | ⟨ds, rfl, -⟩
    · exact (hx c hc).1
    · simp only [List.cons_append, List.head?_cons, Option.some.injEq] at hc
      subst hc; decide
  have e1 : parseIntPart (int ++ (frac ++ (exp ++ r))) = some (int, frac ++ (exp ++ r)) := by
    rcases h1 with rfl | ⟨hne, hd, hh⟩
    · rfl
    · obtain ⟨t1, t2⟩ := takeWhile_digits int (frac ++ (exp ++ r)) hd hf
      cases int with
      | nil => exact absurd rfl hne
      | cons c s =>
        have hc : c ≠ '0' := by rintro rfl; exact hh rfl
        rw [parseIntPart.eq_def]
        split
        · rename_i heq; cases heq; exact absurd rfl hc
        · rename_i c' r' _ heq
          rw [List.cons_append] at heq
          cases heq
          rw [if_pos (isDigit_iff (hd c (by simp)))]
          rw [t1, t2]
        · rename_i heq; simp at heq
  unfold parseNat
  rw [show int ++ (frac ++ exp) ++ r = int ++ (frac ++ (exp ++ r)) by simp, e1]
  dsimp only
  rw [e2]
  dsimp only
  rw [e3]
  simp

theorem parseNum_text {t : Str} (h : NumText t) (r : Str) (hr : NumEnd r) : parseNum (t ++ r) = some (t, r) := by
  obtain ⟨sign, int, frac, exp, rfl, hs, h1, h2, h3⟩ := h
  have hp := parseNat_text hr h1 h2 h3
  rcases hs with rfl | rfl
  · rw [List.nil_append]
    have hne : ∃ c s, int = c :: s ∧ c ≠ '-' := by
      rcases h1 with rfl | ⟨hne, hd, -⟩
      · exact ⟨'0', [], rfl, by decide⟩
      · cases int with
        | nil => exact absurd rfl hne
        | cons c s => exact ⟨c, s, rfl, (Verif.Props.digit_not (hd c (by simp))).1⟩
    obtain ⟨c, s, rfl, hc⟩ := hne
    rw [parseNum.eq_def]
    split
    · rename_i heq; cases heq; exact absurd rfl hc
    · exact hp
  · rw [List.append_assoc, List.singleton_append, parseNum, hp]
    rfl

/-! ### Values -/

mutual
/-- Enough fuel for a value. -/
def size : Json → Nat
  | .arr l => 1 + sizeList l
  | .obj l => 1 + sizeMembers l
  | .null | .bool _ | .num _ | .str _ => 1
/-- Enough fuel for elements. -/
def sizeList : List Json → Nat
  | [] => 0
  | j :: l => 1 + size j + sizeList l
/-- Enough fuel for members. -/
def sizeMembers : List (Str × Json) → Nat
  | [] => 0
  | (_, j) :: l => 1 + size j + sizeMembers l
end

theorem skip_nl (st : Style) (d : Nat) (s : Str) : skipWs (nl st d ++ s) = skipWs s := by
  unfold nl
  split
  · unfold skipWs
    rw [List.cons_append, List.dropWhile_cons_of_pos (by decide)]
    induction d with
    | zero => rfl
    | succ d ih => rw [List.replicate_succ, List.cons_append, List.dropWhile_cons_of_pos (by decide), ih]
  · rfl

theorem skip_cons {c : Char} (h : isWs c = false) (s : Str) : skipWs (c :: s) = c :: s := by
  unfold skipWs
  exact List.dropWhile_cons_of_neg (by rw [h]; simp)

theorem nl_numEnd (st : Style) (d : Nat) (c : Char) (hc : c = ',' ∨ c = ']' ∨ c = '}') (r : Str) :
    NumEnd (nl st d ++ c :: r) := by
  unfold nl
  split
  · intro x hx
    cases hx
    decide
  · intro x hx
    cases hx
    rcases hc with rfl | rfl | rfl <;> decide

theorem numText_head {t : Str} (h : NumText t) : ∃ c r, t = c :: r ∧ (c = '-' ∨ c ∈ "0123456789".toList) := by
  obtain ⟨sign, int, frac, exp, rfl, hs, h1, -⟩ := h
  rcases hs with rfl | rfl
  · rcases h1 with rfl | ⟨hne, hd, -⟩
    · exact ⟨'0', _, rfl, Or.inr (by decide)⟩
    · cases int with
      | nil => exact absurd rfl hne
      | cons c s => exact ⟨c, _, rfl, Or.inr (hd c (by simp))⟩
  · exact ⟨'-', _, rfl, Or.inl rfl⟩

theorem head_plain {c : Char} (h : c = '-' ∨ c ∈ "0123456789".toList) :
    isWs c = false ∧ c ≠ '"' ∧ c ≠ '[' ∧ c ≠ '{' ∧ c ≠ 'n' ∧ c ≠ 't' ∧ c ≠ 'f' := by
  rcases h with rfl | h
  · decide
  · have h2 : c ∈ ['0', '1', '2', '3', '4', '5', '6', '7', '8', '9'] := h
    simp only [List.mem_cons, List.not_mem_nil, or_false] at h2
    rcases h2 with rfl | rfl | rfl | rfl | rfl | rfl | rfl | rfl | rfl | rfl <;> decide

/-- The first character of a printed value. -/
theorem print_head (st : Style) (d : Nat) (j : Json) (h : Nums j) :
    ∃ c r, print st d j = c :: r ∧ isWs c = false ∧ c ≠ ']' ∧ c ≠ '}' := by
  match j with
  | .null => exact ⟨'n', _, by rw [print]; rfl, by decide⟩
  | .bool true => exact ⟨'t', _, by rw [print]; rfl, by decide⟩
  | .bool false => exact ⟨'f', _, by rw [print]; rfl, by decide⟩
  | .str s => exact ⟨'"', _, by rw [print], by decide⟩
  | .arr [] => exact ⟨'[', _, by rw [print]; rfl, by decide⟩
  | .arr (j :: l) => exact ⟨'[', _, by rw [print], by decide⟩
  | .obj [] => exact ⟨'{', _, by rw [print]; rfl, by decide⟩
  | .obj ((k, j) :: l) => exact ⟨'{', _, by rw [print], by decide⟩
  | .num t =>
    rw [Nums] at h
    obtain ⟨c, r, e, hc⟩ := numText_head h
    refine ⟨c, r, by rw [print, e], (head_plain hc).1, ?_, ?_⟩
    · rintro rfl; rcases hc with hc | hc
      · cases hc
      · revert hc; decide
    · rintro rfl; rcases hc with hc | hc
      · cases hc
      · revert hc; decide

theorem skip_print (st : Style) (d e : Nat) (j : Json) (h : Nums j) (r : Str) :
    skipWs (nl st e ++ print st d j ++ r) = print st d j ++ r := by
  obtain ⟨c, t, hp, hc, -⟩ := print_head st d j h
  rw [List.append_assoc, skip_nl, hp, List.cons_append, skip_cons hc]

/-- Leading white space does not matter. -/
theorem parseVal_skip (n : Nat) (s : Str) : parseVal n (skipWs s) = parseVal n s := by
  cases n with
  | zero => rw [parseVal, parseVal]
  | succ n =>
    have : skipWs (skipWs s) = skipWs s := by
      unfold skipWs
      generalize hg : s.dropWhile isWs = t
      cases t with
      | nil => rfl
      | cons c t =>
        apply List.dropWhile_cons_of_neg
        have := List.head_dropWhile_not isWs (l := s) (by rw [hg]; simp)
        simp only [hg, List.head_cons] at this
        rw [this]; simp
    rw [parseVal, parseVal, this]

/-- The elements of an array. -/
def printSeq (st : Style) (d : Nat) : List Json → Str
  | [] => []
  | j :: l => nl st (d + 1) ++ (print st (d + 1) j ++ printElems st d l)

/-- The members of an object. -/
def printPairs (st : Style) (d : Nat) : List (Str × Json) → Str
  | [] => []
  | (k, j) :: l => nl st (d + 1) ++ (quote st.html k ++ (colon st ++ (print st (d + 1) j ++ printMembers st d l)))

theorem parse_print (st : Style) (n : Nat) :
    (∀ (j : Json), Nums j → ∀ (d : Nat), size j ≤ n → ∀ (r : Str), NumEnd r → parseVal n (print st d j ++ r) = some (j, r)) ∧
    (∀ (l : List Json), l ≠ [] → NumsList l → ∀ (d : Nat), sizeList l ≤ n → ∀ (r : Str),
      parseElems n (printSeq st d l ++ r) = some (l, r)) ∧
    (∀ (l : List (Str × Json)), l ≠ [] → NumsMembers l → ∀ (d : Nat), sizeMembers l ≤ n → ∀ (r : Str),
      parseMembers n (printPairs st d l ++ r) = some (l, r)) := by
  induction n with
  | zero =>
    refine ⟨?_, ?_, ?_⟩
    · intro j _ d hn; cases j <;> rw [size] at hn <;> omega
    · intro l hne _ d hn
      cases l with
      | nil => exact absurd rfl hne
      | cons j l => rw [sizeList] at hn; omega
    · intro l hne _ d hn
      cases l with
      | nil => exact absurd rfl hne
      | cons j l => obtain ⟨k, j⟩ := j; rw [sizeMembers] at hn; omega
  | succ n ih =>
    obtain ⟨parseVal_print, parseElems_print, parseMembers_print⟩ := ih
    refine ⟨?_, ?_, ?_⟩
    · intro j h d hn r hr
      match j with
      | .null =>
        rw [print, parseVal, show S "null" ++ r = 'n' :: ('u' :: 'l' :: 'l' :: r) from rfl, skip_cons (by decide)]
        rfl
      | .bool true =>
        rw [print, parseVal, show S "true" ++ r = 't' :: ('r' :: 'u' :: 'e' :: r) from rfl, skip_cons (by decide)]
        rfl
      | .bool false =>
        rw [print, parseVal, show S "false" ++ r = 'f' :: ('a' :: 'l' :: 's' :: 'e' :: r) from rfl, skip_cons (by decide)]
        rfl
      | .str s =>
        rw [Nums] at h
        obtain ⟨html, x, rfl⟩ := h
        have hq : '"' :: (escape html x ++ ['"']) ++ r = '"' :: (escape html x ++ '"' :: r) := by simp
        have h2 := parseStr_quote html x r ((escape html x ++ '"' :: r).length + 1) (by
          have := quote_length html x
          rw [List.length_append, List.length_cons, escape]; omega)
        rw [print, parseVal, hq, skip_cons (by decide)]
        dsimp only
        rw [if_pos rfl]
        unfold escape at h2 ⊢
        rw [h2]
        simp only [Option.map_some, List.length_append, List.length_cons]
        rw [show (x.flatMap (escChar html)).length + (r.length + 1) - r.length - 1 = (x.flatMap (escChar html)).length by omega,
          List.take_left]
      | .num t =>
        rw [Nums] at h
        obtain ⟨c, u, e, hc⟩ := numText_head h
        obtain ⟨p1, p2, p3, p4, p5, p6, p7⟩ := head_plain hc
        have hp := parseNum_text h r hr
        rw [print, parseVal, e, List.cons_append, skip_cons p1]
        dsimp only
        rw [if_neg p2, if_neg p3, if_neg p4, if_neg p5, if_neg p6, if_neg p7]
        rw [← List.cons_append, ← e, hp]
        rfl
      | .arr [] =>
        rw [print, parseVal, show S "[]" ++ r = '[' :: (']' :: r) from rfl, skip_cons (by decide)]
        dsimp only
        rw [if_neg (by decide), if_pos rfl, skip_cons (by decide)]
        rfl
      | .arr (j :: l) =>
        rw [print, parseVal, List.cons_append, skip_cons (by decide)]
        rw [Nums, NumsList] at h
        rw [size, sizeList] at hn
        have hs : skipWs (nl st (d + 1) ++ print st (d + 1) j ++ printElems st d l ++ r) =
            print st (d + 1) j ++ (printElems st d l ++ r) := by
          rw [List.append_assoc]
          exact skip_print st (d + 1) (d + 1) j h.1 _
        have he := parseElems_print (j :: l) (by simp) (by rw [NumsList]; exact h) d (by rw [sizeList]; omega) r
        rw [printSeq, ← List.append_assoc] at he
        dsimp only
        rw [if_neg (by decide), if_pos rfl, hs]
        obtain ⟨c, t, hp, -, hc, -⟩ := print_head st (d + 1) j h.1
        have hc2 : print st (d + 1) j ++ (printElems st d l ++ r) = c :: (t ++ (printElems st d l ++ r)) := by
          rw [hp]; rfl
        rw [hc2, he]
        split
        · rename_i heq; cases heq; exact absurd rfl hc
        · rfl
      | .obj [] =>
        rw [print, parseVal, show S "{}" ++ r = '{' :: ('}' :: r) from rfl, skip_cons (by decide)]
        dsimp only
        rw [if_neg (by decide), if_neg (by decide), if_pos rfl, skip_cons (by decide)]
        rfl
      | .obj ((k, j) :: l) =>
        rw [print, parseVal, List.cons_append, skip_cons (by decide)]
        rw [Nums, NumsMembers] at h
        rw [size, sizeMembers] at hn
        have he := parseMembers_print ((k, j) :: l) (by simp) (by rw [NumsMembers]; exact h) d
          (by rw [sizeMembers]; omega) r
        rw [printPairs] at he
        dsimp only
        rw [if_neg (by decide), if_neg (by decide), if_pos rfl]
        have hs : ∃ u, skipWs (nl st (d + 1) ++ quote st.html k ++ colon st ++ print st (d + 1) j ++ printMembers st d l ++ r) =
            '"' :: u := by
          simp only [List.append_assoc]
          rw [skip_nl]
          exact ⟨_, skip_cons (by decide) _⟩
        obtain ⟨u, hs⟩ := hs
        rw [hs]
        split
        · rename_i heq; cases heq
        · simp only [List.append_assoc] at he ⊢
          rw [he]
          rfl
    · intro l hne h d hn r
      match l with
      | [] => exact absurd rfl hne
      | j :: l =>
        rw [NumsList] at h
        rw [sizeList] at hn
        have hend : NumEnd (printElems st d l ++ r) := by
          cases l with
          | nil => rw [printElems, List.append_assoc]; exact nl_numEnd st d ']' (by simp) r
          | cons j' l => rw [printElems]; intro c hc; cases hc; decide
        have hv := parseVal_print j h.1 (d + 1) (by omega) (printElems st d l ++ r) hend
        rw [printSeq, parseElems, ← parseVal_skip, ← List.append_assoc, List.append_assoc,
          skip_print st (d + 1) (d + 1) j h.1, hv]
        dsimp only
        match l with
        | [] =>
          rw [printElems, List.append_assoc, skip_nl, List.singleton_append, skip_cons (by decide)]
          rfl
        | j' :: l =>
          have he := parseElems_print (j' :: l) (by simp) h.2 d (by omega) r
          rw [printSeq, ← List.append_assoc] at he
          rw [printElems, List.cons_append, skip_cons (by decide)]
          show Option.map _ (parseElems n (nl st (d + 1) ++ print st (d + 1) j' ++ printElems st d l ++ r)) = _
          rw [he]
          rfl
    · intro l hne h d hn r
      match l with
      | [] => exact absurd rfl hne
      | (k, j) :: l =>
        rw [NumsMembers] at h
        rw [sizeMembers] at hn
        have hend : NumEnd (printMembers st d l ++ r) := by
          cases l with
          | nil => rw [printMembers, List.append_assoc]; exact nl_numEnd st d '}' (by simp) r
          | cons j' l => obtain ⟨k', j'⟩ := j'; rw [printMembers]; intro c hc; cases hc; decide
        have hv := parseVal_print j h.1 (d + 1) (by omega) (printMembers st d l ++ r) hend
        obtain ⟨t, h1, h2⟩ := parseStr_quoted st.html k (colon st ++ (print st (d + 1) j ++ (printMembers st d l ++ r)))
        rw [printPairs, parseMembers]
        simp only [List.append_assoc]
        rw [skip_nl, h1, skip_cons (by decide)]
        simp only [h2]
        have hcol : ∃ u, skipWs (colon st ++ (print st (d + 1) j ++ (printMembers st d l ++ r))) = ':' :: u ∧
            parseVal n u = parseVal n (print st (d + 1) j ++ (printMembers st d l ++ r)) := by
          unfold colon
          split
          · refine ⟨_, skip_cons (by decide) _, ?_⟩
            rw [← parseVal_skip]
            congr 1
            rw [show ∀ x : Str, [' '].append x = ' ' :: x from fun _ => rfl]
            unfold skipWs
            rw [List.dropWhile_cons_of_pos (by decide)]
            obtain ⟨c, u, hp, hc, -⟩ := print_head st (d + 1) j h.1
            rw [hp, List.cons_append]
            exact skip_cons hc _
          · exact ⟨_, skip_cons (by decide) _, rfl⟩
        obtain ⟨u, hu, hv'⟩ := hcol
        rw [hu]
        simp only [hv', hv]
        match l with
        | [] =>
          rw [printMembers, List.append_assoc, skip_nl, List.singleton_append, skip_cons (by decide)]
          rfl
        | (k', j') :: l =>
          have he := parseMembers_print ((k', j') :: l) (by simp) h.2 d (by omega) r
          rw [printPairs] at he
          rw [printMembers, List.cons_append, skip_cons (by decide)]
          simp only [List.append_assoc] at he ⊢
          rw [he]
          rfl

/-! ### Whole texts -/

mutual
theorem size_le (st : Style) (d : Nat) : ∀ j : Json, Nums j → size j ≤ (print st d j).length
  | .null, _ => by rw [size, print]; decide
  | .bool true, _ => by rw [size, print]; decide
  | .bool false, _ => by rw [size, print]; decide
  | .num t, h => by
    rw [Nums] at h
    obtain ⟨c, u, e, hc⟩ := numText_head h
    rw [size, print, e]; simp
  | .str s, _ => by rw [size, print]; simp
  | .arr [], _ => by rw [size, print, sizeList]; decide
  | .arr (j :: l), h => by
    rw [Nums, NumsList] at h
    have h1 := size_le st (d + 1) j h.1
    have h2 := sizeList_le st d l h.2
    rw [size, print, sizeList]
    simp only [List.length_cons, List.length_append]
    omega
  | .obj [], _ => by rw [size, print, sizeMembers]; decide
  | .obj ((k, j) :: l), h => by
    rw [Nums, NumsMembers] at h
    have h1 := size_le st (d + 1) j h.1
    have h2 := sizeMembers_le st d l h.2
    rw [size, print, sizeMembers]
    simp only [List.length_cons, List.length_append]
    omega
theorem sizeList_le (st : Style) (d : Nat) : ∀ l : List Json, NumsList l → 1 + sizeList l ≤ (printElems st d l).length
  | [], _ => by rw [sizeList, printElems]; simp
  | j :: l, h => by
    rw [NumsList] at h
    have h1 := size_le st (d + 1) j h.1
    have h2 := sizeList_le st d l h.2
    rw [sizeList, printElems]
    simp only [List.length_cons, List.length_append]
    omega
theorem sizeMembers_le (st : Style) (d : Nat) :
    ∀ l : List (Str × Json), NumsMembers l → 1 + sizeMembers l ≤ (printMembers st d l).length
  | [], _ => by rw [sizeMembers, printMembers]; simp
  | (k, j) :: l, h => by
    rw [NumsMembers] at h
    have h1 := size_le st (d + 1) j h.1
    have h2 := sizeMembers_le st d l h.2
    rw [sizeMembers, printMembers]
    simp only [List.length_cons, List.length_append]
    omega
end

/-- Decoding what the encoder wrote, possibly followed by white space, gives the value back. -/
theorem parse_printed (st : Style) (j : Json) (h : Nums j) (w : Str) (hw : ∀ c ∈ w, isWs c = true) :
    parse (print st 0 j ++ w) = some j := by
  have hend : NumEnd w := by
    intro c hc
    cases w with
    | nil => cases hc
    | cons x w =>
      cases hc
      have := hw c (by simp)
      unfold isWs at this
      simp only [Bool.or_eq_true, beq_iff_eq] at this
      rcases this with ((rfl | rfl) | rfl) | rfl <;> decide
  have hp := (parse_print st (2 * (print st 0 j ++ w).length + 2)).1 j h 0
    (by have := size_le st 0 j h; simp only [List.length_append]; omega) w hend
  unfold parse
  rw [hp]
  dsimp only
  rw [if_pos]
  unfold skipWs
  clear hp hend
  induction w with
  | nil => rfl
  | cons c w ih =>
    rw [List.dropWhile_cons_of_pos (hw c (by simp))]
    exact ih fun x hx => hw x (by simp [hx])

end Verif.Json
