import Verif.Gen.Letters
import Verif.Ridl.ValueLemmas
import Verif.Props.GenFuncs
/-!
# Proofs about first letters (C72)
-/

namespace Verif.Props
open Verif.Gen Verif.Spec
open Verif.Ridl (bytes utf8 utf8_ascii)

/-- The lower-case letters. -/
theorem lowered_code {c : Char} (h : Upper c) : (lowered c).toNat = c.toNat + 32 ∧ 65 ≤ c.toNat ∧ c.toNat ≤ 90 := by
  have key : ∀ c ∈ "ABCDEFGHIJKLMNOPQRSTUVWXYZ".toList, (lowered c).toNat = c.toNat + 32 ∧ 65 ≤ c.toNat ∧ c.toNat ≤ 90 := by decide
  exact key c h

theorem lowered_other {c : Char} (h : ¬ Upper c) : lowered c = c := by
  unfold lowered
  split
  · rename_i d hd
    exfalso
    apply h
    have : ∀ (l m : List Char), ((l.zip m).lookup c).isSome = true → c ∈ l := by
      intro l
      induction l with
      | nil => intro m h; simp at h
      | cons a l ih =>
        intro m h
        cases m with
        | nil => simp at h
        | cons b m =>
          rw [List.zip_cons_cons, List.lookup_cons] at h
          by_cases e : c = a
          · simp [e]
          · rw [show (c == a) = false from by simpa using e] at h
            exact List.mem_cons_of_mem _ (ih m h)
    exact this _ _ (by rw [hd]; rfl)
  · rfl

theorem upper_code {c : Char} : Upper c ↔ 65 ≤ c.toNat ∧ c.toNat ≤ 90 := by
  constructor
  · exact fun h => (lowered_code h).2
  · rintro ⟨h1, h2⟩
    rw [← upper_iff]
    unfold isUpperAZ
    simp only [Bool.and_eq_true, decide_eq_true_eq]
    exact ⟨h1, h2⟩

theorem bytes_cons (c : Char) (r : List Char) : bytes (c :: r) = utf8 c ++ bytes r := rfl

/-- C72. On a text that starts with an ASCII character only that character is changed: to its small letter. -/
theorem C72_lower_partial (c : Char) (r : List Char) (h : c.toNat < 128) : firstLetterToLower (c :: r) = bytes (lowered c :: r) := by
  unfold firstLetterToLower
  rw [bytes_cons, bytes_cons, utf8_ascii h]
  show lowerByte c.toNat ++ bytes r = _
  unfold lowerByte
  rw [if_neg (by omega)]
  by_cases hu : Upper c
  · obtain ⟨h1, h2, h3⟩ := lowered_code hu
    rw [if_pos ⟨h2, h3⟩, utf8_ascii (by omega), h1]
  · rw [if_neg (by rwa [← upper_code]), lowered_other hu, utf8_ascii h]

/-- C72. And to its capital letter. -/
theorem C72_upper_partial (c : Char) (r : List Char) (h : c.toNat < 128) :
    (∀ d, Upper d → c = lowered d → firstLetterToUpper (c :: r) = bytes (d :: r)) ∧
    ((∀ d, Upper d → c ≠ lowered d) → firstLetterToUpper (c :: r) = bytes (c :: r)) := by
  have hb : firstLetterToUpper (c :: r) = upperByte c.toNat ++ bytes r := by
    unfold firstLetterToUpper
    rw [bytes_cons, utf8_ascii h]
    rfl
  rw [hb]
  unfold upperByte
  rw [if_neg (by omega)]
  constructor
  · rintro d hd rfl
    obtain ⟨h1, h2, h3⟩ := lowered_code hd
    rw [if_pos (by omega), bytes_cons, utf8_ascii (by omega), h1]
    simp
  · intro hn
    rw [if_neg, bytes_cons, utf8_ascii h]
    rintro ⟨h1, h2⟩
    have key : ∀ n : Fin 26, Upper (Char.ofNat (n.val + 65)) ∧ (lowered (Char.ofNat (n.val + 65))).toNat = n.val + 97 := by
      unfold Upper; decide
    obtain ⟨k1, k2⟩ := key ⟨c.toNat - 97, by omega⟩
    refine hn _ k1 ?_
    apply Char.toNat_inj.1
    rw [k2]
    show c.toNat = c.toNat - 97 + 97
    omega

/-- C72. The empty text stays empty. -/
theorem C72_empty : firstLetterToLower [] = [] ∧ firstLetterToUpper [] = [] := ⟨rfl, rfl⟩

theorem utf8_shape (c : Char) : (c.toNat < 128 ∧ utf8 c = [c.toNat]) ∨
    ∃ b r, utf8 c = b :: r ∧ 192 ≤ b ∧ r ≠ [] ∧ (∀ x ∈ r, 128 ≤ x ∧ x < 192) ∧
      r.length = if b < 224 then 1 else if b < 240 then 2 else 3 := by
  have hv : c.toNat < 0x110000 := by
    have := c.valid
    rcases this with h | h
    · have : c.toNat < 0xd800 := h
      omega
    · exact h.2
  unfold utf8
  dsimp only
  by_cases h1 : c.toNat < 0x80
  · exact .inl ⟨h1, by rw [if_pos h1]⟩
  · right
    rw [if_neg h1]
    by_cases h2 : c.toNat < 0x800
    · rw [if_pos h2]
      refine ⟨_, _, rfl, by omega, by simp, ?_, ?_⟩
      · simp; omega
      · rw [if_pos (by omega)]; rfl
    · rw [if_neg h2]
      by_cases h3 : c.toNat < 0x10000
      · rw [if_pos h3]
        refine ⟨_, _, rfl, by omega, by simp, ?_, ?_⟩
        · simp; omega
        · rw [if_neg (by omega), if_pos (by omega)]; rfl
      · rw [if_neg h3]
        refine ⟨_, _, rfl, by omega, by simp, ?_, ?_⟩
        · simp; omega
        · rw [if_neg (by omega), if_neg (by omega)]; rfl

theorem bytes_not_cont (t : List Char) (x : Nat) (r : List Nat) (h : bytes t = x :: r) : ¬ (128 ≤ x ∧ x < 192) := by
  cases t with
  | nil => cases h
  | cons c t =>
    rw [bytes_cons] at h
    rcases utf8_shape c with ⟨h1, e⟩ | ⟨b, s, e, h1, -⟩
    · rw [e] at h; cases h; omega
    · rw [e] at h; cases h; omega

/-- C72 is false of other letters: the result is malformed, it is not the text of anything. -/
theorem C72_not_ascii (c : Char) (r : List Char) (h : 128 ≤ c.toNat) (t : List Char) :
    firstLetterToLower (c :: r) ≠ bytes t ∧ firstLetterToUpper (c :: r) ≠ bytes t := by
  rcases utf8_shape c with ⟨h1, -⟩ | ⟨b, s, e, h1, h2, h3, -⟩
  · omega
  · obtain ⟨y, s', rfl⟩ : ∃ y s', s = y :: s' := by
      cases s with
      | nil => exact absurd rfl h2
      | cons y s' => exact ⟨y, s', rfl⟩
    have key : ¬ ([0xEF, 0xBF, 0xBD] ++ ((y :: s') ++ bytes r) = bytes t) := by
      intro hx
      cases t with
      | nil => cases hx
      | cons d t =>
        rw [bytes_cons] at hx
        rcases utf8_shape d with ⟨g1, g⟩ | ⟨b', s2, g, g1, g2, g3, g4⟩
        · rw [g] at hx
          simp only [List.cons_append, List.nil_append, List.cons.injEq] at hx
          omega
        · rw [g] at hx
          simp only [List.cons_append, List.nil_append, List.cons.injEq] at hx
          obtain ⟨rfl, hx⟩ := hx
          rw [if_neg (by omega), if_pos (by omega)] at g4
          match s2, g4 with
          | [p, q], _ =>
            simp only [List.cons_append, List.nil_append, List.cons.injEq] at hx
            obtain ⟨-, -, hx⟩ := hx
            exact bytes_not_cont t y _ hx.symm (h3 y (by simp))
    have hl : firstLetterToLower (c :: r) = [0xEF, 0xBF, 0xBD] ++ ((y :: s') ++ bytes r) := by
      unfold firstLetterToLower
      rw [bytes_cons, e]
      show lowerByte b ++ _ = _
      unfold lowerByte
      rw [if_pos (by omega)]
      rfl
    have hu : firstLetterToUpper (c :: r) = [0xEF, 0xBF, 0xBD] ++ ((y :: s') ++ bytes r) := by
      unfold firstLetterToUpper
      rw [bytes_cons, e]
      show upperByte b ++ _ = _
      unfold upperByte
      rw [if_pos (by omega)]
      rfl
    rw [hl, hu]
    exact ⟨key, key⟩

/-- C72: the hypotheses are met by ordinary and by other names. -/
theorem C72_example : firstLetterToLower "UserID".toList = bytes "userID".toList ∧
    firstLetterToUpper "userID".toList = bytes "UserID".toList ∧
    firstLetterToLower "Éa".toList = [0xEF, 0xBF, 0xBD, 0x89, 0x61] := by decide +kernel

end Verif.Props
