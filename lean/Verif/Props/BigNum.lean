import Verif.Spec.BigNum
import Verif.Props.GenFuncs
/-!
# Properties of big integers in generated code (C77)
-/

namespace Verif.BigNum
open Verif.Schema hiding Json Method
open Verif.Json Verif.Gen Verif.Rpc Verif.RpcSpec Verif.Props
open Verif.Compile (decimal? digit?)

theorem digit_some {c : Char} {d : Nat} (h : digit? c = some d) : c ∈ "0123456789".toList := by
  unfold digit? at h
  split at h
  · rename_i hc
    have h1 : '0'.toNat ≤ c.toNat := hc.1
    have h2 : c.toNat ≤ '9'.toNat := hc.2
    have h3 : ∀ n : Fin 10, ∀ c : Char, c.toNat = 48 + n.val → c ∈ "0123456789".toList := by
      intro n c hcn
      have : c = Char.ofNat (48 + n.val) := by rw [← hcn]; exact (Char.ofNat_toNat c).symm
      rw [this]
      exact (by decide : ∀ n : Fin 10, Char.ofNat (48 + n.val) ∈ "0123456789".toList) n
    have e1 : '0'.toNat = 48 := rfl
    have e2 : '9'.toNat = 57 := rfl
    exact h3 ⟨c.toNat - 48, by omega⟩ c (by simp only; omega)
  · cases h

theorem decimal_digits {t : Str} {acc n : Nat} (h : decimal? acc t = some n) : ∀ c ∈ t, c ∈ "0123456789".toList := by
  induction t generalizing acc with
  | nil => simp
  | cons c t ih =>
    rw [decimal?] at h
    cases hd : digit? c with
    | none => rw [hd] at h; cases h
    | some d =>
      rw [hd] at h
      intro x hx
      rcases List.mem_cons.1 hx with rfl | hx
      · exact digit_some hd
      · exact ih h x hx

theorem decimal_iff {t : Str} {n : Nat} :
    decimal? 0 t = some n ↔ (∀ c ∈ t, c ∈ "0123456789".toList) ∧ n = natOf t := by
  constructor
  · intro h
    have hd := decimal_digits h
    refine ⟨hd, ?_⟩
    rw [decimal_val _ 0 hd] at h
    exact (Option.some.inj h).symm
  · rintro ⟨hd, rfl⟩
    exact decimal_val _ 0 hd

/-- `SetString` accepts exactly the integers in decimal. -/
theorem setString_iff (s : Str) (i : Int) : setString10 s = some i ↔ IntegerText s i := by
  constructor
  · intro h
    unfold setString10 at h
    by_cases hm : ∃ r, s = '-' :: r
    · obtain ⟨r, rfl⟩ := hm
      rw [show unsigned ('-' :: r) = r from rfl, List.head?_cons] at h
      split at h
      · cases h
      · rename_i hne
        cases hd : decimal? 0 r with
        | none => rw [hd] at h; cases h
        | some n =>
          rw [hd] at h
          dsimp only at h
          rw [if_pos rfl] at h
          obtain ⟨h1, rfl⟩ := decimal_iff.1 hd
          cases h
          exact .minus hne h1
    by_cases hp : ∃ r, s = '+' :: r
    · obtain ⟨r, rfl⟩ := hp
      rw [show unsigned ('+' :: r) = r from rfl, List.head?_cons] at h
      split at h
      · cases h
      · rename_i hne
        cases hd : decimal? 0 r with
        | none => rw [hd] at h; cases h
        | some n =>
          rw [hd] at h
          dsimp only at h
          rw [if_neg (by decide)] at h
          obtain ⟨h1, rfl⟩ := decimal_iff.1 hd
          cases h
          exact .plus hne h1
    have hu : unsigned s = s := by
      rw [unsigned.eq_def]
      split
      · exact absurd ⟨_, rfl⟩ hm
      · exact absurd ⟨_, rfl⟩ hp
      · rfl
    have hh : ¬ s.head? = some '-' := by
      intro hh
      cases s with
      | nil => cases hh
      | cons c r => rw [List.head?_cons] at hh; cases hh; exact hm ⟨r, rfl⟩
    rw [hu] at h
    split at h
    · cases h
    · rename_i hne
      cases hd : decimal? 0 s with
      | none => rw [hd] at h; cases h
      | some n =>
        rw [hd] at h
        simp only [hh, if_false] at h
        obtain ⟨h1, rfl⟩ := decimal_iff.1 hd
        cases h
        exact .plain hne h1
  · intro h
    cases h with
    | plain hne hd =>
      have hu : unsigned s = s := by
        rw [unsigned.eq_def]
        split
        · rename_i r
          exact absurd (hd '-' (by simp)) (by decide)
        · rename_i r
          exact absurd (hd '+' (by simp)) (by decide)
        · rfl
      unfold setString10
      rw [hu, if_neg hne, decimal_iff.2 ⟨hd, rfl⟩]
      dsimp only
      rw [if_neg]
      intro hh
      cases s with
      | nil => cases hh
      | cons c r => rw [List.head?_cons] at hh; cases hh; exact absurd (hd '-' (by simp)) (by decide)
    | @plus ds hne hd =>
      unfold setString10
      rw [show unsigned ('+' :: ds) = ds from rfl, if_neg hne, decimal_iff.2 ⟨hd, rfl⟩]
      rfl
    | @minus ds hne hd =>
      unfold setString10
      rw [show unsigned ('-' :: ds) = ds from rfl, if_neg hne, decimal_iff.2 ⟨hd, rfl⟩]
      rfl

theorem integerText_int (i : Int) : IntegerText (intText i) i := by
  obtain ⟨hne, hd⟩ := numeral_digits i.natAbs
  have hv : natOf (Spec.numeral i.natAbs) = i.natAbs := decimalValue_repr _
  unfold intText
  split
  · have := IntegerText.minus hne hd
    rw [hv] at this
    rwa [show (-(i.natAbs : Int)) = i by omega] at this
  · have := IntegerText.plain hne hd
    rw [hv] at this
    rwa [show ((i.natAbs : Int)) = i by omega] at this

theorem integer_chars {s : Str} {i : Int} (h : IntegerText s i) :
    s ≠ [] ∧ ∀ c ∈ s, c ∈ "+-0123456789".toList := by
  have hx : ∀ c, c ∈ "0123456789".toList → c ∈ "+-0123456789".toList := by
    intro c hc
    show c ∈ '+' :: '-' :: "0123456789".toList
    exact List.mem_cons_of_mem _ (List.mem_cons_of_mem _ hc)
  cases h with
  | plain hne hd => exact ⟨hne, fun c hc => hx c (hd c hc)⟩
  | plus hne hd =>
    refine ⟨by simp, fun c hc => ?_⟩
    rcases List.mem_cons.1 hc with rfl | hc
    · decide
    · exact hx c (hd c hc)
  | minus hne hd =>
    refine ⟨by simp, fun c hc => ?_⟩
    rcases List.mem_cons.1 hc with rfl | hc
    · decide
    · exact hx c (hd c hc)

theorem int_char {c : Char} (h : c ∈ "+-0123456789".toList) : bigSpace c = false ∧ c ≠ '"' ∧ c ≠ 'n' ∧ c ≠ 'e' ∧
    (c ≠ '+' → c = '-' ∨ ('0' ≤ c ∧ c ≤ '9')) := by
  have h2 : c ∈ ['+', '-', '0', '1', '2', '3', '4', '5', '6', '7', '8', '9'] := h
  simp only [List.mem_cons, List.not_mem_nil, or_false] at h2
  rcases h2 with rfl | rfl | rfl | rfl | rfl | rfl | rfl | rfl | rfl | rfl | rfl | rfl <;> decide

/-- C77. What JSON text a big integer is read from, exactly: an integer without fraction and exponent, as a number or
as a string; `null` (and no text at all) leaves the old value. -/
theorem C77_reads_json (old i : Int) (text : Str) :
    bigUnmarshalJSON old text = some i ↔ ((text = [] ∨ text = S "null") ∧ i = old) ∨ BigJson text i := by
  by_cases hn : text = S "null"
  · unfold bigUnmarshalJSON
    rw [if_pos hn]
    constructor
    · intro h; exact Or.inl ⟨Or.inr hn, (Option.some.inj h).symm⟩
    · rintro (⟨-, rfl⟩ | h)
      · rfl
      · exfalso
        subst hn
        rcases h with ⟨h, -⟩ | ⟨d, h, -⟩
        · exact absurd ((integer_chars h).2 'n' (by decide)) (by decide)
        · exact absurd (congrArg List.head? h) (by rw [List.head?_cons]; decide)
  by_cases he : text = []
  · subst he
    constructor
    · intro h; exact Or.inl ⟨Or.inl rfl, (Option.some.inj h).symm⟩
    · rintro (⟨-, rfl⟩ | h)
      · rfl
      · exfalso
        rcases h with ⟨h, -⟩ | ⟨d, h, -⟩
        · exact (integer_chars h).1 rfl
        · cases h
  have hred : bigUnmarshalJSON old text =
      if text.any bigSpace then none else (bigDigits text).bind setString10 := by
    unfold bigUnmarshalJSON bigUnmarshalText
    rw [if_neg hn, if_neg he, if_neg hn]
    split
    · rfl
    · cases bigDigits text <;> rfl
  rw [hred]
  simp only [he, hn, or_self, false_and, false_or]
  constructor
  · intro h
    split at h
    · cases h
    · cases hb : bigDigits text with
      | none => rw [hb] at h; cases h
      | some ds =>
        rw [hb] at h
        have hs := (setString_iff ds i).1 h
        cases text with
        | nil => exact absurd rfl he
        | cons c r =>
          rw [bigDigits] at hb
          split at hb
          · rename_i hc
            cases hb
            refine Or.inl ⟨hs, ?_⟩
            rw [List.head?_cons]
            rintro hh; cases hh
            revert hc; decide
          · split at hb
            · cases hb
            · rename_i hc
              cases hb
              have h1 : c = '"' := Decidable.byContradiction fun h => hc (Or.inr (Or.inl h))
              have h2 : r.getLast? = some '"' := Decidable.byContradiction fun h => hc (Or.inr (Or.inr h))
              obtain ⟨l, rfl⟩ := List.getLast?_eq_some_iff.1 h2
              rw [List.dropLast_concat] at hs
              exact Or.inr ⟨l, by rw [h1], hs⟩
  · rintro (⟨h, hh⟩ | ⟨d, rfl, h⟩)
    · obtain ⟨-, hc⟩ := integer_chars h
      have hb : text.any bigSpace = false := by
        rw [List.any_eq_false]
        intro x hx
        rw [(int_char (hc x hx)).1]; decide
      rw [hb]
      cases text with
      | nil => exact absurd rfl he
      | cons c r =>
        have : c ≠ '+' := by rintro rfl; exact hh rfl
        rw [bigDigits, if_pos ((int_char (hc c (by simp))).2.2.2.2 this)]
        simpa using (setString_iff _ i).2 h
    · obtain ⟨-, hc⟩ := integer_chars h
      have hb : ('"' :: (d ++ ['"'])).any bigSpace = false := by
        rw [List.any_eq_false]
        intro x hx
        rcases List.mem_cons.1 hx with rfl | hx
        · decide
        · rcases List.mem_append.1 hx with hx | hx
          · rw [(int_char (hc x hx)).1]; decide
          · rw [List.mem_singleton.1 hx]; decide
      rw [hb]
      have hl : ¬ (('"' :: (d ++ ['"'])).length < 2 ∨ '"' ≠ '"' ∨ (d ++ ['"']).getLast? ≠ some '"') := by simp
      rw [bigDigits, if_neg (by decide), if_neg hl, List.dropLast_concat]
      exact (setString_iff _ i).2 h

/-- C77. Every integer survives JSON: what `MarshalJSON` (or `MarshalText`) writes is read back as the same integer,
whatever the receiver held before. -/
theorem C77_json (old i : Int) :
    bigUnmarshalJSON old (bigMarshal i) = some i ∧ bigUnmarshalText old (bigMarshal i) = some i := by
  have h : bigUnmarshalJSON old (bigMarshal i) = some i :=
    (C77_reads_json old i _).2 (Or.inr (Or.inr ⟨intText i, rfl, integerText_int i⟩))
  refine ⟨h, ?_⟩
  unfold bigUnmarshalJSON at h
  rwa [if_neg (by intro hh; exact absurd (congrArg List.head? hh) (by rw [bigMarshal, List.head?_cons]; decide))] at h

theorem ofBytes_snoc (l : List Nat) (b : Nat) : ofBytes (l ++ [b]) = ofBytes l * 256 + b := by
  unfold ofBytes; rw [List.foldl_append]; rfl

theorem bigBytes_val (n : Nat) : ofBytes (bigBytes n) = n ∧ (∀ b ∈ bigBytes n, b < 256) := by
  induction n using Nat.strongRecOn with
  | _ n ih =>
    rw [bigBytes]
    split
    · rename_i h; subst h; exact ⟨rfl, by simp⟩
    · obtain ⟨h1, h2⟩ := ih (n / 256) (by omega)
      refine ⟨by rw [ofBytes_snoc, h1]; omega, ?_⟩
      intro b hb
      rcases List.mem_append.1 hb with hb | hb
      · exact h2 b hb
      · rw [List.mem_singleton.1 hb]; omega

/-- C77. Every integer survives the binary form, which consists of bytes: a sign and the absolute value. -/
theorem C77_binary (i : Int) :
    bigUnmarshalBinary (bigMarshalBinary i) = i ∧ (∀ b ∈ bigMarshalBinary i, b < 256) := by
  obtain ⟨h1, h2⟩ := bigBytes_val i.natAbs
  constructor
  · unfold bigMarshalBinary bigUnmarshalBinary
    dsimp only
    rw [h1]
    by_cases hi : i < 0
    · rw [if_pos hi, if_pos rfl]; omega
    · rw [if_neg hi, if_neg (by decide)]; omega
  · intro b hb
    rcases List.mem_cons.1 hb with rfl | hb
    · split <;> decide
    · exact h2 b hb

theorem not_e {s : Str} {i : Int} (h : IntegerText s i) : 'e' ∉ s :=
  fun hc => (int_char ((integer_chars h).2 _ hc)).2.2.2.1 rfl

theorem scan_none {s : Str} (old : Int) (h : cut (S "e") s = none) : bigScan old (.text s) = setString10 s := by
  rw [bigScan, h]

theorem scan_some {s a x : Str} (old : Int) (h : cut (S "e") s = some (a, x)) :
    bigScan old (.text s) = (setString10 a).bind fun i => (setString10 x).map fun k => i * bigExp10 k := by
  rw [bigScan, h]
  dsimp only
  cases setString10 a with
  | none => rfl
  | some n => cases setString10 x <;> rfl

theorem scan_text (old i : Int) (s : Str) :
    bigScan old (.text s) = some i ↔ IntegerText s i ∨
      ∃ a x n k, s = a ++ 'e' :: x ∧ IntegerText a n ∧ IntegerText x k ∧ i = n * 10 ^ k.toNat := by
  have hE : ∀ k : Int, bigExp10 k = 10 ^ k.toNat := by
    intro k
    unfold bigExp10
    split
    · rename_i h; rw [show k.toNat = 0 by omega]; rfl
    · rfl
  cases hc : cut (S "e") s with
  | none =>
    have hne : 'e' ∉ s := cut_char_none.1 hc
    rw [scan_none old hc, setString_iff]
    constructor
    · exact Or.inl
    · rintro (h | ⟨a, x, n, k, rfl, -⟩)
      · exact h
      · simp at hne
  | some p =>
    obtain ⟨a, x⟩ := p
    rw [scan_some old hc]
    have he : s = a ++ 'e' :: x := (cut_char.1 hc).2
    constructor
    · intro h
      cases ha : setString10 a with
      | none => rw [ha] at h; cases h
      | some n =>
        cases hx : setString10 x with
        | none => rw [ha, hx] at h; cases h
        | some k =>
          rw [ha, hx] at h
          refine Or.inr ⟨a, x, n, k, he, (setString_iff _ _).1 ha, (setString_iff _ _).1 hx, ?_⟩
          rw [← hE]
          exact (Option.some.inj h).symm
    · rintro (h | ⟨a', x', n, k, he', hn, hk, rfl⟩)
      · exact absurd (by rw [he]; simp) (not_e h)
      · have := cut_char.2 ⟨not_e hn, he'⟩
        rw [show cut ['e'] s = cut (S "e") s from rfl, hc] at this
        cases this
        rw [(setString_iff _ _).2 hn, (setString_iff _ _).2 hk, ← hE]
        rfl

/-- C77. Every integer survives the database: `Scan` reads what `Value` gives. -/
theorem C77_database (old i : Int) : bigScan old (.text (bigValue i)) = some i :=
  (scan_text old i _).2 (Or.inl (integerText_int i))

/-- C77. A text that means an integer in a database column (digits, perhaps times a power of ten) is read as that
integer, and any text whose exponent, if there is one, is not negative is only read as what it means.  (Partial: of
texts with a negative exponent see `C77_fraction_kept`.) -/
theorem C77_scan_partial (old i : Int) (s : Str) :
    (BigColumn s i → bigScan old (.text s) = some i) ∧
    ((∀ a x, s ≠ a ++ 'e' :: '-' :: x) → bigScan old (.text s) = some i → BigColumn s i) := by
  rw [scan_text]
  constructor
  · rintro (h | ⟨a, x, n, k, h1, h2, h3, h4⟩)
    · exact Or.inl h
    · exact Or.inr ⟨a, x, n, k, h1, h2, h3, by simpa using h4⟩
  · rintro hneg (h | ⟨a, x, n, k, h1, h2, h3, h4⟩)
    · exact Or.inl h
    · refine Or.inr ⟨a, x, n, k.toNat, h1, h2, ?_, h4⟩
      cases h3 with
      | plain a1 a2 => exact .plain a1 a2
      | plus a1 a2 => exact .plus a1 a2
      | minus a1 a2 => exact absurd h1 (hneg _ _)

/-- C77 fails for columns with a fraction: a text with a negative exponent is read, without an error, as if it had no
exponent at all, so 1.5 (which a driver gives as `15e-1`) becomes 15. -/
theorem C77_fraction_kept (old n : Int) (k : Nat) (hk : 0 < k) :
    bigScan old (.text (intText n ++ 'e' :: intText (-(k : Int)))) = some n := by
  refine (scan_text old n _).2 (Or.inr ⟨_, _, n, -(k : Int), rfl, integerText_int _, integerText_int _, ?_⟩)
  rw [show (-(k : Int)).toNat = 0 by omega]
  omega

/-- The text of 1.5. -/
example : bigScan 7 (.text (S "15e-1")) = some 15 := by decide +kernel

/-- C77, examples: what is read and what is refused. -/
theorem C77_example :
    bigUnmarshalJSON 7 (S "\"-123456789012345678901234567890\"") = some (-123456789012345678901234567890) ∧
    bigUnmarshalJSON 7 (S "42") = some 42 ∧ bigUnmarshalJSON 7 (S "null") = some 7 ∧
    bigUnmarshalJSON 7 (S "\"+5\"") = some 5 ∧ bigUnmarshalJSON 7 (S "1e3") = none ∧ bigUnmarshalJSON 7 (S "\"\"") = none ∧
    bigUnmarshalJSON 7 (S "true") = none ∧ bigUnmarshalJSON 7 (S "\" 5\"") = none ∧
    bigScan 7 (.text (S "12e3")) = some 12000 ∧ bigScan 7 .nil = some 7 ∧ bigScan 7 .other = none ∧
    BigColumn (S "12e3") 12000 := by
  refine ⟨by decide +kernel, by decide +kernel, by decide +kernel, by decide +kernel, by decide +kernel, by decide +kernel,
    by decide +kernel, by decide +kernel, by decide +kernel, rfl, rfl, ?_⟩
  refine Or.inr ⟨S "12", S "3", 12, 3, rfl, (setString_iff _ _).1 (by decide +kernel), (setString_iff _ _).1 (by decide +kernel), rfl⟩

end Verif.BigNum
