import Verif.Json.RoundTrip
/-!
# JSON texts

The grammar of JSON (RFC 8259), independent of the decoder: which texts are JSON, and which value each stands for.
-/

namespace Verif.Spec
open Verif.Schema hiding Json
open Verif.Json

/-- Only white space. -/
def JBlank (s : Str) : Prop := ∀ c ∈ s, c = ' ' ∨ c = '\t' ∨ c = '\n' ∨ c = '\r'

/-- The value of a hexadecimal digit, small or capital. -/
def JHexDigit (c : Char) (n : Nat) : Prop :=
  "0123456789abcdef".toList[n]? = some c ∨ "0123456789ABCDEF".toList[n]? = some c

/-- `\u` and the four hexadecimal digits of `n`. -/
def CodeUnit (t : Str) (n : Nat) : Prop :=
  ∃ a b c d w x y z, t = ['\\', 'u', a, b, c, d] ∧ JHexDigit a w ∧ JHexDigit b x ∧ JHexDigit c y ∧ JHexDigit d z ∧
    n = w * 4096 + x * 256 + y * 16 + z

/-- The first half of a surrogate pair. -/
def High (n : Nat) : Prop := 0xD800 ≤ n ∧ n ≤ 0xDBFF

/-- The second half of a surrogate pair. -/
def Low (n : Nat) : Prop := 0xDC00 ≤ n ∧ n ≤ 0xDFFF

/-- The letters after a backslash, and what they stand for. -/
def escapeLetters : List (Char × Char) :=
  [('"', '"'), ('\\', '\\'), ('/', '/'), ('b', Char.ofNat 8), ('f', Char.ofNat 12), ('n', Char.ofNat 10), ('r', Char.ofNat 13),
    ('t', Char.ofNat 9)]

/-- The text between two quotes and the string it stands for. -/
inductive Chars : Str → Str → Prop
  | nil : Chars [] []
  | plain {c t s} : 0x20 ≤ c.toNat → c ≠ '"' → c ≠ '\\' → Chars t s → Chars (c :: t) (c :: s)
  | letter {e c t s} : (e, c) ∈ escapeLetters → Chars t s → Chars ('\\' :: e :: t) (c :: s)
  | unit {u c t s} : CodeUnit u c.toNat → Chars t s → Chars (u ++ t) (c :: s)
  | pair {u v h l c t s} : CodeUnit u h → High h → CodeUnit v l → Low l →
      c.toNat = 0x10000 + (h - 0xD800) * 0x400 + (l - 0xDC00) → Chars t s → Chars (u ++ (v ++ t)) (c :: s)
  /-- Half a pair stands for U+FFFD (the JSON grammar allows it and does not say what it means). -/
  | half {u n t s} : CodeUnit u n → High n ∨ Low n → (High n → ¬ ∃ v l r, t = v ++ r ∧ CodeUnit v l ∧ Low l) → Chars t s →
      Chars (u ++ t) ('\uFFFD' :: s)

mutual
/-- The text of a value, without white space around it. -/
inductive ValueText : Str → Json → Prop
  | null : ValueText (S "null") .null
  | true : ValueText (S "true") (.bool true)
  | false : ValueText (S "false") (.bool false)
  | num {t} : NumText t → ValueText t (.num t)
  | str {t s} : Chars t s → ValueText ('"' :: (t ++ ['"'])) (.str t)
  | noElems {w} : JBlank w → ValueText ('[' :: (w ++ [']'])) (.arr [])
  | elems {t l} : ElemsText t l → ValueText ('[' :: (t ++ [']'])) (.arr l)
  | noMembers {w} : JBlank w → ValueText ('{' :: (w ++ ['}'])) (.obj [])
  | members {t l} : MembersText t l → ValueText ('{' :: (t ++ ['}'])) (.obj l)
/-- The elements of an array, separated by commas. -/
inductive ElemsText : Str → List Json → Prop
  | one {w t x j} : JBlank w → ValueText t j → JBlank x → ElemsText (w ++ (t ++ x)) [j]
  | more {w t x j u l} : JBlank w → ValueText t j → JBlank x → ElemsText u l → ElemsText (w ++ (t ++ (x ++ ',' :: u))) (j :: l)
/-- The members of an object, separated by commas. -/
inductive MembersText : Str → List (Str × Json) → Prop
  | one {w q k x y t z j} : JBlank w → Chars q k → JBlank x → JBlank y → ValueText t j → JBlank z →
      MembersText (w ++ '"' :: (q ++ '"' :: (x ++ ':' :: (y ++ (t ++ z))))) [(k, j)]
  | more {w q k x y t z j u l} : JBlank w → Chars q k → JBlank x → JBlank y → ValueText t j → JBlank z → MembersText u l →
      MembersText (w ++ '"' :: (q ++ '"' :: (x ++ ':' :: (y ++ (t ++ (z ++ ',' :: u)))))) ((k, j) :: l)
end

/-- A JSON text and its value. -/
def JsonText (s : Str) (j : Json) : Prop := ∃ w t x, s = w ++ (t ++ x) ∧ JBlank w ∧ ValueText t j ∧ JBlank x

end Verif.Spec
