import Verif.Schema.Types
/-!
# White space and trimming
-/

namespace Verif.Spec
open Verif.Schema

/-- The white space characters of Unicode (property `White_Space`). -/
def WhiteSpace : List Char :=
  ['\t', '\n', '\x0b', '\x0c', '\r', ' ', '\u0085', '\u00a0', '\u1680', '\u2000', '\u2001', '\u2002', '\u2003', '\u2004', '\u2005',
   '\u2006', '\u2007', '\u2008', '\u2009', '\u200a', '\u2028', '\u2029', '\u202f', '\u205f', '\u3000']

/-- `t` is `s` without the white space at its ends. -/
def Trims (s t : Str) : Prop :=
  ∃ a b, s = a ++ t ++ b ∧ (∀ c ∈ a ++ b, c ∈ WhiteSpace) ∧ (∀ c, t.head? = some c ∨ t.getLast? = some c → c ∉ WhiteSpace)

end Verif.Spec
