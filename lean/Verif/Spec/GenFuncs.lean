import Verif.Gen.Funcs
/-!
# What the template functions are supposed to do
-/

namespace Verif.Spec
open Verif.Schema Verif.Gen

/-- A number as it is usually written. -/
def numeral (n : Nat) : Str := (Nat.repr n).toList

/-- `s` is a way to write version `major.minor`: with or without a leading `v`; the minor version may be left
out if it is 0; anything may follow after a second dot. -/
inductive VersionText : Str → Nat → Nat → Prop
  | short (lead : Str) (major : Nat) : lead = [] ∨ lead = S "v" → VersionText (lead ++ numeral major) major 0
  | full (lead tail : Str) (major minor : Nat) : lead = [] ∨ lead = S "v" → tail = [] ∨ tail.head? = some '.' →
      VersionText (lead ++ numeral major ++ S "." ++ numeral minor ++ tail) major minor

/-- Numbers that fit into a Go `int`. -/
def FitsInt (n : Nat) : Prop := n < 2 ^ 63

/-- Version `a.b` is not older than `c.d`. -/
def NotOlder (a b c d : Nat) : Prop := a > c ∨ (a = c ∧ b ≥ d)

/-- The last value paired with the key `k` in a list of alternating keys and values. -/
inductive LastValue (k : Str) : List Val → Option Val → Prop
  | nil : LastValue k [] none
  | later (key v w : Val) (r : List Val) : LastValue k r (some w) → LastValue k (key :: v :: r) (some w)
  | here (v : Val) (r : List Val) : LastValue k r none → LastValue k (.str k :: v :: r) (some v)
  | other (key v : Val) (r : List Val) : key ≠ .str k → LastValue k r none → LastValue k (key :: v :: r) none

/-- Every other element, beginning with the first, is a string. -/
inductive KeysAreStrings : List Val → Prop
  | nil : KeysAreStrings []
  | pair (k : Str) (v : Val) (r : List Val) : KeysAreStrings r → KeysAreStrings (.str k :: v :: r)

/-- Values the template language regards as empty. -/
inductive Empty : Val → Prop
  | nil : Empty .nil
  | false : Empty (.bool Bool.false)
  | zero : Empty (.int 0)
  | str : Empty (.str [])
  | varType : Empty .nilVarType

/-- Upper-case, lower-case ASCII letters and digits. -/
def Upper (c : Char) : Prop := c ∈ "ABCDEFGHIJKLMNOPQRSTUVWXYZ".toList
@[inherit_doc Upper] def Lower (c : Char) : Prop := c ∈ "abcdefghijklmnopqrstuvwxyz".toList

/-- The lower-case letter for an upper-case one. -/
def lowered (c : Char) : Char :=
  match ("ABCDEFGHIJKLMNOPQRSTUVWXYZ".toList.zip "abcdefghijklmnopqrstuvwxyz".toList).lookup c with
  | some d => d
  | none => c

/-- The text begins with two lower-case letters. -/
def TwoLower (s : Str) : Prop := ∃ a b r, s = a :: b :: r ∧ Lower a ∧ Lower b

/-- `FirstWord s w`: `w` is the text `s` with the upper-case letters of its first word in lower case.  The
first word begins with all upper-case letters the text begins with, but when these are several and a lower-case
word follows, the last of them belongs to that word. -/
inductive FirstWord : Str → Str → Prop
  | none (s : Str) : (∀ c, s.head? = some c → ¬ Upper c) → FirstWord s s
  | run (u r : Str) : u ≠ [] → (∀ c ∈ u, Upper c) → (∀ c, r.head? = some c → ¬ Upper c) →
      ¬ (u.length ≥ 2 ∧ TwoLower r) → FirstWord (u ++ r) (u.map lowered ++ r)
  | acronym (u r : Str) (c : Char) : u ≠ [] → (∀ c ∈ u, Upper c) → Upper c → TwoLower r →
      FirstWord (u ++ c :: r) (u.map lowered ++ c :: r)

/-- Types have distinct identities. -/
def OneTypePerPtr (ts : List TypeDecl) : Prop := ∀ t ∈ ts, ∀ u ∈ ts, t.ptr = u.ptr → t = u

end Verif.Spec
