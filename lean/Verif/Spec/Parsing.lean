import Verif.Ridl.ParserCore

/-! # Specification of parser primitives, independent of the parser's control flow -/

namespace Verif.Spec
open Verif.Ridl

/-- `Matched pattern input values rest`: the pattern matches a prefix of `input`, leaving `rest`.
Every element takes one token of its class; a blank in the pattern is optional, and stands for a
single space when no blank is there. -/
inductive Matched : List TT → List Token → List Token → List Token → Prop
  | nil (ts : List Token) : Matched [] ts [] ts
  | take {want : TT} {pat : List TT} {t : Token} {ts vs rest : List Token} (h : t.tt = want)
      (hr : Matched pat ts vs rest) : Matched (want :: pat) (t :: ts) (t :: vs) rest
  | gap {pat : List TT} {ts vs rest : List Token} (b : Token) (h : ∀ t, ts.head? = some t → t.tt ≠ .whitespace)
      (hb : b.tt = .whitespace ∧ b.val = [' ']) (hr : Matched pat ts vs rest) :
      Matched (.whitespace :: pat) ts (b :: vs) rest

/-- `Unescaped s t`: the text `t` is denoted by `s`, where `\n`, `\t` and `\"` are the only escapes. -/
inductive Unescaped : Str → Str → Prop
  | nil : Unescaped [] []
  | plain (c : Char) (s t : Str) (h : c ≠ '\\') (hr : Unescaped s t) : Unescaped (c :: s) (c :: t)
  | newline (s t : Str) (hr : Unescaped s t) : Unescaped ('\\' :: 'n' :: s) ('\n' :: t)
  | tab (s t : Str) (hr : Unescaped s t) : Unescaped ('\\' :: 't' :: s) ('\t' :: t)
  | quote (s t : Str) (hr : Unescaped s t) : Unescaped ('\\' :: '"' :: s) ('"' :: t)

/-- Write a text with the escapes above. -/
def escape : Str → Str
  | [] => []
  | '\n' :: r => '\\' :: 'n' :: escape r
  | '\t' :: r => '\\' :: 't' :: escape r
  | '"' :: r => '\\' :: '"' :: escape r
  | c :: r => c :: escape r

/-- ASCII text. -/
def Ascii (s : Str) : Prop := ∀ c ∈ s, c.toNat < 128

/-- The run of consecutive commented lines that ends at `line`, from top to bottom. -/
def commentBlock (cm : Comments) : Nat → List (Nat × Str)
  | 0 => match cm.get 0 with
    | none => []
    | some c => [(0, c)]
  | l + 1 => match cm.get (l + 1) with
    | none => []
    | some c => commentBlock cm l ++ [(l + 1, c)]

/-- The comment lines that document an item on `line`: the block ending on that line, or on the line
above when the item's own line has no comment. -/
def docLines (cm : Comments) (line : Nat) : List (Nat × Str) :=
  match cm.get line, line with
  | some _, _ => commentBlock cm line
  | none, 0 => []
  | none, l + 1 => commentBlock cm l

/-- The documentation text made of comment lines: lines starting with `!` are left out. -/
def docText (ls : List (Nat × Str)) : Str :=
  join ['\n'] ((ls.map (·.2)).filter fun c => decide (c.head? ≠ some '!'))

end Verif.Spec
