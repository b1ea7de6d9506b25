import Verif.Ridl.Lexer

/-!
# Specification of RIDL tokenization

Written against the source text alone: no reference to the lexer's state machine.
-/

namespace Verif.Spec
open Verif.Ridl

/-- The part of the text that is tokenized: everything before the first NUL. -/
def visible (src : Str) : Str := src.takeWhile (· ≠ '\x00')

/-- 1-based (line, column) of the character that follows a text, moving over one character. -/
def advance (p : Nat × Nat) (c : Char) : Nat × Nat :=
  if c = '\n' then (p.1 + 1, 1) else (p.1, p.2 + 1)

/-- 1-based (line, column) of the `i`-th (0-based) character of `src`. -/
def position (src : Str) (i : Nat) : Nat × Nat := (src.take i).foldl advance (1, 1)

/-- Characters that stand for themselves as one-character tokens. -/
def symbol : Char → Option TT
  | '"' => some .quote | '/' => some .slash | '\\' => some .backslash | '\n' => some .newLine
  | '(' => some .openParen | ')' => some .closeParen | '<' => some .openAngle | '>' => some .closeAngle
  | '[' => some .openBracket | ']' => some .closeBracket | '#' => some .hash
  | '+' => some .plusSign | '-' => some .minusSign | ':' => some .colon | '?' => some .questionMark
  | ',' => some .comma | '|' => some .bar | '.' => some .dot | '@' => some .at_
  | _ => none

/-- Blank characters. -/
def Blank (c : Char) : Prop := c = ' ' ∨ c = '\t' ∨ c = '\r'

/-- Characters a word may start with. -/
def WordStart (c : Char) : Prop :=
  (('a' ≤ c ∧ c ≤ 'z') ∨ ('A' ≤ c ∧ c ≤ 'Z') ∨ ('0' ≤ c ∧ c ≤ '9')) ∨ c = '_'

/-- Characters that end a word. -/
def WordEnd (c : Char) : Prop := c ∈ "\x00 \t\r\n[]()<>{}=:¿?¡!,\"".toList

/-- `Tok tt v post`: the text `v`, followed by `post`, is one token of class `tt`. -/
inductive Tok : TT → Str → Str → Prop
  /-- a maximal run of blanks -/
  | blank (c : Char) (cs post : Str) (h : ∀ x ∈ c :: cs, Blank x)
      (hmax : ∀ d, post.head? = some d → ¬ Blank d) : Tok .whitespace (c :: cs) post
  /-- a maximal word -/
  | word (c : Char) (cs post : Str) (hc : WordStart c) (h : ∀ x ∈ cs, ¬ WordEnd x)
      (hmax : ∀ d, post.head? = some d → WordEnd d) : Tok .word (c :: cs) post
  /-- `=>` -/
  | rocket (post : Str) : Tok .rocket ['=', '>'] post
  /-- `=` not followed by `>` -/
  | equal (post : Str) (h : post.head? ≠ some '>') : Tok .equal ['='] post
  /-- one-character symbols -/
  | symbol (c : Char) (tt : TT) (post : Str) (h : symbol c = some tt) : Tok tt [c] post
  /-- any other character -/
  | extra (c : Char) (post : Str) (h0 : c ≠ '\x00') (h1 : ¬ Blank c) (h2 : ¬ WordStart c)
      (h3 : symbol c = none) (h4 : c ≠ '=') : Tok .extra [c] post

/-- `Segments src ts`: the text splits into the classified tokens `ts`, up to its end or a NUL. -/
inductive Segments : Str → List (TT × Str) → Prop
  | nil : Segments [] []
  | nul (post : Str) : Segments ('\x00' :: post) []
  | cons (tt : TT) (v post : Str) (ts : List (TT × Str)) (h : Tok tt v post)
      (hr : Segments post ts) : Segments (v ++ post) ((tt, v) :: ts)

end Verif.Spec

namespace Verif.Spec
open Verif.Ridl

/-- Does the text start with a non-blank character? -/
def startsSolid : Str → Bool
  | [] => false
  | c :: _ => !(c == ' ' || c == '\t' || c == '\r')

/-- The blank-separated words of a text. -/
def fields : Str → List Str
  | [] => []
  | c :: r =>
    if c == ' ' || c == '\t' || c == '\r' then fields r
    else if startsSolid r then
      match fields r with
      | w :: ws => (c :: w) :: ws
      | [] => [[c]]
    else [c] :: fields r

/-- After skipping blanks, does the next token exist and is it a `#`? -/
def beforeHash : List (TT × Str) → Bool
  | [] => false
  | (tt, _) :: r => tt == .hash || (tt == .whitespace && beforeHash r)

/-- The text of a comment: the token texts, without the `#` tokens and the blanks right before them. -/
def commentChars : List (TT × Str) → Str
  | [] => []
  | (tt, v) :: r =>
    if tt = .hash then commentChars r
    else if tt = .whitespace ∧ beforeHash r then commentChars r
    else v ++ commentChars r

/-- The comment recorded for a line made of the given tokens (`none`: the line has no `#` token). -/
def lineComment (line : List (TT × Str)) : Option Str :=
  match line.dropWhile (fun t => t.1 ≠ .hash) with
  | [] => none
  | _ :: after => some (join [' '] (fields (commentChars after)))

/-- `A` is a sequence of complete lines. -/
def WholeLines (A : List Token) : Prop := ∀ t, A.getLast? = some t → t.tt = .newLine

end Verif.Spec
