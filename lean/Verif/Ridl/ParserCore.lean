import Verif.Ridl.Lexer

/-!
# Model of the RIDL parser: primitives

Models `/repo/schema/ridl/parser.go` (cursor, match, literal values, doc comments) and
`/repo/schema/ridl/parser_util.go`.

A Go method `(p *parser) f() (T, error)` becomes `f : P T`, a function from the parser state to an
outcome and the new parser state.  A run-time panic (index out of range) is the outcome `panic`;
exhausting the bound of a loop is the outcome `hang`.  `Props/ParserSafety.lean` proves that neither
occurs (except for the one endless loop of finding F4).
-/

namespace Verif.Ridl

deriving instance DecidableEq for Except

/-- Errors produced by the parser.  `msg` stands for `errors.New`/`fmt.Errorf` texts. -/
inductive PErr
  | unexpectedToken | unexpectedEOF | unexpectedEOL
  | expecting (want : TT) (got : Token)
  | msg (s : Str)
deriving DecidableEq, Repr, Inhabited

/-- Outcome of a parser function. -/
inductive Out (α : Type)
  | ok (a : α)
  | err (e : PErr)
  | panic
  | hang
deriving DecidableEq, Repr, Inhabited

/-- The mutable part of `parser`, parser.go:39-49 (`length` is `tokens.length`). -/
structure PS where
  tokens : List Token
  pos : Nat := 0
  comments : Comments := []
deriving DecidableEq, Repr, Inhabited

/-- A parser function. -/
abbrev P (α : Type) := PS → Out α × PS

def P.pure {α : Type} (a : α) : P α := fun p => (.ok a, p)

def P.bind {α β : Type} (m : P α) (f : α → P β) : P β := fun p =>
  match m p with
  | (.ok a, p') => f a p'
  | (.err e, p') => (.err e, p')
  | (.panic, p') => (.panic, p')
  | (.hang, p') => (.hang, p')

instance : Monad P where
  pure := P.pure
  bind := P.bind

/-- `return nil, err`. -/
def fail {α : Type} (e : PErr) : P α := fun p => (.err e, p)

/-- An index out of range. -/
def crash {α : Type} : P α := fun p => (.panic, p)

/-- `x, err := m; if err != nil {..}`: the error becomes a value; state changes are kept. -/
def attempt {α : Type} (m : P α) : P (Except PErr α) := fun p =>
  match m p with
  | (.ok a, p') => (.ok (.ok a), p')
  | (.err e, p') => (.ok (.error e), p')
  | (.panic, p') => (.panic, p')
  | (.hang, p') => (.hang, p')

/-- End of a loop iteration: go on with `k`, or leave the loop. -/
def loopK {σ α : Type} (k : σ → P α) : σ ⊕ α → P α
  | .inl s => k s
  | .inr a => P.pure a

/-- A Go `for` loop: `body` yields either the next loop state or the result.  `fuel` bounds the
number of iterations. -/
def loopN {σ α : Type} (body : σ → P (σ ⊕ α)) : Nat → σ → P α
  | 0, _ => fun p => (.hang, p)
  | n + 1, s => P.bind (body s) (loopK (loopN body n))

/-- `for` loop with a bound of one iteration more than the tokens left. -/
def loop {σ α : Type} (body : σ → P (σ ⊕ α)) (s : σ) : P α := fun p =>
  loopN body (p.tokens.length - p.pos + 1) s p

/-- `eofToken`, parser.go:35. -/
def eofToken : Token := { tt := .eof, val := [] }

/-- `parser.cursor`, parser.go:183-188 (reads, no change). -/
def PS.cursor (p : PS) : Token := (p.tokens[p.pos]?).getD eofToken

/-- `parser.cursor`, parser.go:183-188. -/
def cursor : P Token := fun p => (.ok p.cursor, p)

/-- `parser.next`, parser.go:175-181. -/
def advance : P Bool := fun p =>
  if p.pos ≥ p.tokens.length then (.ok false, p) else (.ok true, { p with pos := p.pos + 1 })

/-- `parser.rewind`, parser.go:167-173. -/
def rewind (n : Nat) : P Bool := fun p =>
  if p.pos < n then (.ok false, p) else (.ok true, { p with pos := p.pos - n })

/-- `parser.continueUntilEOL`, parser.go:113-130. -/
def continueUntilEOL : P Unit :=
  loop (fun (_ : Unit) => do
    let tok ← cursor
    if tok.tt = .newLine ∨ tok.tt = .eof then pure (.inr ())
    else
      let _ ← advance
      pure (.inl ())) ()

/-- `parser.expectOptionalCommentOrEOL`, parser.go:132-158. -/
def expectOptionalCommentOrEOL : P Unit :=
  loop (fun (_ : Unit) => do
    let tok ← cursor
    match tok.tt with
    | .whitespace =>
      let _ ← advance
      pure (.inl ())
    | .eof | .newLine => pure (.inr ())
    | .hash =>
      continueUntilEOL
      pure (.inr ())
    | _ => fail .unexpectedToken) ()

/-- Bytes of a rune in UTF-8 (Go `len`/index on a string works on these). -/
def utf8 (c : Char) : List Nat :=
  let n := c.toNat
  if n < 0x80 then [n]
  else if n < 0x800 then [0xC0 + n / 0x40, 0x80 + n % 0x40]
  else if n < 0x10000 then [0xE0 + n / 0x1000, 0x80 + n / 0x40 % 0x40, 0x80 + n % 0x40]
  else [0xF0 + n / 0x40000, 0x80 + n / 0x1000 % 0x40, 0x80 + n / 0x40 % 0x40, 0x80 + n % 0x40]

/-- The bytes of a string. -/
def bytes (s : Str) : List Nat := s.flatMap utf8

/-- `unescapeString`, parser_util.go:33-62, over the bytes of its input.  `string(c)` of a byte is
the code point with that number (so a non-ASCII byte becomes a Latin-1 character). -/
def unescapeBytes : List Nat → Except PErr Str
  | [] => .ok []
  | c :: r =>
    if c = '\\'.toNat then
      match r with
      | [] => .error (.msg "unexpected end after backslash".toList)
      | n :: r' =>
        if n = 'n'.toNat then (unescapeBytes r').map ('\n' :: ·)
        else if n = 't'.toNat then (unescapeBytes r').map ('\t' :: ·)
        else if n = '"'.toNat then (unescapeBytes r').map ('"' :: ·)
        else .error (.msg "unexpected character after backslash".toList)
    else (unescapeBytes r).map (Char.ofNat c :: ·)

/-- `unescapeString`, parser_util.go:33-62. -/
def unescapeString (s : Str) : Except PErr Str := unescapeBytes (bytes s)

/-- `composedValue`, parser.go:498-521 (the new token's `pos` is left at zero, as in Go). -/
def composedValue (tokens : List Token) : P Token :=
  match tokens with
  | [] => fail (.msg "expecting token".toList)
  | base :: _ =>
    match unescapeString (tokens.flatMap (·.val)) with
    | .error e => fail e
    | .ok v => pure { tt := .composed, val := v, line := base.line, col := base.col }

/-- One round of the loop of `parser.expectStringValue`, parser.go:201-227. -/
def stringBody (tokens : List Token) : P (List Token ⊕ List Token) := do
  let tok ← cursor
  let _ ← advance
  match tok.tt with
  | .newLine => fail .unexpectedEOL
  | .eof => fail .unexpectedEOF
  | .backslash =>
    let tok2 ← cursor
    let _ ← advance
    pure (.inl (tokens ++ [tok] ++ [tok2]))
  | .quote => pure (.inr tokens)
  | _ => pure (.inl (tokens ++ [tok]))

/-- `parser.expectStringValue`, parser.go:190-230. -/
def expectStringValue : P Token := do
  let tok ← cursor
  let _ ← advance
  if tok.tt ≠ .quote then fail (.msg "strings must start with a quote".toList)
  else
    let tokens ← loop stringBody []
    composedValue tokens

/-- `parser.expectLiteralValue` (parser.go:232-261) and `parser.expectPath` (import_parser.go:110-143)
are the same function up to the set of token types they collect. -/
def literal (isTok : TT → Bool) : P Token := do
  let r ← loop (fun (tokens : List Token) => do
    let tok ← cursor
    if tok.tt = .quote then
      let t ← expectStringValue
      pure (.inr (Sum.inl t))
    else if isTok tok.tt then
      let _ ← advance
      pure (.inl (tokens ++ [tok]))
    else pure (.inr (Sum.inr tokens))) []
  match r with
  | .inl t => pure t
  | .inr tokens => composedValue tokens

/-- `parser.expectLiteralValue`, parser.go:232-261: words and slashes. -/
def expectLiteralValue : P Token := literal (fun tt => tt == .word || tt == .slash)

/-- The loop of `parser.match`, parser.go:268-302. `n` counts the tokens really consumed. -/
def matchLoop : List TT → List Token → Nat → P (List Token)
  | [], acc, _ => pure acc
  | want :: rest, acc, n => do
    let tok ← cursor
    if tok.tt = want then
      let _ ← advance
      matchLoop rest (acc ++ [tok]) (n + 1)
    else if want = .eol then
      -- an error here is returned without rewinding
      expectOptionalCommentOrEOL
      pure (acc ++ [{ tt := .eol, val := [], line := tok.line, col := tok.col }])
    else if want ≠ .whitespace then
      let _ ← rewind n
      fail (.expecting want tok)
    else
      matchLoop rest (acc ++ [{ tt := .whitespace, val := [' '], line := tok.line, col := tok.col }]) n

/-- `parser.match`, parser.go:263-308. -/
def match_ (tts : List TT) : P (List Token) := matchLoop tts [] 0

/-- `tokens[i]` of a slice: panics when out of range. -/
def nth (l : List Token) (i : Nat) : P Token :=
  match l[i]? with
  | some t => pure t
  | none => crash

/-- `parser.expectMetadataKey`, parser.go:310-343. -/
def expectMetadataKey : P Token := do
  let matches_ ← match_ [.word]
  let m0 ← nth matches_ 0
  let tokens ← loop (fun (tokens : List Token) => do
    let tok ← cursor
    match tok.tt with
    | .questionMark | .whitespace | .equal => pure (.inr tokens)
    | .word =>
      let _ ← advance
      pure (.inl (tokens ++ [tok]))
    | .dot =>
      let ms ← match_ [.dot, .word]
      pure (.inl (tokens ++ ms))
    | _ => fail .unexpectedToken) [m0]
  composedValue tokens

/-- `parser.expectMetadataValue`, parser.go:345-372. -/
def expectMetadataValue : P Token := do
  let tok ← cursor
  if tok.tt = .quote then expectStringValue
  else
    let tokens ← loop (fun (tokens : List Token) => do
      let tok ← cursor
      match tok.tt with
      | .whitespace | .newLine | .eof => pure (.inr tokens)
      | _ =>
        let _ ← advance
        pure (.inl (tokens ++ [tok]))) []
    composedValue tokens

/-- `parser.expectPath`, import_parser.go:110-143: words, dots and slashes. -/
def expectPath : P Token := literal (fun tt => tt == .word || tt == .dot || tt == .slash)

/-- `expectWord`, parser_util.go:8-13. -/
def expectWord (tok : Token) (value : Str) : Except PErr Unit :=
  if tok.tt ≠ .word ∨ tok.val ≠ value then .error .unexpectedToken else .ok ()

/-- `expectNumber`, parser_util.go:15-31. -/
def expectNumber (tok : Token) (value : Str) : Except PErr Unit :=
  if tok.tt ≠ .word then .error .unexpectedToken
  else if value.all (fun r => "0123456789".toList.contains r) then .ok ()
  else .error .unexpectedToken

/-- The loop of `parseComments`, parser.go:530-553: `c` collects upwards. -/
def parseCommentsLoop : Nat → Nat → List Str → Comments → List Str × Comments
  | line, iteration, c, cm =>
    match cm.get line with
    | some comment =>
      let c := if comment.head? = some '!' then c else c ++ [comment]
      let cm := cm.del line
      -- `iteration = 0`, then `iteration++`
      if cm.length = 0 then (c, cm)
      else match line with
        | 0 => (c, cm)
        | line' + 1 => parseCommentsLoop line' 1 c cm
    | none =>
      if c ≠ [] then (c, cm)
      else if iteration + 1 > 1 then (c, cm)
      else match line with
        | 0 => (c, cm)
        | line' + 1 => parseCommentsLoop line' (iteration + 1) c cm

/-- `parseComments`, parser.go:523-566; returns the text and the remaining table. -/
def parseComments (cm : Comments) (line : Nat) : Str × Comments :=
  if cm.length = 0 then ([], cm)
  else
    let (c, cm) := parseCommentsLoop line 0 [] cm
    (join ['\n'] c.reverse, cm)

/-- `parseComments(p.comments, line)`: the parser's table is updated in place. -/
def takeComments (line : Nat) : P Str := fun p =>
  let (s, cm) := parseComments p.comments line
  (.ok s, { p with comments := cm })

end Verif.Ridl
