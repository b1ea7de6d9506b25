/-!
# Model of the RIDL lexer and tokenizer

Models `/repo/schema/ridl/lexer.go` and `/repo/schema/ridl/tokenizer.go`.

Simplifications (see DESIGN.md):
* A Go string is its list of runes (`List Char`); the bytes-to-runes conversion
  `[]rune(in)` (which maps malformed UTF-8 to U+FFFD) happens before the model starts.
* The channel between `lexer.run` and `tokenize` is unbuffered and has one producer and
  one consumer, so it is modelled as the list of emitted tokens.
-/

namespace Verif.Ridl

/-- A Go string, as runes. -/
abbrev Str := List Char

/-- `tokenType`, lexer.go:40-78.  (`tokenDash` is `minusSign`.) -/
inductive TT
  | invalid | whitespace | newLine | equal | openParen | closeParen | openBracket | closeBracket
  | openAngle | closeAngle | plusSign | minusSign | hash | colon | comma | bar | backslash | slash
  | quote | dot | questionMark | rocket | bang | word
  | extra | optionalWhitespace | composed
  | eol | eof | at_
deriving DecidableEq, Repr, Inhabited

/-- `tokenTypeName` / `tokenType.String`, lexer.go:20-25 and 82-112.  Types with no entry
(`tokenOptionalWhitespace`, `tokenEOL`) print as `[invalid]`. -/
def TT.name : TT → Str
  | .invalid => "[invalid]".toList
  | .whitespace => "[space]".toList
  | .newLine => "[newline]".toList
  | .equal => "[equal sign]".toList
  | .openParen => "[open parenthesis]".toList
  | .closeParen => "[close parenthesis]".toList
  | .openBracket => "[open bracket]".toList
  | .closeBracket => "[close bracket]".toList
  | .openAngle => "[open angle bracket]".toList
  | .closeAngle => "[close angle bracket]".toList
  | .plusSign => "[plus]".toList
  | .minusSign => "[minus]".toList
  | .hash => "[hash]".toList
  | .colon => "[colon]".toList
  | .comma => "[comma]".toList
  | .bar => "[bar]".toList
  | .backslash => "[backslash]".toList
  | .slash => "[slash]".toList
  | .quote => "[quote]".toList
  | .dot => "[dot]".toList
  | .questionMark => "[question mark]".toList
  | .rocket => "[rocket]".toList
  | .bang => "[bang]".toList
  | .word => "[word]".toList
  | .extra => "[extra]".toList
  | .optionalWhitespace => "[invalid]".toList
  | .composed => "[composed]".toList
  | .eol => "[invalid]".toList
  | .eof => "[EOF]".toList
  | .at_ => "[at]".toList

/-- `token`, lexer.go:27-34. -/
structure Token where
  tt : TT
  val : Str
  pos : Nat := 0
  line : Nat := 0
  col : Nat := 0
deriving DecidableEq, Repr, Inhabited

/-- `token.String`, lexer.go:36-41. -/
def Token.str (t : Token) : Str := if t.val = [] then t.tt.name else t.val

/-- `empty`, lexer.go:8. -/
def emptyRune : Char := '\x00'

/-- `isEmpty`, lexer.go:171-173. -/
def isEmpty (r : Char) : Bool := r == emptyRune

/-- `wordBreak`, `isWordBreak`, lexer.go:13 and 175-182. -/
def isWordBreak (r : Char) : Bool :=
  ['\x00', ' ', '\t', '\r', '\n', '[', ']', '(', ')', '<', '>', '{', '}', '=', ':', '¿', '?', '¡',
   '!', ',', '"'].contains r

/-- `wordBeginning`, `isWord`, lexer.go:12 and 184-191. -/
def isWord (r : Char) : Bool :=
  ('a'.toNat ≤ r.toNat && r.toNat ≤ 'z'.toNat) || ('A'.toNat ≤ r.toNat && r.toNat ≤ 'Z'.toNat)
    || ('0'.toNat ≤ r.toNat && r.toNat ≤ '9'.toNat) || r == '_'

/-- `isSpace`, lexer.go:114 and 139: `tokenTypeValue[tokenWhitespace]`. -/
def isSpace (r : Char) : Bool := r == ' ' || r == '\t' || r == '\r'

/-- The position part of `lexer`, lexer.go:406-417: `cur` is `input[start:pos]`. -/
structure Lx where
  cur : Str := []
  pos : Nat := 0
  line : Nat := 0
  col : Nat := 0
deriving DecidableEq, Repr, Inhabited

/-- `lexer.peek`, lexer.go:439-444; the argument is `input[pos:]`. -/
def peek : Str → Char
  | [] => emptyRune
  | c :: _ => c

/-- `lexer.next` when a character is left, lexer.go:446-459. -/
def Lx.eat (s : Lx) (c : Char) : Lx :=
  { cur := s.cur ++ [c], pos := s.pos + 1,
    line := if s.col < 1 then s.line + 1 else s.line, col := s.col + 1 }

/-- `lexer.next`, lexer.go:446-459: no effect at the end of the input. -/
def next (s : Lx) : Str → Lx × Str
  | [] => (s, [])
  | c :: r => (s.eat c, r)

/-- `lexer.emit`, lexer.go:461-471. -/
def Lx.emit (s : Lx) (tt : TT) : Token × Lx :=
  ({ tt := tt, val := s.cur, pos := s.pos, line := s.line, col := s.col }, { s with cur := [] })

/-- The loop of `lexStateWord`, lexer.go:275-282. -/
def wordLoop (s : Lx) : Str → Lx × Str
  | [] => (s, [])
  | c :: r => if isWordBreak (peek r) then (s.eat c, r) else wordLoop (s.eat c) r

/-- The `for isSpace(lx.peek())` loop of `lexStateSpace`, lexer.go:290-292. -/
def spaceLoop (s : Lx) : Str → Lx × Str
  | [] => (s, [])
  | c :: r => if isSpace c then spaceLoop (s.eat c) r else (s, c :: r)

/-- `lexPushTokenState`, lexer.go:193-199. -/
def pushToken (tt : TT) (s : Lx) (rest : Str) : Token × Lx × Str :=
  let (s, rest) := next s rest
  let (t, s) := s.emit tt
  (t, s, rest)

/-- `lexStateWord`, lexer.go:274-285. -/
def lexWord (s : Lx) (rest : Str) : Token × Lx × Str :=
  let (s, rest) := wordLoop s rest
  let (t, s) := s.emit .word
  (t, s, rest)

/-- `lexStateSpace`, lexer.go:287-296. -/
def lexSpace (s : Lx) (rest : Str) : Token × Lx × Str :=
  let (s, rest) := next s rest
  let (s, rest) := spaceLoop s rest
  let (t, s) := s.emit .whitespace
  (t, s, rest)

/-- `lexStateNewLine`, lexer.go:298-303. -/
def lexNewLine (s : Lx) (rest : Str) : Token × Lx × Str :=
  let (s, rest) := next s rest
  let (t, s) := s.emit .newLine
  (t, { s with col := 0 }, rest)

/-- `lexStateEqual` (continuing into `lexStateRocket`), lexer.go:305-317 and 224-226. -/
def lexEqual (s : Lx) (rest : Str) : Token × Lx × Str :=
  let (s, rest) := next s rest
  if peek rest == '>' then pushToken .rocket s rest
  else
    let (t, s) := s.emit .equal
    (t, s, rest)

/-- One round of the lexer: `lexDefaultState` (lexer.go:319-403) and the state it selects, up to
the next emitted token.  `none` is the `nil` state: the end of the input or a NUL character. -/
def lexStep (s : Lx) (rest : Str) : Option (Token × Lx × Str) :=
  let r := peek rest
  if isEmpty r then none
  else some <|
    if r == '"' then pushToken .quote s rest
    else if r == '/' then pushToken .slash s rest
    else if r == '\\' then pushToken .backslash s rest
    else if isSpace r then lexSpace s rest
    else if r == '\n' then lexNewLine s rest
    else if r == '(' then pushToken .openParen s rest
    else if r == ')' then pushToken .closeParen s rest
    else if r == '<' then pushToken .openAngle s rest
    else if r == '>' then pushToken .closeAngle s rest
    else if r == '[' then pushToken .openBracket s rest
    else if r == ']' then pushToken .closeBracket s rest
    else if r == '#' then pushToken .hash s rest
    else if r == '=' then lexEqual s rest
    else if r == '+' then pushToken .plusSign s rest
    else if r == '-' then pushToken .minusSign s rest
    else if r == ':' then pushToken .colon s rest
    else if r == '?' then pushToken .questionMark s rest
    else if r == ',' then pushToken .comma s rest
    else if r == '|' then pushToken .bar s rest
    else if r == '.' then pushToken .dot s rest
    else if isWord r then lexWord s rest
    else if r == '@' then pushToken .at_ s rest
    else pushToken .extra s rest

/-- `lexer.run`, lexer.go:430-437, bounded by `fuel` rounds; `none` means the bound was hit
before the lexer stopped (`lex_terminates` shows that `length + 1` rounds always suffice).
The last token is the EOF token. -/
def lexRun : Nat → Lx → Str → Option (List Token)
  | 0, _, _ => none
  | fuel + 1, s, rest =>
    match lexStep s rest with
    | none => some [(s.emit .eof).1]
    | some (t, s', rest') => (lexRun fuel s' rest').map (t :: ·)

/-- `newLexer` followed by reading the whole channel, lexer.go:419-437. -/
def lexAll (src : Str) : Option (List Token) := lexRun (src.length + 1) {} src

/-- `parseCommentToken`, tokenizer.go:48-72; `tokens` are the tokens already read (in order). -/
def parseCommentToken (cur : Token) (tokens : List Token) (comment : List Str) : List Str :=
  match tokens.getLast? with
  | none => comment ++ [cur.str]
  | some prev =>
    if prev.tt = .whitespace then comment ++ [cur.str]
    else match comment.getLast? with
      | some w => comment.dropLast ++ [w ++ cur.str]
      | none => comment ++ [cur.str]

/-- `strings.Join`. -/
def join (sep : Str) : List Str → Str
  | [] => []
  | [a] => a
  | a :: b :: r => a ++ sep ++ join sep (b :: r)

/-- The comment table `map[int]string`: a finite map from lines to text. -/
abbrev Comments := List (Nat × Str)

/-- Map assignment `m[k] = v`. -/
def Comments.set (m : Comments) (k : Nat) (v : Str) : Comments :=
  m.filter (·.1 ≠ k) ++ [(k, v)]

/-- Map lookup. -/
def Comments.get (m : Comments) (k : Nat) : Option Str := (m.find? (·.1 == k)).map (·.2)

/-- `delete(m, k)`. -/
def Comments.del (m : Comments) (k : Nat) : Comments := m.filter (·.1 ≠ k)

/-- Loop state of `tokenize`, tokenizer.go:14-18. -/
structure TkSt where
  tokens : List Token := []
  lineComments : Comments := []
  parsingComment : Bool := false
  commentTokens : List Str := []
deriving DecidableEq, Repr, Inhabited

/-- Loop body of `tokenize`, tokenizer.go:20-43 (for a token other than EOF). -/
def tokenizeStep (st : TkSt) (tok : Token) : TkSt :=
  if tok.tt = .hash then
    { st with parsingComment := true, tokens := st.tokens ++ [tok] }
  else
    let st :=
      if st.parsingComment ∧ tok.tt ≠ .newLine ∧ tok.tt ≠ .whitespace then
        { st with commentTokens := parseCommentToken tok st.tokens st.commentTokens }
      else st
    let st :=
      if tok.tt = .newLine ∧ st.parsingComment then
        { st with lineComments := st.lineComments.set tok.line (join [' '] st.commentTokens),
                  commentTokens := [], parsingComment := false }
      else st
    { st with tokens := st.tokens ++ [tok] }

/-- The loop of `tokenize`, tokenizer.go:20-43: stops at the EOF token. -/
def tokenizeLoop (st : TkSt) : List Token → TkSt
  | [] => st
  | t :: r => if t.tt = .eof then st else tokenizeLoop (tokenizeStep st t) r

/-- `tokenize`, tokenizer.go:12-46.  `none`: the lexer did not stop (impossible, C02). -/
def tokenize (src : Str) : Option (List Token × Comments) :=
  (lexAll src).map fun ts =>
    let st := tokenizeLoop {} ts
    (st.tokens, st.lineComments)

end Verif.Ridl
