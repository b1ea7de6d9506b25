import Verif.Ridl.ParserCore

/-!
# Model of the RIDL parser: grammar states

Models `definition_parser.go`, `import_parser.go`, `enum_parser.go`, `type_alias_parser.go`,
`struct_parser.go`, `error_parser.go`, `error_list_parser.go`, `service_parser.go`, `type_parser.go`,
the node types of `parser_node.go`, and `parser.run`/`parser.collect` of `parser.go`, all in
`/repo/schema/ridl`.

A state function `func(*parser) parserState` is an element of `St` (closures are defunctionalised:
the captured node is an argument of the constructor).  `TokenNode` is the token itself; `start`/`end`
of nodes are never read and are left out.  A node that Go mutates through a pointer is passed along.
-/

namespace Verif.Ridl

/-! ### Nodes (parser_node.go) -/

/-- `DefinitionNode`, parser_node.go:136-146; `meta` entries are definition nodes with just a left and
a right token. -/
structure DefNode where
  left : Token
  right : Option Token := none
  optional : Bool := false
  metas : List (Token × Token) := []
  comment : Str := []
deriving DecidableEq, Repr, Inhabited

/-- `ImportNode`, parser_node.go:210-215. -/
structure ImportNode where
  path : Token
  members : List Token := []
deriving DecidableEq, Repr, Inhabited

/-- `EnumNode`, parser_node.go:232-240. -/
structure EnumNode where
  name : Token
  enumType : Token
  values : List DefNode := []
  comment : Str := []
  line : Nat := 0
deriving DecidableEq, Repr, Inhabited

/-- `StructNode`, parser_node.go:260-267. -/
structure StructNode where
  name : Token
  fields : List DefNode := []
  comment : Str := []
  line : Nat := 0
deriving DecidableEq, Repr, Inhabited

/-- `ErrorNode`, parser_node.go:283-290. -/
structure ErrorNode where
  code : Token
  name : Token
  message : Option Token := none
  httpStatus : Option Token := none
deriving DecidableEq, Repr, Inhabited

/-- `ArgumentNode`, parser_node.go:300-308. -/
structure ArgNode where
  name : Option Token := none
  argType : Option Token := none
  optional : Bool := false
  inlineStruct : Option Token := none
deriving DecidableEq, Repr, Inhabited

/-- `AnnotationNode`, parser_node.go:332-335. -/
structure AnnNode where
  annType : Token
  value : Option Token := none
deriving DecidableEq, Repr, Inhabited

/-- `MethodNode` and `argumentList`, parser_node.go:345-355 and 449-453. -/
structure MethodNode where
  name : Token
  proxy : Bool := false
  comment : Str := []
  annotations : List AnnNode := []
  streamInput : Bool := false
  inputs : List ArgNode := []
  streamOutput : Bool := false
  outputs : List ArgNode := []
  errors : List Token := []
deriving DecidableEq, Repr, Inhabited

/-- `ServiceNode`, parser_node.go:397-404. -/
structure ServiceNode where
  name : Token
  methods : List MethodNode := []
  methodAnnotations : List AnnNode := []
  comment : Str := []
deriving DecidableEq, Repr, Inhabited

/-- `TypeAliasNode`, parser_node.go:421-429. -/
structure AliasNode where
  name : Token
  aliasType : Token
  metas : List (Token × Token) := []
  comment : Str := []
  line : Nat := 0
deriving DecidableEq, Repr, Inhabited

/-- A child of the root node. -/
inductive Node
  | defn (n : DefNode)
  | import_ (n : ImportNode)
  | enum (n : EnumNode)
  | struct (n : StructNode)
  | error (n : ErrorNode)
  | alias (n : AliasNode)
  | service (n : ServiceNode)
deriving DecidableEq, Repr, Inhabited

/-! ### Types (type_parser.go) -/

/-- `parser.expectTypeList`, type_parser.go:150-191; `rec` is `expectType`. -/
def expectTypeList (rec : P Token) : P Token := do
  let tok ← match_ [.openAngle]
  let t0 ← nth tok 0
  let tokens ← loop (fun (tokens : List Token) => do
    let tok ← cursor
    match tok.tt with
    | .whitespace =>
      let _ ← advance
      pure (.inl tokens)
    | .closeAngle => pure (.inr (tokens ++ [tok]))
    | .comma | .bar =>
      let _ ← advance
      pure (.inl (tokens ++ [tok]))
    | .word | .openBracket =>
      let t ← rec
      pure (.inl (tokens ++ [t]))
    | _ => fail .unexpectedToken) [t0]
  composedValue tokens

/-- `parser.expectMapDefinition`, type_parser.go:7-45; `rec` is `expectType`. -/
def expectMapDefinition (rec : P Token) : P Token := do
  let tok ← cursor
  if tok.val ≠ "map".toList then fail (.msg "expecting \"map\"".toList)
  else
    let _ ← advance
    let tokens ← loop (fun (tokens : List Token) => do
      let tok ← cursor
      match tok.tt with
      | .whitespace =>
        let _ ← advance
        pure (.inl tokens)
      | .closeAngle =>
        let _ ← advance
        pure (.inr tokens)
      | .openAngle =>
        let types ← expectTypeList rec
        pure (.inl (tokens ++ [types]))
      | _ => fail .unexpectedToken) [tok]
    composedValue tokens

/-- Body of `parser.expectType`, type_parser.go:193-245; `rec` is the recursive call. -/
def expectTypeBody (rec : P Token) : P Token := do
  let tokens ← loop (fun (tokens : List Token) => do
    let tok ← cursor
    match tok.tt with
    | .newLine | .whitespace | .comma | .bar | .closeAngle | .closeParen | .hash => pure (.inr tokens)
    | .eof => pure (.inr tokens)
    | .openBracket =>
      let brackets ← match_ [.openBracket, .closeBracket]
      let typeName ← rec
      pure (.inl (tokens ++ (brackets ++ [typeName])))
    | .word =>
      if tok.val = "map".toList then
        let t ← expectMapDefinition rec
        pure (.inl (tokens ++ [t]))
      else if tok.val = "stream".toList ∨ tok.val = "struct".toList then fail .unexpectedToken
      else
        let _ ← advance
        pure (.inl (tokens ++ [tok]))
    | _ => fail .unexpectedToken) []
  composedValue tokens

/-- `parser.expectType`, type_parser.go:193-245, with a bound on the nesting depth. -/
def expectTypeN : Nat → P Token
  | 0 => fun p => (.hang, p)
  | n + 1 => expectTypeBody (expectTypeN n)

/-- `parser.expectType`: nesting is bounded by the number of tokens left. -/
def expectType : P Token := fun p => expectTypeN (p.tokens.length - p.pos + 1) p

/-- The check for a leading `stream` in `parser.expectArgumentList`, type_parser.go:50-56. -/
def optStream : P Unit := do
  let r ← attempt (match_ [.word, .whitespace])
  match r with
  | .ok ms =>
    let m0 ← nth ms 0
    if m0.val ≠ "stream".toList then fail .unexpectedToken else pure ()
  | .error _ => pure ()

/-- The loop of `parser.expectArgumentList`, type_parser.go:66-145. -/
def argumentLoop : P (List ArgNode) :=
  loop (fun (values : List ArgNode) => do
    let tok ← cursor
    match tok.tt with
    | .whitespace =>
      let _ ← advance
      pure (.inl values)
    | .closeParen =>
      let _ ← advance
      pure (.inr values)
    | .comma =>
      let _ ← advance
      pure (.inl values)
    | .bar =>
      let _ ← advance
      pure (.inl values)
    | .word =>
      let r ← attempt (match_ [.word, .closeParen])
      match r with
      | .ok ms =>
        let m0 ← nth ms 0
        let _ ← advance
        pure (.inr (values ++ [{ inlineStruct := some m0 }]))
      | .error _ =>
        let r ← attempt (match_ [.word, .questionMark, .colon, .whitespace])
        match r with
        | .ok ms =>
          let m0 ← nth ms 0
          let t ← expectType
          pure (.inl (values ++ [{ name := some m0, argType := some t, optional := true }]))
        | .error _ =>
          let ms ← match_ [.word, .colon, .whitespace]
          let m0 ← nth ms 0
          let t ← expectType
          pure (.inl (values ++ [{ name := some m0, argType := some t, optional := false }]))
    | _ => fail .unexpectedToken) []

/-- `parser.expectArgumentList`, type_parser.go:47-148.  The `tokens` slice is never read and is
left out. -/
def expectArgumentList : P (List ArgNode) := do
  optStream
  let _ ← match_ [.openParen]
  argumentLoop

/-- `parser.expectErrorList`, error_list_parser.go:5-26. -/
def expectErrorList : P (List Token) := do
  let ms ← match_ [.whitespace, .word]
  let m1 ← nth ms 1
  loop (fun (names : List Token) => do
    let r ← attempt (match_ [.whitespace, .bar, .whitespace, .word])
    match r with
    | .error _ => pure (.inr names)
    | .ok ms =>
      let m3 ← nth ms 3
      pure (.inl (names ++ [m3]))) [m1]

/-- `parseAnnotations`, service_parser.go:181-236. -/
def parseAnnotations : P (List AnnNode) :=
  loop (fun (anns : List AnnNode) => do
    let r ← attempt (match_ [.at_, .word])
    match r with
    | .error _ => pure (.inr anns)
    | .ok ms =>
      let m1 ← nth ms 1
      if anns.any (fun a => a.annType.val = m1.val) then
        fail (.msg ("duplicate annotation type: ".toList ++ m1.val))
      else
        let c ← cursor
        if c.tt ≠ .colon then pure (.inl (anns ++ [{ annType := m1 }]))
        else
          let _ ← advance
          let c ← cursor
          let value := if c.tt = .word then some c else none
          let c ← cursor
          if c.tt = .quote then
            let v ← expectStringValue
            let _ ← advance
            pure (.inl (anns ++ [{ annType := m1, value := some v }]))
          else
            let _ ← advance
            pure (.inl (anns ++ [{ annType := m1, value := value }]))) []

/-! ### States -/

/-- `parserState` values. -/
inductive St
  | default | space | newLine | declaration | comment | eof | eol | continue_
  | definition | definitionValue (dn : DefNode)
  | import_ | importValue | importMembers (n : ImportNode)
  | error | errorMessage (n : ErrorNode) | errorStatus (n : ErrorNode)
  | enum | enumDef (n : EnumNode) | enumValue (n : EnumNode) (dn : DefNode)
  | typeAlias | aliasMeta (n : AliasNode) | aliasMetaDef (n : AliasNode)
  | struct | structField (n : StructNode) | fieldMeta (n : StructNode)
  | fieldMetaDef (n : StructNode) | fieldDef (n : StructNode)
  | service | serviceMethod (n : ServiceNode) | methodDef (n : ServiceNode)
deriving DecidableEq, Repr, Inhabited

/-- What a state function returns: the next state and the nodes it emitted, or the `nil` state after
closing the channel. -/
inductive Step
  | goto (s : St) (emitted : List Node)
  | done
deriving DecidableEq, Repr, Inhabited

/-- `parserStateEOL`, parser.go:374-381. -/
def stEOL : P Step := do
  expectOptionalCommentOrEOL
  pure (.goto .continue_ [])

/-- `parserStateComment`, parser.go:383-388. -/
def stComment : P Step := do
  continueUntilEOL
  pure (.goto .default [])

/-- `parserStateDeclaration`, parser.go:390-431 (words: parser.go:12-27). -/
def stDeclaration : P Step := do
  let word ← cursor
  if word.tt ≠ .word then fail .unexpectedToken
  else if word.val = "webrpc".toList ∨ word.val = "name".toList ∨ word.val = "version".toList
      ∨ word.val = "basepath".toList then pure (.goto .definition [])
  else if word.val = "import".toList then pure (.goto .import_ [])
  else if word.val = "error".toList then pure (.goto .error [])
  else if word.val = "enum".toList then pure (.goto .enum [])
  else if word.val = "message".toList then fail (.msg "keyword \"message\" was renamed".toList)
  else if word.val = "type".toList then pure (.goto .typeAlias [])
  else if word.val = "struct".toList then pure (.goto .struct [])
  else if word.val = "service".toList then pure (.goto .service [])
  else fail .unexpectedToken

/-- `parserDefaultState`, parser.go:433-459. -/
def stDefault : P Step := do
  let tok ← cursor
  match tok.tt with
  | .whitespace => pure (.goto .space [])
  | .newLine => pure (.goto .newLine [])
  | .word => pure (.goto .declaration [])
  | .hash => pure (.goto .comment [])
  | .eof => pure (.goto .eof [])
  | _ => fail .unexpectedToken

/-- `parserStateSpace` / `parserStateNewLine`, parser.go:470-491. -/
def stSkip (tt : TT) : P Step := do
  let _ ← advance
  loop (fun (_ : Unit) => do
    let tok ← cursor
    if tok.tt = tt then
      let _ ← advance
      pure (.inl ())
    else pure (.inr ())) ()
  pure (.goto .default [])

/-- `parserStateContinue`, parser.go:493-496. -/
def stContinue : P Step := do
  let b ← advance
  if b then pure (.goto .default []) else pure (.goto .eof [])

/-- `parserStateDefinition`, definition_parser.go:18-29. -/
def stDefinition : P Step := do
  let tokens ← match_ [.word, .whitespace, .equal, .whitespace]
  let t0 ← nth tokens 0
  let c ← takeComments t0.line
  pure (.goto (.definitionValue { left := t0, comment := c }) [])

/-- `parserStateDefinitionValue`, definition_parser.go:3-16. -/
def stDefinitionValue (dn : DefNode) : P Step := do
  let v ← expectLiteralValue
  pure (.goto .eol [.defn { dn with right := some v }])

/-- `parserStateImportMembers`, import_parser.go:3-35. -/
def stImportMembers (n : ImportNode) : P Step := do
  let tok ← cursor
  match tok.tt with
  | .newLine | .whitespace =>
    let _ ← advance
    pure (.goto (.importMembers n) [])
  | .minusSign =>
    let _ ← match_ [.minusSign, .whitespace]
    let m ← expectLiteralValue
    pure (.goto (.importMembers { n with members := n.members ++ [m] }) [])
  | .hash =>
    continueUntilEOL
    pure (.goto (.importMembers n) [])
  | _ => pure (.goto .default [.import_ n])

/-- `parserStateImportValue`, import_parser.go:37-75. -/
def stImportValue : P Step := do
  let tok ← cursor
  match tok.tt with
  | .newLine | .whitespace =>
    let _ ← advance
    pure (.goto .importValue [])
  | .minusSign =>
    let _ ← match_ [.minusSign, .whitespace]
    let path ← expectPath
    pure (.goto .importValue [.import_ { path := path }])
  | .hash =>
    continueUntilEOL
    pure (.goto .importValue [])
  | _ => pure (.goto .default [])

/-- `parserStateImport`, import_parser.go:77-108. -/
def stImport : P Step := do
  let r ← attempt (match_ [.word, .eol])
  match r with
  | .ok ms =>
    let m0 ← nth ms 0
    match expectWord m0 "import".toList with
    | .error e => fail e
    | .ok _ => pure (.goto .importValue [])
  | .error _ =>
    let _ ← match_ [.whitespace]
    let path ← expectPath
    pure (.goto (.importMembers { path := path }) [])

/-- `parserStateError`, error_parser.go:8-29. -/
def stError : P Step := do
  let ms ← match_ [.word, .whitespace, .word, .whitespace, .word, .whitespace]
  let m0 ← nth ms 0
  if m0.val ≠ "error".toList then fail .unexpectedToken
  else
    let m2 ← nth ms 2
    match expectNumber m2 m2.val with
    | .error _ => fail (.msg "expecting error code to be a number".toList)
    | .ok _ =>
      let m4 ← nth ms 4
      pure (.goto (.errorMessage { code := m2, name := m4 }) [])

/-- `parserStateErrorMessage`, error_parser.go:32-64. -/
def stErrorMessage (n : ErrorNode) : P Step := do
  let tok ← cursor
  match tok.tt with
  | .quote =>
    let t ← expectStringValue
    pure (.goto (.errorStatus { n with message := some t }) [])
  | .word =>
    let _ ← advance
    pure (.goto (.errorStatus { n with message := some tok }) [])
  | _ => fail (.msg "expected <message>".toList)

/-- `parserStateErrorExplicitStatusCode`, error_parser.go:67-102. -/
def stErrorStatus (n : ErrorNode) : P Step := do
  let r ← attempt (match_ [.whitespace, .word])
  match r with
  | .error _ =>
    expectOptionalCommentOrEOL
    pure (.goto .default [.error n])
  | .ok ms =>
    let m1 ← nth ms 1
    match expectWord m1 "HTTP".toList with
    | .error _ =>
      let _ ← rewind 1
      fail (.msg "expecting optional 'HTTP <status code>'".toList)
    | .ok _ =>
      let ms ← match_ [.whitespace, .word]
      let m1 ← nth ms 1
      match expectNumber m1 m1.val with
      | .error _ =>
        let _ ← rewind 1
        fail (.msg "expecting HTTP '<status code>' to be a number".toList)
      | .ok _ =>
        expectOptionalCommentOrEOL
        pure (.goto .default [.error { n with httpStatus := some m1 }])

/-- `parserStateEnum`, enum_parser.go:57-76. -/
def stEnum : P Step := do
  let ms ← match_ [.word, .whitespace, .word, .colon, .whitespace, .word, .eol]
  let m0 ← nth ms 0
  if m0.val ≠ "enum".toList then fail .unexpectedToken
  else
    let m2 ← nth ms 2
    let m5 ← nth ms 5
    let c ← takeComments m0.line
    pure (.goto (.enumDef { name := m2, enumType := m5, comment := c, line := m0.line }) [])

/-- `parserStateEnumDefinition`, enum_parser.go:23-55. -/
def stEnumDef (n : EnumNode) : P Step := do
  let tok ← cursor
  match tok.tt with
  | .minusSign =>
    let ms ← match_ [.minusSign, .whitespace, .word]
    let m2 ← nth ms 2
    let m0 ← nth ms 0
    let c ← takeComments m0.line
    pure (.goto (.enumValue n { left := m2, comment := c }) [])
  | .newLine | .whitespace =>
    let _ ← advance
    pure (.goto (.enumDef n) [])
  | .hash =>
    continueUntilEOL
    pure (.goto (.enumDef n) [])
  | _ => pure (.goto .default [.enum n])

/-- `parserStateEnumExplicitValue`, enum_parser.go:3-21.  The comment found next to an explicit value
overwrites the comment of the enum itself (`en.comment = ...`), as in the source. -/
def stEnumValue (n : EnumNode) (dn : DefNode) : P Step := do
  let r ← attempt (match_ [.whitespace, .equal, .whitespace])
  match r with
  | .ok _ =>
    let v ← expectLiteralValue
    let c ← takeComments v.line
    pure (.goto (.enumDef { n with comment := c, values := n.values ++ [{ dn with right := some v }] }) [])
  | .error _ => pure (.goto (.enumDef { n with values := n.values ++ [dn] }) [])

/-- `parserStateTypeAlias`, type_alias_parser.go:57-82. -/
def stTypeAlias : P Step := do
  let ms ← match_ [.word, .whitespace, .word, .colon, .whitespace]
  let m0 ← nth ms 0
  if m0.val ≠ "type".toList then fail .unexpectedToken
  else
    let t ← expectType
    let m2 ← nth ms 2
    let c ← takeComments m0.line
    pure (.goto (.aliasMeta { name := m2, aliasType := t, comment := c, line := m0.line }) [])

/-- `parserStateTypeAliasMeta`, type_alias_parser.go:35-55. -/
def stAliasMeta (n : AliasNode) : P Step := do
  let tok ← cursor
  match tok.tt with
  | .newLine | .whitespace =>
    let _ ← advance
    pure (.goto (.aliasMeta n) [])
  | .hash =>
    continueUntilEOL
    pure (.goto (.aliasMeta n) [])
  | .plusSign => pure (.goto (.aliasMetaDef n) [])
  | _ => pure (.goto .default [.alias n])

/-- The `+ <key> = <value>` line shared by `parserStateTypeAliasMetaDefinition`
(type_alias_parser.go:6-27) and `parserStateStructFieldMetaDefinition` (struct_parser.go:9-32). -/
def metaLine : P (Token × Token) := do
  let _ ← match_ [.plusSign, .whitespace]
  let left ← expectMetadataKey
  let _ ← match_ [.whitespace, .equal, .whitespace]
  let right ← expectMetadataValue
  pure (left, right)

/-- `parserStateTypeAliasMetaDefinition`, type_alias_parser.go:3-33. -/
def stAliasMetaDef (n : AliasNode) : P Step := do
  let m ← metaLine
  pure (.goto (.aliasMeta { n with metas := n.metas ++ [m] }) [])

/-- `parserStateStruct`, struct_parser.go:127-146. -/
def stStruct : P Step := do
  let ms ← match_ [.word, .whitespace, .word]
  let m0 ← nth ms 0
  if m0.val ≠ "struct".toList then fail .unexpectedToken
  else
    let m2 ← nth ms 2
    let c ← takeComments m0.line
    pure (.goto (.structField { name := m2, comment := c, line := m0.line }) [])

/-- `parserStateStructField`, struct_parser.go:102-125. -/
def stStructField (n : StructNode) : P Step := do
  let tok ← cursor
  match tok.tt with
  | .newLine | .whitespace =>
    let _ ← advance
    pure (.goto (.structField n) [])
  | .hash =>
    continueUntilEOL
    pure (.goto (.structField n) [])
  | .minusSign => pure (.goto (.fieldDef n) [])
  | _ => pure (.goto .default [.struct n])

/-- `parserStateStructFieldDefinition`, struct_parser.go:64-100. -/
def stFieldDef (n : StructNode) : P Step := do
  let ms ← match_ [.minusSign, .whitespace, .word]
  let m2 ← nth ms 2
  let m0 ← nth ms 0
  let c ← takeComments m0.line
  let q ← attempt (match_ [.questionMark])
  let optional := match q with | .ok _ => true | .error _ => false
  let _ ← match_ [.colon, .whitespace]
  let t ← expectType
  pure (.goto (.fieldMeta { n with fields := n.fields ++
    [{ left := m2, right := some t, optional := optional, comment := c }] }) [])

/-- `parserStateStructFieldMeta`, struct_parser.go:40-62. -/
def stFieldMeta (n : StructNode) : P Step := do
  let tok ← cursor
  match tok.tt with
  | .newLine | .whitespace =>
    let _ ← advance
    pure (.goto (.fieldMeta n) [])
  | .hash =>
    continueUntilEOL
    pure (.goto (.fieldMeta n) [])
  | .plusSign => pure (.goto (.fieldMetaDef n) [])
  | _ => pure (.goto (.structField n) [])

/-- `parserStateStructFieldMetaDefinition`, struct_parser.go:3-38: panics when there is no field. -/
def stFieldMetaDef (n : StructNode) : P Step := do
  match n.fields.getLast? with
  | none => crash
  | some field =>
    let m ← metaLine
    pure (.goto (.fieldMeta { n with fields := n.fields.dropLast ++
      [{ field with metas := field.metas ++ [m] }] }) [])

/-- `parserStateService`, service_parser.go:154-179. -/
def stService : P Step := do
  let ms ← match_ [.word, .whitespace]
  let m0 ← nth ms 0
  if m0.val ≠ "service".toList then fail .unexpectedToken
  else
    let name ← expectLiteralValue
    expectOptionalCommentOrEOL
    let c ← takeComments m0.line
    pure (.goto (.serviceMethod { name := name, comment := c }) [])

/-- `parserStateServiceMethod`, service_parser.go:119-152. -/
def stServiceMethod (n : ServiceNode) : P Step := do
  let tok ← cursor
  match tok.tt with
  | .newLine | .whitespace =>
    let _ ← advance
    pure (.goto (.serviceMethod n) [])
  | .at_ =>
    let anns ← parseAnnotations
    pure (.goto (.serviceMethod { n with methodAnnotations := n.methodAnnotations ++ anns }) [])
  | .hash =>
    continueUntilEOL
    pure (.goto (.serviceMethod n) [])
  | .minusSign => pure (.goto (.methodDef n) [])
  | _ => pure (.goto .default [.service n])

/-- Are two annotations of the same name present?  service_parser.go:15-22. -/
def hasDupAnnotation : List AnnNode → Bool
  | [] => false
  | a :: r => r.any (fun b => b.annType.val = a.annType.val) || hasDupAnnotation r

/-- The optional `stream` before the output arguments, service_parser.go:88-96. -/
def outputStream : P Bool := do
  let r ← attempt (match_ [.word, .whitespace])
  match r with
  | .error _ => pure false
  | .ok ms =>
    let m0 ← nth ms 0
    if m0.val = "stream".toList then pure true else fail .unexpectedToken

/-- `=> (...)`: the output arguments, service_parser.go:85-105. -/
def methodOutputs (mn : MethodNode) : P MethodNode := do
  let r ← attempt (match_ [.whitespace, .rocket, .whitespace])
  match r with
  | .error _ => pure mn
  | .ok _ =>
    let streamOutput ← outputStream
    let outs ← expectArgumentList
    pure { mn with streamOutput := streamOutput, outputs := outs }

/-- The `errors` clause, service_parser.go:107-116. -/
def methodErrors (mn : MethodNode) : P MethodNode := do
  let r ← attempt (match_ [.whitespace, .word])
  match r with
  | .error _ => pure mn
  | .ok ms =>
    let m1 ← nth ms 1
    if m1.val = "errors".toList then
      let es ← expectErrorList
      pure { mn with errors := es }
    else pure mn

/-- `stream <name>` and `proxy <name>`: the second word is the name, service_parser.go:31-51. -/
def prefixedName (isPrefix : Bool) (name : Token) : P Token := do
  if isPrefix then
    let ms ← match_ [.whitespace, .word]
    nth ms 1
  else pure name

/-- `parseStateServiceMethodDefinition`, service_parser.go:5-117.  The deferred statement clears the
annotation buffer. -/
def stMethodDef (n : ServiceNode) : P Step := do
  if hasDupAnnotation n.methodAnnotations then fail (.msg "duplicate annotation type".toList)
  else
    let ms ← match_ [.minusSign, .whitespace, .word]
    let m0 ← nth ms 0
    let m2 ← nth ms 2
    let isStream := decide (m2.val = "stream".toList)
    let isProxy := decide (m2.val = "proxy".toList)
    let name ← prefixedName isStream m2
    let name ← prefixedName isProxy name
    let commentLine := match n.methodAnnotations.getLast? with
      | some a => a.annType.line
      | none => m0.line
    let c ← takeComments commentLine
    let mn : MethodNode :=
      { name := name, proxy := isProxy, comment := c, streamInput := isStream,
        annotations := n.methodAnnotations }
    if isProxy then
      pure (.goto (.serviceMethod { n with methods := n.methods ++ [mn], methodAnnotations := [] }) [])
    else
      let ins ← expectArgumentList
      let mn ← methodOutputs { mn with inputs := ins }
      let mn ← methodErrors mn
      pure (.goto (.serviceMethod { n with methods := n.methods ++ [mn], methodAnnotations := [] }) [])

/-- One application of a state function. -/
def step : St → P Step
  | .default => stDefault
  | .space => stSkip .whitespace
  | .newLine => stSkip .newLine
  | .declaration => stDeclaration
  | .comment => stComment
  | .eof => pure .done   -- `parserStateEOF`, parser.go:465-468
  | .eol => stEOL
  | .continue_ => stContinue
  | .definition => stDefinition
  | .definitionValue dn => stDefinitionValue dn
  | .import_ => stImport
  | .importValue => stImportValue
  | .importMembers n => stImportMembers n
  | .error => stError
  | .errorMessage n => stErrorMessage n
  | .errorStatus n => stErrorStatus n
  | .enum => stEnum
  | .enumDef n => stEnumDef n
  | .enumValue n dn => stEnumValue n dn
  | .typeAlias => stTypeAlias
  | .aliasMeta n => stAliasMeta n
  | .aliasMetaDef n => stAliasMetaDef n
  | .struct => stStruct
  | .structField n => stStructField n
  | .fieldMeta n => stFieldMeta n
  | .fieldMetaDef n => stFieldMetaDef n
  | .fieldDef n => stFieldDef n
  | .service => stService
  | .serviceMethod n => stServiceMethod n
  | .methodDef n => stMethodDef n

/-- Result of parsing a document: the root's children, or an error located at the cursor
(`stateError`, parser.go:160-165), or a panic. -/
inductive ParseResult
  | ok (nodes : List Node)
  | err (line col : Nat) (near : Str) (e : PErr)
  | panic
  | outOfFuel
deriving DecidableEq, Repr, Inhabited

/-- `parser.run` and `parser.collect`, parser.go:71-111, for at most `fuel` state transitions.
On an error the nodes emitted so far are dropped, since `run` returns the error. -/
def runN : Nat → St → PS → List Node → ParseResult
  | 0, _, _, _ => .outOfFuel
  | fuel + 1, st, p, nodes =>
    match step st p with
    | (.ok .done, _) => .ok nodes
    | (.ok (.goto st' em), p') => runN fuel st' p' (nodes ++ em)
    | (.err e, p') => .err p'.cursor.line p'.cursor.col p'.cursor.val e
    | (.panic, _) => .panic
    | (.hang, _) => .outOfFuel

/-- `newParser`, parser.go:51-65. -/
def newParser (src : Str) : Option PS :=
  (tokenize src).map fun (ts, cm) => { tokens := ts, comments := cm }

/-- Parse a document with at most `fuel` state transitions. -/
def parseN (fuel : Nat) (src : Str) : ParseResult :=
  match newParser src with
  | none => .outOfFuel
  | some p => runN fuel .default p []

/-- Number of transitions that always suffices, see `C08`. -/
def bound (p : PS) : Nat := 8 * (p.tokens.length - p.pos) + 8

/-- Parse a document. -/
def parseDoc (src : Str) : ParseResult :=
  match newParser src with
  | none => .outOfFuel
  | some p => runN (bound p) .default p []

end Verif.Ridl
