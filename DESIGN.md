# Formal model of webrpc/webrpc in Lean 4

## Layout

* `lean/Verif/Ridl`, `Schema`, `Compile`, `Json`, `Gen`, `Rpc`, `Ts` - the model (definitions citing `/repo` lines) and helper lemmas.
* `lean/Verif/Spec` - small specifications, independent of the model's control flow.
* `lean/Verif/Props` - the property theorems (`Cnn_...`), each with a non-vacuity example.
* `lean/Verif/Conform.lean`, `tools/conform.py` - run the executable model on the files of `/repo` (below).
* `seeded/`, `tools/mutate.py` - wrong programs and which theorems refused them (`seeded/LOG.jsonl`).

## Trusted base

* Lean 4.33.0's kernel. Every theorem depends at most on the axioms `propext`, `Classical.choice`
  and `Quot.sound`; no axiom is added, nothing is compiled into a proof.
* The reading of the Go code: each definition cites the file and lines it models.
* What the model assumes about the runtime:
  * Go strings are lists of code points; the bytes-to-runes conversion (malformed UTF-8 becomes
    U+FFFD) happens before the model. Where the code indexes bytes (`unescapeString`,
    `startsWithUpper`) the model encodes to UTF-8 bytes explicitly.
  * Unicode case mapping is a parameter (`GoUnicode`), with an ASCII instance for the examples.
  * Unbuffered channels with one producer and one consumer are lists (lexer, parser).
  * `sha1`, the text/template engine, git and the network are
    parameters or not modelled, as stated at each definition.
  * `encoding/json` is modelled in `Json/` (values, printing with escapes, parsing, struct decoding as far as used).
  * Machine integers are `Nat`/`Int`, except where a bound is part of the property (`ParseInt` 32 bit).
  * ECMAScript, `fetch`, `TextDecoder` and the rest of what generated TypeScript uses are modelled in `Ts/` from their
    specifications, as far as used; how numbers are rounded and printed, and the messages of built-in errors, are
    parameters (`JsEngine`). Browsers that enforce CORS are modelled from the Fetch Standard, and the libraries go-chi/cors and
    hono/cors, which are not part of `/repo`, from their documentation (`Ts/Cors.lean`). JavaScript strings are lists of code points (no lone surrogates), objects are trees.

How the model is tested against the program (outside the proofs): `/repo` contains files that the Go program made.
`tools/conform.py` runs the Lean model of `webrpc-gen` (lexer, parser, imports, validation, filters, JSON writer) on the
schemas of the examples and tests with the recorded arguments. The JSON it makes has, byte for byte, the SHA-1 schema hash
recorded in `_examples/golang-basics/{example,admin/admin,internal/internal}.gen.go`, `_examples/webrpc-streaming`,
`_examples/golang-imports`, `_examples/node-ts`, `_examples/hello-webrpc` and `tests/{server,client}`, and equals
`tests/schema/test.gen.json` and the golden files in `schema/ridl/_example` (these are written before the base path gets
its default). This is how the difference between nil and empty lists, which the JSON shows as `null` and `[]`, came into
the model: methods, services and schemas say which of their empty lists are nil (`Schema/Types.lean`); RIDL files make
none, JSON files where they say `null` or nothing, and filters every list they empty.

Not modelled: template contents and their execution, terminal output, code formatting, HTTP transport,
goroutine scheduling below the level of mutexes/channels, user interfaces of the TypeScript examples, the
`schema/reader.go` pass-through file reader.

## Properties

One line per property: what is modelled, and how it is proved.

* **C01 Tokens reassemble to the source** - lexer state machine (lexer.go) over runes; round lemma `StepOK`, induction over rounds; NUL truncation proved as a negative witness.
* **C02 Tokenizing always finishes and makes progress** - same machine with explicit round bound; bound `length+1` shown sufficient; every round consumes a character.
* **C03 Reported line and column are right** - invariant relating (line, col) to the consumed prefix; spec `position` counts newlines.
* **C04 Token classes and maximal munch** - inductive spec `Segments`; the lexer satisfies it and it is deterministic, so the tokens are the unique segmentation.
* **C05 Comment table** - fold of `tokenizeStep`; spec on token lines (`lineComment`, `fields`); invariant 'clean between lines'.
* **C06 Quoted string values are preserved** - `expectStringValue`/`composedValue` on the token list of a quoted text; uses C01/C04; false beyond ASCII and for backslashes (witnesses).
* **C07 Escape sequences in quoted strings** - `unescapeString` on UTF-8 bytes; induction.
* **C08 Parsing a RIDL document always finishes** - parser as a step function on (state, position, comments, emitted nodes); measure decreases except in the `@` loop; hang proved as a witness.
* **C09 No RIDL document crashes the parser** - cursor invariant `pos <= length` for all parser primitives and states; panics are an explicit outcome.
* **C10 Pattern match is all-or-nothing** - `match` on arbitrary pattern and position.
* **C11 Each comment documents at most one item** - `parseComments` as function returning the remaining table.
* **C12 Annotations are unique per method** - `parseAnnotations`/`buildAnnotations`.
* **C13 Type expression round trip (tree to text to tree)** - type tree as inductive; `build` and `parse` functions; induction on the tree.
* **C14 Type expression normal form** - same; `_partial` because `[]` and `map<k,>` are accepted and render as `<unknown>` (witness).
* **C15 Map keys are comparable scalars** - same; crash outcome explicit (witness).
* **C16 Named references resolve to declared types** - same.
* **C17 Type names are unique in a valid schema** - `Validate` as a fold returning error or the normalised schema; invariants over the folds.
* **C18 Struct fields are well formed and unique** - same.
* **C19 Error codes and names are unambiguous** - same.
* **C20 Service and method names are unambiguous** - same; service uniqueness false for pointer-duplicated services (witness).
* **C21 Method errors refer to declared errors** - same.
* **C22 Base path is normalised** - same.
* **C23 A schema with services names itself** - same.
* **C24 Validation is idempotent** - same; `_partial` for the `<unknown>` renderings.
* **C25 Enums are well formed** - same.
* **C26 Aliases resolve to a concrete type** - following definitions as an inductive relation; exact condition (no definition leads back to itself) by a pigeonhole argument over the identities of types, closure from C115; witnesses for cycles.
* **C27 Schema JSON round trip** - `ToJSON`, `MarshalJSON`, `UnmarshalJSON`, `ParseSchemaJSON` over the JSON model; decoding inverts encoding up to object identities, and validation of the decoded schema re-derives the same types; `_partial` with `Portable`, each of whose conditions has a witness.
* **C28 Import recursion terminates and cycles are reported** - import recursion over a finite file system with the shared graph; measure: unvisited edges.
* **C29 Cycle detection is exact** - `graph.go` DFS with explicit fuel; exactness by path arguments.
* **C30 A file imported twice contributes its types and errors once** - merge of imported declarations by object identity; services duplicated (witness).
* **C31 Selective import** - `isImportAllowed`; list filter.
* **C32 Header definitions are given once** - definition loop.
* **C33 Enum member values** - enum member value loop; collision witness.
* **C34 Error declarations from RIDL** - `ParseInt(_,10,32)` with clamping; witness.
* **C35 Imports cannot escape the schema root** - `path.Join`/`fs.ValidPath` on element lists.
* **C36 Declaration order does not matter inside a file** - two-pass compile; visible names independent of order.
* **C37 Service selection is exact** - `MatchServices`.
* **C38 Annotation filters partition methods** - filters with iteration order as an explicit permutation.
* **C39 Tree shaking keeps what is used** - `MethodTreeShake` with fuel; witnesses for alias and recursion.
* **C40 Big-integer detection is exact** - `SchemaUsesBigInts`; witness.
* **C41 Big-integer field paths are sound** - `SchemaBigIntFieldsByType`; witness.
* **C42 Generator header round trip** - header printer and parser.
* **C43 Template version gate is an order** - `minVersion`; witness.
* **C44 Type helpers agree with the type tree** - type helpers over expressions.
* **C45 Built-in errors never clash with schema errors** - table + C19.
* **C46 Template list helpers** - list helpers.
* **C47 First-word lower-casing** - `firstWordToLower`.
* **C48 Template cache decision and crash safety** - file system as key/value map, crash after any prefix of the write sequence.
* **C49 Command line arguments are partitioned** - argument loop.
* **C50 Target resolution** - target decision.
* **C51 Server dispatch runs a handler only for a valid request** - generated server as function of a request.
* **C52 Error round trip through HTTP** - server response composed with client decoding.
* **C53 Successful result round trip** - same; status-200 witness.
* **C54 A handler panic becomes an internal error** - same with panic outcome.
* **C55 Stream delivers messages in order under any keep-alive interleaving** - two-process interleaving (writer, keep-alive) under the mutex; reader over the resulting byte lines.
* **C56 Stream errors are terminal** - the reader as a function of the pieces of text and the way the body ends; induction over the lines; witnesses for a cut-off line and for reading on after an error.
* **C57 Chat subscriptions** - transition system with any number of sending and subscribing goroutines and the mutex (`Rpc/Chat.lean`); invariant over all runs. The ring buffer library is modelled by its documentation.
* **C58 Route table equals dispatch table** - route tables.
* **C59 Enum text round trip in generated code** - enum text.
* **C60 Request headers are isolated copies** - header map copy.
* **C61 Validation never crashes or hangs** - panic and out-of-fuel are explicit outcomes of `validate`; case analysis over all checks.
* **C62 The import cache is transparent** - the compiler with cache and graph refines an inductive definition (`Spec.Compiled`) without them; both directions.
* **C63 Import errors name the way to the error** - invariant on the error stack over the import recursion; Compile/Message models the text (the message of the cause is a parameter), whose lines are computed by induction over the list of files.
* **C64 Declarations mean what they say** - `Spec/Declarations.lean` says what each kind of line stands for; pointwise along the declaration list.
* **C65 Documents are understood as they are written** - `Spec/Document.lean` prints a list of declarations and says what each means; the tokens of every printed row are computed (`LexRows`, `LexItems`), the parser states are executed symbolically on them (`Exec*`), and the runs are composed by induction over methods, fields, members, annotations and declarations.
* **C66 Validation accepts exactly the valid schemas** - `Spec/WellFormed.lean` lists the conditions and the result without the validator's functions; each loop is shown equivalent to its condition by induction.
* **C67 Source text and schema determine each other** - `Spec/Compiles.lean` says which schema a list of entries describes; each loop of the compiler is shown equivalent to its part of the description (`Compile/Meaning*.lean`), with the names of a valid schema being different as the condition under which the loops find their own objects; composed with C62, C65 and C66.
* **C68 Flags** - `Gen/Cli.lean` models package flag's parser; `Spec.Settings` and `FlagsAre` say which argument lists are fine and what they mean; equivalence by induction over the arguments.
* **C69 Runs of webrpc-gen** - `run` is the whole of `main` with files, environment, templates, formatter and hash as parameters; `Spec.picked` says which schema code is generated from, using the vocabulary of C37-C39 and C49; inversion of `run`.
* **C70 Paths** - `Spec.walkRoot` walks through directories; `filepath.Abs`, `Clean` and `Ext` are shown to agree with it.
* **C71 Help** - inversion of `run`; the branches of `setTargetFlagsUsage` are modelled as they are.
* **C72 First letters** - `Gen/Letters.lean` works on bytes as Go's `s[0:1]` does; case analysis on the UTF-8 shape of the first character.
* **C73 Template lists** - `Gen/Lists.lean` models slices on a heap of arrays; invariant: the cells of every list hold its elements and a list that was not appended to ends at the last used cell.
* **C74 JSON texts** - `Spec/JsonText.lean` is the grammar as an inductive relation; the decoder is shown sound by induction on fuel and complete because the fuel exceeds the length. C51 is stated with the grammar, not the decoder.
* **C75 Filters and validity** - via C66 a schema validates to itself iff it is valid and each type is the tree of its text; trees are stable under removing declarations they do not name; needs are closed under fields of structs.
* **C76 RIDL and JSON input interchangeable** - Two schemas are alike if they say the same and the types of fields, arguments and results have the same parsed form. What C27 reads back is alike; references lead to alike declarations (names are unique), so the set of types kept by tree shaking is the same; the filters keep alikeness; templates that only see the text of alias types render the same. Composed with C69 (what a run generates) and C70 (which file is read); the two-step version composes three runs.
* **C77 Big integers survive** - A big.Int is an integer; SetString, Bytes, SetBytes and Exp follow math/big. The texts accepted are described by a small grammar (IntegerText) and the reading functions are proved to accept exactly those.
* **C78 Go values survive JSON** - encoding/json is modelled on a type language that covers the generated files in /repo (bool, ints, floats, string, BigInt, any, enums, pointers to structs, pointers, slices, maps). A float is its JSON text and formatting is an abstract exact function. The proof is by induction over Carried with an invariant for partially decoded structs.
* **C79 What generated types accept** - Acceptance is proved equal to success of the decoder by induction over JSON values that texts stand for, for all types and old values at once, reducing pointers to the type behind them; type safety by the same induction with the old value typed. C79_called combines both with C51. C79_unknown, C79_absent and C79_order follow from a step-by-step view of decoding an object.
* **C80 Typed calls** - Composes C78 (values survive JSON) with C51-C54 (dispatch, results, errors and panics of the untyped server and client).
* **C81 What the interoperability test suite tells** - RunTests is modelled as the list of failures it joins, over an arbitrary function from method and arguments to a return; the reference server TestServer is transcribed with its fixtures; they meet through the typed client and server of C80.
* **C82 Typed calls in general** - Shape distinguishes lists of arguments and whole structs; ServiceCode.server is the server as it treats one request, so hooks may depend on it. Composes C78 with C51-C54 as C80 does.
* **C83 Published methods and mounting** - Package.methods, methodCtx, webrpcMethods, serverMethods over lists of services; spec predicate Offers.
* **C84 One response per request** - Once: a run that ends has written one body, a run that panics none; induction over the structure of dispatch, then the deferred recover.
* **C85 Refusing deprecated methods** - refuseDeprecated over Package.methodCtx; C83_method_ctx and C82_hook_refuses.
* **C86 The golang-basics server** - basicsApp is startServer around arbitrary implementations; the packages example.gen.go and admin.gen.go are transcribed as ServiceCode.
* **C87 Calls of a generated TypeScript client** - Ts/Js.lean is the part of ECMAScript the generated code uses, Ts/Client.lean the generated client (as a function of the schema's error table, bigint table and header); fetch is a parameter that may give any status and text.
* **C88 Go errors at TypeScript clients** - overGo connects Ts/Client.lean with the model of the generated Go server (Rpc/Services.lean) through HTTP: header names are compared without case, the body and status arrive as written.
* **C89 TypeScript calls to a Go service** - C89_call composes C87, C88 and the theorems about the Go server (C51, C53, C54, C82).
* **C90 TypeScript stream clients** - The decoder, the split into lines and the loop are a fold over reads; decode_append and content_append make it a homomorphism, so that runs depend on the bytes only (C90_pieces); stream_run then follows the relation Reports line by line.
* **C91 Go streams to TypeScript clients** - Composes the invariant of the Go stream (stream_inv, C55) with stream_run and decode_prefix of C90.
* **C92 Timer of TypeScript streams** - timedReads cuts the sequence of reads at the first tick that finds the last read too old; induction over the events.
* **C93 Aborting TypeScript streams** - The state of the two signals as a fold over abort events; composed with C90.
* **C94 Headers of TypeScript streams** - HeadersInit.spread models {...headers}; lookup in the request of C87.
* **C95 Bigints through TypeScript** - decodeType of Ts/Client with the table of Schema/BigInt (C41); values typed by Spec/TsBig (OfType); induction over the nesting depth, with the entries of the table processed one after the other.
* **C96 TypeScript servers** - Ts/Server models server.gen.ts parametrically in what the generator writes; paths and conforming values are specified inductively in Spec/TsServer; validators by induction on the depth of the value. Props/NodeExample compiles the text of service.ridl in the model and finds the literals of the example server; schemaChecks there says which validators a schema gets.
* **C97 The node server** - Handler, middleware and routes as functions in Ts/Server; Buffer.toString as the decoder of Ts/Utf8 with a flush per chunk.
* **C98 Locality of parsing** - The relation between declarations at different places is specified in Spec/Moved. A simulation between the parser on each document and the parser on both (Ridl/Sim*, one lemma per parser state), with the tokens and comments of the joined text computed in Ridl/SimTokens.
* **C99 Version header** - Both functions are modelled on strings.Split / strings.Cut (Rpc/Versions); Spec/Versions says what a header says by its parts. iff-characterisation for Go, the exact relation between the Go and the TypeScript reading, an invariant over the effects of a handler for the response, and the header values of the repository as witnesses.
* **C100 webrpc-test** - main over a generic model of flag.FlagSet.Parse (Rpc/TestCommand); Spec/TestCommand says by inductive relations which arguments set which flags; iff-characterisation of parsing, then one theorem per mode, linked with C81.
* **C101 Waiting for a server** - The loop as an inductive relation over times, with the race of select as nondeterminism; induction over runs.
* **C102 Test server** - A transition system (Rpc/TestCommand) with an invariant over all runs.
* **C103 TypeScript and Go values** - Spec/Mirror relates Go values and JavaScript values by type (Mirrors), Go types with types of the schema (GoFor) and JavaScript values with TypeScript types (TsTyped), independently of the encoders; mutual induction over that relation for TypeScript to Go, over carried values for Go to TypeScript, with C95 for the bigints.
* **C104 TypeScript calls to Go** - Composition of C89_call with both directions of C103.
* **C105 JSON schemas mean what they say** - Spec/JsonSchema says by relations over members what each part of a schema file means (About: the member with this name, or null); decoding is equivalent to it part by part; with C74 (JSON texts) and C66 (valid schemas) for the text and the validation.
* **C106 Go clients and any answer** - Spec/WireError says by the members of an object which error it is (LastSays); decoding, one member after the other, is five independent folds; C74 for the text.
* **C107 the chat page** - Ts/ChatPage: a transition system of clicks, timers and callback calls; what the callbacks are called with is subscribe (C90) with the page as the user. An invariant (Place) over all reachable states; per request a small automaton (Phase).
* **C108 reconnecting chat page** - On the invariant of C107: messages received are those of the requests, one after the other, and each first request of a subscription sends the last id; served requests give ascending ids after it (C57).
* **C109 unimported files** - Induction on the compiler's recursion along the import relation of the specification (Reach, Imports).
* **C110 comment texts** - Two parsers on token lists that differ in the tokens of one comment: a simulation of every state function (Ridl/Cm*.lean), in which both parsers skip the comment with continueUntilEOL or never stand at it; the token lists are related by the specification of lexing.
* **C111 the grammar** - Spec/Grammar.lean is a grammar over classified tokens, written as relations without reference to the parser. Every parser function satisfies `if it succeeds, what it consumed is a phrase and what it returns is its meaning` (Ridl/Rd*.lean, one lemma per function); the state machine is handled by a backward reading: what remains to be read in a state, together with what the state holds, is a document.
* **C112 pages of other origins** - Ts/Cors.lean models the preflight answers of the five servers as header texts and the checks of a browser, which reads the lists back from the texts; a general equivalence for go-chi/cors (served just when every guarded name is listed), instantiated with each server's options and the requests of Ts/Client.lean.
* **C113 visible versions** - The same model as C112: the browser filters the response headers by the exposed names, which it reads from the text of the header.
* **C114 written in one of its files** - Induction over the import tree with C31 (an object of an imported file looks the same in the file that declares it), then C64 (declarations mean what they say) and C111 (declarations are written). An invariant of the syntax parser gives that every argument has a name and a type or is `(Name)`.
* **C115 what aliases stand for is declared** - Induction over the import tree; C31 gives that declarations come over unchanged; since names differ ignoring case, an expression denotes the same in the larger schema.
* **C116 required fields** - Schema/Required models the loop; induction over the fields, and C114 for what is written.
* **C117 the version of webrpc-gen** - Gen/Version models version.go with the outputs of the two commands as parameters; C66 says what trimming gives.
