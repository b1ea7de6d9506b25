import json
P=[]
def p(title, statement, quant, why, *anchors):
    P.append(dict(id="C%02d"%(len(P)+1), title=title, statement=statement, quantifier=quant, why_tests_cant=why, anchors=list(anchors)))

p("Tokens reassemble to the source",
  "Tokenizing a RIDL document loses no characters: concatenating the texts of the tokens in order gives back the source document, up to (and excluding) the first NUL character, at which tokenization stops.",
  "every source text (any sequence of code points)",
  "the space of source texts is infinite; a test only samples a few documents",
  "schema/ridl/lexer.go: lexDefaultState, lexer.run, lexer.emit", "schema/ridl/tokenizer.go: tokenize")
p("Tokenizing always finishes and makes progress",
  "Tokenizing any document stops, and every token it yields before the end marker has at least one character, so a document of n characters yields at most n tokens.",
  "every source text", "non-termination can only be excluded for all inputs by an argument, not by runs",
  "schema/ridl/lexer.go: lexer.run, lexer.next, lexStateWord, lexStateSpace")
p("Reported line and column are right",
  "The line/column attached to a token (the ones printed in syntax errors) are the 1-based line and column of the token's last character in the source text.",
  "every source text and every token in it", "positions depend on all preceding text, unbounded in length",
  "schema/ridl/lexer.go: lexer.next, lexer.emit, lexStateNewLine")
p("Token classes and maximal munch",
  "Every token's class is determined by its text: words start with [A-Za-z0-9_], contain no word-break character and extend to the next word break (or the end); blanks are maximal runs of space/tab/CR; `=>` is one token and is never split into `=` and `>`; everything else is a single character of its class.",
  "every source text", "the segmentation must be right at every boundary between every pair of characters",
  "schema/ridl/lexer.go: lexDefaultState, lexStateWord, lexStateSpace, lexStateEqual")
p("Comment table",
  "A line's recorded comment is exactly the text following its first `#` with blanks collapsed to single spaces and further `#` removed; a line has an entry only if it contains `#` and is terminated by a newline.",
  "every source text and line", "comments may contain arbitrary token sequences",
  "schema/ridl/tokenizer.go: tokenize, parseCommentToken")
p("Quoted string values are preserved",
  "A quoted literal whose characters are printable ASCII without backslash, quote or newline is delivered to the schema unchanged, blanks included.",
  "every such string", "infinitely many strings; tokenization splits them in arbitrary places before they are rejoined",
  "schema/ridl/parser.go: expectStringValue, expectLiteralValue, composedValue", "schema/ridl/parser_util.go: unescapeString")
p("Escape sequences in quoted strings",
  "Unescaping turns \\n, \\t and \\\" into newline, tab and quote, rejects every other escape and a trailing backslash, and leaves ASCII text without backslashes unchanged; escaping followed by unescaping is the identity.",
  "every string", "infinitely many strings", "schema/ridl/parser_util.go: unescapeString")
p("Parsing a RIDL document always finishes",
  "For every document the parser ends with a tree or an error. (False of the code: an `@` that is not followed by a word inside a service body makes it loop forever; that is the only way.)",
  "every source text / token sequence", "absence of hangs is a liveness claim over all inputs",
  "schema/ridl/parser.go: parser.run", "schema/ridl/service_parser.go: parserStateServiceMethod, parseAnnotations")
p("No RIDL document crashes the parser",
  "For every document the parser reports malformed syntax as an error value; it never panics with an out-of-range index or nil dereference, and never moves its cursor outside the token list.",
  "every token sequence", "the cursor is moved forwards and backwards by arbitrary amounts; only an invariant covers all inputs",
  "schema/ridl/parser.go: parser.next, parser.rewind, parser.cursor, parser.match")
p("Pattern match is all-or-nothing",
  "When a fixed token pattern does not match, the parser's position is exactly where it was before the attempt; when it matches, one value per pattern element is returned and the elements are the consumed tokens in order.",
  "every token pattern, position and token sequence", "all combinations of optional blanks and end of line",
  "schema/ridl/parser.go: parser.match")
p("Each comment documents at most one item",
  "Collecting doc comments removes what it returns: the same comment line is never attached to two declarations, and no comment below a declaration is attached to it.",
  "every comment table and sequence of lookups", "sequences of lookups over arbitrary tables",
  "schema/ridl/parser.go: parser.parseComments", "schema/ridl/ridl.go: parseComment")
p("Annotations are unique per method",
  "A method that declares two annotations of the same name is rejected; for an accepted method looking up an annotation returns the one value written in the source.",
  "every annotation list", "lists of any length in any order",
  "schema/ridl/service_parser.go: parseAnnotations", "schema/ridl/ridl.go: buildAnnotations")
p("Type expression round trip (tree to text to tree)",
  "Printing a type and parsing the printed text gives the same type back, for types nested to any depth.",
  "every type tree over a schema's declared types", "nesting is unbounded",
  "schema/var_type.go: buildVarTypeExpr, ParseVarTypeExpr, parseMapExpr")
p("Type expression normal form",
  "If a type expression parses, the normalised text stored in the schema parses to the same type and normalising again changes nothing.",
  "every type expression text", "all strings", "schema/var_type.go: VarType.Parse, ParseVarTypeExpr, buildVarTypeExpr")
p("Map keys are comparable scalars",
  "A map type is accepted only when its key is one of the allowed core types, an enum, or an alias of an allowed core type; every other key is reported as an error. (False of the code for struct keys: it crashes.)",
  "every map type expression and schema", "all schemas and expressions", "schema/var_type.go: ParseVarTypeExpr, VarKeyCoreTypes")
p("Named references resolve to declared types",
  "Every name occurring in a successfully parsed type expression is a declared type of the schema, and the parsed node refers to the first declaration of exactly that name, classified by that declaration's kind.",
  "every schema and type expression", "all schemas, all nestings", "schema/var_type.go: ParseVarTypeExpr, getType")
p("Type names are unique in a valid schema",
  "In a schema that validates, no two types have names that are equal ignoring case, and no type has an empty name.",
  "every schema", "any number of types", "schema/type.go: Type.Parse", "schema/schema.go: WebRPCSchema.Validate")
p("Struct fields are well formed and unique",
  "In a schema that validates, every struct has fields whose names are valid identifiers and distinct ignoring case, and whose JSON names (after the json meta) are distinct too.",
  "every schema", "any number of fields and metas", "schema/type.go: Type.Parse")
p("Error codes and names are unambiguous",
  "In a schema that validates, all error codes are positive and pairwise distinct, error names are distinct ignoring case, non-empty, start with an upper-case letter and are not reserved (webrpc prefix), and HTTP statuses lie in 400..599.",
  "every schema", "any number of errors", "schema/error.go: Error.Parse")
p("Service and method names are unambiguous",
  "In a schema that validates, method names within a service are distinct ignoring case and non-empty; service names are distinct ignoring case.",
  "every schema", "any number of services and methods", "schema/service.go: Service.Parse, Method.Parse")
p("Method errors refer to declared errors",
  "In a schema that validates, every error listed by a method is the name of a declared schema error, and no method lists the same error twice.",
  "every schema", "all schemas", "schema/service.go: Method.Parse", "schema/ridl/ridl.go: Parser.parse")
p("Base path is normalised",
  "After validation the base path, when non-empty, begins and ends with `/`, and validating again leaves it unchanged.",
  "every base path", "all strings", "schema/schema.go: WebRPCSchema.Validate")
p("A schema with services names itself",
  "A schema that validates has webrpc version v1, and if it has any service it has a name and a schema version.",
  "every schema", "all schemas", "schema/schema.go: WebRPCSchema.Validate")
p("Validation is idempotent",
  "Validating an already validated schema succeeds and changes nothing.",
  "every schema that validates once", "all schemas", "schema/schema.go: WebRPCSchema.Validate")
p("Enums are well formed",
  "In a schema that validates, each enum's underlying type is a core type allowed for enums (or absent default), has at least one member with distinct names ignoring case.",
  "every schema", "any number of members", "schema/type.go: Type.Parse")
p("Aliases resolve to a concrete type",
  "Following alias definitions from any declared alias ends in a non-alias type after finitely many steps. (False of the code: cyclic aliases are accepted.)",
  "every schema accepted by the compiler", "chains of any length", "schema/ridl/ridl.go: Parser.parse", "schema/type.go: Type.Parse")
p("Schema JSON round trip",
  "Encoding a validated schema to JSON and decoding it gives the same type expressions, names, values and metas; the schema hash therefore does not change across the round trip.",
  "every schema", "all schemas", "schema/schema.go: ToJSON, SchemaHash", "schema/parser.go: ParseSchemaJSON", "schema/var_type.go: MarshalJSON, UnmarshalJSON")
p("Import recursion terminates and cycles are reported",
  "Compiling a set of RIDL files terminates for every import graph, including cyclic ones, and every file that can reach itself through imports yields a circular-import error.",
  "every finite file system and import graph", "all graphs", "schema/ridl/ridl.go: importParser, Parser.parse", "schema/ridl/internal/graph/graph.go")
p("Cycle detection is exact",
  "The import graph reports a cycle from a node exactly when that node can reach a cycle by following edges.",
  "every finite graph and start node", "all graphs", "schema/ridl/internal/graph/graph.go: IsCircular, isCircular")
p("A file imported twice contributes its types and errors once",
  "When the same file is reached by several import paths (a diamond), each of its types and errors appears once in the result. (False of the code for services, which are duplicated.)",
  "every import DAG", "all DAGs", "schema/ridl/ridl.go: Parser.parse")
p("Selective import",
  "Importing with a member list brings in exactly the members named in the list; importing without one brings in everything.",
  "every import statement and imported file", "all lists", "schema/ridl/ridl.go: isImportAllowed, Parser.parse")
p("Header definitions are given once",
  "A document that declares webrpc, name, version or basepath twice is rejected; for an accepted document the schema carries the one declared value.",
  "every sequence of definitions", "all sequences", "schema/ridl/ridl.go: Parser.parse")
p("Enum member values",
  "A member with an explicit value keeps it; a member without gets its name for string enums and its position otherwise. Distinct members get distinct values when none is explicit. (With mixed values collisions are possible in the code.)",
  "every enum declaration", "any number of members", "schema/ridl/ridl.go: Parser.parse")
p("Error declarations from RIDL",
  "A declared error keeps its code, name and message; the HTTP status defaults to 400 when absent. (False of the code beyond 32-bit codes: they are clamped silently.)",
  "every error declaration", "all numerals", "schema/ridl/ridl.go: Parser.parse")
p("Imports cannot escape the schema root",
  "Every file the compiler opens has a slash-separated relative path without empty, `.` or `..` elements, whatever the import strings say.",
  "every import string and importing file", "all path strings", "schema/ridl/ridl.go: Parser.parse")
p("Declaration order does not matter inside a file",
  "Forward references between types work: the set of names visible when a field, argument or alias is resolved is the set of all types declared or imported in the file, regardless of order.",
  "every permutation of declarations", "n! orders", "schema/ridl/ridl.go: Parser.parse")
p("Service selection is exact",
  "Selecting services by name keeps exactly the services named (ignoring case), in schema order, and fails exactly when some requested name matches nothing.",
  "every schema and name list", "all lists", "schema/schema.go: MatchServices")
p("Annotation filters partition methods",
  "For one annotation, the match filter keeps exactly the methods carrying it (with the requested value when one is given) and the ignore filter keeps exactly the others; results do not depend on map iteration order.",
  "every schema and annotation set, every iteration order", "Go map order is random; n! orders", "schema/schema.go: MatchMethodsWithAnnotations, IgnoreMethodsWithAnnotations")
p("Tree shaking keeps what is used",
  "After tree shaking, every type and error reachable from a remaining method is still declared, and nothing unreachable is. (False of the code for aliases; it does not terminate on recursive structs.)",
  "every schema", "all type graphs", "schema/schema.go: MethodTreeShake")
p("Big-integer detection is exact",
  "A schema is reported to use big integers exactly when a bigint occurs in a type, argument or result. (False of the code under map values and nested lists.)",
  "every schema", "unbounded nesting", "schema/helpers.go: SchemaUsesBigInts")
p("Big-integer field paths are sound",
  "Every field path reported for a type names a field whose type is bigint, a list of bigint, or a struct containing such fields; for every acyclic schema all such direct fields are reported.",
  "every schema", "all type graphs", "schema/helpers.go: SchemaBigIntFieldsByType")
p("Generator header round trip",
  "The version header emitted by the generator is parsed back by generated servers to the same webrpc version, generator name/version and schema name/version, for all names and versions without `;` and `@`.",
  "every header", "all strings", "gen/gen.go: webRPCGenHeader", "tests/server/server.gen.go: parseWebrpcGenVersions")
p("Template version gate is an order",
  "minVersion(v, w) accepts exactly versions not older than w in (major, minor) order. (False of the code: minor is compared even when major is larger.)",
  "every pair of version strings", "all pairs", "gen/funcmap_flow.go: minVersion, parseMajorMinorVersion")
p("Type helpers agree with the type tree",
  "The template predicates isCoreType, isListType, isMapType, isStructType, isEnumType, isAliasType are mutually exclusive and the accessors listElemType, mapKeyType, mapValueType invert the printed type expression.",
  "every type", "unbounded nesting", "gen/funcmap_types.go")
p("Built-in errors never clash with schema errors",
  "No schema error of a valid schema has the code or name of a built-in webrpc error, and built-in codes and names are pairwise distinct.",
  "every valid schema", "all schemas", "gen/errors.go: WebrpcErrors", "schema/error.go: Error.Parse")
p("Template list helpers",
  "first/last/lastIndex/in/join/split/sort/dict helpers obey their laws: join inverts split, sort is an ordered permutation, dict get/set/exists behave like a finite map, odd argument lists are rejected.",
  "every list and map", "all lists", "gen/funcmap_generic.go", "gen/funcmap_dict.go", "gen/funcmap_string.go")
p("First-word lower-casing",
  "firstWordToLower changes only the case of a prefix of upper-case letters: length and all characters after the first word are preserved and applying it twice equals applying it once.",
  "every identifier", "all strings", "gen/funcmap.go: firstWordToLower")
p("Template cache decision and crash safety",
  "A crash at any point while filling a fresh cache directory leaves a cache that is not used; a cache hit returns exactly the files written by the last complete refresh. (False of the code when refreshing an existing cache.)",
  "every crash point and history of refreshes", "crash points and histories cannot be enumerated by tests", "gen/template_source.go: loadRemote, cacheTemplates")
p("Command line arguments are partitioned",
  "Each generator argument is either consumed as a webrpc-gen flag or passed to the template options exactly once with its value; none is lost or duplicated.",
  "every argument vector", "all vectors", "cmd/webrpc-gen/main.go: collectCliArgs, makeAnnotationsMap")
p("Target resolution",
  "A target string resolves to exactly one of: JSON output, a removed-target error, an embedded generator, a local directory, or a remote repository; unversioned built-in names resolve to the embedded version.",
  "every target string", "all strings", "gen/template_source.go: NewTemplateSource, inferRemoteTarget, isLocalDir", "gen/embed.go", "gen/helpers.go")
p("Server dispatch runs a handler only for a valid request",
  "The generated server invokes the service implementation only for POST requests with a JSON content type to a known method path and with a decodable body; every other request gets exactly one error response (404, 405 or 400) and the implementation is not called.",
  "every request", "all requests", "tests/server/server.gen.go: ServeHTTP, serve*JSON")
p("Error round trip through HTTP",
  "An error with status >= 400 returned by the implementation is reconstructed by the generated client with the same code, name, message and status; `errors.Is` with the generated error value holds on the client.",
  "every error", "all codes, names, messages", "tests/server/server.gen.go: RespondWithError", "tests/client/client.gen.go: doHTTPRequest")
p("Successful result round trip",
  "The client returns the value the server implementation returned exactly when the implementation returned no error. (False of the code for an error carrying HTTP status 200.)",
  "every outcome", "all outcomes", "tests/server/server.gen.go", "tests/client/client.gen.go")
p("A handler panic becomes an internal error",
  "If the implementation panics the client still receives an HTTP 500 server-panic error, the error hook runs, and the panic continues to the HTTP server.",
  "every panic value", "all panics at all points", "tests/server/server.gen.go: ServeHTTP")
p("Stream delivers messages in order under any keep-alive interleaving",
  "Whatever the interleaving of keep-alive pings with stream writes, the client reads exactly the messages sent, in order, and then the terminal condition.",
  "every interleaving of writer and keep-alive", "schedules cannot be enumerated", "_examples/webrpc-streaming/proto/chat.gen.go: streamWriter, streamReader")
p("Stream errors are terminal",
  "An error line on the stream ends the stream with that error on the client; an orderly end yields stream-finished; a broken connection yields stream-lost. (False of the code for a truncated last line.)",
  "every stream content", "all contents", "_examples/webrpc-streaming/proto/chat.gen.go: streamReader.read, handleReadError")
p("Chat subscriptions",
  "Message ids are unique and increasing, each subscriber gets every message sent while subscribed exactly once and in order, and none after unsubscribing.",
  "every history of send/subscribe/unsubscribe", "all histories", "_examples/webrpc-streaming/rpc.go: ChatServer")
p("Route table equals dispatch table",
  "The published method table lists exactly the routes the server dispatches, with the same service and method names; every other path is not found.",
  "every path", "all paths", "tests/server/server.gen.go: ServeHTTP, methods")
p("Enum text round trip in generated code",
  "Marshalling an enum value to text and unmarshalling it gives the value back for all declared members; unknown text gives the zero value without error.",
  "every value and text", "all strings", "tests/server/server.gen.go: UnmarshalText, MarshalText, Is")
p("Request headers are isolated copies",
  "Headers attached to a context are copied: later changes by the caller do not affect the request, and requests only carry headers that were attached.",
  "every header map", "all histories", "tests/client/client.gen.go: WithHTTPRequestHeaders")

# Corrections made after modelling the code.
def fix(i, **kw):
    for q in P:
        if q["id"]==i: q.update(kw)
fix("C15", statement="A map type, at any depth, is accepted only when its key is string or an integer core type, or a name that (ignoring case) is that of an enum or of an alias for an enum; every other key is reported as an error. (False of the code for a struct name as key: the process crashes; that is the only crash in type parsing.)")
fix("C16", statement="Every name occurring in a successfully parsed type expression is a declared type of the schema, and the parsed node refers to the first declaration of exactly that name (for map keys: of that name ignoring case), classified by that declaration's kind. A validated schema is closed in this sense.")
fix("C18", statement="In a schema that validates, the fields of every struct and enum have identifiers as names, distinct ignoring case, and the names they have in JSON (the last `json` meta other than `-`, or the field name) are identifiers distinct ignoring case; every struct field has a type.")
fix("C20", statement="In a schema that validates, every service has at least one method, method names within a service are distinct ignoring case and non-empty, and service names are non-empty and distinct ignoring case. (False of the code for service names when the same service object is listed twice, which a diamond import does.)")
fix("C21", statement="In a schema that validates, every error listed by a method is the name of a declared schema error, argument names are non-empty and succinct methods have at most one input and one output.")
fix("C23", title="Schema header", statement="A schema that validates has webrpc version v1, and if it has any service it has a schema version; the header fields are the declared ones.")
fix("C25", statement="In a schema that validates, each enum is over an integer core type or string, and its members have distinct identifiers (ignoring case) as names, a non-empty value each and no type of their own.")
fix("C37", statement="Selecting services by name keeps exactly the services whose name is in the list (case-sensitively), in schema order; an empty list keeps everything; types and errors are untouched.")
p("Validation never crashes or hangs",
  "Validating any decoded schema ends with success or an error. (False of the code: a struct field or argument without a type, and a map keyed by a struct, crash it; nothing else does, and it always ends.)",
  "every schema value, however malformed", "crashes hide in combinations of missing parts no test tries",
  "schema/schema.go: Validate", "schema/type.go: Type.Parse", "schema/service.go: Service.Parse, Method.Parse", "schema/var_type.go: VarType.Parse")
fix("C28", statement="Compiling a set of RIDL files returns for every import graph, including cyclic ones, unless the syntax parser itself hangs on one of the files; a file from which an import cycle can be reached is never accepted, is reported as a circular import when nothing else is wrong, and a circular import is reported only if there is one.")
fix("C29", statement="The search for cycles in the import graph always ends and reports a cycle exactly when some node can reach itself by following edges.", quantifier="every finite graph")
fix("C31", statement="The types, errors and services a file gets from an import are exactly those of the imported file named in the member list, or all of them if there is no list; everything else in its schema is what the file declares itself.")
fix("C35", statement="Only files whose slash-separated path consists of proper names (not empty, `.` or `..`) influence the result, whatever the import strings say; an import refers to the file reached by walking from the directory of the importing file, and an import leaving the root is never accepted.")
fix("C36", statement="Forward references work: every type expression in an accepted file is resolved among all types declared or imported in the file, regardless of order. (False of the code for an alias used as a map key by an alias declared earlier: the compiler crashes.)")
p("The import cache is transparent",
  "A file compiles to a schema exactly if that schema results from its own text and the separately compiled schemas of its imports: neither the cache of imported files nor the order in which other files were compiled before matters.",
  "every set of files", "cache effects depend on the history of imports", "schema/ridl/ridl.go: importDef, cache, Parse")
p("Import errors name the way to the error",
  "The list of files in an import error starts at the file with the error, ends at the file compiled, and each file in it imports the one before. The text of the error shows it: after the lines of the cause come a line `stack trace:` and one line for each of these files, in this order, and the files can be read off it.",
  "every set of files with an error", "all import graphs and error positions", "schema/ridl/ridl.go: newImportError, Parse")
p("Declarations mean what they say",
  "The schema of an accepted file contains exactly the file's declarations, in order, with their names, comments, flags, metas, annotations and types as written: no method, field, argument or flag is lost, invented or mixed up.",
  "every accepted file", "all documents", "schema/ridl/ridl.go: parse, buildArgumentsList, buildAnnotations")

fix("C39", statement="After tree shaking, every type reachable from an argument or result of a remaining method is still declared, and nothing unreachable is; errors and services are untouched. (False of the code: aliases are always removed and what they stand for is not followed, and on recursive structs it never ends.)")
fix("C40", statement="A schema is reported to use big integers exactly when a bigint occurs in a field of a struct, or in an argument or result. (False of the code: only bigint itself and lists of it count, so map values and lists of lists are missed, and a declared type called BigInt counts as one.)")
fix("C41", statement="Every entry reported for a struct or for a method's request or response names a field (argument, result) that is bigint, a list of bigint, or a struct or list of structs containing one, in the form prescribed for that case; and every such field is reported. (False of the code for structs that contain each other, and when a declared struct is named like a method's request or response.)")
fix("C42", statement="The version header emitted by the generator is parsed back by generated servers to the same webrpc version, generator name and version, schema name and version, for all versions and names without `;` and names without `@`; a missing generator version reads as `unknown`, a missing schema version as `v0.0.0-` and the schema hash.")
fix("C43", statement="The template version check accepts exactly the versions not older than the required one in (major, minor) order. (False of the code: the minor version is compared even when the major version is larger.)")
fix("C44", statement="The template predicates for core, list, map, struct, enum and alias types hold exactly for types of that form, hence never two of them together, and the accessors for list elements, map keys and map values give the parts of the type. (For a map key that is an alias of an enum no predicate holds.)")
fix("C46", statement="The template list helpers obey their laws: first, last, in, coalesce, default, ternary select the element they name; join inverts split; sort is an ordered permutation; dict, get, set, exists behave like a finite map and reject odd argument lists and keys that are not strings.")
fix("C49", statement="Each generator argument is either consumed as a flag of webrpc-gen, unchanged and in order, or passed to the template options with its value (the last value if the option is repeated); none is lost or duplicated, and a malformed argument is rejected. Annotation lists are read the same way.")
fix("C50", statement="A target string resolves to exactly one of: JSON output, debug output, an embedded generator, a local directory, or a remote repository; names of embedded generators without version resolve to the version required in go.mod, with a version only if it is that one.")

fix("C51", statement="The generated server invokes the service implementation exactly for POST requests with a JSON content type (any case, with parameters) to a known method path that pass the request hook and whose body can be decoded: once, with the arguments from the body. Every other request gets exactly one error response (404, 405, 400, or the hook's error) and the implementation is not called.")
fix("C52", statement="An error returned by the implementation with a status other than 200 that allows a body is reconstructed by the generated client with the same code, name, message, cause and status; errors of other kinds arrive as endpoint error with their text; among the error values of a schema `errors.Is` holds on the client exactly for the error that was returned.")
fix("C53", statement="The client returns the value the server implementation returned exactly when the implementation returned no error. (False of the code for an error carrying HTTP status 200 or an informational status, which the client takes for a result.)")
fix("C54", statement="If the implementation or the request hook panics the server writes one server-panic error (HTTP 500, with the panic value) to the response, the error hook runs, and the panic continues to the HTTP server.")
fix("C58", statement="The published method table lists exactly the routes the server dispatches, with the same service and method names; client methods post to the route of the server method of the same name; every other path is answered with 404 and calls nothing.")
fix("C60", statement="Headers attached to a context are copied: later changes by the caller do not affect the request, and requests only carry headers that were attached besides Accept, Content-Type and Webrpc. Maps that set Accept or Content-Type are rejected. (False of the code for keys in another case, such as `accept`.)")

fix("C27", statement="Encoding a validated schema to JSON and loading it gives a valid schema with the same declarations, type expressions, parsed types, names, values, metas and annotations, whose JSON text and hash are the same, provided type expressions need no JSON escapes, no alias is a map key, and no service object is listed twice (in each of these cases loading fails).")

fix("C55", statement="Whatever the interleaving of keep-alive pings with stream writes, the client reads exactly the messages whose write succeeded, in order, then the error the implementation returned, if any, and then that the stream has finished. (False of the code when the implementation panics: a ping can get into the error line.)")
fix("C56", statement="Read returns one result for each line of the stream, in order, and then tells how the stream ended: an orderly end yields stream-finished, a broken connection stream-lost, cancelling client-aborted, a malformed line bad-response. (False of the code for a cut-off last line, which is lost without notice; and a bad-response error does not end the stream.)")
fix("C57", statement="Message ids are 0, 1, 2, ... in the order the messages are written; each call of SendMessage writes its message exactly once; each subscriber gets consecutive messages, none twice and none left out, starting half a buffer behind; and a client that reconnects naming its last message, at most half a buffer behind, goes on exactly after it.", quantifier="every interleaving of any number of senders and subscribers, and every buffer size")

p("RIDL documents are understood as they are written",
  "Parsing the text of a document, written in the usual layout with an empty row after each declaration, succeeds and yields exactly the declarations written, in order, with every name, type, value, quoted text, argument, annotation, error list, stream and proxy marker, meta line and doc comment. (Two kinds of doc comments are lost: that of an enum with an explicit member value, and that of a method with several annotation lines.)",
  "every document: any number of declarations, members, fields, methods, arguments and annotations, any names, texts and type expressions that can be written",
  "all documents; how one declaration is read depends on everything around it", "schema/ridl/parser.go: parse", "schema/ridl/service_parser.go", "schema/ridl/struct_parser.go", "schema/ridl/enum_parser.go", "schema/ridl/type_parser.go", "schema/ridl/import_parser.go", "schema/ridl/error_parser.go", "schema/ridl/definition_parser.go")
p("Validation accepts exactly the valid schemas",
  "Validation succeeds on a schema exactly if the schema is valid (version, base path, names, kinds, fields, JSON names, enum values, type expressions, errors, services, methods and arguments as documented), and then returns the same schema with slashes around the base path, trimmed error names and the parsed types of fields and arguments; nothing else is changed.",
  "every schema, valid or not", "all schemas; a test cannot show that no valid schema is rejected", "schema/schema.go: Validate", "schema/type.go: Parse", "schema/error.go: Parse", "schema/service.go: Parse", "schema/var_type.go: Parse")
p("Source text and schema determine each other",
  "The RIDL compiler accepts a file exactly if the files it imports are accepted and the schema its text describes (header values, imported and selected objects, aliases, enums, structs, errors, services with all members, types, arguments, flags, comments and annotations) is valid, and then returns exactly that schema, validated: nothing is added, dropped, reordered or resolved differently, and no describable schema is refused. (That a method is proxied is not kept, the doc comment of an enum is dropped, and an alias cannot be a map key in earlier aliases.)",
  "every set of files and every document in the usual layout", "all documents and import graphs; a test cannot show that no valid document is refused", "schema/ridl/ridl.go: Parse, parse, buildArgumentsList, parseComment, buildAnnotations", "schema/ridl/parser.go: parse", "schema/schema.go: Validate")
p("Flags of webrpc-gen have the values given to them",
  "The flags of webrpc-gen (`-name=value`, `-name value`, switches without a value, one or two dashes) are accepted exactly in these forms, each has the value last given to it, or its default, whatever template options stand in between; the other options go to the templates.",
  "every command line", "all combinations and orders of arguments", "cmd/webrpc-gen/main.go: flags, main, collectCliArgs")
p("A run of webrpc-gen generates what was asked for",
  "A run that loads a schema and has a target generates code from exactly the requested part of it (base path, schema version, services, methods and types chosen by the flags), hands the templates this schema, its hash, the options and a header describing them, and puts the code unchanged on stdout or in the file; if templates fail or the file cannot be written the exit status tells, and a failed formatting shows in the exit status only when writing to a file without -silent. No other run writes a file or prints code, and it exits with zero only if asked for the version or for help.",
  "every command line, set of files, environment and target", "all combinations of flags, schemas and failures", "cmd/webrpc-gen/main.go: main, writeOutfile", "gen/gen.go: Generate")
p("Schema and output paths lead to the expected files",
  "The schema is read from the file its path leads to from the working directory (or the root), as JSON or RIDL according to the end of its name; a relative path and the absolute path it stands for give the same schema; the output goes to the file its path leads to.",
  "every working directory and path", "all paths with dots and slashes", "webrpc.go: ParseSchemaFile", "cmd/webrpc-gen/main.go: writeOutfile")
p("Asking for help is harmless",
  "With -h or -help, with or without a target and a schema, webrpc-gen generates nothing and exits with zero (unless the templates of the target end it with another status), and the help text made by the target's templates is shown. (False of the code: the test for an error is inverted, so the text is dropped and a failure without an error is reported.)",
  "every command line with a help flag", "all command lines", "cmd/webrpc-gen/main.go: setTargetFlagsUsage, main")
p("The first-letter helpers change one letter only",
  "The template helpers that lower or raise the first letter of a name change that letter to its counterpart and leave the rest of the text as it is; the empty text stays empty. (False of the code for a name that starts with a letter outside ASCII: it becomes text that is not UTF-8.)",
  "every text", "all texts; the helpers work on bytes", "gen/funcmap.go: firstLetterToLower, firstLetterToUpper")
p("Lists in templates are values",
  "A list made in a template by array, append or sort keeps its elements, whatever lists are made afterwards. (False of the code if the same list is appended to twice: the second result overwrites the end of the first.)",
  "every sequence of array, append and sort", "depends on the capacities chosen by the runtime and on the history of the template", "gen/funcmap_generic.go: array, appendFn, sortFn")
p("Texts are read and written as JSON",
  "Schema files and request and response bodies are read as JSON (RFC 8259): a text is accepted exactly if it is JSON, and is read as the value it stands for, whatever its layout and escapes; a schema file's meaning depends on its JSON value only. Whatever a server writes contains none of the characters with a meaning in HTML, if results are encoded the standard way.",
  "every text, every server and request", "all texts", "schema/parser.go: ParseSchemaJSON", "tests/server/server.gen.go: serve*JSON, sendErrorJSON")
p("The filters leave a valid schema",
  "Selecting services from a valid schema leaves a schema that validates to itself; keeping or dropping methods by annotation does exactly when every service keeps a method; tree shaking followed by selecting the same services does exactly when every alias the selected services use, directly or inside a struct, is still declared, in particular when they use none. (Aliases are dropped by tree shaking, so a schema using them is in general not valid afterwards; a service left without methods makes JSON output that cannot be loaded.)",
  "every schema that validates to itself, compiled from RIDL, loaded from JSON or built in memory from distinct objects, and every selection",
  "all schemas and selections; type references can be nested arbitrarily deep",
  "schema/schema.go: MatchServices, MethodTreeShake, MatchMethodsWithAnnotations, IgnoreMethodsWithAnnotations, Validate")
p("A schema file and its JSON form are interchangeable inputs",
  "Running webrpc-gen on the file made by -target=json (or any file holding the schema's JSON text) has exactly the same exit status, output and written file as running it with the same other flags on the original schema file, for every target and every combination of -service, -methodTreeShake, -ignore, -match and -schemaVersion.",
  "all schemas, files, command lines, templates and file systems",
  "It relates two runs over all schemas, flags and templates; the loaded objects differ in identity, and tree shaking follows those identities.",
  "webrpc.go: ParseSchemaFile",
  "cmd/webrpc-gen/main.go: main",
  "schema/schema.go: ToJSON, MethodTreeShake, MatchServices",
  "schema/parser.go: ParseSchemaJSON",
  "schema/var_type.go: UnmarshalJSON",
  "gen/gen.go: Generate")
p("Big integers survive every form generated code gives them",
  "For every integer, the BigInt of generated Go code reads back the same integer from its JSON form, its text form, its binary form and its database value, whatever the receiver held before; JSON is read exactly if it is an integer without fraction and exponent (as a number or in a string), and null leaves the value; a database text is read as the number it denotes (digits, perhaps times a power of ten) and refused otherwise.",
  "all integers and all texts",
  "Integers and texts are unbounded; tests try a few numbers.",
  "_examples/node-ts/server-go/example.gen.go: BigInt, MarshalText, UnmarshalText, MarshalJSON, UnmarshalJSON, MarshalBinary, UnmarshalBinary, Value, Scan")
p("Go values of generated types survive being sent as JSON",
  "Every value of a generated Go type that JSON can carry - enums hold a member, numbers are finite and fit their type, an any holds nothing or a bool, float64, string, []any or map[string]any, pointers that are not nil point to something that is not nil, and struct fields that are not sent are zero - is encoded without an error to JSON, and decoding that JSON into a new variable of the type gives an equal value (reflect.DeepEqual: nil and empty slices differ, map order does not count) that JSON can carry again; the same holds for the struct of arguments or results of a method. The object of a struct has one member for each field that is sent, in the order of the declaration; a field with omitempty is left out exactly if it is false, zero, empty or nil. Two such values have the same JSON exactly if they are equal. Each of these conditions is needed: an integer in an any, an enum value that is no member, a pointer to a nil slice and an unsent field come back changed.",
  "all declarations with distinct enum members and distinct JSON names, all types, all values of any depth, all behaviours of floating point formatting that are exact",
  "Types nest without bound and values are unbounded; tests send a handful of fixtures.",
  "tests/server/server.gen.go: Simple, User, Complex, EnumData, MarshalText, UnmarshalText, serveGetComplexJSON, serveSendComplexJSON",
  "tests/client/client.gen.go: doHTTPRequestRaw",
  "_examples/node-ts/server-go/example.gen.go: BigInt")
p("Generated servers accept exactly well-typed requests, and hand on only well-typed values",
  "Which JSON a variable of a generated type accepts does not depend on what it held before, and is exactly: null; for a number type a number that is an integer in range (no fraction, no exponent, no sign for unsigned types) or, for floats, in the range of the type; for a string or enum any string; for a BigInt an integer as number or string; for a slice an array of acceptable elements; for a map an object with acceptable keys and elements; for a struct an object whose members that are for a field (same name, else same name up to case) are acceptable. For every request to a method of a generated server, the implementation is called, once, exactly if the request is a POST with a JSON content type that the hook lets through and its body is JSON that its arguments accept; it then gets values proper for its argument types: numbers in range, enums 0 or a member, anys with the dynamic types of JSON, distinct map keys, and complete structs. Members for no field are ignored whatever they hold, fields without a member get their zero value, and the order of members does not matter.",
  "all declarations with distinct members and JSON names, all types, all old values, all JSON texts, all requests, all hooks and implementations",
  "Requests come from anybody: the claim is about every possible body, of any size and depth, and every declared type.",
  "tests/server/server.gen.go: serveSendOneJSON, serveSendMultiJSON, serveSendComplexJSON, ServeHTTP, UnmarshalText",
  "tests/client/client.gen.go: GetOne, GetMulti, GetComplex",
  "_examples/node-ts/server-go/example.gen.go: BigInt.UnmarshalJSON")
p("A call of a generated client is a call of the implementation",
  "A method of a generated Go client, called with arguments that JSON can carry, over a working connection to a generated server whose hook lets the request through, calls the implementation of that method exactly once, with equal arguments, and returns what the implementation answers: results that JSON can carry come back equal, a webrpc error comes back as the same error (status able to carry a body, not 200), any other error comes back as the endpoint error with its text, and a panic as the server-panic error. The server and client of the test service are of this kind.",
  "all declarations, services, methods and signatures with distinct JSON names, all arguments and results that JSON can carry, all implementations, all hooks that let requests through",
  "Argument and result values are unbounded and implementations arbitrary; tests call eleven methods with fixed fixtures.",
  "tests/client/client.gen.go: doHTTPRequestRaw, SendOne, GetOne, GetComplex, SendComplex",
  "tests/server/server.gen.go: ServeHTTP, serveSendOneJSON, serveGetComplexJSON")
p("webrpc-test passes exactly the servers that behave like the reference server",
  "webrpc-test's client reports no failure for a server exactly if the server behaves like the reference test server: the same results for every method, sent values accepted exactly if they are the expected ones, and the same errors.",
  "all servers (all implementations of the test API behind a generated server, and arbitrary call behaviours)",
  "A test suite's verdict is itself a property of every possible server under test.",
  "tests/client/client.go: RunTests, testSchemaErrors",
  "tests/server/server.go: TestServer",
  "cmd/webrpc-test/main.go: client")
fix("C81", statement="webrpc-test's client reports no failure for a server exactly if the server behaves like the reference test server: the same results for every method, sent values accepted exactly if they are the expected ones (which the reference server does, answering others with UnexpectedValue), and the same errors.")
p("A call of any generated client is a call of the implementation, for every kind of method and hook",
  "For every generated Go service (any path prefix, methods with argument lists or succinct methods with one struct) and every request and error hook: a client method called with arguments JSON can carry sends one POST to its path; if the request hook lets it through, the implementation of that method is called exactly once with equal arguments, and its results, webrpc errors, other errors and panics come back (errors as the error hook leaves them). If the hook refuses or panics, no implementation is called and the client gets the hook's error. Paths the service does not have never reach an implementation and give the bad-route error.",
  "all declarations, services, methods, implementations, hooks (functions of the request), arguments and results",
  "The combination of arbitrary user code, hooks and value trees cannot be enumerated.",
  "_examples/golang-basics/example.gen.go: ServeHTTP, serve*JSON, succinctHandler, exampleClient methods, sendErrorJSON")
p("What a generated package publishes about its methods is what it serves",
  "In a generated Go package whose paths and service names are distinct: MethodCtx gives the description (name, service, annotations) of exactly the method whose path is requested, and while an implementation runs it describes the method that is running; WebrpcMethods lists all methods, or exactly those of the services asked for; Server.Methods lists exactly the methods of the services that have an implementation, each with a handler around that implementation, and no path twice.",
  "all packages, requests, implementations, hooks, selections of services",
  "Tables and dispatch are generated separately; that they agree must hold for every schema and request.",
  "_examples/golang-basics/example.gen.go: methods, MethodCtx, WebrpcMethods, methodsFor, Server.Methods",
  "_examples/golang-basics/internal/internal.gen.go: methods")
p("Every request gets exactly one response",
  "Whatever the request is and whatever the hooks and the implementation do (return, fail, panic, give errors with impossible HTTP statuses), a generated server calls at most one implementation, at most once, and writes exactly one response body with a status, provided the error hook does not give the server-panic error a status that HTTP does not have.",
  "all servers, requests, hooks, implementation outcomes",
  "All combinations of failures and panics in hooks and implementations.",
  "tests/server/server.gen.go: ServeHTTP, serve*JSON, sendErrorJSON")
p("The example's request hook refuses exactly the deprecated methods",
  "With the request hook of the golang-basics example, over any generated package: a method annotated @deprecated is never run, whatever the request and the implementation, and a client that calls it gets the endpoint error naming the replacement; every request to any other method of the package passes the hook.",
  "all packages with distinct paths, services, methods, implementations, requests, arguments",
  "Enforcement by annotation must hold for every request, including malformed ones.",
  "_examples/golang-basics/main.go: startServer (OnRequest)",
  "_examples/golang-basics/example.gen.go: MethodCtx, methods")
p("The services the golang-basics server mounts can be called by their clients",
  "Every method that is not deprecated, of both services the golang-basics example mounts (Example and Admin), called by its generated client with arguments JSON can carry, runs the mounted implementation exactly once and returns its answer; the deprecated one is refused; panics do not reach the HTTP server.",
  "all implementations, methods, arguments, requests, base paths of the client's address",
  "Routing, hooks and dispatch interact; every request and every implementation.",
  "_examples/golang-basics/main.go: startServer, ExampleServiceRPC, AdminServiceRPC",
  "_examples/golang-basics/example.gen.go",
  "_examples/golang-basics/admin/admin.gen.go")
fix("C80", statement="A method of a generated Go client, called with arguments that JSON can carry, over a connection that delivers the request to a generated server whose hook lets it through and delivers back what the server writes, calls the implementation of that method exactly once, with equal arguments, and returns what the implementation answers: results that JSON can carry come back equal, a webrpc error comes back as the same error (status able to carry a body, not 200), any other error comes back as the endpoint error with its text, and a panic as the server-panic error (which the server writes before it panics again; a middleware that recovers must keep the HTTP server from dropping the connection). The server and client of the test service are of this kind.")
p("A generated TypeScript client sends the call it is asked for, and every failure rejects with a WebrpcError",
  "A call of a method of a generated TypeScript client sends exactly one POST to host + service path + method name (however many slashes the host ends with), with the JSON content type and the webrpc header whatever headers the caller adds, the caller's other headers, and the JSON of the request as body. It resolves with the value of the JSON of a 2xx response, and otherwise rejects with a WebrpcError: request-failed if fetch fails, bad-response if the response is not JSON, else the error that the response describes, of the class for its code.",
  "all hosts, methods, requests, headers, statuses, response texts and failures of fetch",
  "Every response text and status a server or proxy can send; every request value; the error tables of every schema.",
  "_examples/node-ts/webapp/client.gen.ts: Example, createHttpRequest, buildResponse, JsonEncode, JsonDecode, WebrpcError, webrpcErrorByCode",
  "_examples/webrpc-streaming/webapp/src/rpc.gen.ts: Chat.sendMessage",
  "_examples/hello-webrpc/webapp/client.gen.ts")
p("Every error of a generated Go server reaches a generated TypeScript client as the same error",
  "When a generated Go server answers a call of a generated TypeScript client with an error, the promise rejects with a WebrpcError of the class generated for its code (WebrpcError itself if there is none), with the code, the message, the HTTP status and the cause that the server sent.",
  "all errors, schemas, hooks, requests and methods",
  "Two generated programs in two languages have to agree on member names, statuses and tables for every error and every schema.",
  "_examples/node-ts/webapp/client.gen.ts: buildResponse, WebrpcError.new, webrpcErrorByCode",
  "tests/server/server.gen.go: WebRPCError, sendErrorJSON")
p("A call of a TypeScript client runs the Go implementation exactly once, with its arguments, and resolves with its results",
  "If the request of a call of a generated TypeScript client is JSON that the Go method takes as arguments, and the request hook of the Go server lets it through, then the Go implementation is called exactly once, with these arguments; if it returns results, the promise resolves with the value of their JSON; if it returns an error or panics, the promise rejects with it (as far as C88).",
  "all services, methods, implementations, hooks, requests, caller headers (not spelling Content-Type in another case)",
  "Client and server are generated in two languages; routing, encoding and error handling have to fit for every service and every value.",
  "_examples/node-ts/webapp/client.gen.ts: Example, createHttpRequest, buildResponse",
  "_examples/golang-basics/example.gen.go: ServeHTTP, serve*JSON, succinctHandler")
p("A TypeScript stream client calls its callbacks once per line, in order, however the bytes are cut",
  "For a response with status 2xx whose body is lines of JSON, a generated TypeScript stream client calls onOpen once, then onMessage once per message line with the value of the line, in order; an error line leads to one onError with the error it describes and ends the stream; the end of the body leads to onClose, a lost connection to one onError with WebrpcStreamLost, an abort to one onError with WebrpcClientAborted. Empty lines (pings) lead to nothing. None of this depends on how the body is cut into pieces, also within a character or a line. Nothing else is ever passed to onMessage, and onError always gets a WebrpcError.",
  "all bodies, all ways of cutting them into reads, all statuses, all callbacks",
  "The pieces in which a body arrives are decided by the network; a cut can be at any byte, within a UTF-8 sequence, a line or a ping. Tests see one or a few cuts.",
  "_examples/webrpc-streaming/webapp/src/rpc.gen.ts: sseResponse",
  "_examples/webrpc-streaming/webapp/src/rpc.gen.ts: Chat.subscribeMessages",
  "_examples/webrpc-streaming/webapp/src/rpc.gen.ts: buildResponse")
p("A TypeScript client of a Go stream gets exactly the messages whose Write succeeded, in order",
  "When a Go stream handler has returned and the connection was intact, its TypeScript client has got exactly the messages whose Write returned no error, in order, then the error of the implementation if it returned one, and else onClose. At any time it has got a prefix of what the server said; while the connection is intact, a message whose Write has returned has been sent.",
  "all implementations (as functions of the outcomes of their calls), all interleavings with the keep-alive goroutine, all cuts of the bytes, all moments",
  "The interleaving of the pings, the moment of the disconnection and the cuts range over an unbounded space.",
  "_examples/webrpc-streaming/proto/chat.gen.go: serveSubscribeMessagesJSONStream, streamWriter",
  "_examples/webrpc-streaming/webapp/src/rpc.gen.ts: sseResponse")
p("A TypeScript stream is given up when, and only when, nothing arrives for longer than eleven seconds",
  "While something arrives (or the response has begun) at most eleven seconds before every tick of the timer, no read is disturbed; so a server that sends at least every ten seconds over a connection whose delay varies by at most a second is never given up. If at a tick the last read is longer than eleven seconds ago, the stream ends with one onError with WebrpcStreamLost.",
  "all sequences of reads and timer ticks, at all times that do not decrease",
  "Depends on the timing of the network for an unbounded time.",
  "_examples/webrpc-streaming/webapp/src/rpc.gen.ts: sseResponse")
p("A TypeScript stream is aborted by abort() and by the caller's signal",
  "When abort() of the controller that the stream method returned is called, or the signal given in the options is aborted, the stream ends with one onError with WebrpcClientAborted, after the messages received before.",
  "all histories of abort() calls and aborts of the caller's signal, all bodies before it",
  "An abort can come at any moment and in any combination.",
  "_examples/webrpc-streaming/webapp/src/rpc.gen.ts: Chat.subscribeMessages",
  "_examples/webrpc-streaming/webapp/src/rpc.gen.ts: sseResponse")
p("The headers given for a TypeScript stream are sent",
  "Every header that the caller gives in options.headers, in any of the forms that its type HeadersInit allows, is sent with the request of the stream, except those that the client sets itself.",
  "all methods, requests and headers in all forms of HeadersInit",
  "The type admits three forms; all have to work for every list of headers.",
  "_examples/webrpc-streaming/webapp/src/rpc.gen.ts: Chat.subscribeMessages",
  "_examples/webrpc-streaming/webapp/src/rpc.gen.ts: createHttpRequest")
p("Bigints survive the way through JSON into generated TypeScript",
  "For every schema with bigints, every object of one of its structs, requests or responses - bigints of any size, at any depth, in lists, maps and nested structs - that is written with JsonEncode (or by a Go server) and read with JsonDecode arrives equal: bigints are bigints, and strings that look like numbers stay strings. The JSON of an integer is the same in Go and TypeScript, and each reads the other's.",
  "all valid schemas, all objects of their types, all integers",
  "The table of bigint fields is computed from the schema by one program and interpreted recursively by another; their agreement ranges over all schemas and all nested values.",
  "_examples/node-ts/webapp/client.gen.ts: BIG_INT_FIELDS, decodeType, JsonEncode, JsonDecode",
  "schema/helpers.go: SchemaBigIntFieldsByType",
  "_examples/node-ts/server-go/example.gen.go: BigInt")
p("Generated TypeScript servers call the implementation exactly for valid requests and answer with its result",
  "A generated TypeScript server calls the implementation of a method exactly if the path of the request is the basepath followed by the service and the method and the body carries valid arguments of the method; it is called once, with these arguments. Its result is the answer with status 200; an error it throws is answered with the error's status, code, message and cause, so that a TypeScript client rejects with the same error. Any other request is answered with an error.",
  "all servers (basepath, methods, validators), all paths, bodies and implementations",
  "Paths and bodies come from outside; validators recurse over nested values of any depth.",
  "_examples/node-ts/server/server.gen.ts: serveExampleRpc, dispatchExampleRequest, validateType, TYPE_VALIDATORS, SERVICE_METHOD_TYPES",
  "_examples/node-ts/server-hono/server.gen.ts")
p("The node server answers every request and reads bodies however they are chunked",
  "The HTTP server of the node example answers every request; the body of a request is the text that was sent, however it is cut into chunks on the way; calls of the example's TypeScript client reach the implementation.",
  "all requests: methods, URLs, bodies and ways to cut them into chunks; all implementations",
  "Chunk boundaries are chosen by the network.",
  "_examples/node-ts/server/helpers.ts: createWebrpcServerHandler, createHttpEntrypoint",
  "_examples/node-ts/server/middleware.ts: withCors",
  "_examples/node-ts/server/index.ts: routes")
p("Documents separated by an empty line are parsed independently",
  "A RIDL text that consists of two documents separated by an empty line, the second starting with a declaration or with comments, parses to the declarations of the first followed by those of the second, with the same texts, comments and columns, further down by as many lines as the first has. If the first has a syntax error, that is what is reported; if only the second has one, it is reported with the same message and column, moved down. Hence well-formed documents can be put together in any number and any order, and no declaration changes the meaning of another one.",
  "all texts: any two (or any number of) documents, well-formed or not",
  "Both documents are arbitrary texts, with any number of declarations, comments and errors; an error recovery, a lookahead or a comment that leaks over the boundary shows only for particular neighbours.",
  "schema/ridl/parser.go: run, collect, next, cursor, match",
  "schema/ridl/tokenizer.go: tokenize",
  "schema/ridl/parser_util.go",
  "schema/ridl/service_parser.go, struct_parser.go, enum_parser.go, error_parser.go, import_parser.go, type_alias_parser.go, definition_parser.go: parserState functions")
p("The Webrpc header tells the versions of the other side",
  "Every response of a generated server carries its Webrpc header exactly once, whatever the request, the hooks and the implementation do. VersionFromHeader reads from a header the versions of webrpc, of the generator and of the schema that were put into it: a header that names them is read back as it was, in Go and in TypeScript, also with further parts; Go refuses exactly the headers that do not name them, telling the first part that is wrong; Go and TypeScript read the same; and every header that generated code sends can be read.",
  "all header texts, all versions and names, all requests, hooks and implementations",
  "Header texts are unbounded and come from any other version of the generator, including damaged ones; a separator inside a version shows only for particular texts.",
  "_examples/node-ts/server-go/example.gen.go: VersionFromHeader, parseWebrpcGenVersions, WebrpcHeaderValue",
  "_examples/node-ts/server/server.gen.ts: VersionFromHeader, parseWebrpcGenVersions",
  "tests/server/server.gen.go: ServeHTTP, WebrpcHeaderValue")
p("webrpc-test does what its first argument asks for, and its exit status is the verdict",
  "The first argument of webrpc-test picks at most one mode. The printing modes print the version, the test schema in RIDL or in JSON, and do nothing else. With -client the interoperability tests are run against exactly the URL given last (or the default one), and the program ends with status 0 exactly when the server passes them, otherwise with 1; with -server and -waitForServer the port, URL and timeout given last are used and the status is 0 exactly when the server could be bound and shut down, or got ready. Nothing is tested, served or waited for unless it was asked for; wrong flags after a mode end with 2, help with 0, everything else with 1.",
  "all command lines, all servers",
  "Command lines are unbounded, with flags in any order, repeated, with one or two dashes, with and without an equals sign; the verdict depends on what an arbitrary server answers to all calls.",
  "cmd/webrpc-test/main.go: main",
  "tests/client/client.go: RunTests")
p("Waiting for the test server succeeds exactly when a call succeeds in time",
  "client.Wait always ends, at the latest at its deadline. It succeeds only when a call succeeded before the deadline, and right then; it fails only at the deadline, after calls that all failed, the last one possibly cut off. There is a pause of 100 ms between calls. A server that answers from some time on is found ready, whenever it comes up, if calls made before that are not left hanging and there is time for one more pause and call.",
  "all servers (any answer times and results of every single call), all timeouts",
  "The times at which a server comes up and answers are arbitrary, and the select between the deadline and the pause is a race.",
  "tests/client/client.go: Wait")
p("The test server ends after its timeout, once, and reports how it was shut down",
  "In every interleaving of the timeout, the goroutine of RunTestServer and any calls of Close and Wait: the channel is closed at most once; Wait returns only after the timeout and the graceful shutdown, and every caller gets the error of that shutdown; after the timeout nothing can keep the goroutine from getting there. Close shuts the server down without releasing Wait.",
  "all interleavings, any number of callers of Wait and Close",
  "The schedule of the goroutine, the timer and the callers is arbitrary.",
  "tests/server/server.go: RunTestServer, Wait, Close")
p("A value is the same in TypeScript and in Go, in both directions",
  "Between a generated TypeScript program and a generated Go program of the same schema, values of all types (bool, numbers, strings, bigint, enums, any, optional values, lists, maps, structs, nested to any depth) keep their meaning. Whatever object a TypeScript program sends, with members in any order and optional ones missing or undefined, the Go program reads values that are equal to it; whatever a Go program sends arrives in TypeScript as an object that is the same as the Go values, with bigints as bigints, and that has the types that TypeScript was told; and no JavaScript value stands for two different Go values.",
  "all schemas that pass validation, all Go declarations generated for them, all values of all their types",
  "Schemas, types and values are unbounded, and two encoders and two decoders in two languages have to fit together for every one of them.",
  "_examples/node-ts/webapp/client.gen.ts: JsonEncode, JsonDecode, decodeType, BIG_INT_FIELDS",
  "_examples/node-ts/server-go/example.gen.go: User, Extra, GetArticleResponse, BigInt",
  "gen/funcmap.go",
  "schema/schema.go: Validate")
p("A typed call from TypeScript to Go gets the arguments there and the results back",
  "When a generated TypeScript client calls a method of a generated Go server of the same schema and no hook rejects the request, the implementation of just this method is called exactly once with arguments equal to those of the call, and the promise resolves to an object that is the same as the results that the implementation returned. This also holds for methods without arguments or results and for succinct methods.",
  "all valid schemas, services, methods, arguments, implementations, hooks, host names and headers",
  "It composes routing, two JSON codecs, the bigint table and typed values for every schema, value and implementation.",
  "_examples/node-ts/webapp/client.gen.ts: fetch, JsonEncode, JsonDecode",
  "_examples/node-ts/server-go/example.gen.go: ServeHTTP")
p("A JSON schema file means what its members say, and nothing else",
  "A JSON schema is loaded exactly if the text is JSON and its members say a valid schema, and then the schema loaded is the one said: members are found by name in any letter case, whatever their order; unknown members, and members that are null, count as absent; absent members mean empty texts, zero, false and empty lists; everything with a wrong type is refused. No text says two schemas.",
  "all texts, all schemas",
  "Texts and schemas are unbounded; that no member is dropped, swapped or defaulted has to hold for every combination of members in any order and letter case.",
  "schema/parser.go: ParseSchemaJSON",
  "schema/schema.go: WebRPCSchema",
  "schema/type.go: Type, TypeField, TypeExtra",
  "schema/service.go: Service, Method, MethodArgument, Annotation",
  "schema/error.go: Error",
  "schema/var_type.go: VarType.UnmarshalJSON")
p("A Go client understands every answer, whoever sent it, in exactly one way",
  "Whatever answers a call of a generated Go client, the call succeeds exactly if the status is 200 and, for a method with results, the body is the JSON of its results. With any other status the error returned is the one that the body says: name, code, message, cause and status, found by member name in any letter case and order, where the last of several members counts, null and absent members are the zero value and unknown members are ignored; if the body is not JSON, is no object, has a member of a wrong type or cannot be read, the error is WebrpcBadResponse. If there is no answer it is WebrpcRequestFailed with the reason as cause.",
  "all statuses, all bodies (also of other servers and proxies), all methods",
  "Answers are arbitrary texts; no list of samples shows that a member is never lost or that a failure is never taken for success.",
  "tests/client/client.gen.go: doHTTPRequestRaw, WebRPCError")
p("The chat page shows the last 1000 messages and has one connection",
  "Whatever happens to its connections, and whenever the user clicks, the chat page shows the last 1000 messages received, in the order they came. Its status says what is the case: connected means that exactly one request is open, connecting that one is open or exactly one timer for the next is running, disconnected and finished that nothing runs. After an error other than finished, aborted and request failed it connects again after 1, 2, 4, 8, 16, 30, 30, ... seconds, counted from the last time it was connected; after those three it does not, and once the chat is finished nothing changes any more.",
  "all answers of the server, all failures of the connection, all clicks and timers, in all orders",
  "Events, timers and clicks interleave in unboundedly many ways; tests of the page run a few.",
  "_examples/webrpc-streaming/webapp/src/main.ts: onMessage, onError, onOpen, onClose, connect, toggleConnectHandler",
  "_examples/webrpc-streaming/webapp/src/rpc.gen.ts: subscribeMessages, sseResponse")
p("The chat page gets every message once, over all its connections",
  "Over all the connections it makes, the chat page gets each message at most once and in ascending order of the ids, since it asks the server for the messages after the last one it got; when the user disconnects it stays disconnected until the user connects again.",
  "all histories of connections, all answers a chat server gives (C57), all clicks and timers",
  "Which id is sent depends on the whole history of connections and errors.",
  "_examples/webrpc-streaming/webapp/src/main.ts: onMessage, onError, onOpen, onClose, connect, toggleConnectHandler",
  "_examples/webrpc-streaming/webapp/src/rpc.gen.ts: subscribeMessages, sseResponse")
p("Files that are not imported do not matter",
  "What compiling a schema file gives, a schema or an error, depends only on that file and the files it imports, directly or through other files: two file systems that agree on these give the same outcome, and adding, changing or deleting other files changes nothing.",
  "all file systems, all import graphs (cyclic ones and ones with missing files included), all contents of the files",
  "Tests compile a few directories; that no other file is ever read or matters is a claim about all of them.",
  "schema/ridl/ridl.go: Parse, parse, importParser",
  "schema/ridl/parser.go: Parse")
p("What a comment says does not matter",
  "Changing the text of a comment changes neither whether a RIDL document is accepted nor what it declares: the imports, enums, structs, fields, services, methods, arguments and errors are the same, apart from documentation comments and positions. This holds for a comment on a line of its own and for one that follows, after a blank, a row without quotes that does not end in `=`. It is false of a comment that directly follows the parenthesis of an argument list naming a struct: `- A(Foo)# errors Bar` declares an error of the method.",
  "all documents without NUL characters, all comments in such places (the line before not ending in a backslash), all pairs of comment texts",
  "Tests contain a few comments with harmless texts; that no text of a comment is ever obeyed is a claim about all texts and all places.",
  "schema/ridl/parser.go: continueUntilEOL, expectOptionalCommentOrEOL",
  "schema/ridl/service_parser.go: parseStateServiceMethodDefinition",
  "schema/ridl/type_parser.go: expectArgumentList",
  "schema/ridl/tokenizer.go: tokenize")
p("Nothing is declared that is not written",
  "When a RIDL document is accepted, its tokens can be read, from the first to the last and in order, as the declarations the parser reports: every definition, import, error, enum and member, type alias, struct and field (with its type, `?` and `+` lines), service, method (with its annotations, arguments, outputs, `stream` and `proxy` words and errors) stands in the text in the form the grammar gives, and every token that is not part of one is a blank, a line end or part of a comment, apart from the places the grammar names where the parser skips a token (after `(Name)`, after an annotation text, before a quoted value, a word other than `errors` after a method).",
  "every source text that is accepted",
  "Tests check that certain documents are accepted; that no accepted document means something else than its text says is a claim about all texts.",
  "schema/ridl/parser.go: parser.run, parser.match, parserStateDefault, parserStateDeclaration",
  "schema/ridl/definition_parser.go",
  "schema/ridl/import_parser.go",
  "schema/ridl/error_parser.go",
  "schema/ridl/enum_parser.go",
  "schema/ridl/struct_parser.go",
  "schema/ridl/type_parser.go",
  "schema/ridl/service_parser.go")
p("Pages can call the example servers",
  "A call of the generated TypeScript client in a web page of another origin ends as the same call outside a browser: the server gives the leave the browser asks for. This holds for the chat server and hello-webrpc (with the headers they list), for node-ts/server (any header) and for node-ts/server-hono (with Authorization). It is false of node-ts/server-go, the server that node-ts/webapp can be run against: its list lacks `Webrpc`, a header every request of the client has, so no call of any page ever reaches it.",
  "all browsers following the Fetch Standard, all page origins, clients, methods, requests, caller headers and server answers",
  "CORS is enforced by browsers, which the test suites do not run; which requests get through is a claim about all requests.",
  "_examples/webrpc-streaming/main.go: Router",
  "_examples/hello-webrpc/server/main.go: startServer",
  "_examples/node-ts/server-go/main.go: startServer",
  "_examples/node-ts/server/middleware.ts: withCors",
  "_examples/node-ts/server-hono/index.ts: cors",
  "_examples/node-ts/webapp/client.gen.ts: createHttpRequest")
p("Pages see the version of the server",
  "A page that gets an answer can read the `Webrpc` header of that answer, from which VersionFromHeader tells the versions. True of the chat server and of hello-webrpc, which expose the header; false of the three servers of node-ts, whose web app asks for it after each call and always gets null.",
  "all browsers following the Fetch Standard, all page origins, requests and server answers",
  "Which response headers a page may read is enforced by browsers, which tests do not run.",
  "_examples/node-ts/webapp/index.ts: fetchWithWebrpcHeaderParsing",
  "_examples/node-ts/server/middleware.ts: withCors",
  "_examples/node-ts/server-hono/index.ts: cors",
  "_examples/node-ts/server-go/main.go: startServer",
  "_examples/webrpc-streaming/main.go: Router")
p("Everything in a schema is written in one of its files",
  "When webrpc accepts a RIDL schema, every type, service and error of it is declared in the text of the file it is attributed to, which is the main file or one it imports, over any number of files: the tokens of that file contain `type`, `enum`, `struct`, `service` or `error` and the name, every field of a struct stands in its body with its name, its `?` if it is optional and a type (for a struct of the main file: the type it has in the schema), every enum member with its name and its value if one is given, every method with its name, its `stream` words and its errors, its arguments and results in order with their names, `?` and types (the name of a struct, in succinct form), and with the annotations it has in the schema between its line and the line of the method before it (of several of one name, the last), every error with its code, message and status.",
  "every set of files and main path with an accepted schema; every type, field, member, service, method and error of it",
  "Tests compare certain schemas with what is expected; that no declaration is ever made up or altered on the way from text over imports to the schema is a claim about all file sets.",
  "schema/ridl/ridl.go: Parser.Parse, Parser.parse, Parser.importRIDLFile",
  "schema/ridl/parser.go",
  "schema/schema.go: Validate")
p("What an alias stands for is declared in the schema",
  "In every schema that webrpc makes from RIDL files, the type an alias stands for is a type expression over the types of this schema: every name in it is the name of a declared type, and refers to that declaration; this also holds for aliases imported over any number of files. (False of the code for an import that names the alias and not what it stands for: the schema is accepted with a name that nothing declares, or that the importing file declares as something else.)",
  "every set of files and main path with an accepted schema; every alias in it",
  "Any file sets, import depths and orders; tests import only whole small files.",
  "schema/ridl/ridl.go: Parser.parse",
  "schema/schema.go: Validate",
  "schema/type.go: Type.Parse")
p("Required fields",
  "Type.RequiredFields gives the fields of a type that are not optional, in their order and as often as they are there, and nothing else; for a struct of a schema made from RIDL files, over any number of imports, these are exactly the fields written without `?` in the file that declares it.",
  "every type; every set of files and main path with an accepted schema, and every struct of it",
  "Tests look at two types made by hand; the claim is about types of any length and all file sets.",
  "schema/type.go: Type.RequiredFields",
  "schema/ridl/ridl.go: Parser.parse")
p("webrpc-gen knows its version",
  "The version that webrpc-gen and webrpc-test report and write into generated code is the one injected when building; without one it is the one in go.mod, then the one of the git history, without white space around it, and `unknown` if there is neither; it is never empty. (False of the code inside the webrpc module itself: `go list` prints an empty line there, which is taken for a version, so the version is empty and git is not asked.)",
  "every injected value and every output of the two commands",
  "A test sees the commands of one machine and one checkout only.",
  "version.go: inferRuntimeVersion, init, VERSION",
  "gen/gen.go: Generate")
if __name__=="__main__":
    with open('/verif/properties.jsonl','w') as f:
        for q in P: f.write(json.dumps(q)+"\n")
    print(len(P))
