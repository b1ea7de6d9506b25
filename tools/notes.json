{
 "C01": {
  "status": "proved",
  "note": "for all texts, up to the first NUL (stated in the property); truncation at NUL shown by C01_nul_truncates"
 },
 "C05": {
  "status": "proved",
  "note": "property is stated for the text after the first # with further # removed; the gluing effect is exhibited by C05_second_hash_glues"
 },
 "C08": {
  "status": "partial",
  "note": "The property is false of the code (C08_hangs). C08_ends_iff gives the exact condition under which the parser ends; C08_finishes_partial gives a source-level sufficient condition with a linear bound."
 },
 "C06": {
  "status": "proved",
  "note": "for non-empty ASCII one-line literals; limits exhibited in C06_limits"
 },
 "C10": {
  "status": "proved",
  "note": "for patterns without end-of-line marker; C10_eol_pattern_moves shows the two patterns with EOL do not rewind"
 },
 "C14": {
  "status": "partial",
  "note": "holds whenever no element type is left out (C14_normal_form); false of the code for [] and map<k,> (C14_omitted_part, C14_omitted_example)"
 },
 "C15": {
  "status": "partial",
  "note": "acceptance is exact; rejection is false of the code for struct keys (C15_struct_key_crashes), which are the only crash (C15_only_crash)"
 },
 "C16": {
  "status": "proved",
  "note": "for parsed expressions and for whole validated schemas; C16_key_case shows map keys ignore case"
 },
 "C20": {
  "status": "partial",
  "note": "service-name uniqueness needs distinct service objects; false of the code otherwise (C20_same_object_twice)"
 },
 "C24": {
  "status": "partial",
  "note": "holds when no element type is left out; false otherwise (C24_omitted_not_idempotent)"
 },
 "C26": {
  "status": "partial",
  "note": "C26_ends_partial: for files imported as a whole, following an alias ends exactly if no definition met on the way leads back to itself. False of the code otherwise: C26_cycle_compiles and C26_cycle_accepted (cyclic aliases are accepted), C115_dangling."
 },
 "C61": {
  "status": "partial",
  "note": "never hangs; crash causes characterised; crashes exhibited by C61_crash_examples C61_null_json: a JSON schema file containing only null crashes too."
 },
 "C28": {
  "status": "proved",
  "note": "C28_only_hang, C28_cycle_rejected, C28_cycle_reported, C28_reported_cycle_exists: as stated. Files on which the syntax parser hangs are those of C08."
 },
 "C29": {
  "status": "proved",
  "note": "hypothesis: edges join nodes of the graph, which holds for every graph the importer builds (C29_built)"
 },
 "C30": {
  "status": "partial",
  "note": "holds for types and errors; false of the code for services (C30_services_twice)"
 },
 "C31": {
  "status": "proved",
  "note": "the field types of an imported struct are re-resolved by name in the importing file, which can rebind them (C31_capture)"
 },
 "C33": {
  "status": "proved",
  "note": "with mixed explicit/implicit values collisions are possible (C33_collision)"
 },
 "C34": {
  "status": "partial",
  "note": "codes and statuses beyond int32 are clamped (C34_clamped)"
 },
 "C36": {
  "status": "partial",
  "note": "holds for accepted files; whether a file is accepted depends on the order of aliases used as map keys (C36_alias_order)"
 },
 "C37": {
  "status": "proved",
  "note": ""
 },
 "C38": {
  "status": "proved",
  "note": "Map iteration order is an explicit permutation (C38_order)."
 },
 "C39": {
  "status": "partial",
  "note": "Exact when no argument can hold a struct nested in itself and closure is up to aliases; C39_alias_lost and C39_recursive show that the full property is false of the code."
 },
 "C40": {
  "status": "partial",
  "note": "Exact description of when the code says yes; C40_map_missed, C40_nested_list_missed, C40_false_alarm refute the full property."
 },
 "C41": {
  "status": "partial",
  "note": "Soundness for every schema; completeness for acyclic structs; C41_recursive_missed and C41_overwritten refute the rest."
 },
 "C42": {
  "status": "proved",
  "note": "Exact for names/versions without the separators; C42_conditions shows the conditions are needed and that the header constant in tests/server/server.gen.go is not readable."
 },
 "C43": {
  "status": "partial",
  "note": "Exact for equal or smaller major version; C43_newer_rejected refutes the full property."
 },
 "C44": {
  "status": "proved",
  "note": ""
 },
 "C45": {
  "status": "proved",
  "note": ""
 },
 "C46": {
  "status": "proved",
  "note": "sort.Slice is modelled as insertion sort (the result is unique up to equal strings)."
 },
 "C47": {
  "status": "proved",
  "note": ""
 },
 "C48": {
  "status": "partial",
  "note": "Fresh directories: every crash point. Histories: exact unless git drops a template or a load dies while overwriting a usable cache; C48_refresh_crash and C48_stale_file show the code is wrong there."
 },
 "C49": {
  "status": "proved",
  "note": "flag.FlagSet itself (parsing of the program's own flags) is the Go library and not modelled."
 },
 "C50": {
  "status": "proved",
  "note": "Which templates exist at a remote repository is outside the model."
 },
 "C51": {
  "status": "proved",
  "note": "One parametric function for all serve*JSON functions; encoding/json modelled in Json/. Hooks and implementation are arbitrary but write no response of their own."
 },
 "C52": {
  "status": "proved",
  "note": "Codes within int64. The unexported cause (errors.Is with non-webrpc targets) is not modelled."
 },
 "C53": {
  "status": "partial",
  "note": "Exact except for errors with status 200 or a status that cannot be sent with a body; C53_status_200 shows the code is wrong there."
 },
 "C54": {
  "status": "proved",
  "note": "In terms of what is written to the http.ResponseWriter; that net/http then aborts the connection (so a small buffered response may be lost) is outside the model."
 },
 "C58": {
  "status": "proved",
  "note": "About the generated test API (tests/server, tests/client): the tables are finite, the paths are all strings."
 },
 "C59": {
  "status": "proved",
  "note": "For every enum with distinct names and values; C59_tables shows the two generated enums are such."
 },
 "C60": {
  "status": "proved",
  "note": "Isolation for every memory state; C60_other_case shows that the check on Accept/Content-Type can be bypassed."
 },
 "C27": {
  "status": "partial",
  "note": "Proved for schemas meeting Spec.Portable; false of the code otherwise: C27_alias_key (alias of an enum as map key), C27_quoted_name (type text is not unescaped), C27_service_twice, and C27_html_escapes (equivalent JSON text rejected)."
 },
 "C55": {
  "status": "partial",
  "note": "All interleavings, every implementation that does not panic, every way the text is cut up. Missing: implementations that panic; C55_panic_race shows the claim is false there (the error is written without the mutex). C55_ping_after_return shows that the keep-alive loop may use the response after the handler returned."
 },
 "C56": {
  "status": "partial",
  "note": "Exact account of what Read returns for every text and every way it ends; C56_truncated shows that a cut-off last line is lost without notice, C56_not_terminal that an error found by the client does not end its stream."
 },
 "C57": {
  "status": "proved",
  "note": "Any number of senders and subscribers, any interleaving, any buffer size. The ring buffer is a library outside /repo, modelled by its documentation. C57_gap shows that a client further behind than half the buffer misses messages silently, C57_times that the times need not increase with the ids."
 },
 "C65": {
  "status": "proved",
  "note": "For every list of declarations that can be written (Item.Ok), of any size; the text is fixed by Spec/Document.lean (two blanks of indentation, single blanks, an empty row after each item). Doc comments that the code loses are part of the specification (Item.entries) and shown by C65_enum_doc_lost and C65_method_doc_lost; C65_blank_row_needed and C65_junk_dropped show what goes wrong outside the layout."
 },
 "C66": {
  "status": "proved",
  "note": "Both directions, against the conditions listed in Spec/WellFormed.lean, which use none of the validator's functions except TrimSpace and ToLower; hypothesis CaseKeepsBlanks (lower-casing maps blanks to blanks and non-blanks to non-blanks, true of Unicode) is needed because duplicate error names are looked for among names that are not trimmed yet."
 },
 "C67": {
  "status": "proved",
  "note": "C67_document combines C62, C64, C65 and C66 into one equivalence from text to schema; FileMeans (Spec/Compiles.lean) describes the schema without the compiler's loops. C67_compiles is the same for any text the parser accepts whose entries have the shape Entry.Shaped (non-empty values, distinct annotations). Hypothesis CaseKeepsBlanks as in C66. Known losses are part of the specification; C67_proxy_lost shows the one of the proxy marker."
 },
 "C68": {
  "status": "proved",
  "note": "Go's package flag (not in /repo) is modelled too. C68_next_argument shows what happens to a flag without its value."
 },
 "C69": {
  "status": "proved",
  "note": "Templates, the source formatter and SHA-1 are parameters (arbitrary functions); C69_example shows that the hypotheses (Generating) are met. C69_format_error_hidden shows that a formatting error is not always visible in the exit status. Tree shaking on recursive structs hangs (C39), which Generating.ends excludes."
 },
 "C70": {
  "status": "proved",
  "note": "Unix paths. The working directory is any absolute path of proper names."
 },
 "C71": {
  "status": "partial",
  "note": "Proved: nothing is generated, the exit status, and that the templates see the option help. Not true of the code: the text made by the templates is shown (C71_target_help_lost, for all targets)."
 },
 "C72": {
  "status": "partial",
  "note": "Proved for texts that start with an ASCII character. C72_not_ascii: for every other text the result is not the UTF-8 encoding of any text."
 },
 "C73": {
  "status": "partial",
  "note": "Proved when no list is appended to twice, for any growth strategy of append. C73_overwritten shows that the condition is needed."
 },
 "C74": {
  "status": "proved",
  "note": "encoding/json (not in /repo) is modelled; Go's limit of 10000 nested values is not. Half a surrogate pair is read as U+FFFD as Go does."
 },
 "C75": {
  "status": "proved",
  "note": "Equivalences, for valid schemas in which every type is written out (C24). Distinct objects and plain structs are proved of all schemas made by the two parsers (made_ridl, made_json). C75_alias_lost, C75_behind_alias and C75_emptied are what goes wrong."
 },
 "C76": {
  "status": "partial",
  "note": "Proved for schemas that survive the trip through JSON (Spec.Portable, see C27) and templates that do not look at the parsed form of the types of aliases and enums; C76_alias_elem shows that the code is wrong for other templates, because those types are parsed in RIDL files only. The target debug, which dumps everything, is left out."
 },
 "C77": {
  "status": "partial",
  "note": "Proved except that a database text with a negative exponent is read as if it had none, without an error (C77_fraction_kept: 15e-1, that is 1.5, becomes 15)."
 },
 "C78": {
  "status": "proved",
  "note": "The values JSON can carry are described by Spec.Carried; C78_any_int, C78_unknown_member, C78_pointer_to_nil and C78_not_sent show what happens outside it. time.Time and []byte are not modelled."
 },
 "C79": {
  "status": "proved",
  "note": "Acceptance is Spec.Accepts over the JSON grammar of C74, proper values are Spec.Typed. encoding/json is modelled from its documentation and source (it is not in /repo). time.Time, []byte and the nesting limit of 10000 are not modelled."
 },
 "C80": {
  "status": "proved",
  "note": "C80_typed_call is about one parametric server and client (typedServer, typedCall); C80_test_service says that the test service, whose routes are transcribed, is an instance. The transport between them is assumed to deliver the request and the response unchanged."
 },
 "C81": {
  "status": "partial",
  "note": "False as stated: C81_sloppy_passes gives a server that returns other values, accepts anything and leaves out the causes of errors, and passes. Proved instead: C81_verdict_partial gives the exact condition under which the suite reports nothing (Spec.Passes), C81_server says when a server around an implementation meets it, C81_reference that the reference server passes, and C81_detects and C81_detects_refusal which deviations are always reported."
 },
 "C82": {
  "status": "proved",
  "note": "C82_lists says that the servers of C80 are instances. The transport is assumed to deliver the request and the response unchanged; what the handler wrote before it panics reaches the client only if something above it (a Recoverer middleware) keeps the HTTP server from dropping the connection."
 },
 "C83": {
  "status": "proved",
  "note": "Generalises C58 from the test service's tables to any package of the pattern. The order in which Go iterates over the map of methods is not modelled (the statements are about membership)."
 },
 "C84": {
  "status": "proved",
  "note": "Hooks and implementations that write to the response themselves are not modelled (see C51)."
 },
 "C85": {
  "status": "proved",
  "note": "C85_example shows that the golang-basics package meets the hypotheses."
 },
 "C86": {
  "status": "partial",
  "note": "False of the code for Admin: it is mounted at /admin/* but serves only /v1/Admin/... paths, so no request ever reaches it (C86_admin_unreachable: no request can tell which implementation is mounted) and its client always gets the bad-route error, whatever base path its address has (C86_admin_client). Proved for Example: C86_runs_partial, C86_deprecated, C86_routes; C86_get_user and C86_find_user say what the example's own implementation answers (FindUser with a nil filter panics). chi's routing of wildcard patterns and its Recoverer are modelled from their documentation, they are not in /repo."
 },
 "C87": {
  "status": "partial",
  "note": "False of the code as a whole (C87_raw_error): with an error status and the body null, or when the connection breaks while the body is read, the promise rejects with a plain TypeError/DOMException that is no WebrpcError. C87_request and C87_outcome are proved in full; C87_webrpc_error_partial says that these two are the only cases. ECMAScript and fetch are not in /repo: they are modelled in Ts/Js.lean from their specifications, with number formatting and the messages of built-in errors as parameters (JsEngine). C87_own_errors: the errors it makes itself are those of the built-in table."
 },
 "C88": {
  "status": "partial",
  "note": "False of the code: the Go server writes the message as 'msg', the TypeScript client reads 'message', so the message is always the default of the class (C88_message_lost: a Go error with a code unknown to the client always reads 'endpoint error'), and an error with a status 2xx other than 200 is taken for the result (C88_2xx). C88_go_error_partial: for statuses other than 2xx class, code, status and cause are right, and everything is told exactly if the message is the default; C88_known: which it is for errors of the shared schema whose message was not changed."
 },
 "C89": {
  "status": "proved",
  "note": "For errors whose status is 300 to 999 and not 304 and whose code is at most 2^53 in size (TellableTs); the loss of the message is C88's. A header of the caller that spells content-type differently is joined with the client's own by fetch, so the Go server refuses the request: Wired excludes it. The example is C88_message_lost, which uses the theorem."
 },
 "C90": {
  "status": "partial",
  "note": "C90_pieces (independence of the cuts) is for all callbacks, also throwing ones. The rest holds for callbacks that do not throw and well-formed lines. False of the code otherwise, with witnesses: after a line that is not JSON, onMessage is called with undefined and the stream goes on (C90_malformed); when onError throws it is called again and the error document is passed to onMessage (C90_thrown); when fetch fails, or the refusal is null, onError gets an error that is no WebrpcError (C90_raw_error)."
 },
 "C91": {
  "status": "partial",
  "note": "Implementations that panic are excluded, as in C55 (false there: C55_panic_race); the message of the error is lost (C88_message_lost). Codes and statuses up to 2^53 in size."
 },
 "C92": {
  "status": "proved",
  "note": "Time in milliseconds; the timer is any sequence of ticks (setInterval promises no exact times)."
 },
 "C93": {
  "status": "partial",
  "note": "Holds for abort() without a reason. False of the code for options.signal: the listener is registered on the stream's own signal, so nothing happens when options.signal is aborted (C93_signal_ignored); false for abort(reason): the stream is reported as lost (C93_reason)."
 },
 "C94": {
  "status": "partial",
  "note": "Holds for plain objects (C94_record_partial). False of the code for Headers objects (nothing is sent) and lists of pairs (sent as headers 0, 1, ...): C94_lost."
 },
 "C95": {
  "status": "partial",
  "note": "Proved for all validated schemas in which bigints are only direct fields, lists of bigint, structs and lists of structs, not renamed in JSON, without self-containing structs and ambiguous names (C95_round_trip_partial); agreement with Go is C95_go. False of the code in general: bigints in maps (C95_map) and in renamed fields (C95_renamed) arrive as strings; empty texts and hexadecimal are read as bigints (C95_lenient). C95_only_bigints and C95_no_bigint for any table and response: nothing but texts is changed, into the bigints they denote, and the only failure is bad-response with the text that is none."
 },
 "C96": {
  "status": "partial",
  "note": "Proved: when the implementation is called and with what (C96_called_partial), refused requests (C96_refused_partial), errors (C96_thrown_partial, C96_error_trip_partial). False of the code: with a basepath other than /rpc/ - the example has /v1/ - every request is answered with null (C96_never, C96_never_example); encodeType does not exist, so that no method with a response answers 200 (C96_no_result); messages of thrown errors are lost (C96_error_trip_partial says which message arrives); falsy bodies are not checked (C96_unchecked); types with lists validate for no value (C96_lists). Neither do enums for their values (C96_enums, C96_enum_example). C96_struct_partial says what the validators of any schema accept. C96_file computes the literals of the example server from the text of service.ridl."
 },
 "C97": {
  "status": "partial",
  "note": "Proved: bodies whose chunks end with characters (C97_chunks_partial), requests that are answered (C97_answered_partial, C97_served_partial). False of the code: a character cut by a chunk boundary becomes replacement characters (C97_split); requests under /rpc/ to the example are never answered (C97_unanswered); every call of the example's client ends with WebrpcBadResponse, since the client asks for /v1/ and the server routes /rpc/ (C97_client)."
 },
 "C98": {
  "status": "proved",
  "note": "C98_both, C98_first_error, C98_second_error, C98_endless (texts on which the parser does not finish, see C08), C98_swap, C98_blocks. The first document must not end in a backslash or contain a NUL. C98_empty_line_needed and C98_opening_needed show that the hypotheses are needed; errors at the very end of a text are always reported as 0:0 (C98_end_of_text)."
 },
 "C99": {
  "status": "partial",
  "note": "C99_response, C99_go_iff, C99_go_refuses, C99_ts_reads, C99_ts_nothing, C99_ts_of_go, C99_agree, C99_one_meaning and the round trips. False of the code: of the nine header values generated in the repository, eight name no generator version and are refused by the Go function of the same repository (C99_refused_in_repo, C99_test_header); a version with an @ is cut by TypeScript and not by Go (C99_at_differs). (The checked-in files have the versions removed by `make generate`, Makefile 34-38.)"
 },
 "C100": {
  "status": "proved",
  "note": "C100_one_mode, C100_usage, C100_prints, C100_client (with the verdict of C81), C100_server, C100_wait, C100_help, C100_wrong_flags, C100_only_client, C100_reference (the reference server passes). C100_surprises: a URL without -url= is silently ignored; -help alone ends with status 1."
 },
 "C101": {
  "status": "proved",
  "note": "C101_success, C101_failure, C101_ends, C101_calls, C101_found. C101_one_hanging_call shows that the condition on hanging calls is needed: one call that is never answered makes Wait fail, since single calls have no deadline."
 },
 "C102": {
  "status": "proved",
  "note": "C102_no_panic, C102_wait, C102_wait_same, C102_wait_returns, C102_close_does_not_release. A failure to bind is outside this model (RunTestServer returns no server then; see C100_server)."
 },
 "C103": {
  "status": "partial",
  "note": "C103_to_go, C103_value_to_go (TypeScript to Go, without restriction on the types), C103_to_ts_partial (Go to TypeScript), C103_distinct, C103_conforms_partial. False in full: integers beyond 2^53 in JSON numbers are rounded by JavaScript (C103_rounded), nil slices, maps and pointers without omitempty arrive as null, which none of the TypeScript types has (C103_null, C103_null_example: `content?: string` of node-ts), and some bigints are not found (C95). time.Time and []byte are not modelled."
 },
 "C104": {
  "status": "partial",
  "note": "C104_call_partial, C104_example. Same restrictions as C103 for results (exact numbers, findable bigints of C95); transport failures are in C87-C89."
 },
 "C105": {
  "status": "proved",
  "note": "C105_loads (exactly), C105_one, C105_order, C105_unknown, C105_null, C105_example. Outside the model: null as an element of a list of the schema, and two members for the same field (encoding/json merges them); the specification says nothing about such texts and the model calls them unmodelled."
 },
 "C106": {
  "status": "proved",
  "note": "C106_error_said, C106_unreadable, C106_succeeds, C106_not_answered, C106_one. Observed (C106_anonymous, C106_anonymous_example): a JSON object without any of the members, or null, as proxies may answer, is an error without name and message with code 0, which errors.Is takes for ErrWebrpcEndpoint. Failures before sending (marshalling, done context, bad URL) are not modelled."
 },
 "C107": {
  "status": "partial",
  "note": "C107_shown, C107_backoff (every reachable page); C107_one_connection_partial and C107_finished_partial for users who, after a click on Re-connect, wait for something to happen before the next click. False otherwise (C107_two_connections): connect() does not change the status, so the button stays enabled and a second click opens a second connection that nothing stops. Lines with a member hasOwnProperty or a null webrpcError are excluded (LawfulLine)."
 },
 "C108": {
  "status": "partial",
  "note": "C108_once_partial for pages that have not connected again by themselves; C108_reconnect (Re-connect asks for the messages after the last one), C108_no_overlap_partial, C108_served (the chat server serves so). False of the code otherwise: all requests of one connect() send the id it was called with (C108_retry), so after an error the same messages come again (C108_twice, C108_resent); and Disconnect aborts with a reason, which is reported as a lost stream, so the page is connecting for ever, shows no more messages and its button does nothing (C108_disconnect)."
 },
 "C109": {
  "status": "proved",
  "note": "C109_frame, C109_add."
 },
 "C110": {
  "status": "partial",
  "note": "C110_comment_text_partial. C110_comment_obeyed is the witness that the property is false of the code for a comment right behind `(Foo)`: the parser skips one token too many, the `#`, and obeys the rest."
 },
 "C111": {
  "status": "proved",
  "note": "C111_grammar is the whole statement against the grammar in Spec/Grammar.lean; C111_errors, C111_fields, C111_enums and C111_methods spell out consequences. Doc comments are left open by the grammar (they are the subject of C11), and what a value with non-ASCII characters stands for (C07)."
 },
 "C112": {
  "status": "partial",
  "note": "C112_server_go_unreachable is the witness that the property is false of node-ts/server-go. go-chi/cors and hono/cors are libraries outside /repo, modelled from their documentation; the browser from the Fetch Standard."
 },
 "C113": {
  "status": "partial",
  "note": "C113_hidden is the witness that the property is false of the servers of node-ts."
 },
 "C114": {
  "status": "proved",
  "note": "Codes and statuses beyond 32 bits are clamped (C34), names of errors are trimmed. Types of fields of imported structs are those found in the importing schema (C31_capture), so only their presence is claimed."
 },
 "C115": {
  "status": "partial",
  "note": "C115_alias_partial: if files are imported as a whole. False of the code otherwise: C115_dangling (Validate parses the fields of imported structs again, but not the types of imported aliases), C115_two_meanings (the tree refers to one type, the name is that of another one)."
 },
 "C116": {
  "status": "proved",
  "note": ""
 },
 "C117": {
  "status": "partial",
  "note": "C117_known_partial: not empty if no command prints only white space; C117_version says which it is in every case. False of the code otherwise: C117_blank."
 }
}