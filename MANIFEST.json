{
 "claims": [
  {
   "property": "C01",
   "status": "proved",
   "theorems": [
    "Verif.Props.C01_tokens_reassemble",
    "Verif.Props.C01_lossless",
    "Verif.Props.C01_nul_truncates"
   ],
   "note": "for all texts, up to the first NUL (stated in the property); truncation at NUL shown by C01_nul_truncates"
  },
  {
   "property": "C02",
   "status": "proved",
   "theorems": [
    "Verif.Props.C02_tokenizing_finishes"
   ],
   "note": ""
  },
  {
   "property": "C03",
   "status": "proved",
   "theorems": [
    "Verif.Props.C03_positions"
   ],
   "note": ""
  },
  {
   "property": "C04",
   "status": "proved",
   "theorems": [
    "Verif.Props.C04_segmentation"
   ],
   "note": ""
  },
  {
   "property": "C05",
   "status": "proved",
   "theorems": [
    "Verif.Props.C05_line_comment",
    "Verif.Props.C05_only_comments",
    "Verif.Props.C05_plain_comment",
    "Verif.Props.C05_second_hash_glues"
   ],
   "note": "property is stated for the text after the first # with further # removed; the gluing effect is exhibited by C05_second_hash_glues"
  },
  {
   "property": "C06",
   "status": "proved",
   "theorems": [
    "Verif.Props.C06_unterminated",
    "Verif.Props.C06_quoted_value",
    "Verif.Props.C06_plain_string_preserved",
    "Verif.Props.C06_limits"
   ],
   "note": "for non-empty ASCII one-line literals; limits exhibited in C06_limits"
  },
  {
   "property": "C07",
   "status": "proved",
   "theorems": [
    "Verif.Props.C07_unescape_iff",
    "Verif.Props.C07_escape_unescape",
    "Verif.Props.C07_plain_unchanged",
    "Verif.Props.C07_bad_escape_rejected",
    "Verif.Props.C07_non_ascii_and_backslash"
   ],
   "note": ""
  },
  {
   "property": "C08",
   "status": "partial",
   "theorems": [
    "Verif.Props.C08_ends_iff",
    "Verif.Props.C08_finishes_partial",
    "Verif.Props.C08_hangs"
   ],
   "note": "The property is false of the code (C08_hangs). C08_ends_iff gives the exact condition under which the parser ends; C08_finishes_partial gives a source-level sufficient condition with a linear bound."
  },
  {
   "property": "C09",
   "status": "proved",
   "theorems": [
    "Verif.Props.C09_never_panics",
    "Verif.Props.C09_cursor_in_range",
    "Verif.Props.C09_errors_point_at_a_token"
   ],
   "note": ""
  },
  {
   "property": "C10",
   "status": "proved",
   "theorems": [
    "Verif.Props.C10_match_all_or_nothing",
    "Verif.Props.C10_values_are_the_taken_tokens",
    "Verif.Props.C10_eol_pattern_moves"
   ],
   "note": "for patterns without end-of-line marker; C10_eol_pattern_moves shows the two patterns with EOL do not rewind"
  },
  {
   "property": "C11",
   "status": "proved",
   "theorems": [
    "Verif.Props.C11_doc_comment",
    "Verif.Props.C11_only_lines_above",
    "Verif.Props.C11_comments_only_removed",
    "Verif.Props.C11_at_most_once"
   ],
   "note": ""
  },
  {
   "property": "C12",
   "status": "proved",
   "theorems": [
    "Verif.Props.C12_annotations_unique",
    "Verif.Props.C12_duplicate_rejected"
   ],
   "note": ""
  },
  {
   "property": "C13",
   "status": "proved",
   "theorems": [
    "Verif.Props.C13_print_parse",
    "Verif.Props.C13_unambiguous",
    "Verif.Props.C13_example"
   ],
   "note": ""
  },
  {
   "property": "C14",
   "status": "partial",
   "theorems": [
    "Verif.Props.C14_normal_form",
    "Verif.Props.C14_omitted_part",
    "Verif.Props.C14_omitted_example"
   ],
   "note": "holds whenever no element type is left out (C14_normal_form); false of the code for [] and map<k,> (C14_omitted_part, C14_omitted_example)"
  },
  {
   "property": "C15",
   "status": "partial",
   "theorems": [
    "Verif.Props.C15_key_allowed",
    "Verif.Props.C15_other_key_rejected_partial",
    "Verif.Props.C15_struct_key_crashes",
    "Verif.Props.C15_only_crash",
    "Verif.Props.C15_example"
   ],
   "note": "acceptance is exact; rejection is false of the code for struct keys (C15_struct_key_crashes), which are the only crash (C15_only_crash)"
  },
  {
   "property": "C16",
   "status": "proved",
   "theorems": [
    "Verif.Props.C16_refs_resolve",
    "Verif.Props.C16_undeclared_rejected",
    "Verif.Props.C16_key_case",
    "Verif.Props.C16_schema_closed"
   ],
   "note": "for parsed expressions and for whole validated schemas; C16_key_case shows map keys ignore case"
  },
  {
   "property": "C17",
   "status": "proved",
   "theorems": [
    "Verif.Props.C17_type_names",
    "Verif.Props.C17_duplicate_rejected"
   ],
   "note": ""
  },
  {
   "property": "C18",
   "status": "proved",
   "theorems": [
    "Verif.Props.C18_fields"
   ],
   "note": ""
  },
  {
   "property": "C19",
   "status": "proved",
   "theorems": [
    "Verif.Props.C19_errors"
   ],
   "note": ""
  },
  {
   "property": "C20",
   "status": "partial",
   "theorems": [
    "Verif.Props.C20_names",
    "Verif.Props.C20_same_object_twice"
   ],
   "note": "service-name uniqueness needs distinct service objects; false of the code otherwise (C20_same_object_twice)"
  },
  {
   "property": "C21",
   "status": "proved",
   "theorems": [
    "Verif.Props.C21_method_errors"
   ],
   "note": ""
  },
  {
   "property": "C22",
   "status": "proved",
   "theorems": [
    "Verif.Props.C22_base_path",
    "Verif.Props.C22_example"
   ],
   "note": ""
  },
  {
   "property": "C23",
   "status": "proved",
   "theorems": [
    "Verif.Props.C23_header",
    "Verif.Props.C23_name_not_required"
   ],
   "note": ""
  },
  {
   "property": "C24",
   "status": "partial",
   "theorems": [
    "Verif.Props.C24_idempotent",
    "Verif.Props.C24_omitted_not_idempotent",
    "Verif.Props.C24_example"
   ],
   "note": "holds when no element type is left out; false otherwise (C24_omitted_not_idempotent)"
  },
  {
   "property": "C25",
   "status": "proved",
   "theorems": [
    "Verif.Props.C25_enums"
   ],
   "note": ""
  },
  {
   "property": "C26",
   "status": "partial",
   "theorems": [
    "Verif.Props.C26_ends_partial",
    "Verif.Props.C26_cycle_compiles",
    "Verif.Props.C26_cycle_accepted",
    "Verif.Props.C26_has_underlying_partial"
   ],
   "note": "C26_ends_partial: for files imported as a whole, following an alias ends exactly if no definition met on the way leads back to itself. False of the code otherwise: C26_cycle_compiles and C26_cycle_accepted (cyclic aliases are accepted), C115_dangling."
  },
  {
   "property": "C27",
   "status": "partial",
   "theorems": [
    "Verif.Props.C27_round_trip_partial",
    "Verif.Props.C27_example",
    "Verif.Props.C27_alias_key",
    "Verif.Props.C27_enum_key",
    "Verif.Props.C27_quoted_name",
    "Verif.Props.C27_service_twice",
    "Verif.Props.C27_html_escapes"
   ],
   "note": "Proved for schemas meeting Spec.Portable; false of the code otherwise: C27_alias_key (alias of an enum as map key), C27_quoted_name (type text is not unescaped), C27_service_twice, and C27_html_escapes (equivalent JSON text rejected)."
  },
  {
   "property": "C28",
   "status": "proved",
   "theorems": [
    "Verif.Props.C28_only_hang",
    "Verif.Props.C28_ends",
    "Verif.Props.C28_bound_is_enough",
    "Verif.Props.C28_cycle_rejected",
    "Verif.Props.C28_cycle_reported",
    "Verif.Props.C28_reported_cycle_exists"
   ],
   "note": "C28_only_hang, C28_cycle_rejected, C28_cycle_reported, C28_reported_cycle_exists: as stated. Files on which the syntax parser hangs are those of C08."
  },
  {
   "property": "C29",
   "status": "proved",
   "theorems": [
    "Verif.Props.C29_exact",
    "Verif.Props.C29_built"
   ],
   "note": "hypothesis: edges join nodes of the graph, which holds for every graph the importer builds (C29_built)"
  },
  {
   "property": "C30",
   "status": "partial",
   "theorems": [
    "Verif.Props.C30_listed_once",
    "Verif.Props.C30_exactly_once_partial",
    "Verif.Props.C30_services_twice"
   ],
   "note": "holds for types and errors; false of the code for services (C30_services_twice)"
  },
  {
   "property": "C31",
   "status": "proved",
   "theorems": [
    "Verif.Props.C31_types",
    "Verif.Props.C31_errors",
    "Verif.Props.C31_services",
    "Verif.Props.C31_own",
    "Verif.Props.C31_capture"
   ],
   "note": "the field types of an imported struct are re-resolved by name in the importing file, which can rebind them (C31_capture)"
  },
  {
   "property": "C32",
   "status": "proved",
   "theorems": [
    "Verif.Props.C32_header",
    "Verif.Props.C32_duplicate_rejected"
   ],
   "note": ""
  },
  {
   "property": "C33",
   "status": "proved",
   "theorems": [
    "Verif.Props.C33_members",
    "Verif.Props.C33_distinct",
    "Verif.Props.C33_collision"
   ],
   "note": "with mixed explicit/implicit values collisions are possible (C33_collision)"
  },
  {
   "property": "C34",
   "status": "partial",
   "theorems": [
    "Verif.Props.C34_errors_partial",
    "Verif.Props.C34_code_as_written",
    "Verif.Props.C34_clamped"
   ],
   "note": "codes and statuses beyond int32 are clamped (C34_clamped)"
  },
  {
   "property": "C35",
   "status": "proved",
   "theorems": [
    "Verif.Props.C35_only_valid_paths",
    "Verif.Props.C35_reached_files",
    "Verif.Props.C35_import_target"
   ],
   "note": ""
  },
  {
   "property": "C36",
   "status": "partial",
   "theorems": [
    "Verif.Props.C36_declarations_partial",
    "Verif.Props.C36_alias_order"
   ],
   "note": "holds for accepted files; whether a file is accepted depends on the order of aliases used as map keys (C36_alias_order)"
  },
  {
   "property": "C37",
   "status": "proved",
   "theorems": [
    "Verif.Props.C37_selected",
    "Verif.Props.C37_empty"
   ],
   "note": ""
  },
  {
   "property": "C38",
   "status": "proved",
   "theorems": [
    "Verif.Props.C38_match",
    "Verif.Props.C38_ignore",
    "Verif.Props.C38_partition",
    "Verif.Props.C38_order"
   ],
   "note": "Map iteration order is an explicit permutation (C38_order)."
  },
  {
   "property": "C39",
   "status": "partial",
   "theorems": [
    "Verif.Props.C39_exact",
    "Verif.Props.C39_only_needed",
    "Verif.Props.C39_ends",
    "Verif.Props.C39_closed_partial",
    "Verif.Props.C39_alias_lost",
    "Verif.Props.C39_recursive"
   ],
   "note": "Exact when no argument can hold a struct nested in itself and closure is up to aliases; C39_alias_lost and C39_recursive show that the full property is false of the code."
  },
  {
   "property": "C40",
   "status": "partial",
   "theorems": [
    "Verif.Schema.C40_exact_partial",
    "Verif.Schema.C40_map_missed",
    "Verif.Schema.C40_nested_list_missed",
    "Verif.Schema.C40_false_alarm"
   ],
   "note": "Exact description of when the code says yes; C40_map_missed, C40_nested_list_missed, C40_false_alarm refute the full property."
  },
  {
   "property": "C41",
   "status": "partial",
   "theorems": [
    "Verif.Schema.C41_sound",
    "Verif.Schema.C41_direct",
    "Verif.Schema.C41_exact_partial",
    "Verif.Schema.C41_recursive_missed",
    "Verif.Schema.C41_overwritten"
   ],
   "note": "Soundness for every schema; completeness for acyclic structs; C41_recursive_missed and C41_overwritten refute the rest."
  },
  {
   "property": "C42",
   "status": "proved",
   "theorems": [
    "Verif.Props.C42_round_trip",
    "Verif.Props.C42_code_gen",
    "Verif.Props.C42_embedded",
    "Verif.Props.C42_conditions"
   ],
   "note": "Exact for names/versions without the separators; C42_conditions shows the conditions are needed and that the header constant in tests/server/server.gen.go is not readable."
  },
  {
   "property": "C43",
   "status": "partial",
   "theorems": [
    "Verif.Props.C43_reads",
    "Verif.Props.C43_decides",
    "Verif.Props.C43_gate_partial",
    "Verif.Props.C43_newer_rejected"
   ],
   "note": "Exact for equal or smaller major version; C43_newer_rejected refutes the full property."
  },
  {
   "property": "C44",
   "status": "proved",
   "theorems": [
    "Verif.Props.C44_predicates",
    "Verif.Props.C44_map_parts",
    "Verif.Props.C44_list_elem",
    "Verif.Props.C44_wrong_form",
    "Verif.Props.C44_alias_key"
   ],
   "note": ""
  },
  {
   "property": "C45",
   "status": "proved",
   "theorems": [
    "Verif.Props.C45_builtin_distinct",
    "Verif.Props.C45_no_clash",
    "Verif.Props.C45_all_distinct"
   ],
   "note": ""
  },
  {
   "property": "C46",
   "status": "proved",
   "theorems": [
    "Verif.Props.C46_first",
    "Verif.Props.C46_last",
    "Verif.Props.C46_in",
    "Verif.Props.C46_coalesce",
    "Verif.Props.C46_default",
    "Verif.Props.C46_ternary",
    "Verif.Props.C46_sort",
    "Verif.Props.C46_dict",
    "Verif.Props.C46_dict_total",
    "Verif.Props.C46_dict_laws",
    "Verif.Props.C46_split_join",
    "Verif.Props.C46_join_split",
    "Verif.Props.C46_join_values"
   ],
   "note": "sort.Slice is modelled as insertion sort (the result is unique up to equal strings)."
  },
  {
   "property": "C47",
   "status": "proved",
   "theorems": [
    "Verif.Props.C47_first_word",
    "Verif.Props.C47_idempotent"
   ],
   "note": ""
  },
  {
   "property": "C48",
   "status": "partial",
   "theorems": [
    "Verif.Props.C48_fresh_crash",
    "Verif.Props.C48_decision",
    "Verif.Props.C48_history_partial",
    "Verif.Props.C48_complete_available",
    "Verif.Props.C48_version_partial",
    "Verif.Props.C48_refresh_crash",
    "Verif.Props.C48_stale_file"
   ],
   "note": "Fresh directories: every crash point. Histories: exact unless git drops a template or a load dies while overwriting a usable cache; C48_refresh_crash and C48_stale_file show the code is wrong there."
  },
  {
   "property": "C49",
   "status": "proved",
   "theorems": [
    "Verif.Props.C49_accepts",
    "Verif.Props.C49_flags",
    "Verif.Props.C49_options",
    "Verif.Props.C49_help",
    "Verif.Props.C49_annotations"
   ],
   "note": "flag.FlagSet itself (parsing of the program's own flags) is the Go library and not modelled."
  },
  {
   "property": "C50",
   "status": "proved",
   "theorems": [
    "Verif.Props.C50_builtin",
    "Verif.Props.C50_embedded",
    "Verif.Props.C50_unversioned",
    "Verif.Props.C50_elsewhere"
   ],
   "note": "Which templates exist at a remote repository is outside the model."
  },
  {
   "property": "C51",
   "status": "proved",
   "theorems": [
    "Verif.Props.C51_called_iff",
    "Verif.Props.C51_refused",
    "Verif.Props.C51_status",
    "Verif.Props.C51_hook",
    "Verif.Props.C51_cases",
    "Verif.Props.C51_blank"
   ],
   "note": "One parametric function for all serve*JSON functions; encoding/json modelled in Json/. Hooks and implementation are arbitrary but write no response of their own."
  },
  {
   "property": "C52",
   "status": "proved",
   "theorems": [
    "Verif.Props.C52_client",
    "Verif.Props.C52_round_trip",
    "Verif.Props.C52_other_error",
    "Verif.Props.C52_is"
   ],
   "note": "Codes within int64. The unexported cause (errors.Is with non-webrpc targets) is not modelled."
  },
  {
   "property": "C53",
   "status": "partial",
   "theorems": [
    "Verif.Props.C53_result",
    "Verif.Props.C53_no_result",
    "Verif.Props.C53_value_iff_partial",
    "Verif.Props.C53_status_200"
   ],
   "note": "Exact except for errors with status 200 or a status that cannot be sent with a body; C53_status_200 shows the code is wrong there."
  },
  {
   "property": "C54",
   "status": "proved",
   "theorems": [
    "Verif.Props.C54_panic",
    "Verif.Props.C54_hook_panic",
    "Verif.Props.C54_status"
   ],
   "note": "In terms of what is written to the http.ResponseWriter; that net/http then aborts the connection (so a small buffered response may be lost) is outside the model."
  },
  {
   "property": "C55",
   "status": "partial",
   "theorems": [
    "Verif.Props.C55_delivery_partial",
    "Verif.Props.C55_any_time_partial",
    "Verif.Props.C55_flushed_partial",
    "Verif.Props.C55_no_deadlock_partial",
    "Verif.Props.C55_writes_partial",
    "Verif.Props.C55_example",
    "Verif.Props.C55_ping_after_return",
    "Verif.Props.C55_panic_race"
   ],
   "note": "All interleavings, every implementation that does not panic, every way the text is cut up. Missing: implementations that panic; C55_panic_race shows the claim is false there (the error is written without the mutex). C55_ping_after_return shows that the keep-alive loop may use the response after the handler returned."
  },
  {
   "property": "C56",
   "status": "partial",
   "theorems": [
    "Verif.Props.C56_reads_partial",
    "Verif.Props.C56_abort_partial",
    "Verif.Props.C56_endings",
    "Verif.Props.C56_example",
    "Verif.Props.C56_truncated",
    "Verif.Props.C56_not_terminal"
   ],
   "note": "Exact account of what Read returns for every text and every way it ends; C56_truncated shows that a cut-off last line is lost without notice, C56_not_terminal that an error found by the client does not end its stream."
  },
  {
   "property": "C57",
   "status": "proved",
   "theorems": [
    "Verif.RpcSpec.C57_ids",
    "Verif.RpcSpec.C57_calls",
    "Verif.RpcSpec.C57_subscription",
    "Verif.RpcSpec.C57_resume",
    "Verif.RpcSpec.C57_gap_at",
    "Verif.RpcSpec.C57_gap",
    "Verif.RpcSpec.C57_times",
    "Verif.RpcSpec.C57_example"
   ],
   "note": "Any number of senders and subscribers, any interleaving, any buffer size. The ring buffer is a library outside /repo, modelled by its documentation. C57_gap shows that a client further behind than half the buffer misses messages silently, C57_times that the times need not increase with the ids."
  },
  {
   "property": "C58",
   "status": "proved",
   "theorems": [
    "Verif.Props.C58_tables_agree",
    "Verif.Props.C58_published",
    "Verif.Props.C58_served",
    "Verif.Props.C58_queries",
    "Verif.Props.C58_client"
   ],
   "note": "About the generated test API (tests/server, tests/client): the tables are finite, the paths are all strings."
  },
  {
   "property": "C59",
   "status": "proved",
   "theorems": [
    "Verif.Props.C59_tables",
    "Verif.Props.C59_round_trip",
    "Verif.Props.C59_unknown",
    "Verif.Props.C59_is"
   ],
   "note": "For every enum with distinct names and values; C59_tables shows the two generated enums are such."
  },
  {
   "property": "C60",
   "status": "proved",
   "theorems": [
    "Verif.Props.C60_isolated",
    "Verif.Props.C60_rejected",
    "Verif.Props.C60_json",
    "Verif.Props.C60_other_case"
   ],
   "note": "Isolation for every memory state; C60_other_case shows that the check on Accept/Content-Type can be bypassed."
  },
  {
   "property": "C61",
   "status": "partial",
   "theorems": [
    "Verif.Props.C61_null_json",
    "Verif.Props.C61_only_crashes_partial",
    "Verif.Props.C61_crash_examples"
   ],
   "note": "never hangs; crash causes characterised; crashes exhibited by C61_crash_examples C61_null_json: a JSON schema file containing only null crashes too."
  },
  {
   "property": "C62",
   "status": "proved",
   "theorems": [
    "Verif.Props.C62_cache_transparent"
   ],
   "note": ""
  },
  {
   "property": "C63",
   "status": "proved",
   "theorems": [
    "Verif.Props.C63_lines",
    "Verif.Props.C63_told",
    "Verif.Props.C63_message",
    "Verif.Props.C63_message_example",
    "Verif.Props.C63_import_stack",
    "Verif.Props.C63_own_error"
   ],
   "note": ""
  },
  {
   "property": "C64",
   "status": "proved",
   "theorems": [
    "Verif.Props.C64_types",
    "Verif.Props.C64_services"
   ],
   "note": ""
  },
  {
   "property": "C65",
   "status": "proved",
   "theorems": [
    "Verif.Ridl.C65_document",
    "Verif.Ridl.C65_blank_row_needed",
    "Verif.Ridl.C65_junk_dropped",
    "Verif.Ridl.C65_enum_doc_lost",
    "Verif.Ridl.C65_method_doc_lost"
   ],
   "note": "For every list of declarations that can be written (Item.Ok), of any size; the text is fixed by Spec/Document.lean (two blanks of indentation, single blanks, an empty row after each item). Doc comments that the code loses are part of the specification (Item.entries) and shown by C65_enum_doc_lost and C65_method_doc_lost; C65_blank_row_needed and C65_junk_dropped show what goes wrong outside the layout."
  },
  {
   "property": "C66",
   "status": "proved",
   "theorems": [
    "Verif.Props.C66_validates_exactly",
    "Verif.Props.C66_accepts_exactly",
    "Verif.Props.C66_example",
    "Verif.Props.C66_trim"
   ],
   "note": "Both directions, against the conditions listed in Spec/WellFormed.lean, which use none of the validator's functions except TrimSpace and ToLower; hypothesis CaseKeepsBlanks (lower-casing maps blanks to blanks and non-blanks to non-blanks, true of Unicode) is needed because duplicate error names are looked for among names that are not trimmed yet."
  },
  {
   "property": "C67",
   "status": "proved",
   "theorems": [
    "Verif.Compile.C67_compiles",
    "Verif.Compile.C67_document",
    "Verif.Compile.C67_example",
    "Verif.Compile.C67_proxy_lost"
   ],
   "note": "C67_document combines C62, C64, C65 and C66 into one equivalence from text to schema; FileMeans (Spec/Compiles.lean) describes the schema without the compiler's loops. C67_compiles is the same for any text the parser accepts whose entries have the shape Entry.Shaped (non-empty values, distinct annotations). Hypothesis CaseKeepsBlanks as in C66. Known losses are part of the specification; C67_proxy_lost shows the one of the proxy marker."
  },
  {
   "property": "C68",
   "status": "proved",
   "theorems": [
    "Verif.Cli.C68_flags",
    "Verif.Cli.C68_command",
    "Verif.Cli.C68_example",
    "Verif.Cli.C68_next_argument"
   ],
   "note": "Go's package flag (not in /repo) is modelled too. C68_next_argument shows what happens to a flag without its value."
  },
  {
   "property": "C69",
   "status": "proved",
   "theorems": [
    "Verif.Cli.C69_generates",
    "Verif.Cli.C69_only",
    "Verif.Cli.C69_bound",
    "Verif.Cli.C69_json",
    "Verif.Cli.C69_templates",
    "Verif.Cli.C69_example",
    "Verif.Cli.C69_format_error_hidden"
   ],
   "note": "Templates, the source formatter and SHA-1 are parameters (arbitrary functions); C69_example shows that the hypotheses (Generating) are met. C69_format_error_hidden shows that a formatting error is not always visible in the exit status. Tree shaking on recursive structs hangs (C39), which Generating.ends excludes."
  },
  {
   "property": "C70",
   "status": "proved",
   "theorems": [
    "Verif.Cli.C70_reads",
    "Verif.Cli.C70_writes",
    "Verif.Cli.C70_absolute",
    "Verif.Cli.C70_example"
   ],
   "note": "Unix paths. The working directory is any absolute path of proper names."
  },
  {
   "property": "C71",
   "status": "partial",
   "theorems": [
    "Verif.Cli.C71_help_partial",
    "Verif.Cli.C71_target_help_lost",
    "Verif.Cli.C71_example"
   ],
   "note": "Proved: nothing is generated, the exit status, and that the templates see the option help. Not true of the code: the text made by the templates is shown (C71_target_help_lost, for all targets)."
  },
  {
   "property": "C72",
   "status": "partial",
   "theorems": [
    "Verif.Props.C72_lower_partial",
    "Verif.Props.C72_upper_partial",
    "Verif.Props.C72_empty",
    "Verif.Props.C72_not_ascii",
    "Verif.Props.C72_example"
   ],
   "note": "Proved for texts that start with an ASCII character. C72_not_ascii: for every other text the result is not the UTF-8 encoding of any text."
  },
  {
   "property": "C73",
   "status": "partial",
   "theorems": [
    "Verif.Props.C73_values_partial",
    "Verif.Props.C73_example",
    "Verif.Props.C73_overwritten"
   ],
   "note": "Proved when no list is appended to twice, for any growth strategy of append. C73_overwritten shows that the condition is needed."
  },
  {
   "property": "C74",
   "status": "proved",
   "theorems": [
    "Verif.Props.C74_reads",
    "Verif.Props.C74_strings",
    "Verif.Props.C74_not_json",
    "Verif.Props.C74_layout",
    "Verif.Props.C74_example",
    "Verif.Props.C74_no_markup"
   ],
   "note": "encoding/json (not in /repo) is modelled; Go's limit of 10000 nested values is not. Half a surrogate pair is read as U+FFFD as Go does."
  },
  {
   "property": "C75",
   "status": "proved",
   "theorems": [
    "Verif.Props.C75_services",
    "Verif.Props.C75_match",
    "Verif.Props.C75_ignore",
    "Verif.Props.C75_shake",
    "Verif.Props.C75_ridl",
    "Verif.Props.C75_json",
    "Verif.Props.C75_no_alias",
    "Verif.Props.C75_example",
    "Verif.Props.C75_alias_lost",
    "Verif.Props.C75_alias_kept",
    "Verif.Props.C75_behind_alias",
    "Verif.Props.C75_emptied",
    "Verif.Props.C75_methods_example"
   ],
   "note": "Equivalences, for valid schemas in which every type is written out (C24). Distinct objects and plain structs are proved of all schemas made by the two parsers (made_ridl, made_json). C75_alias_lost, C75_behind_alias and C75_emptied are what goes wrong."
  },
  {
   "property": "C76",
   "status": "partial",
   "theorems": [
    "Verif.Interchange.C76_same_outcome_partial",
    "Verif.Interchange.C76_two_steps_partial",
    "Verif.Interchange.C76_example",
    "Verif.Interchange.C76_alias_elem"
   ],
   "note": "Proved for schemas that survive the trip through JSON (Spec.Portable, see C27) and templates that do not look at the parsed form of the types of aliases and enums; C76_alias_elem shows that the code is wrong for other templates, because those types are parsed in RIDL files only. The target debug, which dumps everything, is left out."
  },
  {
   "property": "C77",
   "status": "partial",
   "theorems": [
    "Verif.BigNum.C77_reads_json",
    "Verif.BigNum.C77_json",
    "Verif.BigNum.C77_binary",
    "Verif.BigNum.C77_database",
    "Verif.BigNum.C77_scan_partial",
    "Verif.BigNum.C77_fraction_kept",
    "Verif.BigNum.C77_example"
   ],
   "note": "Proved except that a database text with a negative exponent is read as if it had none, without an error (C77_fraction_kept: 15e-1, that is 1.5, becomes 15)."
  },
  {
   "property": "C78",
   "status": "proved",
   "theorems": [
    "Verif.Values.C78_round_trip",
    "Verif.Values.C78_payload",
    "Verif.Values.C78_any_int",
    "Verif.Values.C78_unknown_member",
    "Verif.Values.C78_pointer_to_nil",
    "Verif.Values.C78_not_sent",
    "Verif.Values.C78_members",
    "Verif.Values.C78_example",
    "Verif.Values.C78_same",
    "Verif.Values.C78_different"
   ],
   "note": "The values JSON can carry are described by Spec.Carried; C78_any_int, C78_unknown_member, C78_pointer_to_nil and C78_not_sent show what happens outside it. time.Time and []byte are not modelled."
  },
  {
   "property": "C79",
   "status": "proved",
   "theorems": [
    "Verif.Values.C79_accepts",
    "Verif.Values.C79_typed",
    "Verif.Values.C79_called",
    "Verif.Values.C79_unknown",
    "Verif.Values.C79_absent",
    "Verif.Values.C79_order",
    "Verif.Values.C79_example"
   ],
   "note": "Acceptance is Spec.Accepts over the JSON grammar of C74, proper values are Spec.Typed. encoding/json is modelled from its documentation and source (it is not in /repo). time.Time, []byte and the nesting limit of 10000 are not modelled."
  },
  {
   "property": "C80",
   "status": "proved",
   "theorems": [
    "Verif.Values.C80_typed_call",
    "Verif.Values.C80_test_service",
    "Verif.Values.C80_example"
   ],
   "note": "C80_typed_call is about one parametric server and client (typedServer, typedCall); C80_test_service says that the test service, whose routes are transcribed, is an instance. The transport between them is assumed to deliver the request and the response unchanged."
  },
  {
   "property": "C81",
   "status": "partial",
   "theorems": [
    "Verif.Values.C81_verdict_partial",
    "Verif.Values.C81_server",
    "Verif.Values.C81_reference",
    "Verif.Values.C81_detects",
    "Verif.Values.C81_detects_refusal",
    "Verif.Values.C81_refuses",
    "Verif.Values.C81_sloppy_passes",
    "Verif.Values.C81_example"
   ],
   "note": "False as stated: C81_sloppy_passes gives a server that returns other values, accepts anything and leaves out the causes of errors, and passes. Proved instead: C81_verdict_partial gives the exact condition under which the suite reports nothing (Spec.Passes), C81_server says when a server around an implementation meets it, C81_reference that the reference server passes, and C81_detects and C81_detects_refusal which deviations are always reported."
  },
  {
   "property": "C82",
   "status": "proved",
   "theorems": [
    "Verif.Values.C82_example",
    "Verif.Values.C82_typed_call",
    "Verif.Values.C82_hook_refuses",
    "Verif.Values.C82_other_path",
    "Verif.Values.C82_lists"
   ],
   "note": "C82_lists says that the servers of C80 are instances. The transport is assumed to deliver the request and the response unchanged; what the handler wrote before it panics reaches the client only if something above it (a Recoverer middleware) keeps the HTTP server from dropping the connection."
  },
  {
   "property": "C83",
   "status": "proved",
   "theorems": [
    "Verif.Values.C83_example",
    "Verif.Values.C83_method_ctx",
    "Verif.Values.C83_served_ctx",
    "Verif.Values.C83_listed",
    "Verif.Values.C83_mounted"
   ],
   "note": "Generalises C58 from the test service's tables to any package of the pattern. The order in which Go iterates over the map of methods is not modelled (the statements are about membership)."
  },
  {
   "property": "C84",
   "status": "proved",
   "theorems": [
    "Verif.Values.C84_one_response",
    "Verif.Values.C84_at_most_one_call",
    "Verif.Values.C84_example"
   ],
   "note": "Hooks and implementations that write to the response themselves are not modelled (see C51)."
  },
  {
   "property": "C85",
   "status": "proved",
   "theorems": [
    "Verif.Values.C85_refuses",
    "Verif.Values.C85_lets",
    "Verif.Values.C85_example"
   ],
   "note": "C85_example shows that the golang-basics package meets the hypotheses."
  },
  {
   "property": "C86",
   "status": "partial",
   "theorems": [
    "Verif.Values.C86_routes",
    "Verif.Values.C86_deprecated",
    "Verif.Values.C86_runs_partial",
    "Verif.Values.C86_admin_unreachable",
    "Verif.Values.C86_admin_client",
    "Verif.Values.C86_get_user",
    "Verif.Values.C86_find_user",
    "Verif.Values.C86_others"
   ],
   "note": "False of the code for Admin: it is mounted at /admin/* but serves only /v1/Admin/... paths, so no request ever reaches it (C86_admin_unreachable: no request can tell which implementation is mounted) and its client always gets the bad-route error, whatever base path its address has (C86_admin_client). Proved for Example: C86_runs_partial, C86_deprecated, C86_routes; C86_get_user and C86_find_user say what the example's own implementation answers (FindUser with a nil filter panics). chi's routing of wildcard patterns and its Recoverer are modelled from their documentation, they are not in /repo."
  },
  {
   "property": "C87",
   "status": "partial",
   "theorems": [
    "Verif.Ts.C87_request",
    "Verif.Ts.C87_outcome",
    "Verif.Ts.C87_webrpc_error_partial",
    "Verif.Ts.C87_raw_error",
    "Verif.Ts.C87_example",
    "Verif.Ts.C87_own_errors"
   ],
   "note": "False of the code as a whole (C87_raw_error): with an error status and the body null, or when the connection breaks while the body is read, the promise rejects with a plain TypeError/DOMException that is no WebrpcError. C87_request and C87_outcome are proved in full; C87_webrpc_error_partial says that these two are the only cases. ECMAScript and fetch are not in /repo: they are modelled in Ts/Js.lean from their specifications, with number formatting and the messages of built-in errors as parameters (JsEngine). C87_own_errors: the errors it makes itself are those of the built-in table."
  },
  {
   "property": "C88",
   "status": "partial",
   "theorems": [
    "Verif.Ts.C88_go_error_partial",
    "Verif.Ts.C88_2xx",
    "Verif.Ts.C88_known",
    "Verif.Ts.C88_message_lost"
   ],
   "note": "False of the code: the Go server writes the message as 'msg', the TypeScript client reads 'message', so the message is always the default of the class (C88_message_lost: a Go error with a code unknown to the client always reads 'endpoint error'), and an error with a status 2xx other than 200 is taken for the result (C88_2xx). C88_go_error_partial: for statuses other than 2xx class, code, status and cause are right, and everything is told exactly if the message is the default; C88_known: which it is for errors of the shared schema whose message was not changed."
  },
  {
   "property": "C89",
   "status": "proved",
   "theorems": [
    "Verif.Ts.C89_call",
    "Verif.Ts.C89_no_answer"
   ],
   "note": "For errors whose status is 300 to 999 and not 304 and whose code is at most 2^53 in size (TellableTs); the loss of the message is C88's. A header of the caller that spells content-type differently is joined with the client's own by fetch, so the Go server refuses the request: Wired excludes it. The example is C88_message_lost, which uses the theorem."
  },
  {
   "property": "C90",
   "status": "partial",
   "theorems": [
    "Verif.Ts.C90_pieces",
    "Verif.Ts.C90_stream_partial",
    "Verif.Ts.C90_malformed",
    "Verif.Ts.C90_thrown",
    "Verif.Ts.C90_raw_error",
    "Verif.Ts.C90_refused",
    "Verif.Ts.C90_example"
   ],
   "note": "C90_pieces (independence of the cuts) is for all callbacks, also throwing ones. The rest holds for callbacks that do not throw and well-formed lines. False of the code otherwise, with witnesses: after a line that is not JSON, onMessage is called with undefined and the stream goes on (C90_malformed); when onError throws it is called again and the error document is passed to onMessage (C90_thrown); when fetch fails, or the refusal is null, onError gets an error that is no WebrpcError (C90_raw_error)."
  },
  {
   "property": "C91",
   "status": "partial",
   "theorems": [
    "Verif.Ts.C91_delivery_partial",
    "Verif.Ts.C91_any_time_partial",
    "Verif.Ts.C91_flushed_partial",
    "Verif.Ts.C91_example"
   ],
   "note": "Implementations that panic are excluded, as in C55 (false there: C55_panic_race); the message of the error is lost (C88_message_lost). Codes and statuses up to 2^53 in size."
  },
  {
   "property": "C92",
   "status": "proved",
   "theorems": [
    "Verif.Ts.C92_alive",
    "Verif.Ts.C92_pings",
    "Verif.Ts.C92_silence",
    "Verif.Ts.C92_only_silence",
    "Verif.Ts.C92_reported",
    "Verif.Ts.C92_example"
   ],
   "note": "Time in milliseconds; the timer is any sequence of ticks (setInterval promises no exact times)."
  },
  {
   "property": "C93",
   "status": "partial",
   "theorems": [
    "Verif.Ts.C93_abort_partial",
    "Verif.Ts.C93_signal_ignored",
    "Verif.Ts.C93_reason"
   ],
   "note": "Holds for abort() without a reason. False of the code for options.signal: the listener is registered on the stream's own signal, so nothing happens when options.signal is aborted (C93_signal_ignored); false for abort(reason): the stream is reported as lost (C93_reason)."
  },
  {
   "property": "C94",
   "status": "partial",
   "theorems": [
    "Verif.Ts.C94_record_partial",
    "Verif.Ts.C94_lost"
   ],
   "note": "Holds for plain objects (C94_record_partial). False of the code for Headers objects (nothing is sent) and lists of pairs (sent as headers 0, 1, ...): C94_lost."
  },
  {
   "property": "C95",
   "status": "partial",
   "theorems": [
    "Verif.Ts.C95_round_trip_partial",
    "Verif.Ts.C95_go",
    "Verif.Ts.C95_example",
    "Verif.Ts.C95_map",
    "Verif.Ts.C95_renamed",
    "Verif.Ts.C95_lenient",
    "Verif.Ts.C95_only_bigints",
    "Verif.Ts.C95_no_bigint",
    "Verif.Ts.C95_decode_example"
   ],
   "note": "Proved for all validated schemas in which bigints are only direct fields, lists of bigint, structs and lists of structs, not renamed in JSON, without self-containing structs and ambiguous names (C95_round_trip_partial); agreement with Go is C95_go. False of the code in general: bigints in maps (C95_map) and in renamed fields (C95_renamed) arrive as strings; empty texts and hexadecimal are read as bigints (C95_lenient). C95_only_bigints and C95_no_bigint for any table and response: nothing but texts is changed, into the bigints they denote, and the only failure is bad-response with the text that is none."
  },
  {
   "property": "C96",
   "status": "partial",
   "theorems": [
    "Verif.Ts.C96_file",
    "Verif.Ts.C96_struct_partial",
    "Verif.Ts.C96_enums",
    "Verif.Ts.C96_enum_example",
    "Verif.Ts.C96_called_partial",
    "Verif.Ts.C96_never",
    "Verif.Ts.C96_never_example",
    "Verif.Ts.C96_no_result",
    "Verif.Ts.C96_thrown_partial",
    "Verif.Ts.C96_refused_partial",
    "Verif.Ts.C96_error_trip_partial",
    "Verif.Ts.C96_unchecked",
    "Verif.Ts.C96_lists",
    "Verif.Ts.C96_example"
   ],
   "note": "Proved: when the implementation is called and with what (C96_called_partial), refused requests (C96_refused_partial), errors (C96_thrown_partial, C96_error_trip_partial). False of the code: with a basepath other than /rpc/ - the example has /v1/ - every request is answered with null (C96_never, C96_never_example); encodeType does not exist, so that no method with a response answers 200 (C96_no_result); messages of thrown errors are lost (C96_error_trip_partial says which message arrives); falsy bodies are not checked (C96_unchecked); types with lists validate for no value (C96_lists). Neither do enums for their values (C96_enums, C96_enum_example). C96_struct_partial says what the validators of any schema accept. C96_file computes the literals of the example server from the text of service.ridl."
  },
  {
   "property": "C97",
   "status": "partial",
   "theorems": [
    "Verif.Ts.C97_chunks_partial",
    "Verif.Ts.C97_split",
    "Verif.Ts.C97_unanswered",
    "Verif.Ts.C97_answered_partial",
    "Verif.Ts.C97_served_partial",
    "Verif.Ts.C97_client",
    "Verif.Ts.C97_example"
   ],
   "note": "Proved: bodies whose chunks end with characters (C97_chunks_partial), requests that are answered (C97_answered_partial, C97_served_partial). False of the code: a character cut by a chunk boundary becomes replacement characters (C97_split); requests under /rpc/ to the example are never answered (C97_unanswered); every call of the example's client ends with WebrpcBadResponse, since the client asks for /v1/ and the server routes /rpc/ (C97_client)."
  },
  {
   "property": "C98",
   "status": "proved",
   "theorems": [
    "Verif.Props.C98_both",
    "Verif.Props.C98_first_error",
    "Verif.Props.C98_second_error",
    "Verif.Props.C98_endless",
    "Verif.Props.C98_swap",
    "Verif.Props.C98_blocks",
    "Verif.Props.C98_empty_line_needed",
    "Verif.Props.C98_opening_needed",
    "Verif.Props.C98_end_of_text"
   ],
   "note": "C98_both, C98_first_error, C98_second_error, C98_endless (texts on which the parser does not finish, see C08), C98_swap, C98_blocks. The first document must not end in a backslash or contain a NUL. C98_empty_line_needed and C98_opening_needed show that the hypotheses are needed; errors at the very end of a text are always reported as 0:0 (C98_end_of_text)."
  },
  {
   "property": "C99",
   "status": "partial",
   "theorems": [
    "Verif.Rpc.C99_go_iff",
    "Verif.Rpc.C99_one_meaning",
    "Verif.Rpc.C99_go_refuses",
    "Verif.Rpc.C99_ts_reads",
    "Verif.Rpc.C99_ts_nothing",
    "Verif.Rpc.C99_ts_of_go",
    "Verif.Rpc.C99_agree",
    "Verif.Rpc.C99_round_trip_go_partial",
    "Verif.Rpc.C99_round_trip_ts_partial",
    "Verif.Rpc.C99_response",
    "Verif.Rpc.C99_refused_in_repo",
    "Verif.Rpc.C99_test_header",
    "Verif.Rpc.C99_ts_in_repo",
    "Verif.Rpc.C99_at_differs"
   ],
   "note": "C99_response, C99_go_iff, C99_go_refuses, C99_ts_reads, C99_ts_nothing, C99_ts_of_go, C99_agree, C99_one_meaning and the round trips. False of the code: of the nine header values generated in the repository, eight name no generator version and are refused by the Go function of the same repository (C99_refused_in_repo, C99_test_header); a version with an @ is cut by TypeScript and not by Go (C99_at_differs). (The checked-in files have the versions removed by `make generate`, Makefile 34-38.)"
  },
  {
   "property": "C100",
   "status": "proved",
   "theorems": [
    "Verif.TestCmd.C100_one_mode",
    "Verif.TestCmd.C100_usage",
    "Verif.TestCmd.C100_prints",
    "Verif.TestCmd.C100_client",
    "Verif.TestCmd.C100_server",
    "Verif.TestCmd.C100_wait",
    "Verif.TestCmd.C100_help",
    "Verif.TestCmd.C100_wrong_flags",
    "Verif.TestCmd.C100_only_client",
    "Verif.TestCmd.C100_reference",
    "Verif.TestCmd.C100_surprises"
   ],
   "note": "C100_one_mode, C100_usage, C100_prints, C100_client (with the verdict of C81), C100_server, C100_wait, C100_help, C100_wrong_flags, C100_only_client, C100_reference (the reference server passes). C100_surprises: a URL without -url= is silently ignored; -help alone ends with status 1."
  },
  {
   "property": "C101",
   "status": "proved",
   "theorems": [
    "Verif.TestCmd.C101_success",
    "Verif.TestCmd.C101_failure",
    "Verif.TestCmd.C101_ends",
    "Verif.TestCmd.C101_calls",
    "Verif.TestCmd.C101_found",
    "Verif.TestCmd.C101_one_hanging_call"
   ],
   "note": "C101_success, C101_failure, C101_ends, C101_calls, C101_found. C101_one_hanging_call shows that the condition on hanging calls is needed: one call that is never answered makes Wait fail, since single calls have no deadline."
  },
  {
   "property": "C102",
   "status": "proved",
   "theorems": [
    "Verif.TestCmd.C102_no_panic",
    "Verif.TestCmd.C102_wait",
    "Verif.TestCmd.C102_wait_same",
    "Verif.TestCmd.C102_wait_returns",
    "Verif.TestCmd.C102_close_does_not_release"
   ],
   "note": "C102_no_panic, C102_wait, C102_wait_same, C102_wait_returns, C102_close_does_not_release. A failure to bind is outside this model (RunTestServer returns no server then; see C100_server)."
  },
  {
   "property": "C103",
   "status": "partial",
   "theorems": [
    "Verif.Ts.C103_to_go",
    "Verif.Ts.C103_value_to_go",
    "Verif.Ts.C103_to_ts_partial",
    "Verif.Ts.C103_distinct",
    "Verif.Ts.C103_conforms_partial",
    "Verif.Ts.C103_null",
    "Verif.Ts.C103_rounded",
    "Verif.Ts.C103_example",
    "Verif.Ts.C103_rounded_example",
    "Verif.Ts.C103_null_example"
   ],
   "note": "C103_to_go, C103_value_to_go (TypeScript to Go, without restriction on the types), C103_to_ts_partial (Go to TypeScript), C103_distinct, C103_conforms_partial. False in full: integers beyond 2^53 in JSON numbers are rounded by JavaScript (C103_rounded), nil slices, maps and pointers without omitempty arrive as null, which none of the TypeScript types has (C103_null, C103_null_example: `content?: string` of node-ts), and some bigints are not found (C95). time.Time and []byte are not modelled."
  },
  {
   "property": "C104",
   "status": "partial",
   "theorems": [
    "Verif.Ts.C104_call_partial",
    "Verif.Ts.C104_example"
   ],
   "note": "C104_call_partial, C104_example. Same restrictions as C103 for results (exact numbers, findable bigints of C95); transport failures are in C87-C89."
  },
  {
   "property": "C105",
   "status": "proved",
   "theorems": [
    "Verif.JsonSchema.C105_loads",
    "Verif.JsonSchema.C105_one",
    "Verif.JsonSchema.C105_order",
    "Verif.JsonSchema.C105_unknown",
    "Verif.JsonSchema.C105_null",
    "Verif.JsonSchema.C105_example"
   ],
   "note": "C105_loads (exactly), C105_one, C105_order, C105_unknown, C105_null, C105_example. Outside the model: null as an element of a list of the schema, and two members for the same field (encoding/json merges them); the specification says nothing about such texts and the model calls them unmodelled."
  },
  {
   "property": "C106",
   "status": "proved",
   "theorems": [
    "Verif.WireError.C106_error_said",
    "Verif.WireError.C106_unreadable",
    "Verif.WireError.C106_succeeds",
    "Verif.WireError.C106_not_answered",
    "Verif.WireError.C106_one",
    "Verif.WireError.C106_anonymous",
    "Verif.WireError.C106_anonymous_example"
   ],
   "note": "C106_error_said, C106_unreadable, C106_succeeds, C106_not_answered, C106_one. Observed (C106_anonymous, C106_anonymous_example): a JSON object without any of the members, or null, as proxies may answer, is an error without name and message with code 0, which errors.Is takes for ErrWebrpcEndpoint. Failures before sending (marshalling, done context, bad URL) are not modelled."
  },
  {
   "property": "C107",
   "status": "partial",
   "theorems": [
    "Verif.ChatPage.C107_shown",
    "Verif.ChatPage.C107_backoff",
    "Verif.ChatPage.C107_one_connection_partial",
    "Verif.ChatPage.C107_finished_partial",
    "Verif.ChatPage.C107_two_connections"
   ],
   "note": "C107_shown, C107_backoff (every reachable page); C107_one_connection_partial and C107_finished_partial for users who, after a click on Re-connect, wait for something to happen before the next click. False otherwise (C107_two_connections): connect() does not change the status, so the button stays enabled and a second click opens a second connection that nothing stops. Lines with a member hasOwnProperty or a null webrpcError are excluded (LawfulLine)."
  },
  {
   "property": "C108",
   "status": "partial",
   "theorems": [
    "Verif.ChatPage.C108_no_overlap_partial",
    "Verif.ChatPage.C108_reconnect",
    "Verif.ChatPage.C108_once_partial",
    "Verif.ChatPage.C108_served",
    "Verif.ChatPage.C108_retry",
    "Verif.ChatPage.C108_resent",
    "Verif.ChatPage.C108_disconnect",
    "Verif.ChatPage.C108_twice"
   ],
   "note": "C108_once_partial for pages that have not connected again by themselves; C108_reconnect (Re-connect asks for the messages after the last one), C108_no_overlap_partial, C108_served (the chat server serves so). False of the code otherwise: all requests of one connect() send the id it was called with (C108_retry), so after an error the same messages come again (C108_twice, C108_resent); and Disconnect aborts with a reason, which is reported as a lost stream, so the page is connecting for ever, shows no more messages and its button does nothing (C108_disconnect)."
  },
  {
   "property": "C109",
   "status": "proved",
   "theorems": [
    "Verif.Props.C109_frame",
    "Verif.Props.C109_add",
    "Verif.Props.C109_example"
   ],
   "note": "C109_frame, C109_add."
  },
  {
   "property": "C110",
   "status": "partial",
   "theorems": [
    "Verif.Props.C110_comment_text_partial",
    "Verif.Props.C110_comment_obeyed"
   ],
   "note": "C110_comment_text_partial. C110_comment_obeyed is the witness that the property is false of the code for a comment right behind `(Foo)`: the parser skips one token too many, the `#`, and obeys the rest."
  },
  {
   "property": "C111",
   "status": "proved",
   "theorems": [
    "Verif.Props.C111_grammar",
    "Verif.Props.C111_tokens",
    "Verif.Props.C111_errors",
    "Verif.Props.C111_fields",
    "Verif.Props.C111_enums",
    "Verif.Props.C111_methods"
   ],
   "note": "C111_grammar is the whole statement against the grammar in Spec/Grammar.lean; C111_errors, C111_fields, C111_enums and C111_methods spell out consequences. Doc comments are left open by the grammar (they are the subject of C11), and what a value with non-ASCII characters stands for (C07)."
  },
  {
   "property": "C112",
   "status": "partial",
   "theorems": [
    "Verif.Ts.Cors.C112_chat_partial",
    "Verif.Ts.Cors.C112_hello_partial",
    "Verif.Ts.Cors.C112_server_go_unreachable",
    "Verif.Ts.Cors.C112_node_partial",
    "Verif.Ts.Cors.C112_hono_partial"
   ],
   "note": "C112_server_go_unreachable is the witness that the property is false of node-ts/server-go. go-chi/cors and hono/cors are libraries outside /repo, modelled from their documentation; the browser from the Fetch Standard."
  },
  {
   "property": "C113",
   "status": "partial",
   "theorems": [
    "Verif.Ts.Cors.C113_visible_partial",
    "Verif.Ts.Cors.C113_hidden"
   ],
   "note": "C113_hidden is the witness that the property is false of the servers of node-ts."
  },
  {
   "property": "C114",
   "status": "proved",
   "theorems": [
    "Verif.Props.C114_types",
    "Verif.Props.C114_services",
    "Verif.Props.C114_argument_trees",
    "Verif.Props.C114_annotations",
    "Verif.Props.C114_errors",
    "Verif.Props.C114_trees",
    "Verif.Props.C114_example"
   ],
   "note": "Codes and statuses beyond 32 bits are clamped (C34), names of errors are trimmed. Types of fields of imported structs are those found in the importing schema (C31_capture), so only their presence is claimed."
  },
  {
   "property": "C115",
   "status": "partial",
   "theorems": [
    "Verif.Props.C115_alias_partial",
    "Verif.Props.C115_dangling",
    "Verif.Props.C115_two_meanings",
    "Verif.Props.C115_example"
   ],
   "note": "C115_alias_partial: if files are imported as a whole. False of the code otherwise: C115_dangling (Validate parses the fields of imported structs again, but not the types of imported aliases), C115_two_meanings (the tree refers to one type, the name is that of another one)."
  },
  {
   "property": "C116",
   "status": "proved",
   "theorems": [
    "Verif.Props.C116_required",
    "Verif.Props.C116_written",
    "Verif.Props.C116_example"
   ],
   "note": ""
  },
  {
   "property": "C117",
   "status": "partial",
   "theorems": [
    "Verif.Props.C117_version",
    "Verif.Props.C117_known_partial",
    "Verif.Props.C117_blank",
    "Verif.Props.C117_example"
   ],
   "note": "C117_known_partial: not empty if no command prints only white space; C117_version says which it is in every case. False of the code otherwise: C117_blank."
  }
 ]
}