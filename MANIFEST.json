{
 "claims": [
  {
   "property": "C01",
   "status": "proved",
   "theorems": [
    "Flake.C01_ids_strictly_increasing",
    "Flake.C01_ids_unique",
    "Flake.C01_real_time_order",
    "Flake.C01_mutual_exclusion",
    "Flake.C01_no_deadlock"
   ],
   "note": "Every schedule of any number of goroutines, every clock."
  },
  {
   "property": "C02",
   "status": "proved",
   "theorems": [
    "Flake.C02_machines_disjoint"
   ],
   "note": ""
  },
  {
   "property": "C03",
   "status": "proved",
   "theorems": [
    "Flake.C03_decompose_fields",
    "Flake.C03_recombine",
    "Flake.C03_decompose_injective",
    "Flake.C03_ids_valid",
    "Flake.C03_decompose_nextID"
   ],
   "note": ""
  },
  {
   "property": "C04",
   "status": "proved",
   "theorems": [
    "Flake.C04_idTime_lower_bound",
    "Flake.C04_idTime_exact_on_monotone_clock",
    "Flake.C04_foreign_generator_epoch"
   ],
   "note": "Clock instants are unbounded integers; the 'not in the future' half assumes a monotone clock after 1970 and the documented contract of time.Sleep."
  },
  {
   "property": "C05",
   "status": "proved",
   "theorems": [
    "Flake.C05_panic_iff",
    "Flake.C05_panic_is_sticky",
    "Flake.C05_panic_is_sticky_seq",
    "Flake.C05_lastID"
   ],
   "note": ""
  },
  {
   "property": "C06",
   "status": "proved",
   "theorems": [
    "Flake.C06_restart_unique",
    "Flake.C06_same_millisecond_repeats"
   ],
   "note": "Positive direction plus the failure when the clock has not moved on."
  },
  {
   "property": "C07",
   "status": "proved",
   "theorems": [
    "Flake.C07_constructor_panics_iff",
    "Flake.C07_constructor_result"
   ],
   "note": ""
  },
  {
   "property": "C08",
   "status": "proved",
   "theorems": [
    "Flake.C08_at_most_64_per_unit",
    "Flake.C08_sleep",
    "Flake.C08_sleep_until_unit"
   ],
   "note": ""
  },
  {
   "property": "C09",
   "status": "proved",
   "theorems": [
    "Flake.C09_default_machine_id",
    "Flake.C09_no_address",
    "Flake.C09_collision_iff"
   ],
   "note": "net.IP.To4/To16/IsLoopback are modelled from their documentation; the FNV hash used in test runs is a parameter."
  },
  {
   "property": "C10",
   "status": "proved",
   "theorems": [
    "Types.C10_text_roundtrip",
    "Types.C10_json_roundtrip",
    "Types.C10_sql_roundtrip",
    "Types.C10_yaml_roundtrip"
   ],
   "note": "Texts, JSON, SQL and YAML forms; encoding/json string quoting of plain digits is modelled directly."
  },
  {
   "property": "C11",
   "status": "proved",
   "theorems": [
    "Types.C11_set_accepts",
    "Types.C11_parse_accepts",
    "Types.C11_parsed_is_valid_iff",
    "Types.C11_parse_relies_on_evaluation_order"
   ],
   "note": "Exact acceptance. Finding: ParseID returns its named value and error from one return statement and so relies on gc evaluation order (C11_parse_relies_on_evaluation_order)."
  },
  {
   "property": "C12",
   "status": "partial",
   "theorems": [
    "Types.C12_agree_iff",
    "Types.C12_text_denotes_number",
    "Types.C12_text_number_agree_partial",
    "Types.C12_text_number_agree_fails",
    "Types.C12_leading_zero_witness",
    "Types.C12_decorated_texts"
   ],
   "note": "The text always denotes the number. That it is the canonical text fails for JSON numbers with leading zeros (witness); proved for histories without those. C12_agree_iff: after any program, text and number agree if and only if the ID does not print a JSON text with a superfluous leading zero."
  },
  {
   "property": "C13",
   "status": "partial",
   "theorems": [
    "Types.C13_copies_are_names_of_one_object",
    "Types.C13_set_reaches_iff",
    "Types.C13_only_set_or_reset_reach_copies",
    "Types.C13_copies_share",
    "Types.C13_copies_independent_partial"
   ],
   "note": "False in general: copies of an ID share a pointer, so Set/Reset through one reach the other (C13_copies_share). Proved for histories that never Set/Reset a copied ID, and that no other operation reaches a copy. Exactly: C13_copies_are_names_of_one_object (a specification with named objects predicts every variable of every program), C13_set_reaches_iff."
  },
  {
   "property": "C14",
   "status": "proved",
   "theorems": [
    "Types.C14_add",
    "Types.C14_new",
    "Types.C14_concat",
    "Types.C14_concat_any",
    "Types.C14_contains_overlaps"
   ],
   "note": "Every heap of backing arrays, every growth policy of append."
  },
  {
   "property": "C15",
   "status": "proved",
   "theorems": [
    "Types.C15_sort",
    "Types.C15_from_strings",
    "Types.C15_strings_roundtrip",
    "Types.C15_array_text"
   ],
   "note": ""
  },
  {
   "property": "C16",
   "status": "proved",
   "theorems": [
    "Types.C16_sql_roundtrip",
    "Types.C16_scan_resets"
   ],
   "note": ""
  },
  {
   "property": "C17",
   "status": "proved",
   "theorems": [
    "Types.C17_json_roundtrip",
    "Types.C17_json_text",
    "Types.C17_sql_roundtrip",
    "Types.C17_json_range"
   ],
   "note": ""
  },
  {
   "property": "C18",
   "status": "partial",
   "theorems": [
    "Types.C18_scan_overwrites_partial",
    "Types.C18_error_keeps_old",
    "Types.C18_null_keeps_old",
    "Types.C18_map_scan_keeps_stale_keys",
    "Types.C18_map_scan_partial",
    "Types.C18_overwrites_iff",
    "Types.C18_map_scan_iff",
    "Types.GoJson.C18_strings_scan_exactly",
    "Types.GoJson.C18_strings_nulls_show_old_memory",
    "Types.GoJson.C18_map_scan_exactly"
   ],
   "note": "False for NULL (Scan(nil) keeps the old value of ID, ID32, Int64, Int32, Bool) and for maps (stale keys survive). Proved for non-NULL scalar values. C18_overwrites_iff and C18_map_scan_iff give the exact column values for which Scan overwrites the destination. C18_strings_scan_exactly and C18_map_scan_exactly say what any scan, successful or failed, does to a Strings, Metadata or KVSet destination: null elements of an array show the old contents, and a failed scan leaves a mixture."
  },
  {
   "property": "C19",
   "status": "partial",
   "theorems": [
    "Types.C19_uuid_text",
    "Types.C19_uuid_injective",
    "Types.C19_wrong_length_not_rejected",
    "Types.C19_all_outcomes"
   ],
   "note": "Text form and injectivity proved; values of the wrong length are not rejected (shown). C19_all_outcomes lists the outcome of every scan."
  },
  {
   "property": "C20",
   "status": "proved",
   "theorems": [
    "Types.C20_nullstring",
    "Types.C20_uuid_value"
   ],
   "note": ""
  },
  {
   "property": "C21",
   "status": "proved",
   "theorems": [
    "Xsql.C21_args_follow_placeholders",
    "Xsql.C21_sql_consumes_args"
   ],
   "note": ""
  },
  {
   "property": "C22",
   "status": "proved",
   "theorems": [
    "Xsql.C22_trim_meaning",
    "Xsql.C22_sql_is_document",
    "Xsql.C22_canonical_order",
    "Xsql.C22_join_before_from_loses_keyword"
   ],
   "note": "For clause methods in any order. Finding: Join or In before From or Where loses that clause's keyword (C22_join_before_from_loses_keyword)."
  },
  {
   "property": "C23",
   "status": "proved",
   "theorems": [
    "Xsql.C23_only_order_within_clause_matters",
    "Xsql.C23_swap"
   ],
   "note": ""
  },
  {
   "property": "C24",
   "status": "proved",
   "theorems": [
    "Xsql.C24_postgres_numbering",
    "Xsql.C24_ith_placeholder",
    "Xsql.C24_numbers_distinct"
   ],
   "note": ""
  },
  {
   "property": "C25",
   "status": "proved",
   "theorems": [
    "Xsql.C25_rewriter",
    "Xsql.C25_plain_text_unchanged",
    "Xsql.C25_lexer",
    "Xsql.C25_escape_depends_on_neighbours"
   ],
   "note": ""
  },
  {
   "property": "C26",
   "status": "partial",
   "theorems": [
    "Xsql.C26_which_text",
    "Xsql.C26_own_sql_iff",
    "Xsql.C26_asked_again",
    "Xsql.C26_string_is_own_sql_partial",
    "Xsql.C26_pure_is_own",
    "Xsql.C26_other_statement_shows_through",
    "Xsql.C26_argument_count_not_in_key",
    "Xsql.C26_boundary_not_in_key",
    "Xsql.C26_key_determines_text_in_order",
    "Xsql.C26_orderly_programs_partial"
   ],
   "note": "False in general (three kinds of key collision proved). Proved: exactly which text a statement shows (C26_which_text: the text cached under its key, if any), its own text iff what is cached there is its own (C26_own_sql_iff), and own text in every program whose cache keys are unambiguous, which holds for unnamed statements written in clause order."
  },
  {
   "property": "C27",
   "status": "proved",
   "theorems": [
    "Xsql.C27_pool_carries_nothing_over",
    "Xsql.C27_current_clause_is_recycled"
   ],
   "note": "Every history, every choice of the pool. The current clause of a recycled object survives, but every constructor call replaces it."
  },
  {
   "property": "C28",
   "status": "partial",
   "theorems": [
    "Xsql.C28_clone_exactly",
    "Xsql.C28_clone_equals_original",
    "Xsql.C28_independent",
    "Xsql.C28_same_continuation_partial",
    "Xsql.C28_clone_forgets_current_clause",
    "Xsql.C28_clone_forgets_line_breaks"
   ],
   "note": "Equality and independence proved, and what exactly a clone is (C28_clone_exactly). 'Same effect' needs: line break setting of the dialect, no Expr/SubQuery before a clause method; both conditions shown necessary. Statement objects are values in the model; that memory sharing is invisible is C93."
  },
  {
   "property": "C29",
   "status": "proved",
   "theorems": [
    "Xsql.C29_subquery",
    "Xsql.C29_with",
    "Xsql.C29_union",
    "Xsql.C29_empty_prefix_corrupts",
    "Xsql.C29_embedding_operation"
   ],
   "note": "Subquery, With and Union; SubQuery with empty prefix is excluded and shown to corrupt the statement."
  },
  {
   "property": "C30",
   "status": "proved",
   "theorems": [
    "Xsql.C30_bulk_insert",
    "Xsql.C30_bulk_insert_postgres",
    "Xsql.C30_columns_match",
    "Xsql.C30_insert_set",
    "Xsql.C30_unchained_handle_loses_comma",
    "Xsql.C30_update_set",
    "Xsql.C30_set_values"
   ],
   "note": ""
  },
  {
   "property": "C31",
   "status": "partial",
   "theorems": [
    "Xsql.C31_paging_of_any_sequence",
    "Xsql.C31_offset_as_asked_iff",
    "Xsql.C31_last_call_wins",
    "Xsql.C31_limit_in_sql",
    "Xsql.C31_offset_in_sql",
    "Xsql.C31_paginate_partial",
    "Xsql.C31_paginate_keeps_old_offset",
    "Xsql.C31_limit_after_expr"
   ],
   "note": "Last call wins except: Paginate(1, n) keeps an earlier OFFSET, Expr on LIMIT breaks the replacement; both shown. Exact: C31_paging_of_any_sequence gives the paging of every sequence of calls; C31_offset_as_asked_iff says when the offset is the one asked for last."
  },
  {
   "property": "C32",
   "status": "proved",
   "theorems": [
    "Xsql.C32_first_text_is_returned",
    "Xsql.C32_first_call_stores",
    "Xsql.C32_others_unchanged",
    "Xsql.C32_rendered_builder_is_not_stored",
    "Xsql.C32_foreign_builder_is_stored_elsewhere"
   ],
   "note": "Findings: a builder rendered before create returns, or built in another dialect, is not stored under the name."
  },
  {
   "property": "C33",
   "status": "partial",
   "theorems": [
    "Xsql.C33_own_dialect_decides",
    "Xsql.C33_embedded_is_asked_in_the_neutral_dialect",
    "Xsql.C33_cache_frame",
    "Xsql.C33_other_caches_do_not_matter_partial",
    "Xsql.C33_line_mode_frame",
    "Xsql.C33_embedding_uses_neutral_cache"
   ],
   "note": "Holds without embedded statements; the cache of the statement's own dialect alone decides (C33_own_dialect_decides). Embedding renders and caches in the neutral dialect (C33_embedded_is_asked_in_the_neutral_dialect), where names can collide (shown)."
  },
  {
   "property": "C34",
   "status": "proved",
   "theorems": [
    "Xsql.C34_dest_in_call_order",
    "Xsql.C34_bind"
   ],
   "note": ""
  },
  {
   "property": "C35",
   "status": "partial",
   "theorems": [
    "Xsql.C35_named_clause_iff",
    "Xsql.C35_keyword_lost_iff",
    "Xsql.C35_where_after_clauses_iff",
    "Xsql.C35_clause_appends",
    "Xsql.C35_union_appends",
    "Xsql.C35_tenth_clause_collides"
   ],
   "note": "Clause appends at the end unless ten or more Clause calls reach the position of a named clause (shown). Exact: C35_named_clause_iff, C35_keyword_lost_iff and C35_where_after_clauses_iff give the number of Clause calls at which a keyword is lost."
  },
  {
   "property": "C36",
   "status": "proved",
   "theorems": [
    "Query.C36_page_param",
    "Query.C36_every_row_once",
    "Query.C36_query_params_ask_for_their_page",
    "Query.C36_no_limit_always_has_next_page",
    "Query.C36_cut_page_ends_the_loop"
   ],
   "note": "Database modelled as a fixed table answering the LIMIT/OFFSET window. Findings: without a limit every result claims a next page; a page cut short by an error is taken for the last page (C36_cut_page_ends_the_loop)."
  },
  {
   "property": "C37",
   "status": "proved",
   "theorems": [
    "Query.C37_every_row_once"
   ],
   "note": "Database modelled as a fixed table ordered by a unique cursor key."
  },
  {
   "property": "C38",
   "status": "partial",
   "theorems": [
    "Query.C38_success_iff",
    "Query.C38_rows_are_closed",
    "Query.C38_all_rows_or_error_partial",
    "Query.C38_cut_stream_is_not_reported",
    "Query.C38_execute_query",
    "Query.C38_query_row"
   ],
   "note": "False in general: rows.Err() is never consulted, so a stream cut short by an error is returned as a complete list (C38_cut_stream_is_not_reported). Proved: streams that end with EOF, refused queries, unreadable rows, rows closed on every path. C38_success_iff: the exact streams on which success is reported."
  },
  {
   "property": "C39",
   "status": "proved",
   "theorems": [
    "Sql.C39_all_rows_or_error",
    "Sql.C39_every_error_is_reported",
    "Sql.C39_rows_in_order",
    "Sql.C39_which_error",
    "Sql.C39_rows_are_closed",
    "Sql.C39_panicking_callback_leaks_rows",
    "Sql.C39_query_row",
    "Sql.C39_sends_own_text_and_args",
    "Sql.C39_and_close"
   ],
   "note": "database/sql Rows/Row modelled from their documentation. Finding: a panicking callback leaves the rows open."
  },
  {
   "property": "C40",
   "status": "partial",
   "theorems": [
    "Query.C40_names_equal_iff",
    "Query.C40_name_of_the_first_call",
    "Query.C40_name_is_current_iff",
    "Query.C40_name_identifies_shape_partial",
    "Query.C40_null_column_order_is_irrelevant",
    "Query.C40_null_columns_collide",
    "Query.C40_first_page_has_the_name_of_no_page",
    "Query.C40_name_is_not_updated",
    "Query.C40_first_name_is_current_partial",
    "Query.C40_name_is_stable"
   ],
   "note": "False in two ways (proved): {ab,c} and {a,bc} as NULL columns give one name; the name is remembered and not updated by later calls. First page and no page share a name. Proved: everything else is determined by the name, for every hash function. C40_names_equal_iff: the exact condition for two names to be equal; C40_name_is_current_iff: the exact condition for the name to describe the current state."
  },
  {
   "property": "C41",
   "status": "proved",
   "theorems": [
    "Query.C41_get_query_params",
    "Query.C41_args_in_call_order",
    "Query.C41_adding_after_paging_panics",
    "Query.C41_paging_args_last",
    "Query.C41_reset_starts_over",
    "Query.C41_page_and_cursor"
   ],
   "note": "Every history of builder calls."
  },
  {
   "property": "C42",
   "status": "proved",
   "theorems": [
    "Query.C42_is_set",
    "Query.C42_get_enum_and_flags",
    "Query.C42_out_of_range_rejected",
    "Query.C42_reset_keeps_null_columns"
   ],
   "note": "Every history of builder calls. Finding: Reset keeps the NULL columns."
  },
  {
   "property": "C43",
   "status": "proved",
   "theorems": [
    "Query.C43_round_trip",
    "Query.C43_payload_round_trip",
    "Query.C43_url_safe",
    "Query.C43_rejects_corrupted",
    "Query.C43_decode_cursor_rejects",
    "Query.C43_not_canonical"
   ],
   "note": "encoding/base64 modelled from its documentation; the JSON codec is a parameter with the hypothesis that it reads its text back, which Go's meets only up to float64 for numbers: C116 proves what the real codec does. CR and LF inside a cursor are ignored by the decoder; trailing bits are not checked."
  },
  {
   "property": "C44",
   "status": "partial",
   "theorems": [
    "Types.GoJson.C44_go_json_contract",
    "Types.GoJson.C44_strings_restored_iff",
    "Types.GoJson.C44_strings_invalid_bytes",
    "Types.GoJson.C44_metadata_restored_iff",
    "Types.GoJson.C44_kvset_restored_iff",
    "Types.GoJson.C44_stored_text_is_acceptable",
    "Types.C44_map_roundtrip",
    "Types.C44_strings_roundtrip_partial",
    "Types.C44_strings_bytes_fail"
   ],
   "note": "encoding/json is modelled (parser, escapes, UTF-8, encoder with sorted keys), and C44_go_json_contract shows that it meets the contract. Exact: C44_strings_restored_iff, C44_metadata_restored_iff, C44_kvset_restored_iff: the value is restored iff all its strings are well-formed UTF-8 (other bytes become U+FFFD, and keys may collide); never an error. C44_stored_text_is_acceptable. Strings.Scan fails on []byte, which is what lib/pq delivers (C44_strings_bytes_fail)."
  },
  {
   "property": "C45",
   "status": "proved",
   "theorems": [
    "Types.C45_merge",
    "Types.C45_merge_assoc_idem",
    "Types.C45_ordered_pairs"
   ],
   "note": "Every iteration order of the Go map."
  },
  {
   "property": "C46",
   "status": "proved",
   "theorems": [
    "Types.C46_is_not_found",
    "Types.C46_check_recognised",
    "Types.C46_check_contents",
    "Types.C46_text",
    "Types.C46_is_by_table_and_id"
   ],
   "note": "Error values are finite trees with Unwrap/multi-Unwrap; the text is an arbitrary byte string."
  },
  {
   "property": "C47",
   "status": "partial",
   "theorems": [
    "Types.Mg.C47_merge_fields_partial",
    "Types.Mg.C47_merge_ties_ids"
   ],
   "note": "Field selection proved for arbitrarily nested structs. mergo is modelled from its documentation. Independence is false: ID pointers are shared (C47_merge_ties_ids)."
  },
  {
   "property": "C48",
   "status": "partial",
   "theorems": [
    "Types.Tm.C48_whole_ms",
    "Types.Tm.C48_add",
    "Types.Tm.C48_unix_milli",
    "Types.Tm.C48_storage",
    "Types.Tm.C48_ptr",
    "Types.Tm.C48_string",
    "Types.Tm.C48_parse_partial",
    "Types.Tm.C48_unknown_text_swallowed",
    "Types.Tm.C48_json",
    "Types.Tm.C48_json_null_keeps_old"
   ],
   "note": "All instants; calendar, RFC 3339 formatting and parsing modelled and proved for years 1 to 9999. Reporting unknown text formats is false (C48_unknown_text_swallowed)."
  },
  {
   "property": "C49",
   "status": "proved",
   "theorems": [
    "Prov.C49_begin_then_one_end",
    "Prov.C49_statements_go_through_their_transaction",
    "Prov.C49_calls"
   ],
   "note": "database/sql is modelled from its documentation; context cancellation is an atomic rollback."
  },
  {
   "property": "C50",
   "status": "proved",
   "theorems": [
    "Prov.C50_close_transaction",
    "Prov.C50_close_connection"
   ],
   "note": "database/sql is modelled from its documentation."
  },
  {
   "property": "C51",
   "status": "partial",
   "theorems": [
    "Prov.KeepAlive.C51_close_crashes_iff",
    "Prov.KeepAlive.C51_no_panic_partial",
    "Prov.KeepAlive.C51_quiet_close_partial",
    "Prov.KeepAlive.C51_close_races_with_ping",
    "Prov.KeepAlive.C51_goroutine_never_ends"
   ],
   "note": "False: Close races with a ping in progress (nil dereference) and the goroutine never ends. Proved: no panic without a completed Close, nor when the goroutine is idle at Close. C51_close_crashes_iff: from any reachable state, Close followed by some schedule panics iff a ping is in progress."
  },
  {
   "property": "C52",
   "status": "proved",
   "theorems": [
    "Schema.C52_exactly_the_matching_tables",
    "Schema.C52_columns_in_order",
    "Schema.C52_row_order_is_irrelevant",
    "Schema.C52_never_a_partial_result"
   ],
   "note": "Proved for every catalogue whose schema names contain no dot (the schema.table key is otherwise ambiguous); case-insensitive comparison is a parameter."
  },
  {
   "property": "C53",
   "status": "partial",
   "theorems": [
    "Schema.C53_after_any_history_partial",
    "Schema.C53_history_is_harmless_iff_reachable",
    "Schema.C53_iteration_order_is_irrelevant_partial",
    "Schema.C53_earlier_calls_leak_into_the_result",
    "Schema.C53_only_the_last_foreign_key_of_a_column_is_followed",
    "Schema.C53_dotted_names_collide",
    "Schema.C53_discovery_is_complete_partial",
    "Schema.C53_always_terminates"
   ],
   "note": "Proved: always terminates (no side condition); from a fresh provider and names without dots, exactly the reachable tables, independently of map iteration order. False in general: earlier calls leak into the result, only the last foreign key of a column is followed, dotted names collide (theorems C53_*). C53_after_any_history_partial covers providers with any history of ListTables and ListForeignKeys calls: the result is what is reachable from everything that matched so far; C53_history_is_harmless_iff_reachable says when that is what the property asks."
  },
  {
   "property": "C54",
   "status": "partial",
   "theorems": [
    "Schema.C54_crashes_iff",
    "Schema.C54_succeeds_iff",
    "Schema.C54_new_provider_succeeds_iff",
    "Schema.C54_new_provider_crashes_iff",
    "Schema.C54_earlier_calls_hide_the_crash",
    "Schema.C54_dependencies_have_no_indexes",
    "Schema.C54_indexes_and_primary_key_partial",
    "Schema.C54_composite_primary_key_is_not_reported",
    "Schema.C54_index_on_unknown_column_crashes"
   ],
   "note": "Proved: index columns in catalogue order; primary key = the single column of a one-column primary index. False: composite primary keys are not reported, dependency tables have no indexes, an index naming an unknown column crashes. Exact: C54_crashes_iff and C54_succeeds_iff say for every catalogue and provider when ListTables crashes and when it succeeds (C54_new_provider_* in plain terms); earlier calls can hide the crash (C54_earlier_calls_hide_the_crash)."
  },
  {
   "property": "C55",
   "status": "proved",
   "theorems": [
    "Schema.C55_aliased_columns",
    "Schema.C55_calls_do_not_interfere",
    "Schema.C55_select_sql",
    "Schema.C55_modify_sql",
    "Schema.C55_insert_sql",
    "Schema.C55_changed_columns_are_not_seen"
   ],
   "note": "For names without ? and not ending in a backslash. A program that assigns to Columns after the first use sees the old list (C55_changed_columns_are_not_seen)."
  },
  {
   "property": "C56",
   "status": "proved",
   "theorems": [
    "Gen.C56_columns_agree",
    "Gen.C56_dropped_primary_key"
   ],
   "note": "Files are modelled by the declarations the templates print; naming libraries are parameters. Dropping the primary-key column leaves PrimaryKey dangling (C56_dropped_primary_key)."
  },
  {
   "property": "C57",
   "status": "proved",
   "theorems": [
    "Gen.C57_nullable_columns_accept_null",
    "Gen.C57_types_accept_null",
    "Gen.C57_override_ignores_nullability"
   ],
   "note": "Overrides are taken as given: an override by column name also applies to nullable columns of that name (C57_override_ignores_nullability)."
  },
  {
   "property": "C58",
   "status": "partial",
   "theorems": [
    "Gen.C58_schema_file_content",
    "Gen.C58_model_files",
    "Gen.C58_schema_files_partial",
    "Gen.C58_schema_file_contains_other_schemas"
   ],
   "note": "Proved for model files, and for schema files when there is one schema. False for schema files of several schemas: tables accumulate in map iteration order (C58_schema_file_contains_other_schemas). C58_schema_file_content says exactly which tables each schema file contains: those of the schemas visited up to it, so its own only iff it is visited first."
  },
  {
   "property": "C59",
   "status": "partial",
   "theorems": [
    "Mig.C59_migrate_partial",
    "Mig.C59_setup_failures",
    "Mig.C59_failure_swallowed",
    "Mig.C59_success_iff"
   ],
   "note": "Proved except that a failure whose text mentions \"no change\" is taken for success (C59_failure_swallowed). C59_success_iff: the exact set of situations reported as success."
  },
  {
   "property": "C60",
   "status": "partial",
   "theorems": [
    "Notify.C60_misdelivery_possible_iff",
    "Notify.C60_each_once_in_order_partial",
    "Notify.C60_single_topic_partial",
    "Notify.C60_one_listener_per_topic",
    "Notify.C60_payload",
    "Notify.C60_wrong_callback"
   ],
   "note": "Proved for every schedule: each notification goes to exactly one subscription, each callback gets its share once and in order; and with a single topic the callback is the right one. The full property is false: all Listen calls share one channel, so with two topics a callback can be called with the other topic's notification (C60_wrong_callback). C60_misdelivery_possible_iff: a waiting callback can get another topic's notification iff one is already in the channel or the listener is open and another topic is listened to."
  },
  {
   "property": "C61",
   "status": "partial",
   "theorems": [
    "Conn.C61_database_selected_partial",
    "Conn.C61_empty_database_unchanged",
    "Conn.C61_no_query_loses_database",
    "Conn.C61_existing_parameter_wins",
    "Conn.C61_host_text_loses_database",
    "Conn.C61_name_not_escaped",
    "Conn.C61_dsn_rejected",
    "Conn.C61_quotes_inconsistent"
   ],
   "note": "Proved: for URLs with a query, no fragment, no database parameter yet, no \"host=\" text (postgres), and a plain name, the URL handed to the driver has the requested database and is otherwise unchanged. False otherwise: no query part, existing parameter, \"host=\" in the text, unescaped names, key=value data sources (theorems C61_*). How a driver reads the URL is outside the model; net/url is modelled, host syntax is a parameter."
  },
  {
   "property": "C62",
   "status": "partial",
   "theorems": [
    "Types.C62_operands_unchanged_partial",
    "Types.C62_siblings_overwritten",
    "Types.C62_siblings_overwritten_iff",
    "Types.C62_sort_in_place"
   ],
   "note": "False: two arrays derived by Add from one array with spare capacity overwrite each other, and Sort works in place (shown). Proved: Add and Concat never change their receiver or argument, and C62_siblings_overwritten_iff says exactly when the second Add overwrites the first."
  },
  {
   "property": "C63",
   "status": "partial",
   "theorems": [
    "Types.C63_scan_in_range_partial",
    "Types.C63_kept_iff_in_range",
    "Types.C63_out_of_range_wraps"
   ],
   "note": "False for integers out of range: they wrap (shown). Proved for integers in range, and C63_kept_iff_in_range: exactly those are kept."
  },
  {
   "property": "C64",
   "status": "partial",
   "theorems": [
    "Prov.C64_honoured_iff",
    "Prov.C64_options_ignored",
    "Prov.C64_default_options_partial"
   ],
   "note": "False: options are ignored. Holds for the defaults. C64_honoured_iff: the options are honoured if and only if they are the defaults."
  },
  {
   "property": "C65",
   "status": "partial",
   "theorems": [
    "Prov.C65_refused_iff_not_begin",
    "Prov.C65_panics_iff",
    "Prov.C65_closed_provider_fails_partial",
    "Prov.C65_begin_after_close_panics"
   ],
   "note": "False for BeginTx (nil dereference). Proved for the other calls. C65_refused_iff_not_begin and C65_panics_iff: the exact calls and histories."
  },
  {
   "property": "C66",
   "status": "partial",
   "theorems": [
    "Mig.C66_failed_open_leaks",
    "Mig.C66_new_provider_partial",
    "Open.C66_pool_left_open_iff"
   ],
   "note": "False: the pool leaks when the ping or the migration fails. C66_pool_left_open_iff: the pool is left open exactly in these two cases."
  },
  {
   "property": "C67",
   "status": "partial",
   "theorems": [
    "Notify.C67_ended_iff",
    "Notify.C67_callbacks_after_the_context_is_done",
    "Notify.C67_close_does_not_stop",
    "Notify.C67_context_stops_partial"
   ],
   "note": "Proved: after the goroutine took the branch of its context the callback is never called again, and C67_ended_iff: a goroutine ends if and only if it takes that branch, which needs its context to be done. False for Close: the goroutine receives nil from the closed channel for ever (C67_close_does_not_stop). False in time for the context: select picks at random, so any number of callbacks can come between the end of the context and the goroutine noticing it (C67_callbacks_after_the_context_is_done)."
  },
  {
   "property": "C68",
   "status": "proved",
   "theorems": [
    "Conn.C68_parts_recovered"
   ],
   "note": "net/url is modelled from its source; host syntax and ResolveValue are parameters."
  },
  {
   "property": "C69",
   "status": "proved",
   "theorems": [
    "Schema.C69_exactly_the_matching_views",
    "Schema.C69_never_a_partial_result"
   ],
   "note": "Schema names of the listed views contain no dot; case-insensitive comparison is a parameter."
  },
  {
   "property": "C70",
   "status": "proved",
   "theorems": [
    "Schema.C70_exactly_the_matching_foreign_keys"
   ],
   "note": "No side condition."
  },
  {
   "property": "C71",
   "status": "partial",
   "theorems": [
    "Schema.C71_how_many_are_left_open",
    "Schema.C71_success_closes_every_result_set_partial",
    "Schema.C71_scan_failure_leaves_rows_open"
   ],
   "note": "Proved for successful calls; false for failing ones (C71_scan_failure_leaves_rows_open). C71_how_many_are_left_open: views and foreign keys leave one open exactly when a row cannot be read, tables at most two (sharp)."
  },
  {
   "property": "C72",
   "status": "partial",
   "theorems": [
    "Schema.C72_torn_string",
    "Schema.C72_initialised_before_sharing_partial",
    "Schema.C72_length_is_always_whole",
    "Schema.C72_torn_possible_iff",
    "Schema.C72_whole_after_a_writer_finished"
   ],
   "note": "False for first calls (C72_torn_string, two-word strings under sequential consistency); proved when AllColumns was called once before sharing. Exact: C72_torn_possible_iff (a torn result is possible iff at least two first calls run at once), C72_length_is_always_whole, C72_whole_after_a_writer_finished."
  },
  {
   "property": "C73",
   "status": "partial",
   "theorems": [
    "Gen.C73_integers_fit_partial",
    "Gen.C73_keys_fit_partial",
    "Gen.C73_fits_iff",
    "Gen.C73_tinyint_does_not_fit",
    "Gen.C73_negative_keys_do_not_fit"
   ],
   "note": "False for tinyint NOT NULL (int8) and negative values of key-named columns (xdb.ID is unsigned), both shown. C73_fits_iff: these are exactly the integer columns for which the chosen Go type does not hold all values."
  },
  {
   "property": "C74",
   "status": "partial",
   "theorems": [
    "Gen.C74_declared_once_iff",
    "Gen.C74_column_named_table",
    "Gen.C74_dialect",
    "Gen.C74_two_schemas_redeclare",
    "Gen.C74_same_package_redeclares",
    "Gen.C74_singular_and_plural_collide"
   ],
   "note": "References resolve (C56_columns_agree). Exact condition for one schema in packages of their own: every name is declared once iff the derived names are distinct (C74_declared_once_iff; a column named `table` clashes, C74_column_named_table). False: with two schemas or one package the generated code redeclares names, always; singular/plural table names collide."
  },
  {
   "property": "C75",
   "status": "partial",
   "theorems": [
    "Gen.C75_what_is_left",
    "Gen.C75_failure_keeps_files_iff",
    "Gen.C75_success_leaves_no_empty_file_partial",
    "Gen.C75_failure_destroys_the_old_file"
   ],
   "note": "Proved for success; false for failures: the file is truncated before anything can fail. What is left, exactly: C75_what_is_left (finished files, and at most one empty one, the last opened), C75_failure_keeps_files_iff (all files survive iff the first one cannot be opened)."
  },
  {
   "property": "C76",
   "status": "proved",
   "theorems": [
    "Types.C76_parse_is_nearest",
    "Types.C76_parse_ties_even",
    "Types.C76_text",
    "Types.C76_json_stable",
    "Types.C76_json_exact_iff",
    "Types.C76_json_exact",
    "Types.C76_json_loses",
    "Types.C76_special_not_json",
    "Types.C76_json_decode"
   ],
   "note": "IEEE doubles as multiples of 2^-1074; strconv.ParseFloat and %f are modelled by their documented contract (correct rounding, halves to even) and proved nearest against an independent rational specification. Hexadecimal float texts are a parameter. 'Every double survives JSON' is false below 2^33 (C76_json_loses); NaN and infinities are written as invalid JSON; JSON null is refused."
  },
  {
   "property": "C77",
   "status": "proved",
   "theorems": [
    "Types.C77_value_scan",
    "Types.C77_scan_stores",
    "Types.C77_scan_null_and_errors"
   ],
   "note": "Scan(nil) succeeds and keeps the old value (same defect as C18)."
  },
  {
   "property": "C78",
   "status": "proved",
   "theorems": [
    "Gen.C78_bind_selects_the_columns",
    "Gen.C78_comma_cuts_the_name",
    "Schema.C78_tag_is_read_back",
    "Schema.C78_tag_determines_column",
    "Schema.C78_quote_cuts_the_name",
    "Schema.C78_backslash_escapes"
   ],
   "note": "Condition on names shown necessary (C78_quote_cuts_the_name, C78_comma_cuts_the_name). strconv.Unquote is modelled for texts without escapes; the rest is a parameter."
  },
  {
   "property": "C79",
   "status": "proved",
   "theorems": [
    "Schema.C79_literal_determines_column"
   ],
   "note": "Injectivity of the format; how the Go compiler reads the literal is outside the model."
  },
  {
   "property": "C80",
   "status": "partial",
   "theorems": [
    "Cli.C80_db_exactly",
    "Cli.C80_database_honoured_iff",
    "Cli.C80_schema_exactly",
    "Cli.C80_stale_schema_provider_iff",
    "Cli.C80_no_connection_leaks",
    "Cli.C80_db_is_open_and_kept",
    "Cli.C80_connects_as_asked",
    "Cli.C80_custom_schema_provider",
    "Cli.C80_database_name_ignored",
    "Cli.C80_schema_provider_survives_close"
   ],
   "note": "Proved for connections. The code does not honour the database name once connected (C80_database_name_ignored) and keeps a schema provider on a closed connection after Close (C80_schema_provider_survives_close), both shown as theorems. Exact: C80_db_exactly, C80_database_honoured_iff, C80_schema_exactly, C80_stale_schema_provider_iff."
  },
  {
   "property": "C81",
   "status": "partial",
   "theorems": [
    "Cli.C81_one_line_per_table",
    "Cli.C81_failures_print_nothing",
    "Cli.C81_lines_determine_the_tables",
    "Cli.C81_encoding_error_swallowed",
    "Cli.C81_columns_partial_output",
    "Cli.C81_encoded",
    "Cli.C81_success_iff",
    "Cli.C81_output_of_failures"
   ],
   "note": "Holds for tables, views and foreign-keys; the columns command swallows encoding errors and prints before failing (C81_encoding_error_swallowed, C81_columns_partial_output). Exact: C81_success_iff (when each command reports success) and C81_output_of_failures (the only failure that has printed something). Encoders are parameters here; C105 instantiates the JSON encoder."
  },
  {
   "property": "C82",
   "status": "proved",
   "theorems": [
    "Cli.C82_one_row_per_column",
    "Cli.C82_one_row_per_foreign_key",
    "Cli.C82_one_row_per_index",
    "Cli.C82_headings"
   ],
   "note": "Rows handed to the table writer; its layout is outside the model."
  },
  {
   "property": "C83",
   "status": "proved",
   "theorems": [
    "Cli.C83_failure_touches_nothing",
    "Cli.C83_generates_what_was_listed",
    "Cli.C83_package_is_last_element",
    "Cli.C83_package_default",
    "Cli.C83_package_flag",
    "Cli.C83_overrides_persist",
    "Cli.C83_overrides_apply",
    "Cli.C83_model_refers_to_schema_package"
   ],
   "note": "The definition file's parser and the inflection/format libraries are parameters."
  },
  {
   "property": "C84",
   "status": "partial",
   "theorems": [
    "Catalog.Pg.C84_apostrophe_fails_the_listing",
    "Catalog.Pg.C84_exactly_the_tables_of_the_database_partial"
   ],
   "note": "Full exactness for tables without an apostrophe in schema or table name and whose index names are not used elsewhere; exactly when a listing succeeds and when it fails or crashes instead is C86_listing_succeeds_iff (counterexamples C84_apostrophe_fails_the_listing, C86_same_index_name_crashes)."
  },
  {
   "property": "C85",
   "status": "partial",
   "theorems": [
    "Catalog.C85_postgres_text_iff_no_quote_partial",
    "Catalog.C85_sqlserver_text_iff_no_quote_partial",
    "Catalog.C85_name_becomes_sql",
    "Catalog.C85_apostrophe_breaks_the_statement"
   ],
   "note": "Holds exactly for names without an apostrophe (iff); with one the name becomes SQL (C85_name_becomes_sql)."
  },
  {
   "property": "C86",
   "status": "partial",
   "theorems": [
    "Catalog.Pg.C86_same_index_name_elsewhere_is_mixed_in",
    "Catalog.Pg.C86_same_table_in_two_schemas_loses_primary_keys",
    "Catalog.Pg.C86_same_index_name_crashes",
    "Catalog.Pg.C86_include_column_hides_the_primary_key",
    "Catalog.Pg.C86_reported_indexes_exactly",
    "Catalog.Pg.C86_listing_succeeds_iff",
    "Catalog.Pg.C86_exactly_the_indexes_of_the_table_partial"
   ],
   "note": "For every database: exactly which indexes are reported with which columns (C86_reported_indexes_exactly) and exactly when the listing succeeds (C86_listing_succeeds_iff); these coincide with the indexes of the table (C86_exactly_..._partial) for plain tables with their own index names. Columns of an index as a set (array_agg has no order), INCLUDEd ones too, indexes over expressions only are not reported; counterexamples proved."
  },
  {
   "property": "C87",
   "status": "partial",
   "theorems": [
    "Catalog.Pg.C87_exactly_the_views_of_the_database_partial",
    "Catalog.Pg.C87_view_without_columns_fails_every_listing",
    "Catalog.Pg.C87_succeeds_iff_every_view_has_a_column"
   ],
   "note": "Exact when every view has a column and the schemas have no dot; the listing succeeds exactly when every view has a column (C87_succeeds_iff_every_view_has_a_column), a view without columns makes every listing fail (proved)."
  },
  {
   "property": "C88",
   "status": "partial",
   "theorems": [
    "Catalog.Pg.C88_every_column_with_every_column",
    "Catalog.Pg.C88_exactly_the_foreign_keys_partial",
    "Catalog.Pg.C88_composite_key_is_a_cross_product",
    "Catalog.Pg.C88_same_key_name_mixes_tables",
    "Catalog.Pg.C88_reported_keys_exactly",
    "Catalog.Pg.C88_exact_iff"
   ],
   "note": "For every database exactly which keys are reported (C88_reported_keys_exactly), and exactly when that is the declared ones (C88_exact_iff): keys of one column with names used once. Composite keys are wrong (C88_every_column_with_every_column); counterexamples proved."
  },
  {
   "property": "C89",
   "status": "partial",
   "theorems": [
    "Catalog.Ms.C89_described_indexes_repeat_the_table",
    "Catalog.Ms.C89_how_often_a_table_is_listed",
    "Catalog.Ms.C89_exactly_the_tables_of_the_database_partial",
    "Catalog.Ms.C89_documented_table_is_left_out"
   ],
   "note": "Exact count for every database with plain names (C89_how_often_a_table_is_listed): a table with extended properties can be missing or repeated; exactly once without them. When a listing succeeds, for names without quotes and dots: C91_listing_succeeds_iff."
  },
  {
   "property": "C90",
   "status": "partial",
   "theorems": [
    "Catalog.Ms.C90_same_view_in_two_schemas_doubles_columns",
    "Catalog.Ms.C90_exactly_the_views_of_the_database_partial",
    "Catalog.Ms.C90_table_with_the_name_of_a_view_is_listed",
    "Catalog.Ms.C90_reported_views_exactly",
    "Catalog.Ms.C90_exact_iff"
   ],
   "note": "For every database (schemas without dots): exactly what is reported (C90_reported_views_exactly: every table or view with the name of a view, columns once per view of that name), and C90_exact_iff: right if and only if no asked-for table or view has the name of another view; counterexamples proved."
  },
  {
   "property": "C91",
   "status": "partial",
   "theorems": [
    "Catalog.Ms.C91_index_columns_in_table_order",
    "Catalog.Ms.C91_ampersand_crashes",
    "Catalog.Ms.C91_name_survives_iff",
    "Catalog.Ms.C91_reported_indexes_exactly",
    "Catalog.Ms.C91_listing_succeeds_iff",
    "Catalog.Ms.C91_exactly_the_indexes_of_the_table_partial"
   ],
   "note": "For every database: exactly which indexes are reported with which column names (C91_reported_indexes_exactly) and exactly when the listing succeeds or crashes (C91_listing_succeeds_iff): column names are written as XML and cut at commas; a name survives iff it has no comma, &, <, > or CR (C91_name_survives_iff). Columns of an index as a set, INCLUDEd ones too; in table order, not key order (C91_index_columns_in_table_order)."
  },
  {
   "property": "C92",
   "status": "proved",
   "theorems": [
    "Catalog.Ms.C92_exactly_the_foreign_keys"
   ],
   "note": "Names compared as bytes."
  },
  {
   "property": "C93",
   "status": "proved",
   "theorems": [
    "Xsql.C93_own_slice_untouched",
    "Xsql.C93_args_kept",
    "Xsql.C93_world_faithful",
    "Xsql.C93_args_tail_handed_back",
    "Xsql.C93_double_close",
    "Xsql.C93_args_after_close",
    "Xsql.C93_memory_invisible",
    "Xsql.C93_statements_apart"
   ],
   "note": "Refinement: heap of arrays, objects, buffers and pools against values; also: no two live statements share anything, and the World model of C26-C33 gives the texts of the memory model. The exclusions are shown necessary: Args()[1:] handed back corrupts arguments (depending on capacity), a second Close makes two later statements one object, Args() after Close shows nil and later another statement's arguments."
  },
  {
   "property": "C94",
   "status": "proved",
   "theorems": [
    "Xsql.C94_goroutines_as_alone",
    "Xsql.C94_no_waiting",
    "Xsql.C94_uninterrupted",
    "Xsql.C94_first_text_does_not_win",
    "Xsql.C94_pooled_object_shows_through"
   ],
   "note": "C94_goroutines_as_alone ranges over all schedules of atomic steps (cache Load and Store, pool Get and Put are atomic by the contract of package sync; the rest is local by C93); C94_uninterrupted says that the steps of an operation, uninterrupted, are the operation of the sequential model. The provisos are needed: C94_first_text_does_not_win (two texts for one name: GetOrCreateQuery may return different texts in turn), C94_pooled_object_shows_through (Expr on a clone)."
  },
  {
   "property": "C95",
   "status": "partial",
   "theorems": [
    "Catalog.Ms.C95_sqlserver_dependencies_partial",
    "Catalog.Ms.C95_documented_table_is_a_mere_dependency",
    "Catalog.Ms.C95_second_target_is_missed",
    "Catalog.Pg.C95_postgres_dependencies_partial",
    "Catalog.Pg.C95_composite_key_refers_to_the_wrong_column",
    "Catalog.Pg.C95_same_key_name_misses_a_dependency"
   ],
   "note": "Proved end to end from the database (not from query rows) for both databases. Missing, with proved counterexamples: Postgres keys over several columns get a wrong column, Postgres key names used twice miss a table, documented SQL Server tables appear as mere dependencies, a column with keys to two tables leads to one of them only; names with quotes and dots, and providers used before (C53)."
  },
  {
   "property": "C96",
   "status": "proved",
   "theorems": [
    "Gen.C96_model_text",
    "Gen.C96_schema_text",
    "Gen.C96_files",
    "Gen.C96_quote_in_a_name",
    "Gen.C96_line_break_in_a_name",
    "Gen.C96_space_in_a_name",
    "Gen.C96_imports_are_not_those_used"
   ],
   "note": "C96_files, for every successful generation; C96_model_text and C96_schema_text for one file. The four templates are in the model verbatim, parsed by a model of text/template (documentation; only the constructs used) and executed; the result is read by a Go lexer (Go specification). format.Source is assumed to keep the tokens. Counterexamples without the condition on names: C96_quote_in_a_name, C96_line_break_in_a_name (code injection through an index name), C96_space_in_a_name; C96_imports_are_not_those_used: the raw output needs goimports."
  },
  {
   "property": "C97",
   "status": "partial",
   "theorems": [
    "Open.C97_success_iff",
    "Open.C97_provider_is_what_was_opened",
    "Open.C97_refused_touches_nothing",
    "Open.C97_connection_string_names_the_database",
    "Open.C97_migrations_directory",
    "Open.C97_nested_reference"
   ],
   "note": "Proved: exact condition for success, what the provider reports, order of the steps, nothing touched on refusal. False for a reference to a reference: the driver is chosen from the inner URL but is given the reference itself (C97_nested_reference). Whether the driver then really connects to that database is outside the model; for URLs see C61."
  },
  {
   "property": "C98",
   "status": "proved",
   "theorems": [
    "Ids.C98_identity_is_stable",
    "Ids.C98_new",
    "Ids.C98_transaction_identity",
    "Ids.C98_ids_increase",
    "Ids.C98_ids_unique",
    "Ids.C98_id_time",
    "Ids.C98_same_machine_collides"
   ],
   "note": "Proved for all histories and interleavings. Outside the statement: a transaction provider has lost the connection string of its provider (C98_transaction_identity), so a listener made from it connects with an empty string; and two generators with the same machine ID can hand out the same ID (C98_same_machine_collides)."
  },
  {
   "property": "C99",
   "status": "partial",
   "theorems": [
    "Cli.C99_no_source",
    "Cli.C99_connects_to_the_source",
    "Cli.C99_printing",
    "Cli.C99_generating",
    "Cli.C99_status_and_close",
    "Cli.C99_success_iff"
   ],
   "note": "Proved for all command lines kong accepts. False in two points: the columns command ignores encoding errors (C81), and after a failure the connection is not closed because exit ends the process before the deferred Close (C99_status_and_close). Flag parsing itself is outside the model."
  },
  {
   "property": "C100",
   "status": "partial",
   "theorems": [
    "Types.GoJson.C100_strings_copy_after_next_scan",
    "Types.GoJson.C100_strings_others_kept",
    "Types.GoJson.C100_strings_fresh_rows",
    "Types.GoJson.C100_strings_reused_all_copies_are_the_last_row",
    "Types.GoJson.C100_map_others_kept",
    "Types.GoJson.C100_metadata_copy_after_next_scan",
    "Types.GoJson.C100_kvset_copy_after_next_scan",
    "Types.GoJson.C100_map_reused_all_copies_show_all_rows",
    "Types.GoJson.C100_metadata_fresh_rows",
    "Types.GoJson.C100_kvset_fresh_rows"
   ],
   "note": "Proved for rows scanned into variables of their own (C100_*_fresh_rows) and for values that do not share memory (C100_*_others_kept). False for a reused variable: json.Unmarshal writes into the array or map that is already there, so a kept copy changes; exactly when is C100_*_copy_after_next_scan, and C100_strings_reused_all_copies_are_the_last_row / C100_map_reused_all_copies_show_all_rows show what a loop ends with."
  },
  {
   "property": "C101",
   "status": "partial",
   "theorems": [
    "Flake.C101_which_source",
    "Flake.C101_hosts_disjoint_partial",
    "Flake.C101_same_ids_on_every_host",
    "Flake.C101_latest",
    "Flake.C101_start_panics_iff",
    "Flake.C101_one_byte_apart"
   ],
   "note": "Proved under the condition that the program's path does not look like a test (C101_hosts_disjoint_partial). False otherwise: a path containing \"test\" or \"debug\" anywhere, such as /opt/latest/app, gives every host the same machine number (C101_same_ids_on_every_host, C101_latest). C101_start_panics_iff: the program panics before main exactly when the clock is out of range. C101_one_byte_apart: programs whose paths differ in one byte have different numbers."
  },
  {
   "property": "C102",
   "status": "partial",
   "theorems": [
    "Notify.C102_same_data_source_partial",
    "Notify.C102_listener_of_a_transaction",
    "Notify.C102_after_new",
    "Notify.C102_intervals"
   ],
   "note": "Proved for providers from NewProvider/Open (C102_same_data_source_partial) and for providers made by New and WithConnectionString (C102_after_new), for all histories. False for the provider of a transaction: its listener gets an empty data source (C102_listener_of_a_transaction). lib/pq's listener itself is not modelled."
  },
  {
   "property": "C103",
   "status": "proved",
   "theorems": [
    "Xsql.C103_package_functions_use_the_dialect_set_last",
    "Xsql.C103_existing_statements_unaffected",
    "Xsql.C103_own_dialects_are_refused"
   ],
   "note": "Programs with package-level functions equal the programs in which every such call is replaced by a method of the dialect set last (Spec.explicitAll). Values that are no *Dialect make SetDialect panic and change nothing (C103_own_dialects_are_refused)."
  },
  {
   "property": "C104",
   "status": "partial",
   "theorems": [
    "Query.C104_builders_do_not_interfere_partial",
    "Query.C104_slices_keep_their_elements_partial",
    "Query.C104_two_appends_to_args",
    "Query.C104_builder_overwrites_an_appended_argument",
    "Query.C104_written_flags",
    "Query.C104_overlapping_columns",
    "Query.C104_concurrent_names"
   ],
   "note": "Proved for programs that do not themselves write into, append to or cut the slices they exchange with builders (C104_builders_do_not_interfere_partial, C104_slices_keep_their_elements_partial). Outside that, counterexamples: two appends to Args() share an element (C104_two_appends_to_args), the builder overwrites an appended argument, written flags become the builder's, overlapping parts of one column list change each other because Name sorts in place (C104_overlapping_columns), and two goroutines whose builders share an unsorted column list may name one query as another (C104_concurrent_names)."
  },
  {
   "property": "C105",
   "status": "partial",
   "theorems": [
    "Cli.C105_json_document",
    "Cli.C105_output_determines_the_tables",
    "Cli.C105_output_determines_the_keys",
    "Cli.C105_commands_print_documents",
    "Cli.C105_columns_with_views_is_not_json"
   ],
   "note": "Proved for every listing (C105_json_document, C105_output_determines_the_tables, C105_output_determines_the_keys, C105_commands_print_documents). Not true of columns --views -O json: with at least one view the output is two documents and is no JSON text (C105_columns_with_views_is_not_json). json.MarshalIndent of the schema structs is modelled from its documented behaviour; YAML is not modelled."
  },
  {
   "property": "C106",
   "status": "proved",
   "theorems": [
    "Types.C106_array_of_the_numbers_iff",
    "Types.C106_different_lists_different_arrays"
   ],
   "note": "Exact condition (iff) and injectivity. pq.Int32Array.Value is modelled from its source as known."
  },
  {
   "property": "C107",
   "status": "partial",
   "theorems": [
    "Gen.C107_field_shows_the_column_iff",
    "Gen.C107_row_shows_the_columns_iff",
    "Gen.C107_what_the_others_become",
    "Gen.C107_wrong_width_refused",
    "Gen.C107_list_shows_the_rows"
   ],
   "note": "False in general: a PostgreSQL uuid is read as the empty string without an error (lib/pq hands out 36 bytes, UUID.Scan expects 16 and returns a nil error), negative numbers in key columns wrap, a NOT NULL tinyint above 127 makes the row unreadable (C107_what_the_others_become). Exact: C107_field_shows_the_column_iff and C107_row_shows_the_columns_iff say that these are the only values not shown. Drivers are modelled from their source; float4/real columns are C112, text arrays are C113, numerics beyond the largest double are excluded. C107_wrong_width_refused: a row of another width is refused."
  },
  {
   "property": "C108",
   "status": "partial",
   "theorems": [
    "Gen.C108_write_back_iff",
    "Gen.C108_otherwise_null_or_refused",
    "Gen.C108_uuid_erased",
    "Gen.C108_zero_becomes_null"
   ],
   "note": "False in general; exact: C108_write_back_iff lists the values that do not survive (zero, false and the empty text in nullable columns, zero keys, the zero time, empty key arrays, negative 32-bit keys, tinyint above 127, PostgreSQL uuids), and C108_otherwise_null_or_refused: then the column becomes NULL or the write is refused. C108_uuid_erased: read and write back erases a PostgreSQL uuid. Decimal fractions: C110; float4/real: C112."
  },
  {
   "property": "C109",
   "status": "partial",
   "theorems": [
    "Gen.C109_field_saved_and_loaded_iff",
    "Gen.C109_saved_models_are_loaded"
   ],
   "note": "False in general; exact per field: C109_field_saved_and_loaded_iff lists the values that are not kept (zero keys and empty or nil values in NOT NULL columns, numbers outside the column's range, instants and texts the column changes, texts that are no UUID, every UUID in PostgreSQL). C109_saved_models_are_loaded: if no field holds one of these, the two statements, read as text by a small database, save and load the models. The database is a model (one table, INSERT and SELECT of this form, defaults are NULL); decimal fractions are C110, float4/real are C112, text arrays are C113."
  },
  {
   "property": "C110",
   "status": "partial",
   "theorems": [
    "Gen.C110_amounts_survive",
    "Gen.C110_plain_numeric_keeps_every_double",
    "Gen.C110_saved_and_loaded_iff",
    "Gen.C110_longer_amounts_change",
    "Types.C110_fifteen_digits_survive"
   ],
   "note": "Fifteen digits: C110_fifteen_digits_survive (the numbers), C110_amounts_survive (reading and writing back), C110_saved_and_loaded_iff (exact for numeric(p, s) with p at most 15). C110_longer_amounts_change: sixteen digits in SQL Server and seventeen in PostgreSQL are changed silently, so the claim without the bound is false. strconv.FormatFloat(f, 'f', -1, 64) is taken by its documented contract (a shortest decimal that reads back as f; shown to be satisfiable), the rounding of numeric(p, s) is modelled, infinities and NaN are not."
  },
  {
   "property": "C111",
   "status": "proved",
   "theorems": [
    "Gen.C111_update",
    "Gen.C111_update_refused",
    "Gen.C111_delete",
    "Gen.C111_select",
    "Gen.C111_model_updated_by_key"
   ],
   "note": "C111_update, C111_update_refused, C111_delete, C111_select; C111_model_updated_by_key for generated models. The statements are read as text, with their placeholders, by a small one-table database (no joins, conditions `column = value` joined by AND, arguments converted to the column's type, NULL equal to nothing, equality otherwise arbitrary); Set before Update is dropped by the builder (C30) and excluded."
  },
  {
   "property": "C112",
   "status": "proved",
   "theorems": [
    "Gen.C112_singles_survive",
    "Gen.C112_float32_saved_and_loaded",
    "Gen.C112_float_saved_and_loaded_iff",
    "Gen.C112_other_doubles_change"
   ],
   "note": "C112_singles_survive, C112_float32_saved_and_loaded, C112_float_saved_and_loaded_iff, C112_other_doubles_change. By contract: strconv.FormatFloat (shortest text), one rounding to single precision shared by strconv.ParseFloat(s, 32) and the databases, PostgreSQL's text of a real (at most nine digits, rounds back; version 12 and later); the contracts are shown to be satisfiable (shortest_exists, rounds_exist, prints32_exist). Infinities, NaN and the sign of zero are not modelled."
  },
  {
   "property": "C113",
   "status": "proved",
   "theorems": [
    "Gen.C113_field_shows_the_array",
    "Gen.C113_arrays_survive",
    "Gen.C113_saved_and_loaded_iff"
   ],
   "note": "C113_field_shows_the_array, C113_arrays_survive, C113_saved_and_loaded_iff. lib/pq's StringArray and parser (third party) are modelled from their source for arrays of one dimension, PostgreSQL's array_out and array_in from their documentation (array_in for the form lib/pq writes); which texts the database accepts is a parameter."
  },
  {
   "property": "C114",
   "status": "proved",
   "theorems": [
    "Gen.C114_page_exact",
    "Gen.C114_far_pages_refused",
    "Gen.C114_wrapped_page",
    "Gen.C114_pages_partition",
    "Gen.C114_page_answered",
    "Gen.C114_order_is_by_the_column",
    "Gen.C114_ties_can_repeat"
   ],
   "note": "Proved end to end over the text of the statements, on every dialect, with and without line breaks: what the database may answer to a page exactly (C114_page_exact), that there is an answer of the expected length (C114_page_answered), that the pages partition the result if the order distinguishes the matching rows (C114_pages_partition), and the ways it fails: ties (C114_ties_can_repeat), pages too far (C114_far_pages_refused, C114_wrapped_page). The database is a model that reads the SQL text (words, LIMIT and OFFSET with placeholders, one table, conditions column = value); its text syntax is that of PostgreSQL and SQLite, so SQL Server, which has no LIMIT, is covered only as to the text built. The table does not change between the pages."
  },
  {
   "property": "C115",
   "status": "proved",
   "theorems": [
    "Gen.C115_every_matching_row_once",
    "Gen.C115_plain_arguments",
    "Gen.C115_ties_can_repeat"
   ],
   "note": "Proved end to end over the text of the statement (list_text), the parameter builder's history (C41) and ExecuteQueryWithPagination (C36): C115_every_matching_row_once, and for plain arguments C115_plain_arguments; that the distinguishing order is needed: C115_ties_can_repeat. The database is the model of C114 (one table, conditions column = value, LIMIT and OFFSET with placeholders: the syntax of PostgreSQL and SQLite, so SQL Server is covered only as to the text); it answers every query it has an answer to without error, the table does not change between the pages, and a row is always converted to a model."
  },
  {
   "property": "C116",
   "status": "proved",
   "theorems": [
    "Query.C116_values_back",
    "Query.C116_same_text",
    "Query.C116_nil_map",
    "Query.C116_integer_exact_iff",
    "Query.C116_integer_exact",
    "Query.C116_after_is_nearest",
    "Query.C116_small_keys_paged",
    "Query.C116_text_keys_paged",
    "Query.C116_rounded_down_never_ends",
    "Query.C116_rounded_up_skips",
    "Query.C116_key_exact_iff",
    "Query.C116_generated_ids",
    "Query.C116_neighbours_confused"
   ],
   "note": "encoding/json and base64 are modelled (Types/GoJson*.lean, Query/Cursor.lean); values.MapAny.JSON is json.Marshal and MapAny.UInt64 truncates a float64 or parses text (helper library, not in the sandbox, from its documentation). Values of type float64, times and nested maps are not encoded. Found: C116_generated_ids, C116_rounded_down_never_ends, C116_rounded_up_skips: xdb.ID marshals to a bare JSON number (id.go:50-52), so an ID in a cursor loses its low bits; ID.String() is safe (C116_text_keys_paged)."
  },
  {
   "property": "C117",
   "status": "proved",
   "theorems": [
    "Query.C117_cursor_shows_what_stays",
    "Query.C117_cursor_ends",
    "Query.C117_offset_shows_positions",
    "Query.C117_offset_appends_only",
    "Query.C117_offset_after_one_change",
    "Query.C117_offset_misses_a_row",
    "Query.C117_offset_shows_a_row_twice",
    "Query.C117_cursor_may_never_end",
    "Query.C117_number_cursors",
    "Query.C117_text_cursors"
   ],
   "note": "The database's answer at each moment is the specification ServesCursor / ServesPages of C36/C37 for the rows it holds at that moment; a row is identified by its key, so an update that keeps the key is a row that stays. The missed row and the repeated row of offset paging are proved as they happen (C117_offset_misses_a_row, C117_offset_shows_a_row_twice) for tables of any length."
  },
  {
   "property": "C118",
   "status": "proved",
   "theorems": [
    "Gen.C118_every_row_once",
    "Gen.C118_while_rows_change",
    "Gen.C118_ends",
    "Gen.C118_equal_keys_skip"
   ],
   "note": "The database is a specification (it may put rows with equal keys in any order and compares whole numbers as numbers); the words of the statement are read by the small parser parseAfter. The client's use of the decoded number (values.MapAny.UInt64, 0 if absent, passed as int64) is modelled in afterNumber; values out of uint64 are outside. C118_equal_keys_skip shows why the keys must differ; keys above 2^53 as numbers: C116."
  },
  {
   "property": "C119",
   "status": "proved",
   "theorems": [
    "Gen.C119_exactly_the_named_rows",
    "Gen.C119_the_list",
    "Gen.C119_by_key",
    "Gen.C119_null_is_never_found",
    "Gen.C119_no_values_refused"
   ],
   "note": "The database is a specification: the words of the statement are read by the small parser parseIn, a value is compared with the column's equality, and IN () is a syntax error. Values are passed one by one: In(slice) without ... is one value to xsql (stmt.go:714-731), which no driver here expands; that call is outside. C119_by_key assumes that the database's equality on the key column is equality (not so for case-insensitive collations)."
  },
  {
   "property": "C120",
   "status": "proved",
   "theorems": [
    "Gen.C120_created",
    "Gen.C120_the_caller_gets_the_row",
    "Gen.C120_found_by_the_returned_key",
    "Gen.C120_nil_is_null",
    "Gen.C120_integers_are_kept",
    "Gen.C120_named_are_not_sent",
    "Gen.C120_set_before_insert_is_lost",
    "Gen.C120_set_twice_refused"
   ],
   "note": "The database is a specification: the words of the statement are read by the small parser parseCreate; defaults (NULL, the next number, the time) are any relation between column, rows and value, and constraints any predicate on the rows. RETURNING is PostgreSQL's (and SQLite's) syntax: the builder writes it for every dialect, other databases refuse it. C120_found_by_the_returned_key assumes that the key is equality on the column and that the caller sends back a value the column stores as the key it was given (C109, C117). Set before InsertInto writes nothing at all (stmt.go SetExpr with no clause to attach to)."
  },
  {
   "property": "C121",
   "status": "proved",
   "theorems": [
    "Gen.C121_taken",
    "Gen.C121_the_caller_gets_the_removed_rows",
    "Gen.C121_every_row_is_taken_once",
    "Gen.C121_no_key_is_taken_twice",
    "Gen.C121_no_condition_takes_all"
   ],
   "note": "The database is a specification: the words of the statement are read by the small parser parseTake and each statement is carried out as a whole (one after the other, as a database with transactions guarantees for single statements). A row with NULL in a column of a condition is not taken. RETURNING is PostgreSQL's (and SQLite's) syntax: the builder writes it for every dialect, other databases refuse it. Conditions are column = value."
  },
  {
   "property": "C122",
   "status": "proved",
   "theorems": [
    "Gen.C122_claimed",
    "Gen.C122_the_caller_gets_the_changed_rows",
    "Gen.C122_no_key_is_claimed_twice",
    "Gen.C122_a_claim_that_does_not_end_its_condition",
    "Gen.C122_all_free_rows_are_claimed"
   ],
   "note": "The database is a specification: the words of the statement are read by the small parser parseClaim and each statement is carried out as a whole, one after the other. Concurrent statements on a database that checks the condition again on the locked row (PostgreSQL's READ COMMITTED) behave so for a single table; weaker databases are outside the model. RETURNING is PostgreSQL's and SQLite's syntax: the builder writes it for every dialect. Conditions are column = value, assignments column = value."
  },
  {
   "property": "C123",
   "status": "proved",
   "theorems": [
    "Gen.C123_later_writers_change_nothing",
    "Gen.C123_one_writer_wins",
    "Gen.C123_the_first_wins"
   ],
   "note": "The database is the specification of C122 (Table.MayClaim). Each statement is carried out as a whole, one after the other; that is what row locks with a re-check of the condition give for one row. The list returned to the caller is that of C122."
  }
 ]
}