{
 "C01": {
  "note": "Every schedule of any number of goroutines, every clock."
 },
 "C04": {
  "note": "Clock instants are unbounded integers; the 'not in the future' half assumes a monotone clock after 1970 and the documented contract of time.Sleep."
 },
 "C06": {
  "note": "Positive direction plus the failure when the clock has not moved on."
 },
 "C09": {
  "note": "net.IP.To4/To16/IsLoopback are modelled from their documentation; the FNV hash used in test runs is a parameter."
 },
 "C10": {
  "note": "Texts, JSON, SQL and YAML forms; encoding/json string quoting of plain digits is modelled directly."
 },
 "C100": {
  "note": "Proved for rows scanned into variables of their own (C100_*_fresh_rows) and for values that do not share memory (C100_*_others_kept). False for a reused variable: json.Unmarshal writes into the array or map that is already there, so a kept copy changes; exactly when is C100_*_copy_after_next_scan, and C100_strings_reused_all_copies_are_the_last_row / C100_map_reused_all_copies_show_all_rows show what a loop ends with.",
  "status": "partial"
 },
 "C101": {
  "note": "Proved under the condition that the program's path does not look like a test (C101_hosts_disjoint_partial). False otherwise: a path containing \"test\" or \"debug\" anywhere, such as /opt/latest/app, gives every host the same machine number (C101_same_ids_on_every_host, C101_latest). C101_start_panics_iff: the program panics before main exactly when the clock is out of range. C101_one_byte_apart: programs whose paths differ in one byte have different numbers.",
  "status": "partial"
 },
 "C102": {
  "note": "Proved for providers from NewProvider/Open (C102_same_data_source_partial) and for providers made by New and WithConnectionString (C102_after_new), for all histories. False for the provider of a transaction: its listener gets an empty data source (C102_listener_of_a_transaction). lib/pq's listener itself is not modelled.",
  "status": "partial"
 },
 "C103": {
  "note": "Programs with package-level functions equal the programs in which every such call is replaced by a method of the dialect set last (Spec.explicitAll). Values that are no *Dialect make SetDialect panic and change nothing (C103_own_dialects_are_refused).",
  "status": "proved"
 },
 "C104": {
  "note": "Proved for programs that do not themselves write into, append to or cut the slices they exchange with builders (C104_builders_do_not_interfere_partial, C104_slices_keep_their_elements_partial). Outside that, counterexamples: two appends to Args() share an element (C104_two_appends_to_args), the builder overwrites an appended argument, written flags become the builder's, overlapping parts of one column list change each other because Name sorts in place (C104_overlapping_columns), and two goroutines whose builders share an unsorted column list may name one query as another (C104_concurrent_names).",
  "status": "partial"
 },
 "C105": {
  "note": "Proved for every listing (C105_json_document, C105_output_determines_the_tables, C105_output_determines_the_keys, C105_commands_print_documents). Not true of columns --views -O json: with at least one view the output is two documents and is no JSON text (C105_columns_with_views_is_not_json). json.MarshalIndent of the schema structs is modelled from its documented behaviour; YAML is not modelled.",
  "status": "partial"
 },
 "C106": {
  "note": "Exact condition (iff) and injectivity. pq.Int32Array.Value is modelled from its source as known.",
  "status": "proved"
 },
 "C107": {
  "note": "False in general: a PostgreSQL uuid is read as the empty string without an error (lib/pq hands out 36 bytes, UUID.Scan expects 16 and returns a nil error), negative numbers in key columns wrap, a NOT NULL tinyint above 127 makes the row unreadable (C107_what_the_others_become). Exact: C107_field_shows_the_column_iff and C107_row_shows_the_columns_iff say that these are the only values not shown. Drivers are modelled from their source; float4/real columns are C112, text arrays are C113, numerics beyond the largest double are excluded. C107_wrong_width_refused: a row of another width is refused.",
  "status": "partial"
 },
 "C108": {
  "note": "False in general; exact: C108_write_back_iff lists the values that do not survive (zero, false and the empty text in nullable columns, zero keys, the zero time, empty key arrays, negative 32-bit keys, tinyint above 127, PostgreSQL uuids), and C108_otherwise_null_or_refused: then the column becomes NULL or the write is refused. C108_uuid_erased: read and write back erases a PostgreSQL uuid. Decimal fractions: C110; float4/real: C112.",
  "status": "partial"
 },
 "C109": {
  "note": "False in general; exact per field: C109_field_saved_and_loaded_iff lists the values that are not kept (zero keys and empty or nil values in NOT NULL columns, numbers outside the column's range, instants and texts the column changes, texts that are no UUID, every UUID in PostgreSQL). C109_saved_models_are_loaded: if no field holds one of these, the two statements, read as text by a small database, save and load the models. The database is a model (one table, INSERT and SELECT of this form, defaults are NULL); decimal fractions are C110, float4/real are C112, text arrays are C113.",
  "status": "partial"
 },
 "C11": {
  "note": "Exact acceptance. Finding: ParseID returns its named value and error from one return statement and so relies on gc evaluation order (C11_parse_relies_on_evaluation_order)."
 },
 "C110": {
  "note": "Fifteen digits: C110_fifteen_digits_survive (the numbers), C110_amounts_survive (reading and writing back), C110_saved_and_loaded_iff (exact for numeric(p, s) with p at most 15). C110_longer_amounts_change: sixteen digits in SQL Server and seventeen in PostgreSQL are changed silently, so the claim without the bound is false. strconv.FormatFloat(f, 'f', -1, 64) is taken by its documented contract (a shortest decimal that reads back as f; shown to be satisfiable), the rounding of numeric(p, s) is modelled, infinities and NaN are not.",
  "status": "partial"
 },
 "C111": {
  "note": "C111_update, C111_update_refused, C111_delete, C111_select; C111_model_updated_by_key for generated models. The statements are read as text, with their placeholders, by a small one-table database (no joins, conditions `column = value` joined by AND, arguments converted to the column's type, NULL equal to nothing, equality otherwise arbitrary); Set before Update is dropped by the builder (C30) and excluded.",
  "status": "proved"
 },
 "C112": {
  "note": "C112_singles_survive, C112_float32_saved_and_loaded, C112_float_saved_and_loaded_iff, C112_other_doubles_change. By contract: strconv.FormatFloat (shortest text), one rounding to single precision shared by strconv.ParseFloat(s, 32) and the databases, PostgreSQL's text of a real (at most nine digits, rounds back; version 12 and later); the contracts are shown to be satisfiable (shortest_exists, rounds_exist, prints32_exist). Infinities, NaN and the sign of zero are not modelled.",
  "status": "proved"
 },
 "C113": {
  "note": "C113_field_shows_the_array, C113_arrays_survive, C113_saved_and_loaded_iff. lib/pq's StringArray and parser (third party) are modelled from their source for arrays of one dimension, PostgreSQL's array_out and array_in from their documentation (array_in for the form lib/pq writes); which texts the database accepts is a parameter.",
  "status": "proved"
 },
 "C114": {
  "note": "Proved end to end over the text of the statements, on every dialect, with and without line breaks: what the database may answer to a page exactly (C114_page_exact), that there is an answer of the expected length (C114_page_answered), that the pages partition the result if the order distinguishes the matching rows (C114_pages_partition), and the ways it fails: ties (C114_ties_can_repeat), pages too far (C114_far_pages_refused, C114_wrapped_page). The database is a model that reads the SQL text (words, LIMIT and OFFSET with placeholders, one table, conditions column = value); its text syntax is that of PostgreSQL and SQLite, so SQL Server, which has no LIMIT, is covered only as to the text built. The table does not change between the pages.",
  "status": "proved"
 },
 "C115": {
  "note": "Proved end to end over the text of the statement (list_text), the parameter builder's history (C41) and ExecuteQueryWithPagination (C36): C115_every_matching_row_once, and for plain arguments C115_plain_arguments; that the distinguishing order is needed: C115_ties_can_repeat. The database is the model of C114 (one table, conditions column = value, LIMIT and OFFSET with placeholders: the syntax of PostgreSQL and SQLite, so SQL Server is covered only as to the text); it answers every query it has an answer to without error, the table does not change between the pages, and a row is always converted to a model.",
  "status": "proved"
 },
 "C116": {
  "note": "encoding/json and base64 are modelled (Types/GoJson*.lean, Query/Cursor.lean); values.MapAny.JSON is json.Marshal and MapAny.UInt64 truncates a float64 or parses text (helper library, not in the sandbox, from its documentation). Values of type float64, times and nested maps are not encoded. Found: C116_generated_ids, C116_rounded_down_never_ends, C116_rounded_up_skips: xdb.ID marshals to a bare JSON number (id.go:50-52), so an ID in a cursor loses its low bits; ID.String() is safe (C116_text_keys_paged).",
  "status": "proved"
 },
 "C117": {
  "note": "The database's answer at each moment is the specification ServesCursor / ServesPages of C36/C37 for the rows it holds at that moment; a row is identified by its key, so an update that keeps the key is a row that stays. The missed row and the repeated row of offset paging are proved as they happen (C117_offset_misses_a_row, C117_offset_shows_a_row_twice) for tables of any length.",
  "status": "proved"
 },
 "C118": {
  "note": "The database is a specification (it may put rows with equal keys in any order and compares whole numbers as numbers); the words of the statement are read by the small parser parseAfter. The client's use of the decoded number (values.MapAny.UInt64, 0 if absent, passed as int64) is modelled in afterNumber; values out of uint64 are outside. C118_equal_keys_skip shows why the keys must differ; keys above 2^53 as numbers: C116.",
  "status": "proved"
 },
 "C119": {
  "note": "The database is a specification: the words of the statement are read by the small parser parseIn, a value is compared with the column's equality, and IN () is a syntax error. Values are passed one by one: In(slice) without ... is one value to xsql (stmt.go:714-731), which no driver here expands; that call is outside. C119_by_key assumes that the database's equality on the key column is equality (not so for case-insensitive collations).",
  "status": "proved"
 },
 "C12": {
  "note": "The text always denotes the number. That it is the canonical text fails for JSON numbers with leading zeros (witness); proved for histories without those. C12_agree_iff: after any program, text and number agree if and only if the ID does not print a JSON text with a superfluous leading zero.",
  "status": "partial"
 },
 "C120": {
  "note": "The database is a specification: the words of the statement are read by the small parser parseCreate; defaults (NULL, the next number, the time) are any relation between column, rows and value, and constraints any predicate on the rows. RETURNING is PostgreSQL's (and SQLite's) syntax: the builder writes it for every dialect, other databases refuse it. C120_found_by_the_returned_key assumes that the key is equality on the column and that the caller sends back a value the column stores as the key it was given (C109, C117). Set before InsertInto writes nothing at all (stmt.go SetExpr with no clause to attach to).",
  "status": "proved"
 },
 "C121": {
  "note": "The database is a specification: the words of the statement are read by the small parser parseTake and each statement is carried out as a whole (one after the other, as a database with transactions guarantees for single statements). A row with NULL in a column of a condition is not taken. RETURNING is PostgreSQL's (and SQLite's) syntax: the builder writes it for every dialect, other databases refuse it. Conditions are column = value.",
  "status": "proved"
 },
 "C122": {
  "note": "The database is a specification: the words of the statement are read by the small parser parseClaim and each statement is carried out as a whole, one after the other. Concurrent statements on a database that checks the condition again on the locked row (PostgreSQL's READ COMMITTED) behave so for a single table; weaker databases are outside the model. RETURNING is PostgreSQL's and SQLite's syntax: the builder writes it for every dialect. Conditions are column = value, assignments column = value.",
  "status": "proved"
 },
 "C123": {
  "note": "The database is the specification of C122 (Table.MayClaim). Each statement is carried out as a whole, one after the other; that is what row locks with a re-check of the condition give for one row. The list returned to the caller is that of C122.",
  "status": "proved"
 },
 "C13": {
  "note": "False in general: copies of an ID share a pointer, so Set/Reset through one reach the other (C13_copies_share). Proved for histories that never Set/Reset a copied ID, and that no other operation reaches a copy. Exactly: C13_copies_are_names_of_one_object (a specification with named objects predicts every variable of every program), C13_set_reaches_iff.",
  "status": "partial"
 },
 "C14": {
  "note": "Every heap of backing arrays, every growth policy of append."
 },
 "C18": {
  "note": "False for NULL (Scan(nil) keeps the old value of ID, ID32, Int64, Int32, Bool) and for maps (stale keys survive). Proved for non-NULL scalar values. C18_overwrites_iff and C18_map_scan_iff give the exact column values for which Scan overwrites the destination. C18_strings_scan_exactly and C18_map_scan_exactly say what any scan, successful or failed, does to a Strings, Metadata or KVSet destination: null elements of an array show the old contents, and a failed scan leaves a mixture.",
  "status": "partial"
 },
 "C19": {
  "note": "Text form and injectivity proved; values of the wrong length are not rejected (shown). C19_all_outcomes lists the outcome of every scan.",
  "status": "partial"
 },
 "C22": {
  "note": "For clause methods in any order. Finding: Join or In before From or Where loses that clause's keyword (C22_join_before_from_loses_keyword)."
 },
 "C26": {
  "note": "False in general (three kinds of key collision proved). Proved: exactly which text a statement shows (C26_which_text: the text cached under its key, if any), its own text iff what is cached there is its own (C26_own_sql_iff), and own text in every program whose cache keys are unambiguous, which holds for unnamed statements written in clause order.",
  "status": "partial"
 },
 "C27": {
  "note": "Every history, every choice of the pool. The current clause of a recycled object survives, but every constructor call replaces it."
 },
 "C28": {
  "note": "Equality and independence proved, and what exactly a clone is (C28_clone_exactly). 'Same effect' needs: line break setting of the dialect, no Expr/SubQuery before a clause method; both conditions shown necessary. Statement objects are values in the model; that memory sharing is invisible is C93.",
  "status": "partial"
 },
 "C29": {
  "note": "Subquery, With and Union; SubQuery with empty prefix is excluded and shown to corrupt the statement."
 },
 "C31": {
  "note": "Last call wins except: Paginate(1, n) keeps an earlier OFFSET, Expr on LIMIT breaks the replacement; both shown. Exact: C31_paging_of_any_sequence gives the paging of every sequence of calls; C31_offset_as_asked_iff says when the offset is the one asked for last.",
  "status": "partial"
 },
 "C32": {
  "note": "Findings: a builder rendered before create returns, or built in another dialect, is not stored under the name."
 },
 "C33": {
  "note": "Holds without embedded statements; the cache of the statement's own dialect alone decides (C33_own_dialect_decides). Embedding renders and caches in the neutral dialect (C33_embedded_is_asked_in_the_neutral_dialect), where names can collide (shown).",
  "status": "partial"
 },
 "C35": {
  "note": "Clause appends at the end unless ten or more Clause calls reach the position of a named clause (shown). Exact: C35_named_clause_iff, C35_keyword_lost_iff and C35_where_after_clauses_iff give the number of Clause calls at which a keyword is lost.",
  "status": "partial"
 },
 "C36": {
  "note": "Database modelled as a fixed table answering the LIMIT/OFFSET window. Findings: without a limit every result claims a next page; a page cut short by an error is taken for the last page (C36_cut_page_ends_the_loop)."
 },
 "C37": {
  "note": "Database modelled as a fixed table ordered by a unique cursor key."
 },
 "C38": {
  "note": "False in general: rows.Err() is never consulted, so a stream cut short by an error is returned as a complete list (C38_cut_stream_is_not_reported). Proved: streams that end with EOF, refused queries, unreadable rows, rows closed on every path. C38_success_iff: the exact streams on which success is reported.",
  "status": "partial"
 },
 "C39": {
  "note": "database/sql Rows/Row modelled from their documentation. Finding: a panicking callback leaves the rows open."
 },
 "C40": {
  "note": "False in two ways (proved): {ab,c} and {a,bc} as NULL columns give one name; the name is remembered and not updated by later calls. First page and no page share a name. Proved: everything else is determined by the name, for every hash function. C40_names_equal_iff: the exact condition for two names to be equal; C40_name_is_current_iff: the exact condition for the name to describe the current state.",
  "status": "partial"
 },
 "C41": {
  "note": "Every history of builder calls."
 },
 "C42": {
  "note": "Every history of builder calls. Finding: Reset keeps the NULL columns."
 },
 "C43": {
  "note": "encoding/base64 modelled from its documentation; the JSON codec is a parameter with the hypothesis that it reads its text back, which Go's meets only up to float64 for numbers: C116 proves what the real codec does. CR and LF inside a cursor are ignored by the decoder; trailing bits are not checked."
 },
 "C44": {
  "note": "encoding/json is modelled (parser, escapes, UTF-8, encoder with sorted keys), and C44_go_json_contract shows that it meets the contract. Exact: C44_strings_restored_iff, C44_metadata_restored_iff, C44_kvset_restored_iff: the value is restored iff all its strings are well-formed UTF-8 (other bytes become U+FFFD, and keys may collide); never an error. C44_stored_text_is_acceptable. Strings.Scan fails on []byte, which is what lib/pq delivers (C44_strings_bytes_fail).",
  "status": "partial"
 },
 "C45": {
  "note": "Every iteration order of the Go map."
 },
 "C46": {
  "note": "Error values are finite trees with Unwrap/multi-Unwrap; the text is an arbitrary byte string."
 },
 "C47": {
  "note": "Field selection proved for arbitrarily nested structs. mergo is modelled from its documentation. Independence is false: ID pointers are shared (C47_merge_ties_ids).",
  "status": "partial"
 },
 "C48": {
  "note": "All instants; calendar, RFC 3339 formatting and parsing modelled and proved for years 1 to 9999. Reporting unknown text formats is false (C48_unknown_text_swallowed).",
  "status": "partial"
 },
 "C49": {
  "note": "database/sql is modelled from its documentation; context cancellation is an atomic rollback."
 },
 "C50": {
  "note": "database/sql is modelled from its documentation."
 },
 "C51": {
  "note": "False: Close races with a ping in progress (nil dereference) and the goroutine never ends. Proved: no panic without a completed Close, nor when the goroutine is idle at Close. C51_close_crashes_iff: from any reachable state, Close followed by some schedule panics iff a ping is in progress.",
  "status": "partial"
 },
 "C52": {
  "note": "Proved for every catalogue whose schema names contain no dot (the schema.table key is otherwise ambiguous); case-insensitive comparison is a parameter."
 },
 "C53": {
  "note": "Proved: always terminates (no side condition); from a fresh provider and names without dots, exactly the reachable tables, independently of map iteration order. False in general: earlier calls leak into the result, only the last foreign key of a column is followed, dotted names collide (theorems C53_*). C53_after_any_history_partial covers providers with any history of ListTables and ListForeignKeys calls: the result is what is reachable from everything that matched so far; C53_history_is_harmless_iff_reachable says when that is what the property asks.",
  "status": "partial"
 },
 "C54": {
  "note": "Proved: index columns in catalogue order; primary key = the single column of a one-column primary index. False: composite primary keys are not reported, dependency tables have no indexes, an index naming an unknown column crashes. Exact: C54_crashes_iff and C54_succeeds_iff say for every catalogue and provider when ListTables crashes and when it succeeds (C54_new_provider_* in plain terms); earlier calls can hide the crash (C54_earlier_calls_hide_the_crash).",
  "status": "partial"
 },
 "C55": {
  "note": "For names without ? and not ending in a backslash. A program that assigns to Columns after the first use sees the old list (C55_changed_columns_are_not_seen)."
 },
 "C56": {
  "note": "Files are modelled by the declarations the templates print; naming libraries are parameters. Dropping the primary-key column leaves PrimaryKey dangling (C56_dropped_primary_key)."
 },
 "C57": {
  "note": "Overrides are taken as given: an override by column name also applies to nullable columns of that name (C57_override_ignores_nullability)."
 },
 "C58": {
  "note": "Proved for model files, and for schema files when there is one schema. False for schema files of several schemas: tables accumulate in map iteration order (C58_schema_file_contains_other_schemas). C58_schema_file_content says exactly which tables each schema file contains: those of the schemas visited up to it, so its own only iff it is visited first.",
  "status": "partial"
 },
 "C59": {
  "note": "Proved except that a failure whose text mentions \"no change\" is taken for success (C59_failure_swallowed). C59_success_iff: the exact set of situations reported as success.",
  "status": "partial"
 },
 "C60": {
  "note": "Proved for every schedule: each notification goes to exactly one subscription, each callback gets its share once and in order; and with a single topic the callback is the right one. The full property is false: all Listen calls share one channel, so with two topics a callback can be called with the other topic's notification (C60_wrong_callback). C60_misdelivery_possible_iff: a waiting callback can get another topic's notification iff one is already in the channel or the listener is open and another topic is listened to.",
  "status": "partial"
 },
 "C61": {
  "note": "Proved: for URLs with a query, no fragment, no database parameter yet, no \"host=\" text (postgres), and a plain name, the URL handed to the driver has the requested database and is otherwise unchanged. False otherwise: no query part, existing parameter, \"host=\" in the text, unescaped names, key=value data sources (theorems C61_*). How a driver reads the URL is outside the model; net/url is modelled, host syntax is a parameter.",
  "status": "partial"
 },
 "C62": {
  "note": "False: two arrays derived by Add from one array with spare capacity overwrite each other, and Sort works in place (shown). Proved: Add and Concat never change their receiver or argument, and C62_siblings_overwritten_iff says exactly when the second Add overwrites the first.",
  "status": "partial"
 },
 "C63": {
  "note": "False for integers out of range: they wrap (shown). Proved for integers in range, and C63_kept_iff_in_range: exactly those are kept.",
  "status": "partial"
 },
 "C64": {
  "note": "False: options are ignored. Holds for the defaults. C64_honoured_iff: the options are honoured if and only if they are the defaults.",
  "status": "partial"
 },
 "C65": {
  "note": "False for BeginTx (nil dereference). Proved for the other calls. C65_refused_iff_not_begin and C65_panics_iff: the exact calls and histories.",
  "status": "partial"
 },
 "C66": {
  "note": "False: the pool leaks when the ping or the migration fails. C66_pool_left_open_iff: the pool is left open exactly in these two cases.",
  "status": "partial"
 },
 "C67": {
  "note": "Proved: after the goroutine took the branch of its context the callback is never called again, and C67_ended_iff: a goroutine ends if and only if it takes that branch, which needs its context to be done. False for Close: the goroutine receives nil from the closed channel for ever (C67_close_does_not_stop). False in time for the context: select picks at random, so any number of callbacks can come between the end of the context and the goroutine noticing it (C67_callbacks_after_the_context_is_done).",
  "status": "partial"
 },
 "C68": {
  "note": "net/url is modelled from its source; host syntax and ResolveValue are parameters."
 },
 "C69": {
  "note": "Schema names of the listed views contain no dot; case-insensitive comparison is a parameter."
 },
 "C70": {
  "note": "No side condition."
 },
 "C71": {
  "note": "Proved for successful calls; false for failing ones (C71_scan_failure_leaves_rows_open). C71_how_many_are_left_open: views and foreign keys leave one open exactly when a row cannot be read, tables at most two (sharp).",
  "status": "partial"
 },
 "C72": {
  "note": "False for first calls (C72_torn_string, two-word strings under sequential consistency); proved when AllColumns was called once before sharing. Exact: C72_torn_possible_iff (a torn result is possible iff at least two first calls run at once), C72_length_is_always_whole, C72_whole_after_a_writer_finished.",
  "status": "partial"
 },
 "C73": {
  "note": "False for tinyint NOT NULL (int8) and negative values of key-named columns (xdb.ID is unsigned), both shown. C73_fits_iff: these are exactly the integer columns for which the chosen Go type does not hold all values.",
  "status": "partial"
 },
 "C74": {
  "note": "References resolve (C56_columns_agree). Exact condition for one schema in packages of their own: every name is declared once iff the derived names are distinct (C74_declared_once_iff; a column named `table` clashes, C74_column_named_table). False: with two schemas or one package the generated code redeclares names, always; singular/plural table names collide.",
  "status": "partial"
 },
 "C75": {
  "note": "Proved for success; false for failures: the file is truncated before anything can fail. What is left, exactly: C75_what_is_left (finished files, and at most one empty one, the last opened), C75_failure_keeps_files_iff (all files survive iff the first one cannot be opened).",
  "status": "partial"
 },
 "C76": {
  "note": "IEEE doubles as multiples of 2^-1074; strconv.ParseFloat and %f are modelled by their documented contract (correct rounding, halves to even) and proved nearest against an independent rational specification. Hexadecimal float texts are a parameter. 'Every double survives JSON' is false below 2^33 (C76_json_loses); NaN and infinities are written as invalid JSON; JSON null is refused."
 },
 "C77": {
  "note": "Scan(nil) succeeds and keeps the old value (same defect as C18)."
 },
 "C78": {
  "note": "Condition on names shown necessary (C78_quote_cuts_the_name, C78_comma_cuts_the_name). strconv.Unquote is modelled for texts without escapes; the rest is a parameter.",
  "status": "proved"
 },
 "C79": {
  "note": "Injectivity of the format; how the Go compiler reads the literal is outside the model.",
  "status": "proved"
 },
 "C80": {
  "note": "Proved for connections. The code does not honour the database name once connected (C80_database_name_ignored) and keeps a schema provider on a closed connection after Close (C80_schema_provider_survives_close), both shown as theorems. Exact: C80_db_exactly, C80_database_honoured_iff, C80_schema_exactly, C80_stale_schema_provider_iff.",
  "status": "partial"
 },
 "C81": {
  "note": "Holds for tables, views and foreign-keys; the columns command swallows encoding errors and prints before failing (C81_encoding_error_swallowed, C81_columns_partial_output). Exact: C81_success_iff (when each command reports success) and C81_output_of_failures (the only failure that has printed something). Encoders are parameters here; C105 instantiates the JSON encoder.",
  "status": "partial"
 },
 "C82": {
  "note": "Rows handed to the table writer; its layout is outside the model.",
  "status": "proved"
 },
 "C83": {
  "note": "The definition file's parser and the inflection/format libraries are parameters.",
  "status": "proved"
 },
 "C84": {
  "note": "Full exactness for tables without an apostrophe in schema or table name and whose index names are not used elsewhere; exactly when a listing succeeds and when it fails or crashes instead is C86_listing_succeeds_iff (counterexamples C84_apostrophe_fails_the_listing, C86_same_index_name_crashes).",
  "status": "partial"
 },
 "C85": {
  "note": "Holds exactly for names without an apostrophe (iff); with one the name becomes SQL (C85_name_becomes_sql).",
  "status": "partial"
 },
 "C86": {
  "note": "For every database: exactly which indexes are reported with which columns (C86_reported_indexes_exactly) and exactly when the listing succeeds (C86_listing_succeeds_iff); these coincide with the indexes of the table (C86_exactly_..._partial) for plain tables with their own index names. Columns of an index as a set (array_agg has no order), INCLUDEd ones too, indexes over expressions only are not reported; counterexamples proved.",
  "status": "partial"
 },
 "C87": {
  "note": "Exact when every view has a column and the schemas have no dot; the listing succeeds exactly when every view has a column (C87_succeeds_iff_every_view_has_a_column), a view without columns makes every listing fail (proved).",
  "status": "partial"
 },
 "C88": {
  "note": "For every database exactly which keys are reported (C88_reported_keys_exactly), and exactly when that is the declared ones (C88_exact_iff): keys of one column with names used once. Composite keys are wrong (C88_every_column_with_every_column); counterexamples proved.",
  "status": "partial"
 },
 "C89": {
  "note": "Exact count for every database with plain names (C89_how_often_a_table_is_listed): a table with extended properties can be missing or repeated; exactly once without them. When a listing succeeds, for names without quotes and dots: C91_listing_succeeds_iff.",
  "status": "partial"
 },
 "C90": {
  "note": "For every database (schemas without dots): exactly what is reported (C90_reported_views_exactly: every table or view with the name of a view, columns once per view of that name), and C90_exact_iff: right if and only if no asked-for table or view has the name of another view; counterexamples proved.",
  "status": "partial"
 },
 "C91": {
  "note": "For every database: exactly which indexes are reported with which column names (C91_reported_indexes_exactly) and exactly when the listing succeeds or crashes (C91_listing_succeeds_iff): column names are written as XML and cut at commas; a name survives iff it has no comma, &, <, > or CR (C91_name_survives_iff). Columns of an index as a set, INCLUDEd ones too; in table order, not key order (C91_index_columns_in_table_order).",
  "status": "partial"
 },
 "C92": {
  "note": "Names compared as bytes.",
  "status": "proved"
 },
 "C93": {
  "note": "Refinement: heap of arrays, objects, buffers and pools against values; also: no two live statements share anything, and the World model of C26-C33 gives the texts of the memory model. The exclusions are shown necessary: Args()[1:] handed back corrupts arguments (depending on capacity), a second Close makes two later statements one object, Args() after Close shows nil and later another statement's arguments.",
  "status": "proved"
 },
 "C94": {
  "note": "C94_goroutines_as_alone ranges over all schedules of atomic steps (cache Load and Store, pool Get and Put are atomic by the contract of package sync; the rest is local by C93); C94_uninterrupted says that the steps of an operation, uninterrupted, are the operation of the sequential model. The provisos are needed: C94_first_text_does_not_win (two texts for one name: GetOrCreateQuery may return different texts in turn), C94_pooled_object_shows_through (Expr on a clone).",
  "status": "proved"
 },
 "C95": {
  "note": "Proved end to end from the database (not from query rows) for both databases. Missing, with proved counterexamples: Postgres keys over several columns get a wrong column, Postgres key names used twice miss a table, documented SQL Server tables appear as mere dependencies, a column with keys to two tables leads to one of them only; names with quotes and dots, and providers used before (C53).",
  "status": "partial"
 },
 "C96": {
  "note": "C96_files, for every successful generation; C96_model_text and C96_schema_text for one file. The four templates are in the model verbatim, parsed by a model of text/template (documentation; only the constructs used) and executed; the result is read by a Go lexer (Go specification). format.Source is assumed to keep the tokens. Counterexamples without the condition on names: C96_quote_in_a_name, C96_line_break_in_a_name (code injection through an index name), C96_space_in_a_name; C96_imports_are_not_those_used: the raw output needs goimports.",
  "status": "proved"
 },
 "C97": {
  "note": "Proved: exact condition for success, what the provider reports, order of the steps, nothing touched on refusal. False for a reference to a reference: the driver is chosen from the inner URL but is given the reference itself (C97_nested_reference). Whether the driver then really connects to that database is outside the model; for URLs see C61.",
  "status": "partial"
 },
 "C98": {
  "note": "Proved for all histories and interleavings. Outside the statement: a transaction provider has lost the connection string of its provider (C98_transaction_identity), so a listener made from it connects with an empty string; and two generators with the same machine ID can hand out the same ID (C98_same_machine_collides).",
  "status": "proved"
 },
 "C99": {
  "note": "Proved for all command lines kong accepts. False in two points: the columns command ignores encoding errors (C81), and after a failure the connection is not closed because exit ends the process before the deferred Close (C99_status_and_close). Flag parsing itself is outside the model.",
  "status": "partial"
 }
}