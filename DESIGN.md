# Formal model of effective-security/xdb in Lean 4

## 1. Layout

* `lean/Verif/<Area>/Model.lean` (and the other files without a suffix `Props`, `Lemmas`, `Spec`) – executable model of the Go code; each definition cites the file and lines in /repo it models, and says where it simplifies.
* `lean/Verif/<Area>/Spec.lean`, or sections "Specification" – small specifications written from the English property, independent of the model's helpers.
* `lean/Verif/<Area>/*Lemmas.lean` – helper lemmas (invariants, refinements).
* `lean/Verif/<Area>/*Props.lean` – the property theorems, named `Cnn_…` after the property they prove, each with concrete cases (`example`) that meet its hypotheses.
* `properties.jsonl` – the properties in English.  `MANIFEST.json` – property → theorems, status, what is missing (generated by `tools/manifest.py` from the theorem names and `tools/notes.json`).
* `seeded/LOG.jsonl` – the wrong programs the theorems were tested against.
* This file is generated by `tools/design.py` from `tools/design_head.md`, `tools/plan.json`, the manifest and the output of `#print axioms`.

| Directory | Code modelled |
|---|---|
| `Flake` | pkg/flake/flake.go |
| `Types` | id.go, types.go, time.go, merge.go, the error helpers of query.go and types.go |
| `Query` | query.go, params.go |
| `Sql` | the part of database/sql the code relies on (Rows, Row, Query, Exec), xsql/executor.go |
| `Xsql` | xsql/stmt.go, dialect.go, pool.go, cache.go, util.go |
| `Prov` | prov.go, including the keep-alive goroutine of db.go |
| `Conn` | db.go (connection strings), with net/url |
| `Migrate` | migrate/migrate.go, the constructor NewProvider/Open of db.go |
| `Notify` | pkg/notifier/listener.go |
| `Schema` | schema/schema.go, provider.go, postgres.go, sqlserver.go |
| `Gen` | internal/cli/schema: generate, types.go, template.go |
| `Catalog` | the SQL texts of schema/postgres.go, sqlserver.go, over a model of the two databases' system catalogues |
| `Cli` | internal/cli/cli.go, the commands of internal/cli/schema/schema.go, pkg/print |

## 2. How the code is modelled

* **Values.** Go strings and byte slices are lists of bytes (`Bytes = List UInt8`), fixed-width integers are Lean's `UInt64`, `Int32`, … with Go's wrap-around; `int` is 64 bits. Go maps are key functions or association lists, and wherever the order of iteration can be observed it is an arbitrary parameter. Float64 is a sign and a multiple of 2^-1074 (or ±Inf, NaN).
* **Errors and panics** are results of the model functions; which error it is is kept where a property mentions it.
* **Memory.** Where aliasing matters it is explicit: ID cells live in a heap (`Types/Id.lean`), IDArray values are slices into backing arrays with an arbitrary growth policy (`Types/IdArray.lean`), pooled statements and caches are objects of a `World` (`Xsql/World.lean`), which is proved to be what slices, recycled buffers and object pools amount to (`Xsql/MemModel.lean`, C93). Elsewhere values are immutable (noted in the comments).
* **Concurrency.** Flake generator, statement builders with their caches and pools (C94), provider keep-alive, notifier and TableInfo caches are small-step machines; theorems range over all interleavings of their atomic steps, any number of goroutines and every behaviour of the environment (clock, channel contents, failing calls). Sequential consistency is assumed, except that a Go string is two words (`C72`).
* **Environment.** Database answers, clock readings, connection failures, file write failures, pool choices and map iteration orders are universally quantified inputs.

## 3. Trusted base

1. Lean's kernel (4.33.0), and the three standard axioms `propext`, `Classical.choice`, `Quot.sound`; section 6 lists which theorem uses which. No axiom is added, no proof is left open, no compiled-code decision procedure is used (`decide` and `decide +kernel` are checked by the kernel and are used for concrete cases and for tables of finitely many Go type names only).
2. The reading of the Go code into the model. There is no Go toolchain in the sandbox, the code was read as text. Each definition cites its lines.
3. Contracts of code outside the repository (next section).

## 4. What is modelled and what is assumed

**Modelled, from the repository:** everything listed in the table of section 1, function by function.

**Modelled, from the documentation or source of the Go standard library:** `strconv.ParseUint/ParseInt/FormatUint/FormatInt/AppendInt`, `strconv.ParseFloat` and `%f` (by their contract: correctly rounded, halves to even; the reading of decimal syntax, overflow and the special names is modelled in full), `encoding/base64` raw URL encoding, `net/url` parsing, escaping and query parsing, RFC 3339 formatting and parsing with the proleptic Gregorian calendar, `time.Truncate/UTC/UnixMilli`, `strings.Trim/Split/Join/Cut`, `path.Base`, `reflect.StructTag.Get`, `errors.Is/As` over error trees, `sort`/`slices.Sort` (as sorting), `sync.Pool` (may return any object put before, or a new one), `sync.Mutex`, `database/sql` (Rows: Next/Scan/Err/Close, Row, Tx begin/commit/rollback/done, DB close), channels and `select`.

**Parameters (theorems hold for every instance):** `encoding/json` for printed values (C75 and the like; for `Strings`, `Metadata` and `KVSet` it is modelled in `Types/GoJson*.lean`, default v1 implementation, and for `-O json` listings in `Types/GoJsonIndent.lean` and `Cli/Json.lean`, C105) and yaml encoders, hexadecimal float texts, `strconv.Unquote` on texts with escapes, `strings.EqualFold`, the naming libraries (strcase, pluralize), `format.Source`, the host syntax check of `net/url`, `configloader.ResolveValue`, the FNV hash and the query-name hash, the growth policy of `append`, the table writer's layout, the parser of the type definition file.

**By documented contract:** `time.Sleep` (does not return early), golang-migrate (`Up`, `Migrate`, `Force` succeed, report `ErrNoChange`, or fail), lib/pq's listener (one channel shared by all topics, `nil` after reconnect), mergo (fill empty destination fields / override), the Go values the drivers hand out per column type and what columns store (lib/pq, go-mssqldb; `Gen/Read.lean`, `Gen/WriteBack.lean`, `Gen/SaveLoad.lean`, `Gen/Decimal.lean`, C107–C110; `strconv.FormatFloat(f, 'f', -1, 64)` as a shortest decimal that reads back as `f`; for C109 and C111 a one-table database that runs the builder's `INSERT`, `UPDATE`, `DELETE` and `SELECT` texts; `Gen/SaveLoadSql.lean`, `Gen/Modify.lean`; for C114 and C115 one that pages and orders ties as it likes, `Gen/Pages.lean`, `Gen/Endpoint.lean`, with database/sql's default conversion of arguments (`sentArg`)), the databases: a catalogue is a fixed set of rows answering the provider's queries, and for C84–C92 those rows come from a database through the system views as defined in `Catalog/Pg.lean` and `Catalog/Ms.lean` (written from the vendors' documentation; joins and filters of the queries transcribed by hand); a paged query returns the window of a fixed ordered result.

**Not modelled:** `format.Source` (assumed to fail or keep the tokens of its input, C96); text/template beyond the constructs the four templates use; Go beyond its tokens (parsing and type checking of generated files); the commands' flag parsing (kong); logging and tracing; contexts other than cancellation of transactions, keep-alive and listeners; drivers beyond that; the mocks and test suites; use of a pooled statement after Close; memory models weaker than sequential consistency.

### Findings

Read off the model while proving; each is a theorem unless marked (t) = text only.

* *Types.* Copies of an ID share a pointer (C13, C47). JSON `007` keeps its text (C12). `IDArray.Add` on siblings overwrites, `Sort` works in place (C62). Scan(NULL) is a no-op for ID, ID32, Int64, Int32, Bool, Float; map scans keep stale keys (C18). Integer scans wrap (C63). UUIDs of a wrong length are not rejected (C19), so a PostgreSQL uuid column, which lib/pq hands out as 36 bytes of text, is read as the empty string without an error, and writing the row back erases it (C107, C108). Amounts of more than fifteen digits in decimal columns change silently when a row is read and written back (C110). `Strings.Scan` refuses `[]byte`; strings that are not UTF-8 come back changed, and two such keys may become one (C44). Scanning the next row into the same `Strings`, `Metadata` or `KVSet` variable changes copies kept of it; `null` elements show the previous row; a failed scan leaves a mixture (C18, C100). Time texts that cannot be read are dropped silently (C48). Float JSON keeps six decimals, NaN and infinities become invalid JSON (C76). `ParseID` relies on evaluation order (C11).
* *Statements.* Paging without an order that distinguishes the rows may show a row twice and another never (C114_ties_can_repeat); page·size wraps around at 64 bits: page 2³²+1 of 2³² rows is the first page again (C114_wrapped_page). Join/In before From/Where loses the keyword (C22). `SubQuery("")` corrupts (C29). Cache-key collisions (C26), neutral-dialect cache shared by embedding (C33). Clone forgets the current clause and line mode (C28). `Paginate(1, n)` keeps an old OFFSET, Limit after Expr overwrites another argument (C31). The tenth `Clause` collides (C35). A named query rendered early, or of another dialect, is not stored (C32). `\?` is honoured only in chunks with arguments (C25). Re-used NewRow handles lose a comma (C30). `Args()[1:]` handed back to its statement corrupts the arguments if the array has room; a second `Close`, as with `defer sub.Close()` after `SubQuery(sub)`, makes two later statements one object (C93). Under concurrent GetOrCreateQuery calls with different texts the first text does not stay (C94); `Dialect.UseNewLines` is a data race with every constructor (t). SetDialect panics for a SQLDialect that is not the package's own (C103).
* *Queries.* ExecuteListQuery ignores `rows.Err()` (C38). Without a limit there is always a next page (C36). Panicking callbacks leak rows (C39). Names collide and are not updated (C40). Reset keeps the NULL columns (C42). Cursors are not canonical (C43). An xdb.ID in a cursor becomes a float64 when decoded: from 25 days after the generator's start time on, identifiers of most machines change, and paging by them repeats or hides rows (C116). Paging by offset while rows are deleted misses rows that stay, and repeats rows when rows are inserted (C117). Builders share slices with the caller: appending to Args() twice overwrites, Name sorts the caller's NULL columns in place, which changes overlapping slices and races when the list is shared by goroutines (C104).
* *Provider.* BeginTx ignores its options (C64) and panics after Close (C65). Keep-alive races with Close and never ends (C51). NewProvider leaks the pool on failure (C66). Migrate swallows errors mentioning "no change" (C59). Connection strings: C61. A reference to a reference opens the inner reference text (C97). Transactions lose the connection string (C98), so a listener made from one connects to nothing in particular (C102).
* *Flake.* A program whose path contains "test" or "debug" anywhere, like /opt/latest/app, uses the same machine number on every host: IDs repeat across hosts (C101).
* *Notifier.* One shared channel: callbacks of another topic are called (C60); Close leaves goroutines spinning (C67); `select` picks at random, so callbacks may still come after the context is done (C67_callbacks_after_the_context_is_done).
* *Schema.* Index on an unknown column crashes (C54); earlier calls leak into results, only the last foreign key of a column is followed, dotted names collide (C53); composite primary keys are not reported, dependency tables have no indexes (C54); rows leak on scan errors (C71); column queries interpolate names without escaping: an apostrophe fails the listing or becomes SQL (C85). TableInfo's cache is a data race (C72) and goes stale (C55).
* *Catalogue queries, Postgres.* Indexes are joined by name only: the same table in two schemas loses its primary key or crashes ListTables; INCLUDEd columns count; expression-only and partitioned indexes are missing; the order of index columns is unspecified (C86). A view without columns fails every ListViews (C87). Composite keys become a cross product, keys of the same name mix tables (C88); a listing with dependencies then reports wrong columns or misses a table (C95).
* *Catalogue queries, SQL Server.* A documented table is not listed, described indexes repeat it (C89); with dependencies it may appear as a mere dependency (C95). Views are matched by name only (C90). Index columns come in table order and XML-escaped, `&` crashes (C91). `varchar(max)` is reported with length 4294967295 (C89).
* *Generator.* C56–C58, C73–C75, C78: overrides ignore nullability, tinyint → int8, tables of all schemas accumulate, redeclarations, colliding names, truncated files, cut tags.
* *CLI.* Database name ignored once connected, schema provider survives Close (C80), columns command swallows encoding errors (C81), `columns --views -O json` prints two documents (C105), override maps persist across runs (C83), `--views` filters views by the table names (C99), a failed run does not close its connection (C99).

## 5. Plan and result per property

Status: *proved* = the whole English statement is a theorem; *partial* = the statement as a user would like it is false of the code or only a part is proved; the theorems with suffix `_partial` are what holds, the other named theorems show (on a concrete execution) why no more holds.

**C01 — Generated IDs are strictly increasing and never repeat** (proved).  Model: `Flake`: `NextID` over clock readings; small-step machine of goroutines with the mutex.  Proof: invariant on (elapsed time, sequence) over all schedules; the packed ID is monotone in it.  Every schedule of any number of goroutines, every clock.

**C02 — Generators with different machine IDs never produce the same ID** (proved).  Model: `Flake`: `NextID` over clock readings; small-step machine of goroutines with the mutex.  Proof: invariant on (elapsed time, sequence) over all schedules; the packed ID is monotone in it.

**C03 — ID layout, Decompose and int64 safety** (proved).  Model: `Flake`: packing and `Decompose`.  Proof: bit-field arithmetic on naturals.

**C04 — IDTime inverts generation** (proved).  Model: `Flake`: `NextID`, `IDTime`, sleep.  Proof: invariant relating the stored elapsed time to clock readings; integer division bounds.  Clock instants are unbounded integers; the 'not in the future' half assumes a monotone clock after 1970 and the documented contract of time.Sleep.

**C05 — Time overflow panics, and keeps panicking** (proved).  Model: `Flake`: `NextID`, `IDTime`, sleep.  Proof: invariant relating the stored elapsed time to clock readings; integer division bounds.

**C06 — IDs stay unique across a process restart when the clock has moved past the last ID** (proved).  Model: `Flake`: `NextID` over clock readings; small-step machine of goroutines with the mutex.  Proof: invariant on (elapsed time, sequence) over all schedules; the packed ID is monotone in it.  Positive direction plus the failure when the clock has not moved on.

**C07 — NewIDGenerator fails fast exactly in the documented cases** (proved).  Model: `Flake`: constructor and default machine id over arbitrary interface addresses.  Proof: case analysis.

**C08 — At most 64 IDs per time unit, and NextID waits out the unit on overflow** (proved).  Model: `Flake`: `NextID`, `IDTime`, sleep.  Proof: invariant relating the stored elapsed time to clock readings; integer division bounds.

**C09 — Default machine id is a function of the host's private address** (proved).  Model: `Flake`: constructor and default machine id over arbitrary interface addresses.  Proof: case analysis.  net.IP.To4/To16/IsLoopback are modelled from their documentation; the FNV hash used in test runs is a parameter.

**C10 — ID text, JSON, and SQL round trips** (proved).  Model: `Types/Id`: codecs over bytes, parse/format of decimal numbers.  Proof: digit-list induction; invariant on cells over histories.  Texts, JSON, SQL and YAML forms; encoding/json string quoting of plain digits is modelled directly.

**C11 — Set/ParseID accept exactly the positive decimal uint64 texts, and leave the ID unchanged on error** (proved).  Model: `Types/Id`: codecs over bytes, parse/format of decimal numbers.  Proof: digit-list induction; invariant on cells over histories.  Exact acceptance. Finding: ParseID returns its named value and error from one return statement and so relies on gc evaluation order (C11_parse_relies_on_evaluation_order).

**C12 — ID text and number agree** (partial).  Model: `Types/Id`: codecs over bytes, parse/format of decimal numbers.  Proof: digit-list induction; invariant on cells over histories.  The text always denotes the number. That it is the canonical text fails for JSON numbers with leading zeros (witness); proved for histories without those. C12_agree_iff: after any program, text and number agree if and only if the ID does not print a JSON text with a superfluous leading zero.

**C13 — Copies of an ID are independent values** (partial).  Model: `Types/Id`: heap of ID cells.  Proof: non-interference of all operations but Set/Reset; witness.  False in general: copies of an ID share a pointer, so Set/Reset through one reach the other (C13_copies_share). Proved for histories that never Set/Reset a copied ID, and that no other operation reaches a copy. Exactly: C13_copies_are_names_of_one_object (a specification with named objects predicts every variable of every program), C13_set_reaches_iff.

**C14 — IDArray behaves as an insertion-ordered set** (proved).  Model: `Types/IdArray`: slices into backing arrays, arbitrary growth; Postgres array text.  Proof: separation of backing arrays, list induction, permutation/sorting lemmas.  Every heap of backing arrays, every growth policy of append.

**C15 — IDArray Sort, Strings and IDArrayFromStrings** (proved).  Model: `Types/IdArray`: slices into backing arrays, arbitrary growth; Postgres array text.  Proof: separation of backing arrays, list induction, permutation/sorting lemmas.

**C16 — IDArray SQL round trip** (proved).  Model: `Types/IdArray`: slices into backing arrays, arbitrary growth; Postgres array text.  Proof: separation of backing arrays, list induction, permutation/sorting lemmas.

**C17 — Numeric column types round trip through JSON and SQL** (proved).  Model: `Types/Columns`: scalar column types.  Proof: per-type round trips and exact scan results.

**C18 — Scanning overwrites the destination** (partial).  Model: `Types/Columns`: scalar column types.  Proof: per-type round trips and exact scan results.  False for NULL (Scan(nil) keeps the old value of ID, ID32, Int64, Int32, Bool) and for maps (stale keys survive). Proved for non-NULL scalar values. C18_overwrites_iff and C18_map_scan_iff give the exact column values for which Scan overwrites the destination. C18_strings_scan_exactly and C18_map_scan_exactly say what any scan, successful or failed, does to a Strings, Metadata or KVSet destination: null elements of an array show the old contents, and a failed scan leaves a mixture.

**C19 — UUID scan shows the SQL Server text form of every 16-byte value** (partial).  Model: `Types/Columns`: scalar column types.  Proof: per-type round trips and exact scan results.  Text form and injectivity proved; values of the wrong length are not rejected (shown). C19_all_outcomes lists the outcome of every scan.

**C20 — NULLString maps the empty string to NULL and back** (proved).  Model: `Types/Columns`: scalar column types.  Proof: per-type round trips and exact scan results.

**C21 — Placeholders and arguments stay aligned** (proved).  Model: `Xsql/Model`: the builder on (chunks, buffer, args) exactly as coded.  Proof: refinement of the byte-level builder to a document of clauses; lexer of placeholders; induction over call sequences.

**C22 — The SQL text is the clauses in canonical order** (proved).  Model: `Xsql/Model`: the builder on (chunks, buffer, args) exactly as coded.  Proof: refinement of the byte-level builder to a document of clauses; lexer of placeholders; induction over call sequences.  For clause methods in any order. Finding: Join or In before From or Where loses that clause's keyword (C22_join_before_from_loses_keyword).

**C23 — Order of calls on different clauses does not matter** (proved).  Model: `Xsql/Model`: the builder on (chunks, buffer, args) exactly as coded.  Proof: refinement of the byte-level builder to a document of clauses; lexer of placeholders; induction over call sequences.

**C24 — Postgres placeholders are numbered $1..$n without gaps** (proved).  Model: `Xsql/Model`: the builder on (chunks, buffer, args) exactly as coded.  Proof: refinement of the byte-level builder to a document of clauses; lexer of placeholders; induction over call sequences.

**C25 — Placeholder rewriting changes nothing else** (proved).  Model: `Xsql/Model`: the builder on (chunks, buffer, args) exactly as coded.  Proof: refinement of the byte-level builder to a document of clauses; lexer of placeholders; induction over call sequences.

**C26 — String() is the statement's own SQL, whatever is cached** (partial).  Model: `Xsql/World`: dialects, caches, pool, live statements.  Proof: invariants over histories of operations, frame lemmas; witnesses.  False in general (three kinds of key collision proved). Proved: exactly which text a statement shows (C26_which_text: the text cached under its key, if any), its own text iff what is cached there is its own (C26_own_sql_iff), and own text in every program whose cache keys are unambiguous, which holds for unnamed statements written in clause order.

**C27 — Pooled statements carry nothing over** (proved).  Model: `Xsql/World`: dialects, caches, pool, live statements.  Proof: invariants over histories of operations, frame lemmas; witnesses.  Every history, every choice of the pool. The current clause of a recycled object survives, but every constructor call replaces it.

**C28 — Clone is independent of and equivalent to its original** (partial).  Model: `Xsql/World`: dialects, caches, pool, live statements.  Proof: invariants over histories of operations, frame lemmas; witnesses.  Equality and independence proved, and what exactly a clone is (C28_clone_exactly). 'Same effect' needs: line break setting of the dialect, no Expr/SubQuery before a clause method; both conditions shown necessary. Statement objects are values in the model; that memory sharing is invisible is C93.

**C29 — SubQuery, With and Union embed the other statement with its arguments in place** (proved).  Model: `Xsql/Model`: the builder on (chunks, buffer, args) exactly as coded.  Proof: refinement of the byte-level builder to a document of clauses; lexer of placeholders; induction over call sequences.  Subquery, With and Union; SubQuery with empty prefix is excluded and shown to corrupt the statement.

**C30 — INSERT and bulk INSERT produce matching columns and values** (proved).  Model: `Xsql/Model`: the builder on (chunks, buffer, args) exactly as coded.  Proof: refinement of the byte-level builder to a document of clauses; lexer of placeholders; induction over call sequences.

**C31 — LIMIT, OFFSET and Paginate: last call wins** (partial).  Model: `Xsql/Model`: the builder on (chunks, buffer, args) exactly as coded.  Proof: refinement of the byte-level builder to a document of clauses; lexer of placeholders; induction over call sequences.  Last call wins except: Paginate(1, n) keeps an earlier OFFSET, Expr on LIMIT breaks the replacement; both shown. Exact: C31_paging_of_any_sequence gives the paging of every sequence of calls; C31_offset_as_asked_iff says when the offset is the one asked for last.

**C32 — Named query cache returns the text stored first under that name** (proved).  Model: `Xsql/World`: dialects, caches, pool, live statements.  Proof: invariants over histories of operations, frame lemmas; witnesses.  Findings: a builder rendered before create returns, or built in another dialect, is not stored under the name.

**C33 — Dialects do not interfere** (partial).  Model: `Xsql/World`: dialects, caches, pool, live statements.  Proof: invariants over histories of operations, frame lemmas; witnesses.  Holds without embedded statements; the cache of the statement's own dialect alone decides (C33_own_dialect_decides). Embedding renders and caches in the neutral dialect (C33_embedded_is_asked_in_the_neutral_dialect), where names can collide (shown).

**C34 — To/Bind destinations line up with selected columns** (proved).  Model: `Xsql/Model`: the builder on (chunks, buffer, args) exactly as coded.  Proof: refinement of the byte-level builder to a document of clauses; lexer of placeholders; induction over call sequences.

**C35 — Custom clauses and unions come after everything written before** (partial).  Model: `Xsql/Model`: the builder on (chunks, buffer, args) exactly as coded.  Proof: refinement of the byte-level builder to a document of clauses; lexer of placeholders; induction over call sequences.  Clause appends at the end unless ten or more Clause calls reach the position of a named clause (shown). Exact: C35_named_clause_iff, C35_keyword_lost_iff and C35_where_after_clauses_iff give the number of Clause calls at which a keyword is lost.

**C36 — Offset pagination visits every row exactly once** (proved).  Model: `Query/Model`: paging loop over a database answering windows.  Proof: induction on the rest of the result.  Database modelled as a fixed table answering the LIMIT/OFFSET window. Findings: without a limit every result claims a next page; a page cut short by an error is taken for the last page (C36_cut_page_ends_the_loop).

**C37 — Cursor pagination visits every row exactly once** (proved).  Model: `Query/Model`: paging loop over a database answering windows.  Proof: induction on the rest of the result.  Database modelled as a fixed table ordered by a unique cursor key.

**C38 — A list query returns all rows or an error** (partial).  Model: `Sql/Rows`, `Sql/Exec`, `Query`: row streams with failures at any point.  Proof: induction on the stream.  False in general: rows.Err() is never consulted, so a stream cut short by an error is returned as a complete list (C38_cut_stream_is_not_reported). Proved: streams that end with EOF, refused queries, unreadable rows, rows closed on every path. C38_success_iff: the exact streams on which success is reported.

**C39 — The statement executor returns all rows or an error** (proved).  Model: `Sql/Rows`, `Sql/Exec`, `Query`: row streams with failures at any point.  Proof: induction on the stream.  database/sql Rows/Row modelled from their documentation. Finding: a panicking callback leaves the rows open.

**C40 — Query parameter names identify the query shape** (partial).  Model: `Query/Params`: builder histories.  Proof: invariant over histories; injectivity of the name encoding for every hash.  False in two ways (proved): {ab,c} and {a,bc} as NULL columns give one name; the name is remembered and not updated by later calls. First page and no page share a name. Proved: everything else is determined by the name, for every hash function. C40_names_equal_iff: the exact condition for two names to be equal; C40_name_is_current_iff: the exact condition for the name to describe the current state.

**C41 — Arguments appear in call order with limit/offset last** (proved).  Model: `Query/Params`: builder histories.  Proof: invariant over histories; injectivity of the name encoding for every hash.  Every history of builder calls.

**C42 — IsSet, GetEnum and GetFlags reflect what was set** (proved).  Model: `Query/Params`: builder histories.  Proof: invariant over histories; injectivity of the name encoding for every hash.  Every history of builder calls. Finding: Reset keeps the NULL columns.

**C43 — Cursor text round trip** (proved).  Model: `Query/Cursor`: base64.  Proof: induction by groups of three bytes.  encoding/base64 modelled from its documentation; the JSON codec is a parameter with the hypothesis that it reads its text back, which Go's meets only up to float64 for numbers: C116 proves what the real codec does. CR and LF inside a cursor are ignored by the decoder; trailing bits are not checked.

**C44 — Strings, Metadata and KVSet persist and reload** (partial).  Model: `Types/Maps`: maps and JSON contract; `Types/GoJson*`: encoding/json (UTF-8, string literals, parser, encoder).  Proof: extensionality of maps, for every iteration order; induction over the runes of a string and over the parser's fuel (shown sufficient for every text).  encoding/json is modelled (parser, escapes, UTF-8, encoder with sorted keys), and C44_go_json_contract shows that it meets the contract. Exact: C44_strings_restored_iff, C44_metadata_restored_iff, C44_kvset_restored_iff: the value is restored iff all its strings are well-formed UTF-8 (other bytes become U+FFFD, and keys may collide); never an error. C44_stored_text_is_acceptable. Strings.Scan fails on []byte, which is what lib/pq delivers (C44_strings_bytes_fail).

**C45 — Metadata and KVSet Merge is a right-biased union** (proved).  Model: `Types/Maps`: maps and JSON contract.  Proof: extensionality of maps, for every iteration order.  Every iteration order of the Go map.

**C46 — Not-found errors are recognised through wrapping** (proved).  Model: `Types/Errors`: error trees.  Proof: structural induction.  Error values are finite trees with Unwrap/multi-Unwrap; the text is an arbitrary byte string.

**C47 — Merge overrides exactly the set fields** (partial).  Model: `Types/Merge`: nested structs.  Proof: structural induction; witness for shared pointers.  Field selection proved for arbitrarily nested structs. mergo is modelled from its documentation. Independence is false: ID pointers are shared (C47_merge_ties_ids).

**C48 — Time columns keep milliseconds in UTC and zero means NULL** (partial).  Model: `Types/Time`: instants as integers of nanoseconds, calendar and RFC 3339.  Proof: integer arithmetic; calendar inverse proved by periods.  All instants; calendar, RFC 3339 formatting and parsing modelled and proved for years 1 to 9999. Reporting unknown text formats is false (C48_unknown_text_swallowed).

**C49 — Transaction providers follow begin / commit-or-rollback / done** (proved).  Model: `Prov/Model`: provider and driver state machine.  Proof: invariant over histories.  database/sql is modelled from its documentation; context cancellation is an atomic rollback.

**C50 — Close never leaves a transaction open and is idempotent** (proved).  Model: `Prov/Model`: provider and driver state machine.  Proof: invariant over histories.  database/sql is modelled from its documentation.

**C51 — The keep-alive loop is safe against Close** (partial).  Model: `Prov/KeepAlive`: goroutine steps interleaved with calls.  Proof: invariant over schedules; schedule witness.  False: Close races with a ping in progress (nil dereference) and the goroutine never ends. Proved: no panic without a completed Close, nor when the goroutine is idle at Close. C51_close_crashes_iff: from any reachable state, Close followed by some schedule panics iff a ping is in progress.

**C52 — ListTables reports exactly the matching tables with ordered columns** (proved).  Model: `Schema/Model`: listing over catalogue rows with failures at any row.  Proof: loop invariants; sorting lemmas; permutation invariance.  Proved for every catalogue whose schema names contain no dot (the schema.table key is otherwise ambiguous); case-insensitive comparison is a parameter.

**C53 — Dependency discovery terminates and is complete** (partial).  Model: `Schema/Model`: the discovery loop.  Proof: reachability closure: soundness and completeness by invariant, termination by a measure.  Proved: always terminates (no side condition); from a fresh provider and names without dots, exactly the reachable tables, independently of map iteration order. False in general: earlier calls leak into the result, only the last foreign key of a column is followed, dotted names collide (theorems C53_*). C53_after_any_history_partial covers providers with any history of ListTables and ListForeignKeys calls: the result is what is reachable from everything that matched so far; C53_history_is_harmless_iff_reachable says when that is what the property asks.

**C54 — Indexes and primary keys refer to the table's own columns** (partial).  Model: `Schema/Model`: index and primary key assembly.  Proof: loop invariant; witnesses.  Proved: index columns in catalogue order; primary key = the single column of a one-column primary index. False: composite primary keys are not reported, dependency tables have no indexes, an index naming an unknown column crashes. Exact: C54_crashes_iff and C54_succeeds_iff say for every catalogue and provider when ListTables crashes and when it succeeds (C54_new_provider_* in plain terms); earlier calls can hide the crash (C54_earlier_calls_hide_the_crash).

**C55 — TableInfo column lists are consistent** (proved).  Model: `Schema/Info`: TableInfo on top of the `Xsql` model.  Proof: refinement to statement texts.  For names without ? and not ending in a backslash. A program that assigns to Columns after the first use sees the old list (C55_changed_columns_are_not_seen).

**C56 — Generated model and scan code agree on columns** (proved).  Model: `Gen/Model`: generate over map orders, files as lists of declarations, events on files.  Proof: characterisation of every round of the loop; witnesses.  Files are modelled by the declarations the templates print; naming libraries are parameters. Dropping the primary-key column leaves PrimaryKey dangling (C56_dropped_primary_key).

**C57 — Column type mapping can hold NULL whenever the column is nullable** (proved).  Model: `Gen/Types`: type mapping.  Proof: case analysis over the type tables with ranges of SQL types as specification.  Overrides are taken as given: an override by column name also applies to nullable columns of that name (C57_override_ignores_nullability).

**C58 — Generating several schemas keeps each schema's output to its own tables** (partial).  Model: `Gen/Model`: generate over map orders, files as lists of declarations, events on files.  Proof: characterisation of every round of the loop; witnesses.  Proved for model files, and for schema files when there is one schema. False for schema files of several schemas: tables accumulate in map iteration order (C58_schema_file_contains_other_schemas). C58_schema_file_content says exactly which tables each schema file contains: those of the schemas visited up to it, so its own only iff it is visited first.

**C59 — Migrate runs the requested migration and reports every failure** (partial).  Model: `Migrate/Model`: migration and constructors over outcomes of each call.  Proof: case analysis.  Proved except that a failure whose text mentions "no change" is taken for success (C59_failure_swallowed). C59_success_iff: the exact set of situations reported as success.

**C60 — Notifications reach the callback of their own channel** (partial).  Model: `Notify/Model`: listener goroutines, shared channel.  Proof: invariant over schedules; schedule witness.  Proved for every schedule: each notification goes to exactly one subscription, each callback gets its share once and in order; and with a single topic the callback is the right one. The full property is false: all Listen calls share one channel, so with two topics a callback can be called with the other topic's notification (C60_wrong_callback). C60_misdelivery_possible_iff: a waiting callback can get another topic's notification iff one is already in the channel or the listener is open and another topic is listened to.

**C61 — The requested database is the one connected to** (partial).  Model: `Conn`: URL parsing and rewriting byte by byte.  Proof: inverse of escaping by induction; parser lemmas; witnesses.  Proved: for URLs with a query, no fragment, no database parameter yet, no "host=" text (postgres), and a plain name, the URL handed to the driver has the requested database and is otherwise unchanged. False otherwise: no query part, existing parameter, "host=" in the text, unescaped names, key=value data sources (theorems C61_*). How a driver reads the URL is outside the model; net/url is modelled, host syntax is a parameter.

**C62 — Deriving arrays from one IDArray does not disturb arrays derived earlier** (partial).  Model: `Types/IdArray`: slices into backing arrays, arbitrary growth; Postgres array text.  Proof: separation of backing arrays, list induction, permutation/sorting lemmas.  False: two arrays derived by Add from one array with spare capacity overwrite each other, and Sort works in place (shown). Proved: Add and Concat never change their receiver or argument, and C62_siblings_overwritten_iff says exactly when the second Add overwrites the first.

**C63 — Scanning an integer column keeps the number or fails** (partial).  Model: `Types/Columns`: scalar column types.  Proof: per-type round trips and exact scan results.  False for integers out of range: they wrap (shown). Proved for integers in range, and C63_kept_iff_in_range: exactly those are kept.

**C64 — BeginTx honours the transaction options** (partial).  Model: `Prov/Model`: provider and driver state machine.  Proof: invariant over histories.  False: options are ignored. Holds for the defaults. C64_honoured_iff: the options are honoured if and only if they are the defaults.

**C65 — A closed provider reports errors** (partial).  Model: `Prov/Model`: provider and driver state machine.  Proof: invariant over histories.  False for BeginTx (nil dereference). Proved for the other calls. C65_refused_iff_not_begin and C65_panics_iff: the exact calls and histories.

**C66 — A failed NewProvider leaves nothing open** (partial).  Model: `Migrate/Model`: migration and constructors over outcomes of each call.  Proof: case analysis.  False: the pool leaks when the ping or the migration fails. C66_pool_left_open_iff: the pool is left open exactly in these two cases.

**C67 — Ending a subscription** (partial).  Model: `Notify/Model`: listener goroutines, shared channel.  Proof: invariant over schedules; schedule witness.  Proved: after the goroutine took the branch of its context the callback is never called again, and C67_ended_iff: a goroutine ends if and only if it takes that branch, which needs its context to be done. False for Close: the goroutine receives nil from the closed channel for ever (C67_close_does_not_stop). False in time for the context: select picks at random, so any number of callbacks can come between the end of the context and the goroutine noticing it (C67_callbacks_after_the_context_is_done).

**C68 — A connection string of the documented form is read back exactly** (proved).  Model: `Conn`: URL parsing and rewriting byte by byte.  Proof: inverse of escaping by induction; parser lemmas; witnesses.  net/url is modelled from its source; host syntax and ResolveValue are parameters.

**C69 — ListViews reports exactly the matching views with ordered columns** (proved).  Model: `Schema/Model`: listing over catalogue rows with failures at any row.  Proof: loop invariants; sorting lemmas; permutation invariance.  Schema names of the listed views contain no dot; case-insensitive comparison is a parameter.

**C70 — ListForeignKeys reports exactly the matching foreign keys** (proved).  Model: `Schema/Model`: listing over catalogue rows with failures at any row.  Proof: loop invariants; sorting lemmas; permutation invariance.  No side condition.

**C71 — Schema listing releases its result sets** (partial).  Model: `Schema/Model`: listing over catalogue rows with failures at any row.  Proof: loop invariants; sorting lemmas; permutation invariance.  Proved for successful calls; false for failing ones (C71_scan_failure_leaves_rows_open). C71_how_many_are_left_open: views and foreign keys leave one open exactly when a row cannot be read, tables at most two (sharp).

**C72 — TableInfo can be used from several goroutines** (partial).  Model: `Schema/Info`: two-word string cache under interleaving.  Proof: invariant over schedules; schedule witness.  False for first calls (C72_torn_string, two-word strings under sequential consistency); proved when AllColumns was called once before sharing. Exact: C72_torn_possible_iff (a torn result is possible iff at least two first calls run at once), C72_length_is_always_whole, C72_whole_after_a_writer_finished.

**C73 — Mapped Go types have room for integer columns** (partial).  Model: `Gen/Types`: type mapping.  Proof: case analysis over the type tables with ranges of SQL types as specification.  False for tinyint NOT NULL (int8) and negative values of key-named columns (xdb.ID is unsigned), both shown. C73_fits_iff: these are exactly the integer columns for which the chosen Go type does not hold all values.

**C74 — Generated packages are consistent** (partial).  Model: `Gen/Model`: generate over map orders, files as lists of declarations, events on files.  Proof: characterisation of every round of the loop; witnesses.  References resolve (C56_columns_agree). Exact condition for one schema in packages of their own: every name is declared once iff the derived names are distinct (C74_declared_once_iff; a column named `table` clashes, C74_column_named_table). False: with two schemas or one package the generated code redeclares names, always; singular/plural table names collide.

**C75 — A failed generation keeps the previous files** (partial).  Model: `Gen/Model`: generate over map orders, files as lists of declarations, events on files.  Proof: characterisation of every round of the loop; witnesses.  Proved for success; false for failures: the file is truncated before anything can fail. What is left, exactly: C75_what_is_left (finished files, and at most one empty one, the last opened), C75_failure_keeps_files_iff (all files survive iff the first one cannot be opened).

**C76 — Float survives JSON up to six decimals** (proved).  Model: `Types/Float*`: IEEE doubles, decimal reading and %f.  Proof: rounding proved nearest/ties-to-even against rationals; exact integer arithmetic.  IEEE doubles as multiples of 2^-1074; strconv.ParseFloat and %f are modelled by their documented contract (correct rounding, halves to even) and proved nearest against an independent rational specification. Hexadecimal float texts are a parameter. 'Every double survives JSON' is false below 2^33 (C76_json_loses); NaN and infinities are written as invalid JSON; JSON null is refused.

**C77 — Float through the database driver** (proved).  Model: `Types/Float*`: IEEE doubles, decimal reading and %f.  Proof: rounding proved nearest/ties-to-even against rationals; exact integer arithmetic.  Scan(nil) succeeds and keeps the old value (same defect as C18).

**C78 — A generated model bound with Bind selects its table's columns** (proved).  Model: `Schema/Tag`, `Gen/Bind`: tags, reflection, Bind.  Proof: parser of struct tags on generated tags; C22/C34 refinement.  Condition on names shown necessary (C78_quote_cuts_the_name, C78_comma_cuts_the_name). strconv.Unquote is modelled for texts without escapes; the rest is a parameter.

**C79 — The generated column literals are faithful** (proved).  Model: `Schema/Tag`: struct literal.  Proof: injectivity of a format by cutting at unambiguous separators.  Injectivity of the format; how the Go compiler reads the literal is outside the model.

**C80 — The CLI never leaks a database connection** (partial).  Model: `Cli/Model`: connection cache of the tool.  Proof: invariant over histories.  Proved for connections. The code does not honour the database name once connected (C80_database_name_ignored) and keeps a schema provider on a closed connection after Close (C80_schema_provider_survives_close), both shown as theorems. Exact: C80_db_exactly, C80_database_honoured_iff, C80_schema_exactly, C80_stale_schema_provider_iff.

**C81 — Listing commands print one line per table and report failures** (partial).  Model: `Cli/Print`: commands and printers.  Proof: list induction.  Holds for tables, views and foreign-keys; the columns command swallows encoding errors and prints before failing (C81_encoding_error_swallowed, C81_columns_partial_output). Exact: C81_success_iff (when each command reports success) and C81_output_of_failures (the only failure that has printed something). Encoders are parameters here; C105 instantiates the JSON encoder.

**C82 — Table output has one row per column, key and index** (proved).  Model: `Cli/Print`: commands and printers.  Proof: list induction.  Rows handed to the table writer; its layout is outside the model.

**C83 — generate produces code for exactly what was listed, or touches nothing** (proved).  Model: `Cli/Generate`: the generate command on top of `Gen`.  Proof: reduction to C56/C58; path.Base lemmas.  The definition file's parser and the inflection/format libraries are parameters.

**C84 — Postgres: ListTables reports exactly the user's tables** (partial).  Model: `Catalog/Pg`: the database, its system relations, the queries of postgres.go.  Proof: join lemmas, then C52.  Full exactness for tables without an apostrophe in schema or table name and whose index names are not used elsewhere; exactly when a listing succeeds and when it fails or crashes instead is C86_listing_succeeds_iff (counterexamples C84_apostrophe_fails_the_listing, C86_same_index_name_crashes).

**C85 — The column query asks about the named table** (partial).  Model: `Catalog/Text`: the texts and a lexer of SQL string literals.  Proof: induction over the lexer.  Holds exactly for names without an apostrophe (iff); with one the name becomes SQL (C85_name_becomes_sql).

**C86 — Postgres: every reported table has exactly its indexes** (partial).  Model: `Catalog/Pg`.  Proof: join lemmas, then C54.  For every database: exactly which indexes are reported with which columns (C86_reported_indexes_exactly) and exactly when the listing succeeds (C86_listing_succeeds_iff); these coincide with the indexes of the table (C86_exactly_..._partial) for plain tables with their own index names. Columns of an index as a set (array_agg has no order), INCLUDEd ones too, indexes over expressions only are not reported; counterexamples proved.

**C87 — Postgres: ListViews reports exactly the user's views** (partial).  Model: `Catalog/Pg`.  Proof: join lemmas, then C69.  Exact when every view has a column and the schemas have no dot; the listing succeeds exactly when every view has a column (C87_succeeds_iff_every_view_has_a_column), a view without columns makes every listing fail (proved).

**C88 — Postgres: ListForeignKeys reports exactly the foreign keys** (partial).  Model: `Catalog/Pg`.  Proof: join lemmas, then C70.  For every database exactly which keys are reported (C88_reported_keys_exactly), and exactly when that is the declared ones (C88_exact_iff): keys of one column with names used once. Composite keys are wrong (C88_every_column_with_every_column); counterexamples proved.

**C89 — SQL Server: ListTables reports exactly the user's tables** (partial).  Model: `Catalog/Ms`: the same for sqlserver.go.  Proof: join lemmas, then C52.  Exact count for every database with plain names (C89_how_often_a_table_is_listed): a table with extended properties can be missing or repeated; exactly once without them. When a listing succeeds, for names without quotes and dots: C91_listing_succeeds_iff.

**C90 — SQL Server: ListViews reports exactly the views** (partial).  Model: `Catalog/Ms`.  Proof: join lemmas, then C69.  For every database (schemas without dots): exactly what is reported (C90_reported_views_exactly: every table or view with the name of a view, columns once per view of that name), and C90_exact_iff: right if and only if no asked-for table or view has the name of another view; counterexamples proved.

**C91 — SQL Server: every reported table has exactly its indexes** (partial).  Model: `Catalog/Ms`.  Proof: join lemmas, FOR XML text, then C54.  For every database: exactly which indexes are reported with which column names (C91_reported_indexes_exactly) and exactly when the listing succeeds or crashes (C91_listing_succeeds_iff): column names are written as XML and cut at commas; a name survives iff it has no comma, &, <, > or CR (C91_name_survives_iff). Columns of an index as a set, INCLUDEd ones too; in table order, not key order (C91_index_columns_in_table_order).

**C92 — SQL Server: ListForeignKeys reports exactly the foreign keys** (proved).  Model: `Catalog/Ms`.  Proof: join lemmas, then C70.  Names compared as bytes.

**C93 — Statements behave as values in spite of pools, shared arrays and recycled buffers** (proved).  Model: `Xsql/MemModel`: Go slices over arrays with arbitrary growth, statement objects, pooled buffers, strings pointing into buffers; `Xsql/MemSpec`: values only.  Proof: simulation relation (representation and separation of all arrays), kept by every operation; induction over programs.  Refinement: heap of arrays, objects, buffers and pools against values; also: no two live statements share anything, and the World model of C26-C33 gives the texts of the memory model. The exclusions are shown necessary: Args()[1:] handed back corrupts arguments (depending on capacity), a second Close makes two later statements one object, Args() after Close shows nil and later another statement's arguments.

**C94 — Statements may be built and rendered by many goroutines at once** (proved).  Model: `Xsql/Conc`: goroutines over the shared state of `Xsql/World`, String, embedding and GetOrCreateQuery split at their accesses to shared state; `Xsql/ConcSpec`: each program alone, without caches and pools.  Proof: invariant: for each goroutine the state it would have alone, similar on the variables it still mentions, and what it is still to get back; kept by every step of every goroutine.  C94_goroutines_as_alone ranges over all schedules of atomic steps (cache Load and Store, pool Get and Put are atomic by the contract of package sync; the rest is local by C93); C94_uninterrupted says that the steps of an operation, uninterrupted, are the operation of the sequential model. The provisos are needed: C94_first_text_does_not_win (two texts for one name: GetOrCreateQuery may return different texts in turn), C94_pooled_object_shows_through (Expr on a clone).

**C95 — Listing with dependencies finds exactly the related tables of the database** (partial).  Model: Composition of the model of ListTables with dependencies (C53) with the queries of both databases (C84-C92)..  Proof: Reachability over query rows is shown to be reachability over the database's foreign keys (induction both ways), the database's guarantees give the hypotheses of C53, and the reported views are computed from the database; counterexamples by kernel computation..  Proved end to end from the database (not from query rows) for both databases. Missing, with proved counterexamples: Postgres keys over several columns get a wrong column, Postgres key names used twice miss a table, documented SQL Server tables appear as mere dependencies, a column with keys to two tables leads to one of them only; names with quotes and dots, and providers used before (C53).

**C96 — The text of the generated files says what the files are meant to declare** (proved).  Model: Gen/Tmpl.lean: parser and evaluator for the part of text/template the generator uses; Gen/TmplText.lean: the four templates verbatim; Gen/Text.lean: modelText, schemaText (the bytes handed to format.Source); Gen/GoLex.lean: Go tokens..  Proof: Parsing of the four templates is computed by the kernel; execution is proved equal to a concatenation of pieces for all definitions; a symbolic lexer over text with names (soundness proved once) computes the tokens of each piece, loops by induction. Specification: Spec.fileToks, tokens of Go text written from the declarations of the file..  C96_files, for every successful generation; C96_model_text and C96_schema_text for one file. The four templates are in the model verbatim, parsed by a model of text/template (documentation; only the constructs used) and executed; the result is read by a Go lexer (Go specification). format.Source is assumed to keep the tokens. Counterexamples without the condition on names: C96_quote_in_a_name, C96_line_break_in_a_name (code injection through an index name), C96_space_in_a_name; C96_imports_are_not_those_used: the raw output needs goimports.

**C97 — NewProvider: the provider returned is the database that was asked for, and nothing is touched when it is refused** (partial).  Model: `Open` and `NewProvider` end to end (`Prov/Open.lean`): resolving, parsing, adding the database (`Conn.Model`), opening, pinging, migrating (`Migrate.Model`), `New`; the trace of what is done outside..  Proof: By cases; the connection string part is composed with C61, the migration with C59..  Proved: exact condition for success, what the provider reports, order of the steps, nothing touched on refusal. False for a reference to a reference: the driver is chosen from the inner URL but is given the reference itself (C97_nested_reference). Whether the driver then really connects to that database is outside the model; for URLs see C61.

**C98 — Providers and transactions keep their identity, and the IDs they hand out never repeat** (proved).  Model: `Prov.Model` extended by name, connection string and generator of each provider (`Prov/Ids.lean`); `NextID` through a provider is a step of the concurrent machine of `Flake.Model`..  Proof: Invariant: each generator's state is the result of some schedule of its own, and its log is the part of the program's log that went through its providers; then C01 and C02..  Proved for all histories and interleavings. Outside the statement: a transaction provider has lost the connection string of its provider (C98_transaction_identity), so a listener made from it connects with an empty string; and two generators with the same machine ID can hand out the same ID (C98_same_machine_collides).

**C99 — A run of the command line tool: right database, right questions, right exit status** (partial).  Model: `realMain`, `AfterApply`, `DB`, `SchemaProvider` and the commands as one function from command line and environment to a trace (`Cli/Main.lean`), composed with `Prov/Open.lean`, `Cli/Print.lean` and `Cli/Generate.lean`..  Proof: By cases on the command and on the answers; the event-by-event model is shown to print what `Cli.Print` says..  Proved for all command lines kong accepts. False in two points: the columns command ignores encoding errors (C81), and after a failure the connection is not closed because exit ends the process before the deferred Close (C99_status_and_close). Flag parsing itself is outside the model.

**C100 — A row that was read stays what it was when further rows are read** (partial).  Model: `Types/ScanHeap`, `Types/ScanHeapMaps`: Scan with the arrays and maps it writes to, `Types/GoJson`: encoding/json.  Proof: loop invariant of the element loop over all element lists and growth policies; induction over rows.  Proved for rows scanned into variables of their own (C100_*_fresh_rows) and for values that do not share memory (C100_*_others_kept). False for a reused variable: json.Unmarshal writes into the array or map that is already there, so a kept copy changes; exactly when is C100_*_copy_after_next_scan, and C100_strings_reused_all_copies_are_the_last_row / C100_map_reused_all_copies_show_all_rows show what a loop ends with.

**C101 — The default generator gives different hosts different IDs** (partial).  Model: `Flake/Program`: the package's init, the choice of the machine number from path or addresses, FNV-1a on 32-bit vectors.  Proof: case analysis of the sources; disjointness from C05's decomposition of IDs over all executions; FNV's step is a bijection modulo 2^16 (403 is odd).  Proved under the condition that the program's path does not look like a test (C101_hosts_disjoint_partial). False otherwise: a path containing "test" or "debug" anywhere, such as /opt/latest/app, gives every host the same machine number (C101_same_ids_on_every_host, C101_latest). C101_start_panics_iff: the program panics before main exactly when the clock is out of range. C101_one_byte_apart: programs whose paths differ in one byte have different numbers.

**C102 — A listener listens on its provider's database** (partial).  Model: `Notify/Listener`: NewListener's arguments, over `Ids` (provider identities) and `Open` (NewProvider).  Proof: identity of providers is stable over all histories (C98), the string opened is the provider's (C97).  Proved for providers from NewProvider/Open (C102_same_data_source_partial) and for providers made by New and WithConnectionString (C102_after_new), for all histories. False for the provider of a transaction: its listener gets an empty data source (C102_listener_of_a_transaction). lib/pq's listener itself is not modelled.

**C103 — SetDialect governs exactly the statements started later** (proved).  Model: `Xsql/Default`: the package-level default dialect and functions over `World`; entering a function (load of the default) and opening the statement are separate steps of a goroutine.  Proof: refinement: induction over the interleaved program, invariant: every loaded value is the dialect set last at that moment.  Programs with package-level functions equal the programs in which every such call is replaced by a method of the dialect set last (Spec.explicitAll). Values that are no *Dialect make SetDialect panic and change nothing (C103_own_dialects_are_refused).

**C104 — Query parameter builders do not interfere with each other** (partial).  Model: `Query/Heap`: builders whose args, flags and nullColumns are slices into arrays (`Xsql.Heap`), with the caller's variables; `VSt`: the same program on values.  Proof: simulation: builders own their argument arrays and handed-out slices are beginnings of them, flag arrays never change, column arrays are shared as a whole and only permuted; induction over programs.  Proved for programs that do not themselves write into, append to or cut the slices they exchange with builders (C104_builders_do_not_interfere_partial, C104_slices_keep_their_elements_partial). Outside that, counterexamples: two appends to Args() share an element (C104_two_appends_to_args), the builder overwrites an appended argument, written flags become the builder's, overlapping parts of one column list change each other because Name sorts in place (C104_overlapping_columns), and two goroutines whose builders share an unsorted column list may name one query as another (C104_concurrent_names).

**C105 — JSON listings are one faithful document** (partial).  Model: `Types/GoJsonIndent`: the texts of `json.MarshalIndent`; `Cli/Json`: the schema structs with their json tags, printed; read by the JSON parser of `Types/GoJson`.  Proof: printed texts parse at every indentation depth (structural), documents are injective in the value, commands by cases.  Proved for every listing (C105_json_document, C105_output_determines_the_tables, C105_output_determines_the_keys, C105_commands_print_documents). Not true of columns --views -O json: with at least one view the output is two documents and is no JSON text (C105_columns_with_views_is_not_json). json.MarshalIndent of the schema structs is modelled from its documented behaviour; YAML is not modelled.

**C106 — Enum lists become Postgres arrays of the same numbers** (proved).  Model: Types/EnumArray.lean: Int32Array and pq's array text.  Proof: reading back the text by the array reader of C16; wrap-around of int32(uint32).  Exact condition (iff) and injectivity. pq.Int32Array.Value is modelled from its source as known.

**C107 — A row read into a generated model shows the values of the row** (partial).  Model: Gen/Read.lean: the kinds of columns of both databases, what lib/pq and go-mssqldb hand out for each, database/sql's conversion to built-in types, the Scan methods on fresh fields, the generated ScanRow..  Proof: The chosen Go type by enumeration of the type table for every nullability and key-likeness; then per kind with the conversion lemmas (C16, C19, C77); rows by induction..  False in general: a PostgreSQL uuid is read as the empty string without an error (lib/pq hands out 36 bytes, UUID.Scan expects 16 and returns a nil error), negative numbers in key columns wrap, a NOT NULL tinyint above 127 makes the row unreadable (C107_what_the_others_become). Exact: C107_field_shows_the_column_iff and C107_row_shows_the_columns_iff say that these are the only values not shown. Drivers are modelled from their source; float4/real columns are C112, text arrays are C113, numerics beyond the largest double are excluded. C107_wrong_width_refused: a row of another width is refused.

**C108 — Reading a row into a generated model and writing it back changes nothing** (partial).  Model: Gen/WriteBack.lean: the Value methods and database/sql's default conversion per Go type, and what the column stores, composed with Gen/Read.lean..  Proof: Case analysis per kind and value; integers by a closed form of the written-back value; UUID texts by a round trip through hexadecimal; arrays by C16..  False in general; exact: C108_write_back_iff lists the values that do not survive (zero, false and the empty text in nullable columns, zero keys, the zero time, empty key arrays, negative 32-bit keys, tinyint above 127, PostgreSQL uuids), and C108_otherwise_null_or_refused: then the column becomes NULL or the write is refused. C108_uuid_erased: read and write back erases a PostgreSQL uuid. Decimal fractions: C110; float4/real: C112.

**C109 — Generated models saved with a bulk insert and loaded with Bind come back the same** (partial).  Model: Gen/SaveLoad.lean: Value method, column (with arbitrary rounding of instants and texts) and Scan composed per field; Gen/SaveLoadSql.lean: a one-table database that reads INSERT and SELECT statements as text, joined with the builder (C30), Bind (C78) and ScanRow (C107)..  Proof: Per field by case analysis over kinds, UUID texts through an inverse of the hexadecimal reader; the statements' texts from C30 and C78 are tokenised by induction over columns and rows, placeholders resolved by position or number, cells found by distinct column names..  False in general; exact per field: C109_field_saved_and_loaded_iff lists the values that are not kept (zero keys and empty or nil values in NOT NULL columns, numbers outside the column's range, instants and texts the column changes, texts that are no UUID, every UUID in PostgreSQL). C109_saved_models_are_loaded: if no field holds one of these, the two statements, read as text by a small database, save and load the models. The database is a model (one table, INSERT and SELECT of this form, defaults are NULL); decimal fractions are C110, float4/real are C112, text arrays are C113.

**C110 — Amounts in decimal columns survive generated models** (partial).  Model: `Types/Digits15.lean`: decimal literals, the nearest-double relation and the shortest text by its contract; `Gen/Decimal.lean`: what drivers hand out for decimal columns, the field types chosen by `toGoType`, `Float.Scan`/`Value`, rounding to a scale and the refusal of too large amounts..  Proof: Relative error of the nearest double below 10^-15/2, so two amounts of fifteen digits have different nearest doubles; the shortest text has at most as many digits as the amount and so is the amount. The converse by rounding the double to the scale of the column..  Fifteen digits: C110_fifteen_digits_survive (the numbers), C110_amounts_survive (reading and writing back), C110_saved_and_loaded_iff (exact for numeric(p, s) with p at most 15). C110_longer_amounts_change: sixteen digits in SQL Server and seventeen in PostgreSQL are changed silently, so the claim without the bound is false. strconv.FormatFloat(f, 'f', -1, 64) is taken by its documented contract (a shortest decimal that reads back as f; shown to be satisfiable), the rounding of numeric(p, s) is modelled, infinities and NaN are not.

**C111 — Updates, deletions and queries act on exactly the rows that meet all Where conditions, in whatever order the calls are made** (proved).  Model: Gen/ModifyText.lean: the texts and arguments of UPDATE, DELETE and SELECT with conditions for every interleaving of the calls, on every dialect; Gen/Modify.lean: a one-table database that reads them; Gen/ModifyModel.lean: generated models updated and loaded by key..  Proof: The calls are turned into fragments (C22); the fragments of each clause keep their order whatever the interleaving; the PostgreSQL text follows from the token sequence; the texts are tokenised by induction over assignments and conditions, and the rows compared column by column..  C111_update, C111_update_refused, C111_delete, C111_select; C111_model_updated_by_key for generated models. The statements are read as text, with their placeholders, by a small one-table database (no joins, conditions `column = value` joined by AND, arguments converted to the column's type, NULL equal to nothing, equality otherwise arbitrary); Set before Update is dropped by the builder (C30) and excluded.

**C112 — Numbers in single-precision columns survive generated models** (proved).  Model: `Gen/Real.lean`: single precision as numbers m*2^e, the text PostgreSQL prints and what the drivers hand out, the fields chosen by `toGoType`, `Float.Scan`/`Value`, `database/sql`'s conversion to float32 through a shortest text, storing with rounding and range check..  Proof: Between two different single-precision numbers there is a double, so a decimal whose nearest double is a single-precision number rounds to that number; nine digits survive the double (C110's lemma). Converse by reading the stored number back..  C112_singles_survive, C112_float32_saved_and_loaded, C112_float_saved_and_loaded_iff, C112_other_doubles_change. By contract: strconv.FormatFloat (shortest text), one rounding to single precision shared by strconv.ParseFloat(s, 32) and the databases, PostgreSQL's text of a real (at most nine digits, rounds back; version 12 and later); the contracts are shown to be satisfiable (shortest_exists, rounds_exist, prints32_exist). Infinities, NaN and the sign of zero are not modelled.

**C113 — Text arrays survive generated models** (proved).  Model: `Gen/TextArray.lean`: the field chosen by `toGoType`, PostgreSQL's text of an array, lib/pq's parser as a state machine over bytes, its `Value`, PostgreSQL reading that text..  Proof: Induction over the characters of an element and over the elements: each parser inverts the other side's quoting..  C113_field_shows_the_array, C113_arrays_survive, C113_saved_and_loaded_iff. lib/pq's StringArray and parser (third party) are modelled from their source for arrays of one dimension, PostgreSQL's array_out and array_in from their documentation (array_in for the form lib/pq writes); which texts the database accepts is a parameter.

**C114 — Reading a result page by page shows every matching row exactly once** (proved).  Model: Gen/PagesText.lean: calls From/Select/Where/OrderBy/Paginate in any order on the statement model (pbuild, stmt.go:552-808), their text on every dialect; Gen/Pages.lean: a database that reads that text and may answer with any order agreeing with the keys..  Proof: The text from the closed form of rendering (closed_render, every_dialect), parsed back word by word; uniqueness of sorted permutations when ties are equal; induction over the pages for the concatenation; lexicographic order shown total and transitive for existence..  Proved end to end over the text of the statements, on every dialect, with and without line breaks: what the database may answer to a page exactly (C114_page_exact), that there is an answer of the expected length (C114_page_answered), that the pages partition the result if the order distinguishes the matching rows (C114_pages_partition), and the ways it fails: ties (C114_ties_can_repeat), pages too far (C114_far_pages_refused, C114_wrapped_page). The database is a model that reads the SQL text (words, LIMIT and OFFSET with placeholders, one table, conditions column = value); its text syntax is that of PostgreSQL and SQLite, so SQL Server, which has no LIMIT, is covered only as to the text built. The table does not change between the pages.

**C115 — A list endpoint shows every matching row exactly once** (proved).  Model: Gen/ListText.lean: calls From/Select/Where/OrderBy/Limit/Offset in any order; Gen/Endpoint.lean: the database of C114 asked through Query.execPage with the arguments of a Query.Builder, and a client following nextOffset..  Proof: The text by exchanging Limit/Offset with Paginate (C23: only the order within a clause matters); the answer to one page from reading that text; uniqueness of the order; then C41 for the arguments and C36's induction over the pages..  Proved end to end over the text of the statement (list_text), the parameter builder's history (C41) and ExecuteQueryWithPagination (C36): C115_every_matching_row_once, and for plain arguments C115_plain_arguments; that the distinguishing order is needed: C115_ties_can_repeat. The database is the model of C114 (one table, conditions column = value, LIMIT and OFFSET with placeholders: the syntax of PostgreSQL and SQLite, so SQL Server is covered only as to the text); it answers every query it has an answer to without error, the table does not change between the pages, and a row is always converted to a model.

**C116 — A cursor carries its values, integers only as float64** (proved).  Model: Query/CursorJson.lean: EncodeCursor/DecodeCursor with the JSON writer and parser of Types/GoJson*.lean, numbers parsed by Types.parseFloat; Query/CursorPages.lean: the number under key `after`, a database answering `key > after`, a client following cursors (Query.followCursor), Flake.toID..  Proof: The parser reads each member of a compact object up to the delimiter; integers by C76's parse and intDbl_nearest; exactness by the exponent of the last place of a double; paging by C37 with the decoded key, the loop by induction on the number of calls..  encoding/json and base64 are modelled (Types/GoJson*.lean, Query/Cursor.lean); values.MapAny.JSON is json.Marshal and MapAny.UInt64 truncates a float64 or parses text (helper library, not in the sandbox, from its documentation). Values of type float64, times and nested maps are not encoded. Found: C116_generated_ids, C116_rounded_down_never_ends, C116_rounded_up_skips: xdb.ID marshals to a bare JSON number (id.go:50-52), so an ID in a cursor loses its low bits; ID.String() is safe (C116_text_keys_paged).

**C117 — Paging while the table changes: cursors keep the rows that stay, offsets keep positions** (proved).  Model: Query/Changing.lean: the client loops of QueryProps with a database whose rows depend on the number of the call; execCursor and execPage are the modelled query.go functions..  Proof: Induction on the calls with the greatest key shown so far as a bound (⊥ before the first call); termination by counting the keys above the bound; offsets by showing that page t is window t of table t..  The database's answer at each moment is the specification ServesCursor / ServesPages of C36/C37 for the rows it holds at that moment; a row is identified by its key, so an update that keeps the key is a row that stays. The missed row and the repeated row of offset paging are proved as they happen (C117_offset_misses_a_row, C117_offset_shows_a_row_twice) for tables of any length.

**C118 — Paging by key, end to end: built statement, real cursors, every row once** (proved).  Model: Gen/Keyset.lean: the calls and the text they build (by closed_render and every_dialect). Gen/KeysetPages.lean: parseAfter and Table.MayAnswerAfter (database), askAfter (client), execCursor and the cursor codec from Query..  Proof: The text parses back to the query; the possible answers are exactly windows of the rows after the key in key order; keys are unique, so the answer is determined and the database serves cursors in the sense of C37 / C117; then those theorems..  The database is a specification (it may put rows with equal keys in any order and compares whole numbers as numbers); the words of the statement are read by the small parser parseAfter. The client's use of the decoded number (values.MapAny.UInt64, 0 if absent, passed as int64) is modelled in afterNumber; values out of uint64 are outside. C118_equal_keys_skip shows why the keys must differ; keys above 2^53 as numbers: C116.

**C119 — Rows by a list of values: exactly the named rows, each once** (proved).  Model: The calls From, Select, Where, In (inCalls) run through the statement model Xsql.build on every dialect; the text they build (inSql) is read by parseIn; the database (Table.MayAnswerIn) may answer with any order of the rows whose column equals one of the values; ExecuteListQuery is Query.execList..  Proof: in_text from the closed form of the builder (closed_render, every_dialect) with the value list as tokens; in_read over words; the answers characterised exactly (C119_exactly_the_named_rows) by holds/Matches and groupArgs; the list by execList_eq; by key with injectivity of keys..  The database is a specification: the words of the statement are read by the small parser parseIn, a value is compared with the column's equality, and IN () is a syntax error. Values are passed one by one: In(slice) without ... is one value to xsql (stmt.go:714-731), which no driver here expands; that call is outside. C119_by_key assumes that the database's equality on the key column is equality (not so for case-insensitive collations).

**C120 — Creating a row and getting it back: INSERT … RETURNING** (proved).  Model: The calls InsertInto, Set, Returning (createCalls) run through the statement model Xsql.build on every dialect; the text they build (createSql) is read by parseCreate; the database (Table.MayCreate) may add one row with any legal defaults and answers with its columns; QueryRow is Query.queryOne..  Proof: create_text from the closed form of the builder (fragments per position, numbered placeholders); create_read over words; the possible results characterised exactly (C120_created); the returned row by C38_query_row; reading it back by C111_select, matches_key and the uniqueness of keys..  The database is a specification: the words of the statement are read by the small parser parseCreate; defaults (NULL, the next number, the time) are any relation between column, rows and value, and constraints any predicate on the rows. RETURNING is PostgreSQL's (and SQLite's) syntax: the builder writes it for every dialect, other databases refuse it. C120_found_by_the_returned_key assumes that the key is equality on the column and that the caller sends back a value the column stores as the key it was given (C109, C117). Set before InsertInto writes nothing at all (stmt.go SetExpr with no clause to attach to).

**C121 — Taking rows: DELETE … RETURNING gives every row to exactly one caller** (proved).  Model: The calls of a deletion in any order followed by Returning (takeCalls) run through the statement model Xsql.build on every dialect; the text they build (takeSql) is read by parseTake; the database (Table.MayTake) removes the matching rows and answers with them in any order; ExecuteListQuery is Query.execList; histories are the inductive relation Spec.Taken..  Proof: take_text from the closed form of the builder; take_read over words; the possible results characterised exactly (C121_taken); the list by execList_eq; histories by induction, with the taken and the left rows a permutation of the rows..  The database is a specification: the words of the statement are read by the small parser parseTake and each statement is carried out as a whole (one after the other, as a database with transactions guarantees for single statements). A row with NULL in a column of a condition is not taken. RETURNING is PostgreSQL's (and SQLite's) syntax: the builder writes it for every dialect, other databases refuse it. Conditions are column = value.

**C122 — Claiming rows: UPDATE … RETURNING gives no row to two callers** (proved).  Model: The calls of an update in any order followed by Returning (takeCalls) run through the statement model Xsql.build on every dialect; the text they build (claimSql) is read by parseClaim; the database (Table.MayClaim) assigns in the matching rows and answers with these, as they are afterwards, in any order; ExecuteListQuery is Query.execList; histories are the inductive relation Spec.Claimed..  Proof: claim_text from the closed form of the builder; claim_read over words; the possible results characterised exactly (C122_claimed); the list by execList_eq; histories by induction: the keys given out are distinct and belong to rows free at the start..  The database is a specification: the words of the statement are read by the small parser parseClaim and each statement is carried out as a whole, one after the other. Concurrent statements on a database that checks the condition again on the locked row (PostgreSQL's READ COMMITTED) behave so for a single table; weaker databases are outside the model. RETURNING is PostgreSQL's and SQLite's syntax: the builder writes it for every dialect. Conditions are column = value, assignments column = value.

**C123 — Optimistic locking: of the writers that read the same version, one wins** (proved).  Model: The statements and the database of C122; histories of writers with the same key and version are the inductive relation Spec.Raced..  Proof: One statement by row number from C122_claimed (race_step); at most one row changes if the key finds at most one (changed_le); once a row was changed none meets the conditions (C123_later_writers_change_nothing); induction over histories..  The database is the specification of C122 (Table.MayClaim). Each statement is carried out as a whole, one after the other; that is what row locks with a re-check of the condition give for one row. The list returned to the caller is that of C122.


## 6. Axioms of each theorem

P = `propext`, C = `Classical.choice`, Q = `Quot.sound`, – = none. From `#print axioms`; no other axiom occurs.

| Property | Theorem | Axioms |
|---|---|---|
| C01 | `Flake.C01_ids_strictly_increasing` | PCQ |
| C01 | `Flake.C01_ids_unique` | PCQ |
| C01 | `Flake.C01_real_time_order` | PCQ |
| C01 | `Flake.C01_mutual_exclusion` | PCQ |
| C01 | `Flake.C01_no_deadlock` | PCQ |
| C02 | `Flake.C02_machines_disjoint` | PCQ |
| C03 | `Flake.C03_decompose_fields` | PCQ |
| C03 | `Flake.C03_recombine` | PCQ |
| C03 | `Flake.C03_decompose_injective` | PCQ |
| C03 | `Flake.C03_ids_valid` | PCQ |
| C03 | `Flake.C03_decompose_nextID` | PCQ |
| C04 | `Flake.C04_idTime_lower_bound` | PCQ |
| C04 | `Flake.C04_idTime_exact_on_monotone_clock` | PCQ |
| C04 | `Flake.C04_foreign_generator_epoch` | PQ |
| C05 | `Flake.C05_panic_iff` | PCQ |
| C05 | `Flake.C05_panic_is_sticky` | PCQ |
| C05 | `Flake.C05_panic_is_sticky_seq` | PCQ |
| C05 | `Flake.C05_lastID` | PQ |
| C06 | `Flake.C06_restart_unique` | PCQ |
| C06 | `Flake.C06_same_millisecond_repeats` | PQ |
| C07 | `Flake.C07_constructor_panics_iff` | PCQ |
| C07 | `Flake.C07_constructor_result` | PCQ |
| C08 | `Flake.C08_at_most_64_per_unit` | PCQ |
| C08 | `Flake.C08_sleep` | PCQ |
| C08 | `Flake.C08_sleep_until_unit` | PCQ |
| C09 | `Flake.C09_default_machine_id` | PCQ |
| C09 | `Flake.C09_no_address` | PCQ |
| C09 | `Flake.C09_collision_iff` | PCQ |
| C10 | `Types.C10_text_roundtrip` | PCQ |
| C10 | `Types.C10_json_roundtrip` | PCQ |
| C10 | `Types.C10_sql_roundtrip` | PQ |
| C10 | `Types.C10_yaml_roundtrip` | PQ |
| C11 | `Types.C11_set_accepts` | PCQ |
| C11 | `Types.C11_parse_accepts` | PCQ |
| C11 | `Types.C11_parsed_is_valid_iff` | PCQ |
| C11 | `Types.C11_parse_relies_on_evaluation_order` | P |
| C12 | `Types.C12_agree_iff` | PCQ |
| C12 | `Types.C12_text_denotes_number` | PCQ |
| C12 | `Types.C12_text_number_agree_partial` | PCQ |
| C12 | `Types.C12_text_number_agree_fails` | P |
| C12 | `Types.C12_leading_zero_witness` | P |
| C12 | `Types.C12_decorated_texts` | P |
| C13 | `Types.C13_copies_are_names_of_one_object` | PCQ |
| C13 | `Types.C13_set_reaches_iff` | PCQ |
| C13 | `Types.C13_only_set_or_reset_reach_copies` | PQ |
| C13 | `Types.C13_copies_share` | PCQ |
| C13 | `Types.C13_copies_independent_partial` | PCQ |
| C14 | `Types.C14_add` | PQ |
| C14 | `Types.C14_new` | PQ |
| C14 | `Types.C14_concat` | PCQ |
| C14 | `Types.C14_concat_any` | PQ |
| C14 | `Types.C14_contains_overlaps` | PQ |
| C15 | `Types.C15_sort` | PQ |
| C15 | `Types.C15_from_strings` | PCQ |
| C15 | `Types.C15_strings_roundtrip` | PCQ |
| C15 | `Types.C15_array_text` | PCQ |
| C16 | `Types.C16_sql_roundtrip` | PCQ |
| C16 | `Types.C16_scan_resets` | P |
| C17 | `Types.C17_json_roundtrip` | PCQ |
| C17 | `Types.C17_json_text` | PCQ |
| C17 | `Types.C17_sql_roundtrip` | PCQ |
| C17 | `Types.C17_json_range` | PCQ |
| C18 | `Types.C18_scan_overwrites_partial` | PQ |
| C18 | `Types.C18_error_keeps_old` | P |
| C18 | `Types.C18_null_keeps_old` | P |
| C18 | `Types.C18_map_scan_keeps_stale_keys` | PCQ |
| C18 | `Types.C18_map_scan_partial` | P |
| C18 | `Types.C18_overwrites_iff` | PQ |
| C18 | `Types.C18_map_scan_iff` | PCQ |
| C18 | `Types.GoJson.C18_strings_scan_exactly` | PQ |
| C18 | `Types.GoJson.C18_strings_nulls_show_old_memory` | P |
| C18 | `Types.GoJson.C18_map_scan_exactly` | PCQ |
| C19 | `Types.C19_uuid_text` | PQ |
| C19 | `Types.C19_uuid_injective` | PQ |
| C19 | `Types.C19_wrong_length_not_rejected` | P |
| C19 | `Types.C19_all_outcomes` | PQ |
| C20 | `Types.C20_nullstring` | PQ |
| C20 | `Types.C20_uuid_value` | P |
| C21 | `Xsql.C21_args_follow_placeholders` | PCQ |
| C21 | `Xsql.C21_sql_consumes_args` | PCQ |
| C22 | `Xsql.C22_trim_meaning` | P |
| C22 | `Xsql.C22_sql_is_document` | PCQ |
| C22 | `Xsql.C22_canonical_order` | PCQ |
| C22 | `Xsql.C22_join_before_from_loses_keyword` | P |
| C23 | `Xsql.C23_only_order_within_clause_matters` | PCQ |
| C23 | `Xsql.C23_swap` | PCQ |
| C24 | `Xsql.C24_postgres_numbering` | PCQ |
| C24 | `Xsql.C24_ith_placeholder` | PQ |
| C24 | `Xsql.C24_numbers_distinct` | PCQ |
| C25 | `Xsql.C25_rewriter` | PCQ |
| C25 | `Xsql.C25_plain_text_unchanged` | PCQ |
| C25 | `Xsql.C25_lexer` | P |
| C25 | `Xsql.C25_escape_depends_on_neighbours` | P |
| C26 | `Xsql.C26_which_text` | PQ |
| C26 | `Xsql.C26_own_sql_iff` | PQ |
| C26 | `Xsql.C26_asked_again` | P |
| C26 | `Xsql.C26_string_is_own_sql_partial` | PQ |
| C26 | `Xsql.C26_pure_is_own` | P |
| C26 | `Xsql.C26_other_statement_shows_through` | P |
| C26 | `Xsql.C26_argument_count_not_in_key` | P |
| C26 | `Xsql.C26_boundary_not_in_key` | P |
| C26 | `Xsql.C26_key_determines_text_in_order` | PCQ |
| C26 | `Xsql.C26_orderly_programs_partial` | PCQ |
| C27 | `Xsql.C27_pool_carries_nothing_over` | PQ |
| C27 | `Xsql.C27_current_clause_is_recycled` | P |
| C28 | `Xsql.C28_clone_exactly` | PQ |
| C28 | `Xsql.C28_clone_equals_original` | PQ |
| C28 | `Xsql.C28_independent` | PQ |
| C28 | `Xsql.C28_same_continuation_partial` | PQ |
| C28 | `Xsql.C28_clone_forgets_current_clause` | P |
| C28 | `Xsql.C28_clone_forgets_line_breaks` | P |
| C29 | `Xsql.C29_subquery` | PCQ |
| C29 | `Xsql.C29_with` | PCQ |
| C29 | `Xsql.C29_union` | PCQ |
| C29 | `Xsql.C29_empty_prefix_corrupts` | P |
| C29 | `Xsql.C29_embedding_operation` | P |
| C30 | `Xsql.C30_bulk_insert` | PCQ |
| C30 | `Xsql.C30_bulk_insert_postgres` | PCQ |
| C30 | `Xsql.C30_columns_match` | P |
| C30 | `Xsql.C30_insert_set` | PCQ |
| C30 | `Xsql.C30_unchained_handle_loses_comma` | P |
| C30 | `Xsql.C30_update_set` | PCQ |
| C30 | `Xsql.C30_set_values` | PCQ |
| C31 | `Xsql.C31_paging_of_any_sequence` | PCQ |
| C31 | `Xsql.C31_offset_as_asked_iff` | PCQ |
| C31 | `Xsql.C31_last_call_wins` | PCQ |
| C31 | `Xsql.C31_limit_in_sql` | PCQ |
| C31 | `Xsql.C31_offset_in_sql` | PCQ |
| C31 | `Xsql.C31_paginate_partial` | PQ |
| C31 | `Xsql.C31_paginate_keeps_old_offset` | P |
| C31 | `Xsql.C31_limit_after_expr` | P |
| C32 | `Xsql.C32_first_text_is_returned` | PQ |
| C32 | `Xsql.C32_first_call_stores` | PQ |
| C32 | `Xsql.C32_others_unchanged` | PQ |
| C32 | `Xsql.C32_rendered_builder_is_not_stored` | P |
| C32 | `Xsql.C32_foreign_builder_is_stored_elsewhere` | P |
| C33 | `Xsql.C33_own_dialect_decides` | PQ |
| C33 | `Xsql.C33_embedded_is_asked_in_the_neutral_dialect` | PQ |
| C33 | `Xsql.C33_cache_frame` | PQ |
| C33 | `Xsql.C33_other_caches_do_not_matter_partial` | PQ |
| C33 | `Xsql.C33_line_mode_frame` | PQ |
| C33 | `Xsql.C33_embedding_uses_neutral_cache` | P |
| C34 | `Xsql.C34_dest_in_call_order` | PQ |
| C34 | `Xsql.C34_bind` | PQ |
| C35 | `Xsql.C35_named_clause_iff` | PQ |
| C35 | `Xsql.C35_keyword_lost_iff` | PCQ |
| C35 | `Xsql.C35_where_after_clauses_iff` | PCQ |
| C35 | `Xsql.C35_clause_appends` | PCQ |
| C35 | `Xsql.C35_union_appends` | PCQ |
| C35 | `Xsql.C35_tenth_clause_collides` | P |
| C36 | `Query.C36_page_param` | PQ |
| C36 | `Query.C36_every_row_once` | PCQ |
| C36 | `Query.C36_query_params_ask_for_their_page` | P |
| C36 | `Query.C36_no_limit_always_has_next_page` | P |
| C36 | `Query.C36_cut_page_ends_the_loop` | PCQ |
| C37 | `Query.C37_every_row_once` | PCQ |
| C38 | `Query.C38_success_iff` | PCQ |
| C38 | `Query.C38_rows_are_closed` | P |
| C38 | `Query.C38_all_rows_or_error_partial` | PCQ |
| C38 | `Query.C38_cut_stream_is_not_reported` | PCQ |
| C38 | `Query.C38_execute_query` | – |
| C38 | `Query.C38_query_row` | PQ |
| C39 | `Sql.C39_all_rows_or_error` | PCQ |
| C39 | `Sql.C39_every_error_is_reported` | PCQ |
| C39 | `Sql.C39_rows_in_order` | PCQ |
| C39 | `Sql.C39_which_error` | PCQ |
| C39 | `Sql.C39_rows_are_closed` | PCQ |
| C39 | `Sql.C39_panicking_callback_leaks_rows` | P |
| C39 | `Sql.C39_query_row` | PQ |
| C39 | `Sql.C39_sends_own_text_and_args` | P |
| C39 | `Sql.C39_and_close` | P |
| C40 | `Query.C40_names_equal_iff` | PCQ |
| C40 | `Query.C40_name_of_the_first_call` | PQ |
| C40 | `Query.C40_name_is_current_iff` | PQ |
| C40 | `Query.C40_name_identifies_shape_partial` | PCQ |
| C40 | `Query.C40_null_column_order_is_irrelevant` | PQ |
| C40 | `Query.C40_null_columns_collide` | P |
| C40 | `Query.C40_first_page_has_the_name_of_no_page` | P |
| C40 | `Query.C40_name_is_not_updated` | PQ |
| C40 | `Query.C40_first_name_is_current_partial` | PCQ |
| C40 | `Query.C40_name_is_stable` | PQ |
| C41 | `Query.C41_get_query_params` | PQ |
| C41 | `Query.C41_args_in_call_order` | PCQ |
| C41 | `Query.C41_adding_after_paging_panics` | PCQ |
| C41 | `Query.C41_paging_args_last` | PCQ |
| C41 | `Query.C41_reset_starts_over` | PQ |
| C41 | `Query.C41_page_and_cursor` | PCQ |
| C42 | `Query.C42_is_set` | PCQ |
| C42 | `Query.C42_get_enum_and_flags` | PCQ |
| C42 | `Query.C42_out_of_range_rejected` | PQ |
| C42 | `Query.C42_reset_keeps_null_columns` | – |
| C43 | `Query.C43_round_trip` | PQ |
| C43 | `Query.C43_payload_round_trip` | PQ |
| C43 | `Query.C43_url_safe` | PQ |
| C43 | `Query.C43_rejects_corrupted` | PCQ |
| C43 | `Query.C43_decode_cursor_rejects` | PCQ |
| C43 | `Query.C43_not_canonical` | – |
| C44 | `Types.GoJson.C44_go_json_contract` | PCQ |
| C44 | `Types.GoJson.C44_strings_restored_iff` | PCQ |
| C44 | `Types.GoJson.C44_strings_invalid_bytes` | PCQ |
| C44 | `Types.GoJson.C44_metadata_restored_iff` | PCQ |
| C44 | `Types.GoJson.C44_kvset_restored_iff` | PCQ |
| C44 | `Types.GoJson.C44_stored_text_is_acceptable` | PCQ |
| C44 | `Types.C44_map_roundtrip` | PCQ |
| C44 | `Types.C44_strings_roundtrip_partial` | P |
| C44 | `Types.C44_strings_bytes_fail` | PCQ |
| C45 | `Types.C45_merge` | PCQ |
| C45 | `Types.C45_merge_assoc_idem` | PCQ |
| C45 | `Types.C45_ordered_pairs` | PQ |
| C46 | `Types.C46_is_not_found` | PQ |
| C46 | `Types.C46_check_recognised` | PQ |
| C46 | `Types.C46_check_contents` | PQ |
| C46 | `Types.C46_text` | PQ |
| C46 | `Types.C46_is_by_table_and_id` | P |
| C47 | `Types.Mg.C47_merge_fields_partial` | PCQ |
| C47 | `Types.Mg.C47_merge_ties_ids` | PCQ |
| C48 | `Types.Tm.C48_whole_ms` | PQ |
| C48 | `Types.Tm.C48_add` | PQ |
| C48 | `Types.Tm.C48_unix_milli` | PCQ |
| C48 | `Types.Tm.C48_storage` | PQ |
| C48 | `Types.Tm.C48_ptr` | PCQ |
| C48 | `Types.Tm.C48_string` | PCQ |
| C48 | `Types.Tm.C48_parse_partial` | PCQ |
| C48 | `Types.Tm.C48_unknown_text_swallowed` | PCQ |
| C48 | `Types.Tm.C48_json` | PCQ |
| C48 | `Types.Tm.C48_json_null_keeps_old` | P |
| C49 | `Prov.C49_begin_then_one_end` | PQ |
| C49 | `Prov.C49_statements_go_through_their_transaction` | PQ |
| C49 | `Prov.C49_calls` | PQ |
| C50 | `Prov.C50_close_transaction` | PQ |
| C50 | `Prov.C50_close_connection` | PCQ |
| C51 | `Prov.KeepAlive.C51_close_crashes_iff` | PQ |
| C51 | `Prov.KeepAlive.C51_no_panic_partial` | P |
| C51 | `Prov.KeepAlive.C51_quiet_close_partial` | P |
| C51 | `Prov.KeepAlive.C51_close_races_with_ping` | P |
| C51 | `Prov.KeepAlive.C51_goroutine_never_ends` | P |
| C52 | `Schema.C52_exactly_the_matching_tables` | PCQ |
| C52 | `Schema.C52_columns_in_order` | PQ |
| C52 | `Schema.C52_row_order_is_irrelevant` | PCQ |
| C52 | `Schema.C52_never_a_partial_result` | PQ |
| C53 | `Schema.C53_after_any_history_partial` | PCQ |
| C53 | `Schema.C53_history_is_harmless_iff_reachable` | PCQ |
| C53 | `Schema.C53_iteration_order_is_irrelevant_partial` | PCQ |
| C53 | `Schema.C53_earlier_calls_leak_into_the_result` | P |
| C53 | `Schema.C53_only_the_last_foreign_key_of_a_column_is_followed` | P |
| C53 | `Schema.C53_dotted_names_collide` | P |
| C53 | `Schema.C53_discovery_is_complete_partial` | PCQ |
| C53 | `Schema.C53_always_terminates` | PCQ |
| C54 | `Schema.C54_crashes_iff` | PCQ |
| C54 | `Schema.C54_succeeds_iff` | PCQ |
| C54 | `Schema.C54_new_provider_succeeds_iff` | PCQ |
| C54 | `Schema.C54_new_provider_crashes_iff` | PCQ |
| C54 | `Schema.C54_earlier_calls_hide_the_crash` | P |
| C54 | `Schema.C54_dependencies_have_no_indexes` | P |
| C54 | `Schema.C54_indexes_and_primary_key_partial` | PCQ |
| C54 | `Schema.C54_composite_primary_key_is_not_reported` | P |
| C54 | `Schema.C54_index_on_unknown_column_crashes` | PCQ |
| C55 | `Schema.C55_aliased_columns` | PQ |
| C55 | `Schema.C55_calls_do_not_interfere` | PQ |
| C55 | `Schema.C55_select_sql` | PCQ |
| C55 | `Schema.C55_modify_sql` | PCQ |
| C55 | `Schema.C55_insert_sql` | PCQ |
| C55 | `Schema.C55_changed_columns_are_not_seen` | P |
| C56 | `Gen.C56_columns_agree` | PQ |
| C56 | `Gen.C56_dropped_primary_key` | P |
| C57 | `Gen.C57_nullable_columns_accept_null` | PCQ |
| C57 | `Gen.C57_types_accept_null` | P |
| C57 | `Gen.C57_override_ignores_nullability` | P |
| C58 | `Gen.C58_schema_file_content` | PCQ |
| C58 | `Gen.C58_model_files` | PQ |
| C58 | `Gen.C58_schema_files_partial` | PQ |
| C58 | `Gen.C58_schema_file_contains_other_schemas` | P |
| C59 | `Mig.C59_migrate_partial` | PQ |
| C59 | `Mig.C59_setup_failures` | PQ |
| C59 | `Mig.C59_failure_swallowed` | PQ |
| C59 | `Mig.C59_success_iff` | PCQ |
| C60 | `Notify.C60_misdelivery_possible_iff` | PCQ |
| C60 | `Notify.C60_each_once_in_order_partial` | PCQ |
| C60 | `Notify.C60_single_topic_partial` | PQ |
| C60 | `Notify.C60_one_listener_per_topic` | PCQ |
| C60 | `Notify.C60_payload` | P |
| C60 | `Notify.C60_wrong_callback` | P |
| C61 | `Conn.C61_database_selected_partial` | PCQ |
| C61 | `Conn.C61_empty_database_unchanged` | P |
| C61 | `Conn.C61_no_query_loses_database` | P |
| C61 | `Conn.C61_existing_parameter_wins` | PQ |
| C61 | `Conn.C61_host_text_loses_database` | PCQ |
| C61 | `Conn.C61_name_not_escaped` | P |
| C61 | `Conn.C61_dsn_rejected` | PQ |
| C61 | `Conn.C61_quotes_inconsistent` | P |
| C62 | `Types.C62_operands_unchanged_partial` | PQ |
| C62 | `Types.C62_siblings_overwritten` | P |
| C62 | `Types.C62_siblings_overwritten_iff` | PCQ |
| C62 | `Types.C62_sort_in_place` | P |
| C63 | `Types.C63_scan_in_range_partial` | PCQ |
| C63 | `Types.C63_kept_iff_in_range` | PCQ |
| C63 | `Types.C63_out_of_range_wraps` | P |
| C64 | `Prov.C64_honoured_iff` | PQ |
| C64 | `Prov.C64_options_ignored` | PQ |
| C64 | `Prov.C64_default_options_partial` | PQ |
| C65 | `Prov.C65_refused_iff_not_begin` | PQ |
| C65 | `Prov.C65_panics_iff` | PQ |
| C65 | `Prov.C65_closed_provider_fails_partial` | PQ |
| C65 | `Prov.C65_begin_after_close_panics` | PQ |
| C66 | `Mig.C66_failed_open_leaks` | P |
| C66 | `Mig.C66_new_provider_partial` | PQ |
| C66 | `Open.C66_pool_left_open_iff` | PCQ |
| C67 | `Notify.C67_ended_iff` | PQ |
| C67 | `Notify.C67_callbacks_after_the_context_is_done` | PCQ |
| C67 | `Notify.C67_close_does_not_stop` | P |
| C67 | `Notify.C67_context_stops_partial` | PQ |
| C68 | `Conn.C68_parts_recovered` | PQ |
| C69 | `Schema.C69_exactly_the_matching_views` | PCQ |
| C69 | `Schema.C69_never_a_partial_result` | P |
| C70 | `Schema.C70_exactly_the_matching_foreign_keys` | PQ |
| C71 | `Schema.C71_how_many_are_left_open` | PCQ |
| C71 | `Schema.C71_success_closes_every_result_set_partial` | PCQ |
| C71 | `Schema.C71_scan_failure_leaves_rows_open` | P |
| C72 | `Schema.C72_torn_string` | – |
| C72 | `Schema.C72_initialised_before_sharing_partial` | P |
| C72 | `Schema.C72_length_is_always_whole` | P |
| C72 | `Schema.C72_torn_possible_iff` | PCQ |
| C72 | `Schema.C72_whole_after_a_writer_finished` | P |
| C73 | `Gen.C73_integers_fit_partial` | PCQ |
| C73 | `Gen.C73_keys_fit_partial` | PCQ |
| C73 | `Gen.C73_fits_iff` | PCQ |
| C73 | `Gen.C73_tinyint_does_not_fit` | PQ |
| C73 | `Gen.C73_negative_keys_do_not_fit` | PQ |
| C74 | `Gen.C74_declared_once_iff` | PQ |
| C74 | `Gen.C74_column_named_table` | PQ |
| C74 | `Gen.C74_dialect` | PQ |
| C74 | `Gen.C74_two_schemas_redeclare` | PCQ |
| C74 | `Gen.C74_same_package_redeclares` | PQ |
| C74 | `Gen.C74_singular_and_plural_collide` | P |
| C75 | `Gen.C75_what_is_left` | PQ |
| C75 | `Gen.C75_failure_keeps_files_iff` | PCQ |
| C75 | `Gen.C75_success_leaves_no_empty_file_partial` | PQ |
| C75 | `Gen.C75_failure_destroys_the_old_file` | P |
| C76 | `Types.C76_parse_is_nearest` | PCQ |
| C76 | `Types.C76_parse_ties_even` | PCQ |
| C76 | `Types.C76_text` | PCQ |
| C76 | `Types.C76_json_stable` | PCQ |
| C76 | `Types.C76_json_exact_iff` | PCQ |
| C76 | `Types.C76_json_exact` | PCQ |
| C76 | `Types.C76_json_loses` | PCQ |
| C76 | `Types.C76_special_not_json` | P |
| C76 | `Types.C76_json_decode` | PCQ |
| C77 | `Types.C77_value_scan` | PQ |
| C77 | `Types.C77_scan_stores` | PCQ |
| C77 | `Types.C77_scan_null_and_errors` | P |
| C78 | `Gen.C78_bind_selects_the_columns` | PCQ |
| C78 | `Gen.C78_comma_cuts_the_name` | PCQ |
| C78 | `Schema.C78_tag_is_read_back` | PCQ |
| C78 | `Schema.C78_tag_determines_column` | PCQ |
| C78 | `Schema.C78_quote_cuts_the_name` | PCQ |
| C78 | `Schema.C78_backslash_escapes` | PCQ |
| C79 | `Schema.C79_literal_determines_column` | PCQ |
| C80 | `Cli.C80_db_exactly` | PCQ |
| C80 | `Cli.C80_database_honoured_iff` | PCQ |
| C80 | `Cli.C80_schema_exactly` | PCQ |
| C80 | `Cli.C80_stale_schema_provider_iff` | PCQ |
| C80 | `Cli.C80_no_connection_leaks` | PCQ |
| C80 | `Cli.C80_db_is_open_and_kept` | PCQ |
| C80 | `Cli.C80_connects_as_asked` | P |
| C80 | `Cli.C80_custom_schema_provider` | PQ |
| C80 | `Cli.C80_database_name_ignored` | P |
| C80 | `Cli.C80_schema_provider_survives_close` | P |
| C81 | `Cli.C81_one_line_per_table` | PQ |
| C81 | `Cli.C81_failures_print_nothing` | P |
| C81 | `Cli.C81_lines_determine_the_tables` | PQ |
| C81 | `Cli.C81_encoding_error_swallowed` | P |
| C81 | `Cli.C81_columns_partial_output` | P |
| C81 | `Cli.C81_encoded` | P |
| C81 | `Cli.C81_success_iff` | PQ |
| C81 | `Cli.C81_output_of_failures` | PCQ |
| C82 | `Cli.C82_one_row_per_column` | PCQ |
| C82 | `Cli.C82_one_row_per_foreign_key` | P |
| C82 | `Cli.C82_one_row_per_index` | PQ |
| C82 | `Cli.C82_headings` | PQ |
| C83 | `Cli.C83_failure_touches_nothing` | PQ |
| C83 | `Cli.C83_generates_what_was_listed` | PQ |
| C83 | `Cli.C83_package_is_last_element` | PQ |
| C83 | `Cli.C83_package_default` | PQ |
| C83 | `Cli.C83_package_flag` | P |
| C83 | `Cli.C83_overrides_persist` | PQ |
| C83 | `Cli.C83_overrides_apply` | PQ |
| C83 | `Cli.C83_model_refers_to_schema_package` | PQ |
| C84 | `Catalog.Pg.C84_apostrophe_fails_the_listing` | PQ |
| C84 | `Catalog.Pg.C84_exactly_the_tables_of_the_database_partial` | PCQ |
| C85 | `Catalog.C85_postgres_text_iff_no_quote_partial` | PQ |
| C85 | `Catalog.C85_sqlserver_text_iff_no_quote_partial` | PQ |
| C85 | `Catalog.C85_name_becomes_sql` | P |
| C85 | `Catalog.C85_apostrophe_breaks_the_statement` | P |
| C86 | `Catalog.Pg.C86_same_index_name_elsewhere_is_mixed_in` | PCQ |
| C86 | `Catalog.Pg.C86_same_table_in_two_schemas_loses_primary_keys` | PQ |
| C86 | `Catalog.Pg.C86_same_index_name_crashes` | PQ |
| C86 | `Catalog.Pg.C86_include_column_hides_the_primary_key` | PQ |
| C86 | `Catalog.Pg.C86_reported_indexes_exactly` | PCQ |
| C86 | `Catalog.Pg.C86_listing_succeeds_iff` | PCQ |
| C86 | `Catalog.Pg.C86_exactly_the_indexes_of_the_table_partial` | PCQ |
| C87 | `Catalog.Pg.C87_exactly_the_views_of_the_database_partial` | PCQ |
| C87 | `Catalog.Pg.C87_view_without_columns_fails_every_listing` | PCQ |
| C87 | `Catalog.Pg.C87_succeeds_iff_every_view_has_a_column` | PCQ |
| C88 | `Catalog.Pg.C88_every_column_with_every_column` | PCQ |
| C88 | `Catalog.Pg.C88_exactly_the_foreign_keys_partial` | PCQ |
| C88 | `Catalog.Pg.C88_composite_key_is_a_cross_product` | PQ |
| C88 | `Catalog.Pg.C88_same_key_name_mixes_tables` | PQ |
| C88 | `Catalog.Pg.C88_reported_keys_exactly` | PCQ |
| C88 | `Catalog.Pg.C88_exact_iff` | PCQ |
| C89 | `Catalog.Ms.C89_described_indexes_repeat_the_table` | PQ |
| C89 | `Catalog.Ms.C89_how_often_a_table_is_listed` | PCQ |
| C89 | `Catalog.Ms.C89_exactly_the_tables_of_the_database_partial` | PCQ |
| C89 | `Catalog.Ms.C89_documented_table_is_left_out` | PCQ |
| C90 | `Catalog.Ms.C90_same_view_in_two_schemas_doubles_columns` | P |
| C90 | `Catalog.Ms.C90_exactly_the_views_of_the_database_partial` | PCQ |
| C90 | `Catalog.Ms.C90_table_with_the_name_of_a_view_is_listed` | PCQ |
| C90 | `Catalog.Ms.C90_reported_views_exactly` | PCQ |
| C90 | `Catalog.Ms.C90_exact_iff` | PCQ |
| C91 | `Catalog.Ms.C91_index_columns_in_table_order` | PQ |
| C91 | `Catalog.Ms.C91_ampersand_crashes` | PQ |
| C91 | `Catalog.Ms.C91_name_survives_iff` | PQ |
| C91 | `Catalog.Ms.C91_reported_indexes_exactly` | PCQ |
| C91 | `Catalog.Ms.C91_listing_succeeds_iff` | PCQ |
| C91 | `Catalog.Ms.C91_exactly_the_indexes_of_the_table_partial` | PCQ |
| C92 | `Catalog.Ms.C92_exactly_the_foreign_keys` | PCQ |
| C93 | `Xsql.C93_own_slice_untouched` | PCQ |
| C93 | `Xsql.C93_args_kept` | PCQ |
| C93 | `Xsql.C93_world_faithful` | PCQ |
| C93 | `Xsql.C93_args_tail_handed_back` | P |
| C93 | `Xsql.C93_double_close` | P |
| C93 | `Xsql.C93_args_after_close` | P |
| C93 | `Xsql.C93_memory_invisible` | PCQ |
| C93 | `Xsql.C93_statements_apart` | PCQ |
| C94 | `Xsql.C94_goroutines_as_alone` | PCQ |
| C94 | `Xsql.C94_no_waiting` | PQ |
| C94 | `Xsql.C94_uninterrupted` | PQ |
| C94 | `Xsql.C94_first_text_does_not_win` | P |
| C94 | `Xsql.C94_pooled_object_shows_through` | P |
| C95 | `Catalog.Ms.C95_sqlserver_dependencies_partial` | PCQ |
| C95 | `Catalog.Ms.C95_documented_table_is_a_mere_dependency` | PQ |
| C95 | `Catalog.Ms.C95_second_target_is_missed` | PQ |
| C95 | `Catalog.Pg.C95_postgres_dependencies_partial` | PCQ |
| C95 | `Catalog.Pg.C95_composite_key_refers_to_the_wrong_column` | PQ |
| C95 | `Catalog.Pg.C95_same_key_name_misses_a_dependency` | PQ |
| C96 | `Gen.C96_model_text` | PCQ |
| C96 | `Gen.C96_schema_text` | PCQ |
| C96 | `Gen.C96_files` | PCQ |
| C96 | `Gen.C96_quote_in_a_name` | P |
| C96 | `Gen.C96_line_break_in_a_name` | PQ |
| C96 | `Gen.C96_space_in_a_name` | PQ |
| C96 | `Gen.C96_imports_are_not_those_used` | PQ |
| C97 | `Open.C97_success_iff` | PCQ |
| C97 | `Open.C97_provider_is_what_was_opened` | PCQ |
| C97 | `Open.C97_refused_touches_nothing` | PQ |
| C97 | `Open.C97_connection_string_names_the_database` | PCQ |
| C97 | `Open.C97_migrations_directory` | PQ |
| C97 | `Open.C97_nested_reference` | PQ |
| C98 | `Ids.C98_identity_is_stable` | PCQ |
| C98 | `Ids.C98_new` | PQ |
| C98 | `Ids.C98_transaction_identity` | PCQ |
| C98 | `Ids.C98_ids_increase` | PCQ |
| C98 | `Ids.C98_ids_unique` | PCQ |
| C98 | `Ids.C98_id_time` | PCQ |
| C98 | `Ids.C98_same_machine_collides` | PQ |
| C99 | `Cli.C99_no_source` | P |
| C99 | `Cli.C99_connects_to_the_source` | PQ |
| C99 | `Cli.C99_printing` | PQ |
| C99 | `Cli.C99_generating` | P |
| C99 | `Cli.C99_status_and_close` | PCQ |
| C99 | `Cli.C99_success_iff` | PCQ |
| C100 | `Types.GoJson.C100_strings_copy_after_next_scan` | PCQ |
| C100 | `Types.GoJson.C100_strings_others_kept` | PQ |
| C100 | `Types.GoJson.C100_strings_fresh_rows` | PCQ |
| C100 | `Types.GoJson.C100_strings_reused_all_copies_are_the_last_row` | PCQ |
| C100 | `Types.GoJson.C100_map_others_kept` | PQ |
| C100 | `Types.GoJson.C100_metadata_copy_after_next_scan` | PCQ |
| C100 | `Types.GoJson.C100_kvset_copy_after_next_scan` | PCQ |
| C100 | `Types.GoJson.C100_map_reused_all_copies_show_all_rows` | PCQ |
| C100 | `Types.GoJson.C100_metadata_fresh_rows` | PCQ |
| C100 | `Types.GoJson.C100_kvset_fresh_rows` | PCQ |
| C101 | `Flake.C101_which_source` | PCQ |
| C101 | `Flake.C101_hosts_disjoint_partial` | PCQ |
| C101 | `Flake.C101_same_ids_on_every_host` | PQ |
| C101 | `Flake.C101_latest` | PQ |
| C101 | `Flake.C101_start_panics_iff` | PCQ |
| C101 | `Flake.C101_one_byte_apart` | PQ |
| C102 | `Notify.C102_same_data_source_partial` | PCQ |
| C102 | `Notify.C102_listener_of_a_transaction` | PCQ |
| C102 | `Notify.C102_after_new` | PCQ |
| C102 | `Notify.C102_intervals` | PQ |
| C103 | `Xsql.C103_package_functions_use_the_dialect_set_last` | PQ |
| C103 | `Xsql.C103_existing_statements_unaffected` | PQ |
| C103 | `Xsql.C103_own_dialects_are_refused` | PQ |
| C104 | `Query.C104_builders_do_not_interfere_partial` | PCQ |
| C104 | `Query.C104_slices_keep_their_elements_partial` | PCQ |
| C104 | `Query.C104_two_appends_to_args` | PQ |
| C104 | `Query.C104_builder_overwrites_an_appended_argument` | PQ |
| C104 | `Query.C104_written_flags` | PQ |
| C104 | `Query.C104_overlapping_columns` | PQ |
| C104 | `Query.C104_concurrent_names` | P |
| C105 | `Cli.C105_json_document` | PCQ |
| C105 | `Cli.C105_output_determines_the_tables` | PCQ |
| C105 | `Cli.C105_output_determines_the_keys` | PCQ |
| C105 | `Cli.C105_commands_print_documents` | PCQ |
| C105 | `Cli.C105_columns_with_views_is_not_json` | PCQ |
| C106 | `Types.C106_array_of_the_numbers_iff` | PCQ |
| C106 | `Types.C106_different_lists_different_arrays` | PCQ |
| C107 | `Gen.C107_field_shows_the_column_iff` | PCQ |
| C107 | `Gen.C107_row_shows_the_columns_iff` | PCQ |
| C107 | `Gen.C107_what_the_others_become` | PCQ |
| C107 | `Gen.C107_wrong_width_refused` | P |
| C107 | `Gen.C107_list_shows_the_rows` | PCQ |
| C108 | `Gen.C108_write_back_iff` | PCQ |
| C108 | `Gen.C108_otherwise_null_or_refused` | PCQ |
| C108 | `Gen.C108_uuid_erased` | PQ |
| C108 | `Gen.C108_zero_becomes_null` | P |
| C109 | `Gen.C109_field_saved_and_loaded_iff` | PCQ |
| C109 | `Gen.C109_saved_models_are_loaded` | PCQ |
| C110 | `Gen.C110_amounts_survive` | PCQ |
| C110 | `Gen.C110_plain_numeric_keeps_every_double` | PCQ |
| C110 | `Gen.C110_saved_and_loaded_iff` | PCQ |
| C110 | `Gen.C110_longer_amounts_change` | PCQ |
| C110 | `Types.C110_fifteen_digits_survive` | PCQ |
| C111 | `Gen.C111_update` | PCQ |
| C111 | `Gen.C111_update_refused` | PCQ |
| C111 | `Gen.C111_delete` | PCQ |
| C111 | `Gen.C111_select` | PCQ |
| C111 | `Gen.C111_model_updated_by_key` | PCQ |
| C112 | `Gen.C112_singles_survive` | PCQ |
| C112 | `Gen.C112_float32_saved_and_loaded` | PCQ |
| C112 | `Gen.C112_float_saved_and_loaded_iff` | PCQ |
| C112 | `Gen.C112_other_doubles_change` | PCQ |
| C113 | `Gen.C113_field_shows_the_array` | PQ |
| C113 | `Gen.C113_arrays_survive` | PQ |
| C113 | `Gen.C113_saved_and_loaded_iff` | PQ |
| C114 | `Gen.C114_page_exact` | PCQ |
| C114 | `Gen.C114_far_pages_refused` | PCQ |
| C114 | `Gen.C114_wrapped_page` | PCQ |
| C114 | `Gen.C114_pages_partition` | PCQ |
| C114 | `Gen.C114_page_answered` | PCQ |
| C114 | `Gen.C114_order_is_by_the_column` | PCQ |
| C114 | `Gen.C114_ties_can_repeat` | PQ |
| C115 | `Gen.C115_every_matching_row_once` | PCQ |
| C115 | `Gen.C115_plain_arguments` | PCQ |
| C115 | `Gen.C115_ties_can_repeat` | PQ |
| C116 | `Query.C116_values_back` | PCQ |
| C116 | `Query.C116_same_text` | PQ |
| C116 | `Query.C116_nil_map` | PCQ |
| C116 | `Query.C116_integer_exact_iff` | PCQ |
| C116 | `Query.C116_integer_exact` | PCQ |
| C116 | `Query.C116_after_is_nearest` | PCQ |
| C116 | `Query.C116_small_keys_paged` | PCQ |
| C116 | `Query.C116_text_keys_paged` | PCQ |
| C116 | `Query.C116_rounded_down_never_ends` | PCQ |
| C116 | `Query.C116_rounded_up_skips` | PQ |
| C116 | `Query.C116_key_exact_iff` | PCQ |
| C116 | `Query.C116_generated_ids` | PCQ |
| C116 | `Query.C116_neighbours_confused` | PCQ |
| C117 | `Query.C117_cursor_shows_what_stays` | PCQ |
| C117 | `Query.C117_cursor_ends` | PCQ |
| C117 | `Query.C117_offset_shows_positions` | PCQ |
| C117 | `Query.C117_offset_appends_only` | PCQ |
| C117 | `Query.C117_offset_after_one_change` | PCQ |
| C117 | `Query.C117_offset_misses_a_row` | PCQ |
| C117 | `Query.C117_offset_shows_a_row_twice` | PCQ |
| C117 | `Query.C117_cursor_may_never_end` | PCQ |
| C117 | `Query.C117_number_cursors` | PCQ |
| C117 | `Query.C117_text_cursors` | PCQ |
| C118 | `Gen.C118_every_row_once` | PCQ |
| C118 | `Gen.C118_while_rows_change` | PCQ |
| C118 | `Gen.C118_ends` | PCQ |
| C118 | `Gen.C118_equal_keys_skip` | PCQ |
| C119 | `Gen.C119_exactly_the_named_rows` | PCQ |
| C119 | `Gen.C119_the_list` | PCQ |
| C119 | `Gen.C119_by_key` | PCQ |
| C119 | `Gen.C119_null_is_never_found` | PQ |
| C119 | `Gen.C119_no_values_refused` | PCQ |
| C120 | `Gen.C120_created` | PCQ |
| C120 | `Gen.C120_the_caller_gets_the_row` | PCQ |
| C120 | `Gen.C120_found_by_the_returned_key` | PCQ |
| C120 | `Gen.C120_nil_is_null` | PQ |
| C120 | `Gen.C120_integers_are_kept` | PQ |
| C120 | `Gen.C120_named_are_not_sent` | PQ |
| C120 | `Gen.C120_set_before_insert_is_lost` | P |
| C120 | `Gen.C120_set_twice_refused` | PCQ |
| C121 | `Gen.C121_taken` | PCQ |
| C121 | `Gen.C121_the_caller_gets_the_removed_rows` | PCQ |
| C121 | `Gen.C121_every_row_is_taken_once` | PCQ |
| C121 | `Gen.C121_no_key_is_taken_twice` | PCQ |
| C121 | `Gen.C121_no_condition_takes_all` | PCQ |
| C122 | `Gen.C122_claimed` | PCQ |
| C122 | `Gen.C122_the_caller_gets_the_changed_rows` | PCQ |
| C122 | `Gen.C122_no_key_is_claimed_twice` | PCQ |
| C122 | `Gen.C122_a_claim_that_does_not_end_its_condition` | PQ |
| C122 | `Gen.C122_all_free_rows_are_claimed` | PCQ |
| C123 | `Gen.C123_later_writers_change_nothing` | PCQ |
| C123 | `Gen.C123_one_writer_wins` | PCQ |
| C123 | `Gen.C123_the_first_wins` | PCQ |
