# Formal model of effective-security/xdb in Lean 4

## 1. Layout

* `lean/Verif/<Area>/Model.lean` (and the other files without a suffix `Props`, `Lemmas`, `Spec`) – executable model of the Go code; each definition cites the file and lines in /repo it models, and says where it simplifies.
* `lean/Verif/<Area>/Spec.lean`, or sections "Specification" – small specifications written from the English property, independent of the model's helpers.
* `lean/Verif/<Area>/*Lemmas.lean` – helper lemmas (invariants, refinements).
* `lean/Verif/<Area>/*Props.lean` – the property theorems, named `Cnn_…` after the property they prove, each with concrete cases (`example`) that meet its hypotheses.
* `properties.jsonl` – the properties in English.  `MANIFEST.json` – property → theorems, status, what is missing (generated by `tools/manifest.py` from the theorem names and `tools/notes.json`).
* `seeded/LOG.jsonl` – the wrong programs the theorems were tested against.
* This file is generated by `tools/design.py` from `tools/design_head.md`, `tools/plan.json`, the manifest and the output of `#print axioms`.

| Directory | Code modelled |
|---|---|
| `Flake` | pkg/flake/flake.go |
| `Types` | id.go, types.go, time.go, merge.go, the error helpers of query.go and types.go |
| `Query` | query.go, params.go |
| `Sql` | the part of database/sql the code relies on (Rows, Row, Query, Exec), xsql/executor.go |
| `Xsql` | xsql/stmt.go, dialect.go, pool.go, cache.go, util.go |
| `Prov` | prov.go, including the keep-alive goroutine of db.go |
| `Conn` | db.go (connection strings), with net/url |
| `Migrate` | migrate/migrate.go, the constructor NewProvider/Open of db.go |
| `Notify` | pkg/notifier/listener.go |
| `Schema` | schema/schema.go, provider.go, postgres.go, sqlserver.go |
| `Gen` | internal/cli/schema: generate, types.go, template.go |
| `Catalog` | the SQL texts of schema/postgres.go, sqlserver.go, over a model of the two databases' system catalogues |
| `Cli` | internal/cli/cli.go, the commands of internal/cli/schema/schema.go, pkg/print |

## 2. How the code is modelled

* **Values.** Go strings and byte slices are lists of bytes (`Bytes = List UInt8`), fixed-width integers are Lean's `UInt64`, `Int32`, … with Go's wrap-around; `int` is 64 bits. Go maps are key functions or association lists, and wherever the order of iteration can be observed it is an arbitrary parameter. Float64 is a sign and a multiple of 2^-1074 (or ±Inf, NaN).
* **Errors and panics** are results of the model functions; which error it is is kept where a property mentions it.
* **Memory.** Where aliasing matters it is explicit: ID cells live in a heap (`Types/Id.lean`), IDArray values are slices into backing arrays with an arbitrary growth policy (`Types/IdArray.lean`), pooled statements and caches are objects of a `World` (`Xsql/World.lean`), which is proved to be what slices, recycled buffers and object pools amount to (`Xsql/MemModel.lean`, C93). Elsewhere values are immutable (noted in the comments).
* **Concurrency.** Flake generator, statement builders with their caches and pools (C94), provider keep-alive, notifier and TableInfo caches are small-step machines; theorems range over all interleavings of their atomic steps, any number of goroutines and every behaviour of the environment (clock, channel contents, failing calls). Sequential consistency is assumed, except that a Go string is two words (`C72`).
* **Environment.** Database answers, clock readings, connection failures, file write failures, pool choices and map iteration orders are universally quantified inputs.

## 3. Trusted base

1. Lean's kernel (4.33.0), and the three standard axioms `propext`, `Classical.choice`, `Quot.sound`; section 6 lists which theorem uses which. No axiom is added, no proof is left open, no compiled-code decision procedure is used (`decide` and `decide +kernel` are checked by the kernel and are used for concrete cases and for tables of finitely many Go type names only).
2. The reading of the Go code into the model. There is no Go toolchain in the sandbox, the code was read as text. Each definition cites its lines.
3. Contracts of code outside the repository (next section).

## 4. What is modelled and what is assumed

**Modelled, from the repository:** everything listed in the table of section 1, function by function.

**Modelled, from the documentation or source of the Go standard library:** `strconv.ParseUint/ParseInt/FormatUint/FormatInt/AppendInt`, `strconv.ParseFloat` and `%f` (by their contract: correctly rounded, halves to even; the reading of decimal syntax, overflow and the special names is modelled in full), `encoding/base64` raw URL encoding, `net/url` parsing, escaping and query parsing, RFC 3339 formatting and parsing with the proleptic Gregorian calendar, `time.Truncate/UTC/UnixMilli`, `strings.Trim/Split/Join/Cut`, `path.Base`, `reflect.StructTag.Get`, `errors.Is/As` over error trees, `sort`/`slices.Sort` (as sorting), `sync.Pool` (may return any object put before, or a new one), `sync.Mutex`, `database/sql` (Rows: Next/Scan/Err/Close, Row, Tx begin/commit/rollback/done, DB close), channels and `select`.

**Parameters (theorems hold for every instance):** `encoding/json` for printed values (C75 and the like; for `Strings`, `Metadata` and `KVSet` it is modelled in `Types/GoJson*.lean`, default v1 implementation, and for `-O json` listings in `Types/GoJsonIndent.lean` and `Cli/Json.lean`, C105) and yaml encoders, hexadecimal float texts, `strconv.Unquote` on texts with escapes, `strings.EqualFold`, the naming libraries (strcase, pluralize), `format.Source`, the host syntax check of `net/url`, `configloader.ResolveValue`, the FNV hash and the query-name hash, the growth policy of `append`, the table writer's layout, the parser of the type definition file.

**By documented contract:** `time.Sleep` (does not return early), golang-migrate (`Up`, `Migrate`, `Force` succeed, report `ErrNoChange`, or fail), lib/pq's listener (one channel shared by all topics, `nil` after reconnect), mergo (fill empty destination fields / override), the Go values the drivers hand out per column type and what columns store (lib/pq, go-mssqldb; `Gen/Read.lean`, `Gen/WriteBack.lean`, `Gen/SaveLoad.lean`, `Gen/Decimal.lean`, C107–C110; `strconv.FormatFloat(f, 'f', -1, 64)` as a shortest decimal that reads back as `f`; for C109 and C111 a one-table database that runs the builder's `INSERT`, `UPDATE`, `DELETE` and `SELECT` texts; `Gen/SaveLoadSql.lean`, `Gen/Modify.lean`; for C114 and C115 one that pages and orders ties as it likes, `Gen/Pages.lean`, `Gen/Endpoint.lean`, with database/sql's default conversion of arguments (`sentArg`)), the databases: a catalogue is a fixed set of rows answering the provider's queries, and for C84–C92 those rows come from a database through the system views as defined in `Catalog/Pg.lean` and `Catalog/Ms.lean` (written from the vendors' documentation; joins and filters of the queries transcribed by hand); a paged query returns the window of a fixed ordered result.

**Not modelled:** `format.Source` (assumed to fail or keep the tokens of its input, C96); text/template beyond the constructs the four templates use; Go beyond its tokens (parsing and type checking of generated files); the commands' flag parsing (kong); logging and tracing; contexts other than cancellation of transactions, keep-alive and listeners; drivers beyond that; the mocks and test suites; use of a pooled statement after Close; memory models weaker than sequential consistency.

### Findings

Read off the model while proving; each is a theorem unless marked (t) = text only.

* *Types.* Copies of an ID share a pointer (C13, C47). JSON `007` keeps its text (C12). `IDArray.Add` on siblings overwrites, `Sort` works in place (C62). Scan(NULL) is a no-op for ID, ID32, Int64, Int32, Bool, Float; map scans keep stale keys (C18). Integer scans wrap (C63). UUIDs of a wrong length are not rejected (C19), so a PostgreSQL uuid column, which lib/pq hands out as 36 bytes of text, is read as the empty string without an error, and writing the row back erases it (C107, C108). Amounts of more than fifteen digits in decimal columns change silently when a row is read and written back (C110). `Strings.Scan` refuses `[]byte`; strings that are not UTF-8 come back changed, and two such keys may become one (C44). Scanning the next row into the same `Strings`, `Metadata` or `KVSet` variable changes copies kept of it; `null` elements show the previous row; a failed scan leaves a mixture (C18, C100). Time texts that cannot be read are dropped silently (C48). Float JSON keeps six decimals, NaN and infinities become invalid JSON (C76). `ParseID` relies on evaluation order (C11).
* *Statements.* Paging without an order that distinguishes the rows may show a row twice and another never (C114_ties_can_repeat); page·size wraps around at 64 bits: page 2³²+1 of 2³² rows is the first page again (C114_wrapped_page). Join/In before From/Where loses the keyword (C22). `SubQuery("")` corrupts (C29). Cache-key collisions (C26), neutral-dialect cache shared by embedding (C33). Clone forgets the current clause and line mode (C28). `Paginate(1, n)` keeps an old OFFSET, Limit after Expr overwrites another argument (C31). The tenth `Clause` collides (C35). A named query rendered early, or of another dialect, is not stored (C32). `\?` is honoured only in chunks with arguments (C25). Re-used NewRow handles lose a comma (C30). `Args()[1:]` handed back to its statement corrupts the arguments if the array has room; a second `Close`, as with `defer sub.Close()` after `SubQuery(sub)`, makes two later statements one object (C93). Under concurrent GetOrCreateQuery calls with different texts the first text does not stay (C94); `Dialect.UseNewLines` is a data race with every constructor (t). SetDialect panics for a SQLDialect that is not the package's own (C103).
* *Queries.* ExecuteListQuery ignores `rows.Err()` (C38). Without a limit there is always a next page (C36). Panicking callbacks leak rows (C39). Names collide and are not updated (C40). Reset keeps the NULL columns (C42). Cursors are not canonical (C43). An xdb.ID in a cursor becomes a float64 when decoded: from 25 days after the generator's start time on, identifiers of most machines change, and paging by them repeats or hides rows (C116). Paging by offset while rows are deleted misses rows that stay, and repeats rows when rows are inserted (C117). Builders share slices with the caller: appending to Args() twice overwrites, Name sorts the caller's NULL columns in place, which changes overlapping slices and races when the list is shared by goroutines (C104).
* *Provider.* BeginTx ignores its options (C64) and panics after Close (C65). Keep-alive races with Close and never ends (C51). NewProvider leaks the pool on failure (C66). Migrate swallows errors mentioning "no change" (C59). Connection strings: C61. A reference to a reference opens the inner reference text (C97). Transactions lose the connection string (C98), so a listener made from one connects to nothing in particular (C102).
* *Flake.* A program whose path contains "test" or "debug" anywhere, like /opt/latest/app, uses the same machine number on every host: IDs repeat across hosts (C101).
* *Notifier.* One shared channel: callbacks of another topic are called (C60); Close leaves goroutines spinning (C67); `select` picks at random, so callbacks may still come after the context is done (C67_callbacks_after_the_context_is_done).
* *Schema.* Index on an unknown column crashes (C54); earlier calls leak into results, only the last foreign key of a column is followed, dotted names collide (C53); composite primary keys are not reported, dependency tables have no indexes (C54); rows leak on scan errors (C71); column queries interpolate names without escaping: an apostrophe fails the listing or becomes SQL (C85). TableInfo's cache is a data race (C72) and goes stale (C55).
* *Catalogue queries, Postgres.* Indexes are joined by name only: the same table in two schemas loses its primary key or crashes ListTables; INCLUDEd columns count; expression-only and partitioned indexes are missing; the order of index columns is unspecified (C86). A view without columns fails every ListViews (C87). Composite keys become a cross product, keys of the same name mix tables (C88); a listing with dependencies then reports wrong columns or misses a table (C95).
* *Catalogue queries, SQL Server.* A documented table is not listed, described indexes repeat it (C89); with dependencies it may appear as a mere dependency (C95). Views are matched by name only (C90). Index columns come in table order and XML-escaped, `&` crashes (C91). `varchar(max)` is reported with length 4294967295 (C89).
* *Generator.* C56–C58, C73–C75, C78: overrides ignore nullability, tinyint → int8, tables of all schemas accumulate, redeclarations, colliding names, truncated files, cut tags.
* *CLI.* Database name ignored once connected, schema provider survives Close (C80), columns command swallows encoding errors (C81), `columns --views -O json` prints two documents (C105), override maps persist across runs (C83), `--views` filters views by the table names (C99), a failed run does not close its connection (C99).
