{
 "C01": {
  "model": "`Flake`: `NextID` over clock readings; small-step machine of goroutines with the mutex",
  "proof": "invariant on (elapsed time, sequence) over all schedules; the packed ID is monotone in it"
 },
 "C02": {
  "model": "`Flake`: `NextID` over clock readings; small-step machine of goroutines with the mutex",
  "proof": "invariant on (elapsed time, sequence) over all schedules; the packed ID is monotone in it"
 },
 "C03": {
  "model": "`Flake`: packing and `Decompose`",
  "proof": "bit-field arithmetic on naturals"
 },
 "C04": {
  "model": "`Flake`: `NextID`, `IDTime`, sleep",
  "proof": "invariant relating the stored elapsed time to clock readings; integer division bounds"
 },
 "C05": {
  "model": "`Flake`: `NextID`, `IDTime`, sleep",
  "proof": "invariant relating the stored elapsed time to clock readings; integer division bounds"
 },
 "C06": {
  "model": "`Flake`: `NextID` over clock readings; small-step machine of goroutines with the mutex",
  "proof": "invariant on (elapsed time, sequence) over all schedules; the packed ID is monotone in it"
 },
 "C07": {
  "model": "`Flake`: constructor and default machine id over arbitrary interface addresses",
  "proof": "case analysis"
 },
 "C08": {
  "model": "`Flake`: `NextID`, `IDTime`, sleep",
  "proof": "invariant relating the stored elapsed time to clock readings; integer division bounds"
 },
 "C09": {
  "model": "`Flake`: constructor and default machine id over arbitrary interface addresses",
  "proof": "case analysis"
 },
 "C10": {
  "model": "`Types/Id`: codecs over bytes, parse/format of decimal numbers",
  "proof": "digit-list induction; invariant on cells over histories"
 },
 "C11": {
  "model": "`Types/Id`: codecs over bytes, parse/format of decimal numbers",
  "proof": "digit-list induction; invariant on cells over histories"
 },
 "C12": {
  "model": "`Types/Id`: codecs over bytes, parse/format of decimal numbers",
  "proof": "digit-list induction; invariant on cells over histories"
 },
 "C13": {
  "model": "`Types/Id`: heap of ID cells",
  "proof": "non-interference of all operations but Set/Reset; witness"
 },
 "C14": {
  "model": "`Types/IdArray`: slices into backing arrays, arbitrary growth; Postgres array text",
  "proof": "separation of backing arrays, list induction, permutation/sorting lemmas"
 },
 "C15": {
  "model": "`Types/IdArray`: slices into backing arrays, arbitrary growth; Postgres array text",
  "proof": "separation of backing arrays, list induction, permutation/sorting lemmas"
 },
 "C16": {
  "model": "`Types/IdArray`: slices into backing arrays, arbitrary growth; Postgres array text",
  "proof": "separation of backing arrays, list induction, permutation/sorting lemmas"
 },
 "C17": {
  "model": "`Types/Columns`: scalar column types",
  "proof": "per-type round trips and exact scan results"
 },
 "C18": {
  "model": "`Types/Columns`: scalar column types",
  "proof": "per-type round trips and exact scan results"
 },
 "C19": {
  "model": "`Types/Columns`: scalar column types",
  "proof": "per-type round trips and exact scan results"
 },
 "C20": {
  "model": "`Types/Columns`: scalar column types",
  "proof": "per-type round trips and exact scan results"
 },
 "C21": {
  "model": "`Xsql/Model`: the builder on (chunks, buffer, args) exactly as coded",
  "proof": "refinement of the byte-level builder to a document of clauses; lexer of placeholders; induction over call sequences"
 },
 "C22": {
  "model": "`Xsql/Model`: the builder on (chunks, buffer, args) exactly as coded",
  "proof": "refinement of the byte-level builder to a document of clauses; lexer of placeholders; induction over call sequences"
 },
 "C23": {
  "model": "`Xsql/Model`: the builder on (chunks, buffer, args) exactly as coded",
  "proof": "refinement of the byte-level builder to a document of clauses; lexer of placeholders; induction over call sequences"
 },
 "C24": {
  "model": "`Xsql/Model`: the builder on (chunks, buffer, args) exactly as coded",
  "proof": "refinement of the byte-level builder to a document of clauses; lexer of placeholders; induction over call sequences"
 },
 "C25": {
  "model": "`Xsql/Model`: the builder on (chunks, buffer, args) exactly as coded",
  "proof": "refinement of the byte-level builder to a document of clauses; lexer of placeholders; induction over call sequences"
 },
 "C26": {
  "model": "`Xsql/World`: dialects, caches, pool, live statements",
  "proof": "invariants over histories of operations, frame lemmas; witnesses"
 },
 "C27": {
  "model": "`Xsql/World`: dialects, caches, pool, live statements",
  "proof": "invariants over histories of operations, frame lemmas; witnesses"
 },
 "C28": {
  "model": "`Xsql/World`: dialects, caches, pool, live statements",
  "proof": "invariants over histories of operations, frame lemmas; witnesses"
 },
 "C29": {
  "model": "`Xsql/Model`: the builder on (chunks, buffer, args) exactly as coded",
  "proof": "refinement of the byte-level builder to a document of clauses; lexer of placeholders; induction over call sequences"
 },
 "C30": {
  "model": "`Xsql/Model`: the builder on (chunks, buffer, args) exactly as coded",
  "proof": "refinement of the byte-level builder to a document of clauses; lexer of placeholders; induction over call sequences"
 },
 "C31": {
  "model": "`Xsql/Model`: the builder on (chunks, buffer, args) exactly as coded",
  "proof": "refinement of the byte-level builder to a document of clauses; lexer of placeholders; induction over call sequences"
 },
 "C32": {
  "model": "`Xsql/World`: dialects, caches, pool, live statements",
  "proof": "invariants over histories of operations, frame lemmas; witnesses"
 },
 "C33": {
  "model": "`Xsql/World`: dialects, caches, pool, live statements",
  "proof": "invariants over histories of operations, frame lemmas; witnesses"
 },
 "C34": {
  "model": "`Xsql/Model`: the builder on (chunks, buffer, args) exactly as coded",
  "proof": "refinement of the byte-level builder to a document of clauses; lexer of placeholders; induction over call sequences"
 },
 "C35": {
  "model": "`Xsql/Model`: the builder on (chunks, buffer, args) exactly as coded",
  "proof": "refinement of the byte-level builder to a document of clauses; lexer of placeholders; induction over call sequences"
 },
 "C36": {
  "model": "`Query/Model`: paging loop over a database answering windows",
  "proof": "induction on the rest of the result"
 },
 "C37": {
  "model": "`Query/Model`: paging loop over a database answering windows",
  "proof": "induction on the rest of the result"
 },
 "C38": {
  "model": "`Sql/Rows`, `Sql/Exec`, `Query`: row streams with failures at any point",
  "proof": "induction on the stream"
 },
 "C39": {
  "model": "`Sql/Rows`, `Sql/Exec`, `Query`: row streams with failures at any point",
  "proof": "induction on the stream"
 },
 "C40": {
  "model": "`Query/Params`: builder histories",
  "proof": "invariant over histories; injectivity of the name encoding for every hash"
 },
 "C41": {
  "model": "`Query/Params`: builder histories",
  "proof": "invariant over histories; injectivity of the name encoding for every hash"
 },
 "C42": {
  "model": "`Query/Params`: builder histories",
  "proof": "invariant over histories; injectivity of the name encoding for every hash"
 },
 "C43": {
  "model": "`Query/Cursor`: base64",
  "proof": "induction by groups of three bytes"
 },
 "C44": {
  "model": "`Types/Maps`: maps and JSON contract; `Types/GoJson*`: encoding/json (UTF-8, string literals, parser, encoder)",
  "proof": "extensionality of maps, for every iteration order; induction over the runes of a string and over the parser's fuel (shown sufficient for every text)"
 },
 "C45": {
  "model": "`Types/Maps`: maps and JSON contract",
  "proof": "extensionality of maps, for every iteration order"
 },
 "C46": {
  "model": "`Types/Errors`: error trees",
  "proof": "structural induction"
 },
 "C47": {
  "model": "`Types/Merge`: nested structs",
  "proof": "structural induction; witness for shared pointers"
 },
 "C48": {
  "model": "`Types/Time`: instants as integers of nanoseconds, calendar and RFC 3339",
  "proof": "integer arithmetic; calendar inverse proved by periods"
 },
 "C49": {
  "model": "`Prov/Model`: provider and driver state machine",
  "proof": "invariant over histories"
 },
 "C50": {
  "model": "`Prov/Model`: provider and driver state machine",
  "proof": "invariant over histories"
 },
 "C51": {
  "model": "`Prov/KeepAlive`: goroutine steps interleaved with calls",
  "proof": "invariant over schedules; schedule witness"
 },
 "C52": {
  "model": "`Schema/Model`: listing over catalogue rows with failures at any row",
  "proof": "loop invariants; sorting lemmas; permutation invariance"
 },
 "C53": {
  "model": "`Schema/Model`: the discovery loop",
  "proof": "reachability closure: soundness and completeness by invariant, termination by a measure"
 },
 "C54": {
  "model": "`Schema/Model`: index and primary key assembly",
  "proof": "loop invariant; witnesses"
 },
 "C55": {
  "model": "`Schema/Info`: TableInfo on top of the `Xsql` model",
  "proof": "refinement to statement texts"
 },
 "C56": {
  "model": "`Gen/Model`: generate over map orders, files as lists of declarations, events on files",
  "proof": "characterisation of every round of the loop; witnesses"
 },
 "C57": {
  "model": "`Gen/Types`: type mapping",
  "proof": "case analysis over the type tables with ranges of SQL types as specification"
 },
 "C58": {
  "model": "`Gen/Model`: generate over map orders, files as lists of declarations, events on files",
  "proof": "characterisation of every round of the loop; witnesses"
 },
 "C59": {
  "model": "`Migrate/Model`: migration and constructors over outcomes of each call",
  "proof": "case analysis"
 },
 "C60": {
  "model": "`Notify/Model`: listener goroutines, shared channel",
  "proof": "invariant over schedules; schedule witness"
 },
 "C61": {
  "model": "`Conn`: URL parsing and rewriting byte by byte",
  "proof": "inverse of escaping by induction; parser lemmas; witnesses"
 },
 "C62": {
  "model": "`Types/IdArray`: slices into backing arrays, arbitrary growth; Postgres array text",
  "proof": "separation of backing arrays, list induction, permutation/sorting lemmas"
 },
 "C63": {
  "model": "`Types/Columns`: scalar column types",
  "proof": "per-type round trips and exact scan results"
 },
 "C64": {
  "model": "`Prov/Model`: provider and driver state machine",
  "proof": "invariant over histories"
 },
 "C65": {
  "model": "`Prov/Model`: provider and driver state machine",
  "proof": "invariant over histories"
 },
 "C66": {
  "model": "`Migrate/Model`: migration and constructors over outcomes of each call",
  "proof": "case analysis"
 },
 "C67": {
  "model": "`Notify/Model`: listener goroutines, shared channel",
  "proof": "invariant over schedules; schedule witness"
 },
 "C68": {
  "model": "`Conn`: URL parsing and rewriting byte by byte",
  "proof": "inverse of escaping by induction; parser lemmas; witnesses"
 },
 "C69": {
  "model": "`Schema/Model`: listing over catalogue rows with failures at any row",
  "proof": "loop invariants; sorting lemmas; permutation invariance"
 },
 "C70": {
  "model": "`Schema/Model`: listing over catalogue rows with failures at any row",
  "proof": "loop invariants; sorting lemmas; permutation invariance"
 },
 "C71": {
  "model": "`Schema/Model`: listing over catalogue rows with failures at any row",
  "proof": "loop invariants; sorting lemmas; permutation invariance"
 },
 "C72": {
  "model": "`Schema/Info`: two-word string cache under interleaving",
  "proof": "invariant over schedules; schedule witness"
 },
 "C73": {
  "model": "`Gen/Types`: type mapping",
  "proof": "case analysis over the type tables with ranges of SQL types as specification"
 },
 "C74": {
  "model": "`Gen/Model`: generate over map orders, files as lists of declarations, events on files",
  "proof": "characterisation of every round of the loop; witnesses"
 },
 "C75": {
  "model": "`Gen/Model`: generate over map orders, files as lists of declarations, events on files",
  "proof": "characterisation of every round of the loop; witnesses"
 },
 "C76": {
  "model": "`Types/Float*`: IEEE doubles, decimal reading and %f",
  "proof": "rounding proved nearest/ties-to-even against rationals; exact integer arithmetic"
 },
 "C77": {
  "model": "`Types/Float*`: IEEE doubles, decimal reading and %f",
  "proof": "rounding proved nearest/ties-to-even against rationals; exact integer arithmetic"
 },
 "C78": {
  "model": "`Schema/Tag`, `Gen/Bind`: tags, reflection, Bind",
  "proof": "parser of struct tags on generated tags; C22/C34 refinement"
 },
 "C79": {
  "model": "`Schema/Tag`: struct literal",
  "proof": "injectivity of a format by cutting at unambiguous separators"
 },
 "C80": {
  "model": "`Cli/Model`: connection cache of the tool",
  "proof": "invariant over histories"
 },
 "C81": {
  "model": "`Cli/Print`: commands and printers",
  "proof": "list induction"
 },
 "C82": {
  "model": "`Cli/Print`: commands and printers",
  "proof": "list induction"
 },
 "C83": {
  "model": "`Cli/Generate`: the generate command on top of `Gen`",
  "proof": "reduction to C56/C58; path.Base lemmas"
 },
 "C84": {
  "model": "`Catalog/Pg`: the database, its system relations, the queries of postgres.go",
  "proof": "join lemmas, then C52"
 },
 "C85": {
  "model": "`Catalog/Text`: the texts and a lexer of SQL string literals",
  "proof": "induction over the lexer"
 },
 "C86": {
  "model": "`Catalog/Pg`",
  "proof": "join lemmas, then C54"
 },
 "C87": {
  "model": "`Catalog/Pg`",
  "proof": "join lemmas, then C69"
 },
 "C88": {
  "model": "`Catalog/Pg`",
  "proof": "join lemmas, then C70"
 },
 "C89": {
  "model": "`Catalog/Ms`: the same for sqlserver.go",
  "proof": "join lemmas, then C52"
 },
 "C90": {
  "model": "`Catalog/Ms`",
  "proof": "join lemmas, then C69"
 },
 "C91": {
  "model": "`Catalog/Ms`",
  "proof": "join lemmas, FOR XML text, then C54"
 },
 "C92": {
  "model": "`Catalog/Ms`",
  "proof": "join lemmas, then C70"
 },
 "C93": {
  "model": "`Xsql/MemModel`: Go slices over arrays with arbitrary growth, statement objects, pooled buffers, strings pointing into buffers; `Xsql/MemSpec`: values only",
  "proof": "simulation relation (representation and separation of all arrays), kept by every operation; induction over programs"
 },
 "C94": {
  "model": "`Xsql/Conc`: goroutines over the shared state of `Xsql/World`, String, embedding and GetOrCreateQuery split at their accesses to shared state; `Xsql/ConcSpec`: each program alone, without caches and pools",
  "proof": "invariant: for each goroutine the state it would have alone, similar on the variables it still mentions, and what it is still to get back; kept by every step of every goroutine"
 },
 "C95": {
  "model": "Composition of the model of ListTables with dependencies (C53) with the queries of both databases (C84-C92).",
  "proof": "Reachability over query rows is shown to be reachability over the database's foreign keys (induction both ways), the database's guarantees give the hypotheses of C53, and the reported views are computed from the database; counterexamples by kernel computation."
 },
 "C96": {
  "model": "Gen/Tmpl.lean: parser and evaluator for the part of text/template the generator uses; Gen/TmplText.lean: the four templates verbatim; Gen/Text.lean: modelText, schemaText (the bytes handed to format.Source); Gen/GoLex.lean: Go tokens.",
  "proof": "Parsing of the four templates is computed by the kernel; execution is proved equal to a concatenation of pieces for all definitions; a symbolic lexer over text with names (soundness proved once) computes the tokens of each piece, loops by induction. Specification: Spec.fileToks, tokens of Go text written from the declarations of the file."
 },
 "C97": {
  "model": "`Open` and `NewProvider` end to end (`Prov/Open.lean`): resolving, parsing, adding the database (`Conn.Model`), opening, pinging, migrating (`Migrate.Model`), `New`; the trace of what is done outside.",
  "proof": "By cases; the connection string part is composed with C61, the migration with C59."
 },
 "C98": {
  "model": "`Prov.Model` extended by name, connection string and generator of each provider (`Prov/Ids.lean`); `NextID` through a provider is a step of the concurrent machine of `Flake.Model`.",
  "proof": "Invariant: each generator's state is the result of some schedule of its own, and its log is the part of the program's log that went through its providers; then C01 and C02."
 },
 "C99": {
  "model": "`realMain`, `AfterApply`, `DB`, `SchemaProvider` and the commands as one function from command line and environment to a trace (`Cli/Main.lean`), composed with `Prov/Open.lean`, `Cli/Print.lean` and `Cli/Generate.lean`.",
  "proof": "By cases on the command and on the answers; the event-by-event model is shown to print what `Cli.Print` says."
 },
 "C100": {
  "model": "`Types/ScanHeap`, `Types/ScanHeapMaps`: Scan with the arrays and maps it writes to, `Types/GoJson`: encoding/json",
  "proof": "loop invariant of the element loop over all element lists and growth policies; induction over rows"
 },
 "C101": {
  "model": "`Flake/Program`: the package's init, the choice of the machine number from path or addresses, FNV-1a on 32-bit vectors",
  "proof": "case analysis of the sources; disjointness from C05's decomposition of IDs over all executions; FNV's step is a bijection modulo 2^16 (403 is odd)"
 },
 "C102": {
  "model": "`Notify/Listener`: NewListener's arguments, over `Ids` (provider identities) and `Open` (NewProvider)",
  "proof": "identity of providers is stable over all histories (C98), the string opened is the provider's (C97)"
 },
 "C103": {
  "model": "`Xsql/Default`: the package-level default dialect and functions over `World`; entering a function (load of the default) and opening the statement are separate steps of a goroutine",
  "proof": "refinement: induction over the interleaved program, invariant: every loaded value is the dialect set last at that moment"
 },
 "C104": {
  "model": "`Query/Heap`: builders whose args, flags and nullColumns are slices into arrays (`Xsql.Heap`), with the caller's variables; `VSt`: the same program on values",
  "proof": "simulation: builders own their argument arrays and handed-out slices are beginnings of them, flag arrays never change, column arrays are shared as a whole and only permuted; induction over programs"
 },
 "C105": {
  "model": "`Types/GoJsonIndent`: the texts of `json.MarshalIndent`; `Cli/Json`: the schema structs with their json tags, printed; read by the JSON parser of `Types/GoJson`",
  "proof": "printed texts parse at every indentation depth (structural), documents are injective in the value, commands by cases"
 },
 "C106": {
  "model": "Types/EnumArray.lean: Int32Array and pq's array text",
  "proof": "reading back the text by the array reader of C16; wrap-around of int32(uint32)"
 },
 "C107": {
  "model": "Gen/Read.lean: the kinds of columns of both databases, what lib/pq and go-mssqldb hand out for each, database/sql's conversion to built-in types, the Scan methods on fresh fields, the generated ScanRow.",
  "proof": "The chosen Go type by enumeration of the type table for every nullability and key-likeness; then per kind with the conversion lemmas (C16, C19, C77); rows by induction."
 },
 "C108": {
  "model": "Gen/WriteBack.lean: the Value methods and database/sql's default conversion per Go type, and what the column stores, composed with Gen/Read.lean.",
  "proof": "Case analysis per kind and value; integers by a closed form of the written-back value; UUID texts by a round trip through hexadecimal; arrays by C16."
 },
 "C109": {
  "model": "Gen/SaveLoad.lean: Value method, column (with arbitrary rounding of instants and texts) and Scan composed per field; Gen/SaveLoadSql.lean: a one-table database that reads INSERT and SELECT statements as text, joined with the builder (C30), Bind (C78) and ScanRow (C107).",
  "proof": "Per field by case analysis over kinds, UUID texts through an inverse of the hexadecimal reader; the statements' texts from C30 and C78 are tokenised by induction over columns and rows, placeholders resolved by position or number, cells found by distinct column names."
 },
 "C110": {
  "model": "`Types/Digits15.lean`: decimal literals, the nearest-double relation and the shortest text by its contract; `Gen/Decimal.lean`: what drivers hand out for decimal columns, the field types chosen by `toGoType`, `Float.Scan`/`Value`, rounding to a scale and the refusal of too large amounts.",
  "proof": "Relative error of the nearest double below 10^-15/2, so two amounts of fifteen digits have different nearest doubles; the shortest text has at most as many digits as the amount and so is the amount. The converse by rounding the double to the scale of the column."
 },
 "C111": {
  "model": "Gen/ModifyText.lean: the texts and arguments of UPDATE, DELETE and SELECT with conditions for every interleaving of the calls, on every dialect; Gen/Modify.lean: a one-table database that reads them; Gen/ModifyModel.lean: generated models updated and loaded by key.",
  "proof": "The calls are turned into fragments (C22); the fragments of each clause keep their order whatever the interleaving; the PostgreSQL text follows from the token sequence; the texts are tokenised by induction over assignments and conditions, and the rows compared column by column."
 },
 "C112": {
  "model": "`Gen/Real.lean`: single precision as numbers m*2^e, the text PostgreSQL prints and what the drivers hand out, the fields chosen by `toGoType`, `Float.Scan`/`Value`, `database/sql`'s conversion to float32 through a shortest text, storing with rounding and range check.",
  "proof": "Between two different single-precision numbers there is a double, so a decimal whose nearest double is a single-precision number rounds to that number; nine digits survive the double (C110's lemma). Converse by reading the stored number back."
 },
 "C113": {
  "model": "`Gen/TextArray.lean`: the field chosen by `toGoType`, PostgreSQL's text of an array, lib/pq's parser as a state machine over bytes, its `Value`, PostgreSQL reading that text.",
  "proof": "Induction over the characters of an element and over the elements: each parser inverts the other side's quoting."
 },
 "C114": {
  "model": "Gen/PagesText.lean: calls From/Select/Where/OrderBy/Paginate in any order on the statement model (pbuild, stmt.go:552-808), their text on every dialect; Gen/Pages.lean: a database that reads that text and may answer with any order agreeing with the keys.",
  "proof": "The text from the closed form of rendering (closed_render, every_dialect), parsed back word by word; uniqueness of sorted permutations when ties are equal; induction over the pages for the concatenation; lexicographic order shown total and transitive for existence."
 },
 "C115": {
  "model": "Gen/ListText.lean: calls From/Select/Where/OrderBy/Limit/Offset in any order; Gen/Endpoint.lean: the database of C114 asked through Query.execPage with the arguments of a Query.Builder, and a client following nextOffset.",
  "proof": "The text by exchanging Limit/Offset with Paginate (C23: only the order within a clause matters); the answer to one page from reading that text; uniqueness of the order; then C41 for the arguments and C36's induction over the pages."
 },
 "C116": {
  "model": "Query/CursorJson.lean: EncodeCursor/DecodeCursor with the JSON writer and parser of Types/GoJson*.lean, numbers parsed by Types.parseFloat; Query/CursorPages.lean: the number under key `after`, a database answering `key > after`, a client following cursors (Query.followCursor), Flake.toID.",
  "proof": "The parser reads each member of a compact object up to the delimiter; integers by C76's parse and intDbl_nearest; exactness by the exponent of the last place of a double; paging by C37 with the decoded key, the loop by induction on the number of calls."
 },
 "C117": {
  "model": "Query/Changing.lean: the client loops of QueryProps with a database whose rows depend on the number of the call; execCursor and execPage are the modelled query.go functions.",
  "proof": "Induction on the calls with the greatest key shown so far as a bound (⊥ before the first call); termination by counting the keys above the bound; offsets by showing that page t is window t of table t."
 },
 "C118": {
  "model": "Gen/Keyset.lean: the calls and the text they build (by closed_render and every_dialect). Gen/KeysetPages.lean: parseAfter and Table.MayAnswerAfter (database), askAfter (client), execCursor and the cursor codec from Query.",
  "proof": "The text parses back to the query; the possible answers are exactly windows of the rows after the key in key order; keys are unique, so the answer is determined and the database serves cursors in the sense of C37 / C117; then those theorems."
 },
 "C119": {
  "model": "The calls From, Select, Where, In (inCalls) run through the statement model Xsql.build on every dialect; the text they build (inSql) is read by parseIn; the database (Table.MayAnswerIn) may answer with any order of the rows whose column equals one of the values; ExecuteListQuery is Query.execList.",
  "proof": "in_text from the closed form of the builder (closed_render, every_dialect) with the value list as tokens; in_read over words; the answers characterised exactly (C119_exactly_the_named_rows) by holds/Matches and groupArgs; the list by execList_eq; by key with injectivity of keys."
 },
 "C120": {
  "model": "The calls InsertInto, Set, Returning (createCalls) run through the statement model Xsql.build on every dialect; the text they build (createSql) is read by parseCreate; the database (Table.MayCreate) may add one row with any legal defaults and answers with its columns; QueryRow is Query.queryOne.",
  "proof": "create_text from the closed form of the builder (fragments per position, numbered placeholders); create_read over words; the possible results characterised exactly (C120_created); the returned row by C38_query_row; reading it back by C111_select, matches_key and the uniqueness of keys."
 },
 "C121": {
  "model": "The calls of a deletion in any order followed by Returning (takeCalls) run through the statement model Xsql.build on every dialect; the text they build (takeSql) is read by parseTake; the database (Table.MayTake) removes the matching rows and answers with them in any order; ExecuteListQuery is Query.execList; histories are the inductive relation Spec.Taken.",
  "proof": "take_text from the closed form of the builder; take_read over words; the possible results characterised exactly (C121_taken); the list by execList_eq; histories by induction, with the taken and the left rows a permutation of the rows."
 },
 "C122": {
  "model": "The calls of an update in any order followed by Returning (takeCalls) run through the statement model Xsql.build on every dialect; the text they build (claimSql) is read by parseClaim; the database (Table.MayClaim) assigns in the matching rows and answers with these, as they are afterwards, in any order; ExecuteListQuery is Query.execList; histories are the inductive relation Spec.Claimed.",
  "proof": "claim_text from the closed form of the builder; claim_read over words; the possible results characterised exactly (C122_claimed); the list by execList_eq; histories by induction: the keys given out are distinct and belong to rows free at the start."
 },
 "C123": {
  "model": "The statements and the database of C122; histories of writers with the same key and version are the inductive relation Spec.Raced.",
  "proof": "One statement by row number from C122_claimed (race_step); at most one row changes if the key finds at most one (changed_le); once a row was changed none meets the conditions (C123_later_writers_change_nothing); induction over histories."
 }
}