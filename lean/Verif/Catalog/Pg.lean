import Verif.Catalog.Text
import Verif.Schema.Spec
set_option linter.unusedVariables false
/-!
The five queries of schema/postgres.go over a Postgres database.

`Db` is the database as its users know it: relations with their columns, indexes and constraints.  From it are derived the system relations the queries read
(`information_schema.tables`, `.columns`, `.table_constraints`, `.key_column_usage`, `.constraint_column_usage`, `pg_class`, `pg_index`, `pg_attribute`, `pg_indexes`),
with the columns the queries use; they are part of Postgres, not of the repository, and are assumed to be as written here.  The queries are list comprehensions over them.
SQL leaves the order of rows without `ORDER BY` open and `ORDER BY` depends on the collation, so an answer is any permutation; the same holds for the order
inside `array_agg`.

Not modelled: privileges (the connected role owns everything), dropped and system columns (they are never part of an index key), time-outs and lost connections
(`Schema.Catalogue` has those), other kinds of relations (sequences, composite types, TOAST).
-/
namespace Catalog.Pg
open Schema (Rows TableRow ColRow IdxRow FkRow Catalogue)

/-- Kinds of relations; `temp` is a temporary table. -/
inductive Kind where
  | table | temp | partitioned | foreign | view | matview
  deriving DecidableEq, Repr

/-- A column: its number is 1 for the first one ever created and never changes. -/
structure Att where
  num : Int
  name : Bytes
  type : Bytes
  udt : Bytes
  nullable : Bool
  maxLen : Option Int
  deriving DecidableEq, Repr

/-- An index: numbers of its columns, 0 for an expression; the first `nkeys` are the key, the others are `INCLUDE`d. -/
structure Idx where
  oid : Nat
  name : Bytes
  primary : Bool
  unique : Bool
  key : List Int
  nkeys : Nat
  deriving DecidableEq, Repr

inductive ConKind where
  | primary | unique | check | foreign
  deriving DecidableEq, Repr

/-- A constraint of a table on `cols`; a foreign key refers to `refCols` of another table. -/
structure Con where
  name : Bytes
  kind : ConKind
  cols : List Bytes
  refSchema : Bytes
  refTable : Bytes
  refCols : List Bytes
  deriving DecidableEq, Repr

/-- A relation. -/
structure Rel where
  oid : Nat
  schema : Bytes
  name : Bytes
  kind : Kind
  atts : List Att
  idxs : List Idx
  cons : List Con
  deriving DecidableEq, Repr

/-- A database. -/
abbrev Db := List Rel

/-- What Postgres guarantees of every database. -/
structure WF (db : Db) : Prop where
  /-- object identifiers of relations (tables and indexes share `pg_class`) -/
  oids : ((db.map (·.oid)) ++ db.flatMap (fun r => r.idxs.map (·.oid))).Nodup
  /-- one relation per schema and name -/
  names : (db.map (fun r => (r.schema, r.name))).Nodup
  /-- index names are unique in a schema -/
  idxNames : (db.flatMap (fun r => r.idxs.map (fun i => (r.schema, i.name)))).Nodup
  /-- columns have increasing numbers from 1 on, and distinct names -/
  nums : ∀ r ∈ db, r.atts.Pairwise (fun a b => a.num < b.num)
  numRange : ∀ r ∈ db, ∀ a ∈ r.atts, 0 < a.num ∧ a.num < 2 ^ 32
  attNames : ∀ r ∈ db, (r.atts.map (·.name)).Nodup
  /-- constraint names are unique in a table -/
  conNames : ∀ r ∈ db, (r.cons.map (·.name)).Nodup
  lens : ∀ r ∈ db, ∀ a ∈ r.atts, ∀ n, a.maxLen = some n → 0 ≤ n ∧ n < 2 ^ 32

/-! ### System relations -/

/-- `table_type` of `information_schema.tables`; materialized views are not in it. -/
def tableType : Kind → Option Bytes
  | .table => some b!"BASE TABLE"
  | .partitioned => some b!"BASE TABLE"
  | .temp => some b!"LOCAL TEMPORARY"
  | .foreign => some b!"FOREIGN"
  | .view => some b!"VIEW"
  | .matview => none

/-- `information_schema.tables`. -/
def infoTables (db : Db) : List TableRow := db.filterMap (fun r => (tableType r.kind).map (fun t => ⟨r.schema, r.name, t⟩))

/-- `information_schema.columns`: schema, table and column. -/
def infoColumns (db : Db) : List (Bytes × Bytes × ColRow) :=
  db.flatMap (fun r => if r.kind = .matview then [] else
    r.atts.map (fun a => (r.schema, r.name, ⟨a.name, a.type, a.udt, if a.nullable then b!"YES" else b!"NO", a.maxLen, a.num⟩)))

/-- `relkind` of `pg_class`. -/
def relkind : Kind → UInt8
  | .table => c!"r"
  | .temp => c!"r"
  | .partitioned => c!"p"
  | .foreign => c!"f"
  | .view => c!"v"
  | .matview => c!"m"

/-- `pg_class`: oid, relname, relkind; relations and indexes (`i`, or `I` on a partitioned table). -/
def pgClass (db : Db) : List (Nat × Bytes × UInt8) :=
  db.map (fun r => (r.oid, r.name, relkind r.kind)) ++
  db.flatMap (fun r => r.idxs.map (fun i => (i.oid, i.name, if r.kind = .partitioned then c!"I" else c!"i")))

/-- Row of `pg_index`. -/
structure IndexRow where
  indexrelid : Nat
  indrelid : Nat
  indisprimary : Bool
  indisunique : Bool
  indkey : List Int

/-- `pg_index`. -/
def pgIndex (db : Db) : List IndexRow := db.flatMap (fun r => r.idxs.map (fun i => ⟨i.oid, r.oid, i.primary, i.unique, i.key⟩))

/-- `pg_attribute` of tables: attrelid, attname, attnum. -/
def pgAttribute (db : Db) : List (Nat × Bytes × Int) := db.flatMap (fun r => r.atts.map (fun a => (r.oid, a.name, a.num)))

/-- The view `pg_indexes`: schemaname, tablename, indexname, of tables, materialized views and partitioned tables. -/
def pgIndexes (db : Db) : List (Bytes × Bytes × Bytes) :=
  db.flatMap (fun r => if relkind r.kind ∈ [c!"r", c!"m", c!"p"] then r.idxs.map (fun i => (r.schema, r.name, i.name)) else [])

/-- `information_schema.table_constraints`: schema and name of the table, constraint_name, and whether it is a foreign key. -/
def tableConstraints (db : Db) : List (Bytes × Bytes × Bytes × Bool) :=
  db.flatMap (fun r => r.cons.map (fun c => (r.schema, r.name, c.name, decide (c.kind = .foreign))))

/-- `information_schema.key_column_usage`: table_schema, constraint_name, column_name; not for check constraints. -/
def keyColumnUsage (db : Db) : List (Bytes × Bytes × Bytes) :=
  db.flatMap (fun r => r.cons.flatMap (fun c => if c.kind = .check then [] else c.cols.map (fun n => (r.schema, c.name, n))))

/-- `information_schema.constraint_column_usage`: constraint_name, and the columns a constraint uses: those a foreign key refers to, its own otherwise. -/
def constraintColumnUsage (db : Db) : List (Bytes × Bytes × Bytes × Bytes) :=
  db.flatMap (fun r => r.cons.flatMap (fun c =>
    if c.kind = .foreign then c.refCols.map (fun n => (c.name, c.refSchema, c.refTable, n)) else c.cols.map (fun n => (c.name, r.schema, r.name, n))))

/-! ### The queries -/

/-- The schemas the queries leave out. -/
def systemSchemas : List Bytes := [b!"pg_catalog", b!"information_schema"]

/-- postgres.go:15-29 `postgresTableNamesWithSchema`. -/
def queryTables (db : Db) : List TableRow :=
  (infoTables db).filter (fun r => r.type ∈ [b!"BASE TABLE", b!"FOREIGN"] ∧ r.schema ∉ systemSchemas)

/-- postgres.go:36-41: what the statement asks for when it is read as intended. -/
def queryColumns (db : Db) (s t : Bytes) : List ColRow := ((infoColumns db).filter (fun c => c.1 = s ∧ c.2.1 = t)).map (·.2.2)

/-- postgres.go:46-62 `postgresQueryViews`: a left join, so a view without columns has one row of NULLs (`none`: `Scan` into a string fails). -/
def queryViews (db : Db) : List (Option (Bytes × Bytes × ColRow)) :=
  ((infoTables db).filter (fun t => t.type = b!"VIEW" ∧ t.schema ∉ systemSchemas)).flatMap (fun t =>
    let cs := (infoColumns db).filter (fun c => t.schema = c.1 ∧ t.name = c.2.1)
    if cs = [] then [none] else cs.map (fun c => some (t.schema, t.name, c.2.2)))

/-- postgres.go:68-95 `postgresQueryIndexes` before grouping: index name, flags and the name of one column.  (`FROM` lists the relations in another order, which is
irrelevant: the result is a set of combinations.) -/
def indexJoin (db : Db) (schema table : Bytes) : List ((Bytes × Bool × Bool) × Bytes) :=
  (pgIndex db).flatMap (fun ix => (pgClass db).flatMap (fun t => (pgClass db).flatMap (fun i => (pgAttribute db).flatMap (fun a => (pgIndexes db).flatMap (fun ixs =>
    if t.1 = ix.indrelid ∧ i.1 = ix.indexrelid ∧ a.1 = t.1 ∧ a.2.2 ∈ ix.indkey ∧ t.2.2 = c!"r" ∧ ixs.2.2 = i.2.1 ∧ ixs.1 = schema ∧ ixs.2.1 = table
    then [((i.2.1, ix.indisprimary, ix.indisunique), a.2.1)] else [])))))

/-- postgres.go:73, 89-92: one row per group, with the group's column names in any order (`array_to_string(array_agg(..), ',')`). -/
structure Grouped (j : List ((Bytes × Bool × Bool) × Bytes)) (rows : List IdxRow) : Prop where
  once : (rows.map (fun r => (r.name, r.isPrimary, r.isUnique))).Nodup
  groups : ∀ k, k ∈ rows.map (fun r => (r.name, r.isPrimary, r.isUnique)) ↔ k ∈ j.map (·.1)
  agg : ∀ r ∈ rows, ∃ l, l.Perm ((j.filter (fun x => x.1 = (r.name, r.isPrimary, r.isUnique))).map (·.2)) ∧ r.columnNames = Types.joinComma l

/-- postgres.go:101-117 `postgresQueryForeignKeys`. -/
def queryForeignKeys (db : Db) : List FkRow :=
  (tableConstraints db).flatMap (fun tc => (keyColumnUsage db).flatMap (fun kcu => (constraintColumnUsage db).flatMap (fun ccu =>
    if tc.2.2.1 = kcu.2.1 ∧ tc.1 = kcu.1 ∧ ccu.1 = tc.2.2.1 ∧ tc.2.2.2 = true
    then [⟨tc.2.2.1, tc.1, tc.2.1, kcu.2.2, ccu.2.1, ccu.2.2.1, ccu.2.2.2⟩] else [])))

/-- All rows of an answer can be read, and they are those of the query, in some order. -/
def answer {ρ : Type} (q : Option (Rows ρ)) (l : List ρ) : Prop := ∃ l' : List ρ, l'.Perm l ∧ q = some ⟨l'.map some, false⟩

/-- The catalogue queries are answered by database `db` (postgres.go:31-33, 43, 64-66, 97-99, 119-121). -/
structure Answers (db : Db) (cat : Catalogue) : Prop where
  tables : answer cat.tables (queryTables db)
  columns : ∀ s t a b, tokens (pgColumnsText s t) = some (Spec.pgColumnsOf a b) → answer (cat.columns s t) (queryColumns db a b)
  indexes : ∀ s t, ∃ rows, Grouped (indexJoin db s t) rows ∧ cat.indexes s t = some ⟨rows.map some, false⟩
  fkeys : answer cat.fkeys (queryForeignKeys db)
  views : ∃ l, l.Perm (queryViews db) ∧ cat.views = some ⟨l, false⟩

end Catalog.Pg
