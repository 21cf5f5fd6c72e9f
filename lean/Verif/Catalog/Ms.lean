import Verif.Catalog.Text
import Verif.Schema.Spec
set_option linter.unusedVariables false
/-!
The five queries of schema/sqlserver.go over a SQL Server database.

`Db` is the database as its users know it; the system views the queries read (`sys.tables`, `sys.views`, `sys.objects`, `sys.schemas`, `sys.extended_properties`, `sys.indexes`,
`sys.index_columns`, `sys.columns`, `sys.foreign_key_columns`, `INFORMATION_SCHEMA.COLUMNS`) are derived from it and assumed to be as written here.
Names are compared as bytes (a binary collation).  As with Postgres the order of rows is open.

Not modelled: permissions, collations, indexed views, other kinds of objects.
-/
namespace Catalog.Ms
open Schema (Rows TableRow ColRow IdxRow FkRow Catalogue)

/-- A column; `maxLen` is -1 for `varchar(max)`. -/
structure Col where
  id : Nat
  ordinal : Int
  name : Bytes
  type : Bytes
  nullable : Bool
  maxLen : Option Int
  deriving DecidableEq, Repr

/-- An index: `id` 0 is the heap itself; identifiers of its key columns in key order, and of its `INCLUDE`d columns. -/
structure Idx where
  id : Nat
  name : Bytes
  primary : Bool
  unique : Bool
  key : List Nat
  included : List Nat
  deriving DecidableEq, Repr

/-- A foreign key: pairs of a column and the column it refers to. -/
structure Fk where
  oid : Nat
  name : Bytes
  ref : Nat
  pairs : List (Nat × Nat)
  deriving DecidableEq, Repr

inductive Kind where
  | table | view
  deriving DecidableEq, Repr

/-- A table or view. -/
structure Rel where
  oid : Nat
  schemaId : Nat
  name : Bytes
  kind : Kind
  shipped : Bool
  cols : List Col
  idxs : List Idx
  fks : List Fk
  deriving DecidableEq, Repr

/-- An extended property: `class_desc`, `major_id` and `name`. -/
structure ExtProp where
  cls : Bytes
  major : Nat
  name : Bytes
  deriving DecidableEq, Repr

structure Db where
  schemas : List (Nat × Bytes)
  rels : List Rel
  props : List ExtProp

/-- `schema_name(id)`. -/
def schemaName (db : Db) (id : Nat) : Bytes := (db.schemas.lookup id).getD []

/-- What SQL Server guarantees of every database. -/
structure WF (db : Db) : Prop where
  schemaIds : (db.schemas.map (·.1)).Nodup
  schemaNames : (db.schemas.map (·.2)).Nodup
  /-- relations and constraints share `sys.objects` -/
  oids : ((db.rels.map (·.oid)) ++ db.rels.flatMap (fun r => r.fks.map (·.oid))).Nodup
  names : (db.rels.map (fun r => (r.schemaId, r.name))).Nodup
  hasSchema : ∀ r ∈ db.rels, r.schemaId ∈ db.schemas.map (·.1)
  colIds : ∀ r ∈ db.rels, (r.cols.map (·.id)).Nodup
  colOrds : ∀ r ∈ db.rels, r.cols.Pairwise (fun a b => a.ordinal < b.ordinal)
  ordRange : ∀ r ∈ db.rels, ∀ c ∈ r.cols, 0 < c.ordinal ∧ c.ordinal < 2 ^ 32
  colNames : ∀ r ∈ db.rels, (r.cols.map (·.name)).Nodup
  lens : ∀ r ∈ db.rels, ∀ c ∈ r.cols, ∀ n, c.maxLen = some n → -1 ≤ n ∧ n < 2 ^ 31
  /-- an index has a column -/
  idxCols : ∀ r ∈ db.rels, ∀ i ∈ r.idxs, 0 < i.id → ∃ c ∈ r.cols, c.id ∈ i.key ++ i.included
  idxNames : ∀ r ∈ db.rels, ((r.idxs.filter (fun i => 0 < i.id)).map (·.name)).Nodup
  /-- a column is in an index once -/
  idxOnce : ∀ r ∈ db.rels, ∀ i ∈ r.idxs, (i.key ++ i.included).Nodup
  idxIds : ∀ r ∈ db.rels, (r.idxs.map (·.id)).Nodup
  /-- views have columns -/
  viewCols : ∀ r ∈ db.rels, r.kind = .view → r.cols ≠ []
  /-- foreign keys are between columns of tables -/
  fkTables : ∀ r ∈ db.rels, r.fks ≠ [] → r.kind = .table
  fkRefs : ∀ r ∈ db.rels, ∀ k ∈ r.fks, ∃ r' ∈ db.rels, r'.oid = k.ref ∧ r'.kind = .table
  fkCols : ∀ r ∈ db.rels, ∀ k ∈ r.fks, ∀ p ∈ k.pairs, p.1 ∈ r.cols.map (·.id) ∧ ∀ r' ∈ db.rels, r'.oid = k.ref → p.2 ∈ r'.cols.map (·.id)

/-! ### System views -/

/-- `sys.tables`. -/
def sysTables (db : Db) : List Rel := db.rels.filter (fun r => r.kind = .table)

/-- `sys.views`. -/
def sysViews (db : Db) : List Rel := db.rels.filter (fun r => r.kind = .view)

/-- `sys.objects`: object_id and name of relations and foreign keys. -/
def sysObjects (db : Db) : List (Nat × Bytes) := db.rels.map (fun r => (r.oid, r.name)) ++ db.rels.flatMap (fun r => r.fks.map (fun k => (k.oid, k.name)))

/-- `sys.columns`: object_id, column_id, name. -/
def sysColumns (db : Db) : List (Nat × Nat × Bytes) := db.rels.flatMap (fun r => r.cols.map (fun c => (r.oid, c.id, c.name)))

/-- `sys.index_columns`: object_id, index_id, column_id. -/
def sysIndexColumns (db : Db) : List (Nat × Nat × Nat) := db.rels.flatMap (fun r => r.idxs.flatMap (fun i => (i.key ++ i.included).map (fun c => (r.oid, i.id, c))))

/-- `sys.foreign_key_columns`: constraint_object_id, parent_object_id, parent_column_id, referenced_object_id, referenced_column_id. -/
def sysForeignKeyColumns (db : Db) : List (Nat × Nat × Nat × Nat × Nat) :=
  db.rels.flatMap (fun r => r.fks.flatMap (fun k => k.pairs.map (fun p => (k.oid, r.oid, p.1, k.ref, p.2))))

/-- `INFORMATION_SCHEMA.COLUMNS`: schema, table and column. -/
def infoColumns (db : Db) : List (Bytes × Bytes × ColRow) :=
  db.rels.flatMap (fun r => r.cols.map (fun c => (schemaName db r.schemaId, r.name,
    ⟨c.name, c.type, c.type, if c.nullable then b!"YES" else b!"NO", c.maxLen, c.ordinal⟩)))

/-! ### The queries -/

/-- sqlserver.go:30-32: the condition on a row of the left join; `none`: the table has no extended property. -/
def propOk : Option ExtProp → Bool
  | none => true
  | some e => decide (e.cls ≠ b!"OBJECT_OR_COLUMN" ∧ e.name ≠ b!"microsoft_database_tools_support")

/-- `LEFT JOIN`: the matching elements, or `none` once. -/
def leftJoin {α : Type} (l : List α) (p : α → Bool) : List (Option α) := if l.filter p = [] then [none] else (l.filter p).map some

/-- sqlserver.go:16-37 `mssqlTableNamesWithSchema`. -/
def queryTables (db : Db) : List TableRow :=
  (sysTables db).flatMap (fun t => db.schemas.flatMap (fun s => if s.1 = t.schemaId then
    (leftJoin db.props (fun e => e.major = t.oid)).flatMap (fun ep =>
      if t.shipped = false ∧ propOk ep = true then [⟨schemaName db t.schemaId, t.name, b!"USER_TABLE"⟩] else []) else []))

/-- sqlserver.go:44-46: what the statement asks for when it is read as intended. -/
def queryColumns (db : Db) (s t : Bytes) : List ColRow := ((infoColumns db).filter (fun c => c.1 = s ∧ c.2.1 = t)).map (·.2.2)

/-- sqlserver.go:51-54 `mssqlQueryViews`. -/
def queryViews (db : Db) : List (Bytes × Bytes × ColRow) :=
  (infoColumns db).flatMap (fun c => (sysViews db).flatMap (fun v => if v.name = c.2.1 then [c] else []))

/-- `FOR XML` writes text as XML. -/
def xmlByte (b : UInt8) : Bytes :=
  if b = c!"&" then b!"&amp;" else if b = c!"<" then b!"&lt;" else if b = c!">" then b!"&gt;" else if b = 13 then b!"&#x0D;" else [b]

def xmlText (s : Bytes) : Bytes := s.flatMap xmlByte

/-- sqlserver.go:69-77: the rows of the inner query, ordered by `column_id`, each followed by a comma. -/
def indexColumns (db : Db) (oid index : Nat) : List (Nat × Bytes) :=
  Util.sort (fun a b => decide (a.1 ≤ b.1)) ((sysIndexColumns db).flatMap (fun ic => (sysColumns db).flatMap (fun col =>
    if ic.1 = col.1 ∧ ic.2.2 = col.2.1 ∧ ic.1 = oid ∧ ic.2.1 = index then [(col.2.1, col.2.2)] else [])))

/-- sqlserver.go:65, 77: `substring(column_names, 1, len(column_names)-1)`; the text is NULL when there are no rows (`none`: `Scan` fails). -/
def indexText (cols : List (Nat × Bytes)) : Option Bytes := if cols = [] then none else some ((cols.flatMap (fun c => xmlText (c.2 ++ b!","))).dropLast)

/-- sqlserver.go:60-84 `mssqlQueryIndexKeys`. -/
def queryIndexes (db : Db) (schema table : Bytes) : List (Option IdxRow) :=
  (db.rels.filter (fun r => r.kind = .table)).flatMap (fun t => t.idxs.flatMap (fun i =>
    if t.shipped = false ∧ 0 < i.id ∧ (db.schemas.find? (fun s => s.2 = schema)).map (·.1) = some t.schemaId ∧ t.name = table
    then [(indexText (indexColumns db t.oid i.id)).map (fun x => ⟨i.name, i.primary, i.unique, x⟩)] else []))

/-- sqlserver.go:90-113 `mssqlQueryForeignKeys`. -/
def queryForeignKeys (db : Db) : List FkRow :=
  (sysForeignKeyColumns db).flatMap (fun fkc => (sysObjects db).flatMap (fun obj => if obj.1 = fkc.1 then
    (sysTables db).flatMap (fun tab1 => if tab1.oid = fkc.2.1 then
    db.schemas.flatMap (fun sch => if tab1.schemaId = sch.1 then
    (sysColumns db).flatMap (fun col1 => if col1.2.1 = fkc.2.2.1 ∧ col1.1 = tab1.oid then
    (sysTables db).flatMap (fun tab2 => if tab2.oid = fkc.2.2.2.1 then
    db.schemas.flatMap (fun sch2 => if tab2.schemaId = sch2.1 then
    (sysColumns db).flatMap (fun col2 => if col2.2.1 = fkc.2.2.2.2 ∧ col2.1 = tab2.oid then
      [⟨obj.2, sch.2, tab1.name, col1.2.2, sch2.2, tab2.name, col2.2.2⟩]
    else []) else []) else []) else []) else []) else []) else []))

/-- All rows of an answer can be read, and they are those of the query, in some order. -/
def answer {ρ : Type} (q : Option (Rows ρ)) (l : List ρ) : Prop := ∃ l' : List ρ, l'.Perm l ∧ q = some ⟨l'.map some, false⟩

/-- The catalogue queries are answered by database `db` (sqlserver.go:39-41, 48, 56-58, 86-88, 115-117). -/
structure Answers (db : Db) (cat : Catalogue) : Prop where
  tables : answer cat.tables (queryTables db)
  columns : ∀ s t a b, tokens (msColumnsText s t) = some (Spec.msColumnsOf a b) → answer (cat.columns s t) (queryColumns db a b)
  indexes : ∀ s t, ∃ l, l.Perm (queryIndexes db s t) ∧ cat.indexes s t = some ⟨l, false⟩
  fkeys : answer cat.fkeys (queryForeignKeys db)
  views : answer cat.views (queryViews db)

end Catalog.Ms
