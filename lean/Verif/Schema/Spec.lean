import Verif.Schema.Model
set_option linter.unusedVariables false
/-! What the schema functions should return, in terms of the catalogue alone. -/
namespace Schema
namespace Spec

/-- The query succeeds and all its rows can be read. -/
def fine {ρ : Type} (q : Option (Rows ρ)) : Prop := ∃ l : List ρ, q = some ⟨l.map some, false⟩

/-- The rows of a query. -/
def rows {ρ : Type} (q : Option (Rows ρ)) : List ρ := match q with | some r => r.items.filterMap id | none => []

/-- Case-insensitive membership; an empty filter accepts everything. -/
def matchesFilter (eqFold : Bytes → Bytes → Bool) (filter : List Bytes) (s : Bytes) : Prop := filter = [] ∨ ∃ f ∈ filter, eqFold f s = true

instance (eqFold : Bytes → Bytes → Bool) (filter : List Bytes) (s : Bytes) : Decidable (matchesFilter eqFold filter s) := by
  unfold matchesFilter; infer_instance

/-- The tables a listing is about. -/
def selected (eqFold : Bytes → Bytes → Bool) (cat : Catalogue) (schemas tables : List Bytes) : List TableRow :=
  (rows cat.tables).filter (fun r => matchesFilter eqFold schemas r.schema ∧ matchesFilter eqFold tables r.name)

/-- The indexes of a table, in the order of the catalogue, each with its comma-separated columns. -/
def indexes (cat : Catalogue) (s t : Bytes) : List Index :=
  (rows (cat.indexes s t)).map (fun r =>
    ⟨r.name, r.isPrimary, r.isUnique, Types.splitComma r.columnNames, s ++ b!"." ++ t ++ b!"." ++ r.name⟩)

/-- One column, with the indexes `ii` of its table that mention it. -/
def column (eqFold : Bytes → Bytes → Bool) (s t : Bytes) (ii : List Index) (ref : Option ForeignKey) (r : ColRow) : Column :=
  { name := r.name, type := r.type, udtType := r.udt
    nullable := eqFold b!"YES" r.nullable || eqFold b!"TRUE" r.nullable || eqFold b!"NULL" r.nullable
    maxLength := UInt32.ofInt (r.maxLen.getD 0), position := UInt32.ofInt r.ordinal
    schemaName := s ++ b!"." ++ t ++ b!"." ++ r.name, ref := ref, indexes := ii.filter (fun i => r.name ∈ i.columnNames) }

/-- The columns of a table by position. -/
def columns (eqFold : Bytes → Bytes → Bool) (cat : Catalogue) (s t : Bytes) (ii : List Index) (ref : Bytes → Option ForeignKey) : List Column :=
  Util.sort (fun a b => a.position ≤ b.position) ((rows (cat.columns s t)).map (fun r => column eqFold s t ii (ref r.name) r))

/-- The name of the column that is the table's primary key: that of its (last) primary index with a single column. -/
def primaryKey (ii : List Index) : Option Bytes := ((ii.filter (fun i => i.isPrimary ∧ i.columnNames.length = 1)).getLast?).bind (fun i => i.columnNames.head?)

/-- A table as a caller sees it, pointers followed (`none`: nil). -/
structure TableView where
  schema : Bytes
  name : Bytes
  type : Bytes
  isView : Bool
  schemaName : Bytes
  columns : List (Option Column)
  indexes : List Index
  primaryKey : Option Column

/-- Following the pointers of a table. -/
def view (heap : List Column) (t : Table) : TableView :=
  { schema := t.schema, name := t.name, type := t.type, isView := t.isView, schemaName := t.schemaName
    columns := t.columns.map (fun i => heap[i]?), indexes := t.indexes, primaryKey := t.primaryKey.bind (fun i => heap[i]?) }

/-- The table that should be reported for a row of the catalogue. -/
def table (eqFold : Bytes → Bytes → Bool) (cat : Catalogue) (ref : Bytes → Option ForeignKey) (r : TableRow) : TableView :=
  let ii := indexes cat r.schema r.name
  let cc := columns eqFold cat r.schema r.name ii ref
  { schema := r.schema, name := r.name, type := r.type, isView := false, schemaName := r.schema ++ b!"." ++ r.name
    columns := cc.map some, indexes := ii
    primaryKey := (primaryKey ii).bind (fun n => cc.find? (fun c => c.name = n)) }

/-- The catalogue answers the queries about a table, its column names are distinct, and its indexes are over columns it has. -/
structure Consistent (cat : Catalogue) (s t : Bytes) : Prop where
  cols : fine (cat.columns s t)
  idxs : fine (cat.indexes s t)
  distinct : ((rows (cat.columns s t)).map (·.name)).Nodup
  idxDistinct : ∀ i ∈ indexes cat s t, i.columnNames.Nodup
  idxCols : ∀ i ∈ indexes cat s t, ∀ n ∈ i.columnNames, n ∈ (rows (cat.columns s t)).map (·.name)

/-- The rows of the views query a listing is about: schema, view, column. -/
def viewRows (eqFold : Bytes → Bytes → Bool) (cat : Catalogue) (schemas tables : List Bytes) : List (Bytes × Bytes × ColRow) :=
  (rows cat.views).filter (fun r => matchesFilter eqFold schemas r.1 ∧ matchesFilter eqFold tables r.2.1)

/-- View `n` of schema `s`, with the columns the rows give it, by position. -/
def viewTable (eqFold : Bytes → Bytes → Bool) (rs : List (Bytes × Bytes × ColRow)) (s n : Bytes) : TableView :=
  { schema := s, name := n, type := [], isView := true, schemaName := s ++ b!"." ++ n
    columns := (Util.sort (fun a b => a.position ≤ b.position)
      ((rs.filter (fun r => r.1 = s ∧ r.2.1 = n)).map (fun r => column eqFold s n [] none r.2.2))).map some
    indexes := [], primaryKey := none }

/-- A table found only by following foreign keys: its columns, without type, indexes and primary key. -/
def dependency (eqFold : Bytes → Bytes → Bool) (cat : Catalogue) (ref : Bytes → Option ForeignKey) (s n : Bytes) : TableView :=
  { schema := s, name := n, type := [], isView := false, schemaName := s ++ b!"." ++ n
    columns := (columns eqFold cat s n [] ref).map some, indexes := [], primaryKey := none }

/-- The foreign key reported for a column: the last one the catalogue has for it. -/
def refOf (cat : Catalogue) (s n c : Bytes) : Option ForeignKey :=
  ((rows cat.fkeys).filter (fun k => k.schema = s ∧ k.table = n ∧ k.column = c)).getLast?.map
    (fun k => ⟨k.name, k.schema, k.table, k.column, k.refSchema, k.refTable, k.refColumn, k.schema ++ b!"." ++ k.table ++ b!"." ++ k.name⟩)

/-- Reachable from the selected tables by foreign keys of existing columns. -/
inductive Reach (cat : Catalogue) (sel : List TableRow) : Bytes → Bytes → Prop where
  | listed (r : TableRow) : r ∈ sel → Reach cat sel r.schema r.name
  | follow (s n : Bytes) (k : FkRow) : Reach cat sel s n → k ∈ rows cat.fkeys → k.schema = s → k.table = n →
      k.column ∈ (rows (cat.columns s n)).map (·.name) → Reach cat sel k.refSchema k.refTable

/-- What discovery needs: the queries it makes succeed, schema and table names have no dots, columns of a table have distinct names,
and the foreign keys of one column all lead to the same table. -/
structure Discoverable (cat : Catalogue) (sel : List TableRow) : Prop where
  fks : fine cat.fkeys
  same : ∀ k ∈ rows cat.fkeys, ∀ k' ∈ rows cat.fkeys, k.schema = k'.schema → k.table = k'.table → k.column = k'.column →
    k.refSchema = k'.refSchema ∧ k.refTable = k'.refTable
  names : ∀ s n, Reach cat sel s n → 46 ∉ s ∧ 46 ∉ n
  fkNames : ∀ k ∈ rows cat.fkeys, 46 ∉ k.schema ∧ 46 ∉ k.table
  cols : ∀ s n, Reach cat sel s n → fine (cat.columns s n)
  distinct : ∀ s n, Reach cat sel s n → ((rows (cat.columns s n)).map (·.name)).Nodup

/-- A call on a provider. -/
inductive Call where
  | tables (schemas tables : List Bytes) (withDependencies : Bool)
  | foreignKeys (schemas tables : List Bytes)

/-- The tables matching a call. -/
def Call.selects (eqFold : Bytes → Bytes → Bool) (cat : Catalogue) : Call → List TableRow
  | .tables ss ts _ => selected eqFold cat ss ts
  | .foreignKeys _ _ => []

/-- The tables matching any of the calls. -/
def selectedBy (eqFold : Bytes → Bytes → Bool) (cat : Catalogue) (h : List Call) : List TableRow := h.flatMap (Call.selects eqFold cat)

/-- The tables a provider has read during a history of calls: those that matched some call, and those reachable at a call with dependencies. -/
inductive Known (eqFold : Bytes → Bytes → Bool) (cat : Catalogue) (h : List Call) : Bytes → Bytes → Prop where
  | listed (r : TableRow) : r ∈ selectedBy eqFold cat h → Known eqFold cat h r.schema r.name
  | found (before after : List Call) (ss ts : List Bytes) (s n : Bytes) : h = before ++ .tables ss ts true :: after →
      Reach cat (selectedBy eqFold cat (before ++ [.tables ss ts true])) s n → Known eqFold cat h s n

end Spec

/-- A provider after a history of calls, the oldest first. In each `ListTables` the map of columns is visited in some order `ks` which contains at least
all columns known when the visit starts, and `fuel` bounds the depth of the recursion. -/
inductive History (eqFold : Bytes → Bytes → Bool) (cat : Catalogue) : List Spec.Call → Prov → Prop where
  | new : History eqFold cat [] Prov.new
  | foreignKeys {h : List Spec.Call} {p : Prov} (ss ts : List Bytes) : History eqFold cat h p →
      History eqFold cat (h ++ [.foreignKeys ss ts]) (listForeignKeys eqFold cat ss ts p).2
  | tables {h : List Spec.Call} {p : Prov} (ss ts : List Bytes) (deps : Bool) (fuel : Nat) (ks : List Bytes) : History eqFold cat h p →
      (∀ s n, Spec.Known eqFold cat (h ++ [.tables ss ts false]) s n → ∀ c ∈ Spec.rows (cat.columns s n), s ++ b!"." ++ n ++ b!"." ++ c.name ∈ ks) →
      (Spec.rows cat.fkeys).length < fuel →
      History eqFold cat (h ++ [.tables ss ts deps]) (listTables eqFold cat ss ts deps fuel ks p).2

end Schema
