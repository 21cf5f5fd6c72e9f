import Verif.Catalog.Pg
import Verif.Catalog.Seen
set_option linter.unusedVariables false
/-! What the schema functions should report about a Postgres database, in terms of the database alone. -/
namespace Catalog.PgSpec
open Pg Seen

/-- Relations that are tables to a user: ordinary, partitioned and foreign tables that are not Postgres' own. -/
def isTable (r : Rel) : Prop :=
  (r.kind = .table ∨ r.kind = .partitioned ∨ r.kind = .foreign) ∧ r.schema ≠ b!"pg_catalog" ∧ r.schema ≠ b!"information_schema"

def isView (r : Rel) : Prop := r.kind = .view ∧ r.schema ≠ b!"pg_catalog" ∧ r.schema ≠ b!"information_schema"

instance (r : Rel) : Decidable (isTable r) := by unfold isTable; infer_instance
instance (r : Rel) : Decidable (isView r) := by unfold isView; infer_instance

/-- The relation passes the caller's filters. -/
def asked (eqFold : Bytes → Bytes → Bool) (schemas tables : List Bytes) (r : Rel) : Prop :=
  Schema.Spec.matchesFilter eqFold schemas r.schema ∧ Schema.Spec.matchesFilter eqFold tables r.name

instance (eqFold : Bytes → Bytes → Bool) (schemas tables : List Bytes) (r : Rel) : Decidable (asked eqFold schemas tables r) := by unfold asked; infer_instance

/-- The columns a relation should be reported with, in this order. -/
def cols (r : Rel) : List Col := r.atts.map (fun a => ⟨a.name, a.type, a.udt, a.nullable, (a.maxLen.getD 0).toNat, a.num.toNat⟩)

/-- What should be said about a relation that is a table. -/
def tableOf (r : Rel) : Tab := ⟨r.schema, r.name, if r.kind = .foreign then b!"FOREIGN" else b!"BASE TABLE", false, (cols r).map some⟩

/-- What should be said about a view. -/
def viewOf (r : Rel) : Tab := ⟨r.schema, r.name, [], true, (cols r).map some⟩

/-- The names of the columns an index is over. -/
def over (r : Rel) (i : Idx) (n : Bytes) : Prop := ∃ a ∈ r.atts, a.num ∈ i.key ∧ a.name = n

/-- No index of the table has the name of an index of another table. -/
def ownIndexNames (db : Db) (r : Rel) : Prop := ∀ r' ∈ db, ∀ i ∈ r'.idxs, ∀ j ∈ r.idxs, i.name = j.name → r' = r

/-- Names the queries can deal with: no quotes in the names of the table, no commas in those of its columns. -/
structure PlainNames (r : Rel) : Prop where
  schema : c!"'" ∉ r.schema
  name : c!"'" ∉ r.name
  cols : ∀ a ∈ r.atts, c!"," ∉ a.name

/-- The foreign key of column `n` to column `m`. -/
def key (r : Rel) (c : Con) (n m : Bytes) : Schema.ForeignKey :=
  { name := c.name, schema := r.schema, table := r.name, column := n, refSchema := c.refSchema, refTable := c.refTable, refColumn := m
    schemaName := r.schema ++ b!"." ++ r.name ++ b!"." ++ c.name }

/-- A foreign key constraint pairs its columns with those it refers to, in order. -/
def keysOf (r : Rel) (c : Con) : List Schema.ForeignKey := (c.cols.zip c.refCols).map (fun p => key r c p.1 p.2)

/-- The foreign keys of the tables that pass the filters. -/
def foreignKeys (eqFold : Bytes → Bytes → Bool) (db : Db) (schemas tables : List Bytes) : List Schema.ForeignKey :=
  (db.filter (fun r => asked eqFold schemas tables r)).flatMap (fun r => (r.cons.filter (fun c => c.kind = .foreign)).flatMap (keysOf r))

/-- No foreign key constraint has the name of another constraint. -/
def ownKeyNames (db : Db) : Prop := ∀ r ∈ db, ∀ c ∈ r.cons, c.kind = .foreign → ∀ r' ∈ db, ∀ c' ∈ r'.cons, c'.name = c.name → r' = r ∧ c' = c

end Catalog.PgSpec
