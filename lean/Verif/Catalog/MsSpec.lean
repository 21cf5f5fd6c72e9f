import Verif.Catalog.Ms
import Verif.Catalog.Seen
set_option linter.unusedVariables false
/-! What the schema functions should report about a SQL Server database, in terms of the database alone. -/
namespace Catalog.MsSpec
open Ms Seen

/-- Tables of the user. -/
def isTable (r : Rel) : Prop := r.kind = .table ∧ r.shipped = false

def isView (r : Rel) : Prop := r.kind = .view

instance (r : Rel) : Decidable (isTable r) := by unfold isTable; infer_instance
instance (r : Rel) : Decidable (isView r) := by unfold isView; infer_instance

/-- The relation passes the caller's filters. -/
def asked (eqFold : Bytes → Bytes → Bool) (db : Db) (schemas tables : List Bytes) (r : Rel) : Prop :=
  Schema.Spec.matchesFilter eqFold schemas (schemaName db r.schemaId) ∧ Schema.Spec.matchesFilter eqFold tables r.name

instance (eqFold : Bytes → Bytes → Bool) (db : Db) (schemas tables : List Bytes) (r : Rel) : Decidable (asked eqFold db schemas tables r) := by unfold asked; infer_instance

/-- Reported length of a column: 0 without one, 4294967295 for `max`. -/
def length : Option Int → Nat
  | none => 0
  | some n => if n < 0 then 4294967295 else n.toNat

/-- The columns a relation should be reported with, in this order. -/
def cols (r : Rel) : List Seen.Col := r.cols.map (fun c => ⟨c.name, c.type, c.type, c.nullable, length c.maxLen, c.ordinal.toNat⟩)

/-- What should be said about a table. -/
def tableOf (db : Db) (r : Rel) : Tab := ⟨schemaName db r.schemaId, r.name, b!"USER_TABLE", false, (cols r).map some⟩

/-- What should be said about a view. -/
def viewOf (db : Db) (r : Rel) : Tab := ⟨schemaName db r.schemaId, r.name, [], true, (cols r).map some⟩

/-- Names the queries can deal with: no quotes in the names of the table, nothing with a meaning in XML or lists in the names of its columns. -/
structure PlainNames (db : Db) (r : Rel) : Prop where
  schema : c!"'" ∉ schemaName db r.schemaId
  name : c!"'" ∉ r.name
  cols : ∀ c ∈ r.cols, c!"," ∉ c.name ∧ c!"&" ∉ c.name ∧ c!"<" ∉ c.name ∧ c!">" ∉ c.name ∧ 13 ∉ c.name

/-- The names of the columns of an index, `INCLUDE`d ones too. -/
def over (r : Rel) (i : Idx) (n : Bytes) : Prop := ∃ c ∈ r.cols, c.id ∈ i.key ++ i.included ∧ c.name = n

/-- These are the names of the columns of the index, ordered by the columns' identifiers (not in key order). -/
def inTableOrder (r : Rel) (i : Idx) (names : List Bytes) : Prop :=
  ∃ cs : List Ms.Col, cs.Perm (r.cols.filter (fun c => c.id ∈ i.key ++ i.included)) ∧ cs.Pairwise (fun a b => a.id < b.id) ∧ names = cs.map (·.name)

/-- The extended properties of a table and of its columns, indexes, ... -/
def propsOf (db : Db) (r : Rel) : List ExtProp := db.props.filter (fun e => e.major = r.oid)

/-- How many times the table is listed. -/
def times (db : Db) (r : Rel) : Nat :=
  if propsOf db r = [] then 1 else ((propsOf db r).filter (fun e => e.cls ≠ b!"OBJECT_OR_COLUMN" ∧ e.name ≠ b!"microsoft_database_tools_support")).length

/-- No table or view has the name of another view, whatever their schemas. -/
def ownViewNames (db : Db) : Prop := ∀ v ∈ db.rels, isView v → ∀ r ∈ db.rels, r.name = v.name → r = v

/-- Name of the column of a relation with that identifier. -/
def colName (r : Rel) (id : Nat) : Bytes := ((r.cols.find? (fun c => c.id = id)).map (·.name)).getD []

/-- The foreign keys of a table: one per pair of columns. -/
def keysOf (db : Db) (r : Rel) : List Schema.ForeignKey :=
  r.fks.flatMap (fun k => (db.rels.filter (fun r' => r'.oid = k.ref)).flatMap (fun r' => k.pairs.map (fun p =>
    { name := k.name, schema := schemaName db r.schemaId, table := r.name, column := colName r p.1
      refSchema := schemaName db r'.schemaId, refTable := r'.name, refColumn := colName r' p.2
      schemaName := schemaName db r.schemaId ++ b!"." ++ r.name ++ b!"." ++ k.name })))

end Catalog.MsSpec
