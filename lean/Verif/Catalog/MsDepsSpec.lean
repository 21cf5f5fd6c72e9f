import Verif.Catalog.MsSpec
set_option linter.unusedVariables false
/-! What a listing with dependencies should report about a SQL Server database, in terms of the database alone. -/
namespace Catalog.MsSpec
open Ms Seen

/-- A foreign key has columns. -/
def KeysWF (db : Db) : Prop := ∀ r ∈ db.rels, ∀ k ∈ r.fks, k.pairs ≠ []

/-- The requested tables, and those they refer to, directly or not. -/
inductive Needed (eqFold : Bytes → Bytes → Bool) (db : Db) (schemas tables : List Bytes) : Rel → Prop where
  | asked (r : Rel) : r ∈ db.rels → isTable r → asked eqFold db schemas tables r → Needed eqFold db schemas tables r
  | refers (r r' : Rel) (k : Fk) : Needed eqFold db schemas tables r → k ∈ r.fks → r' ∈ db.rels → r'.oid = k.ref → Needed eqFold db schemas tables r'

/-- A table that was not requested is reported with its columns only. -/
def dependencyOf (db : Db) (r : Rel) : Tab := ⟨schemaName db r.schemaId, r.name, [], false, (cols r).map some⟩

/-- Names discovery can deal with. -/
def noDots (db : Db) (r : Rel) : Prop := c!"." ∉ schemaName db r.schemaId ∧ c!"." ∉ r.name

/-- Foreign keys of one table that share a column refer to the same table. -/
def oneTarget (db : Db) : Prop := ∀ r ∈ db.rels, ∀ k ∈ r.fks, ∀ k' ∈ r.fks, ∀ p ∈ k.pairs, ∀ p' ∈ k'.pairs, p.1 = p'.1 → k.ref = k'.ref

/-- The reference a column may be reported with: none if no foreign key has it, else one of those that have it, with the column it is paired with. -/
def refOk (db : Db) (r : Rel) (n : Bytes) : Option Schema.ForeignKey → Prop
  | none => ∀ k ∈ keysOf db r, k.column ≠ n
  | some k => k ∈ keysOf db r ∧ k.column = n

end Catalog.MsSpec
