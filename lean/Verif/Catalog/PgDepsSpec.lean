import Verif.Catalog.PgSpec
set_option linter.unusedVariables false
/-! What a listing with dependencies should report about a Postgres database, in terms of the database alone. -/
namespace Catalog.PgSpec
open Pg Seen

/-- What Postgres guarantees of foreign keys: they are over columns of their table and refer to as many columns of an existing table. -/
structure KeysWF (db : Db) : Prop where
  cols : ∀ r ∈ db, ∀ c ∈ r.cons, c.kind = .foreign → c.cols ≠ [] ∧ c.cols.length = c.refCols.length ∧ ∀ n ∈ c.cols, ∃ a ∈ r.atts, a.name = n
  refs : ∀ r ∈ db, ∀ c ∈ r.cons, c.kind = .foreign → ∃ r' ∈ db, (r'.kind = .table ∨ r'.kind = .partitioned ∨ r'.kind = .temp) ∧ r'.schema = c.refSchema ∧ r'.name = c.refTable

/-- The requested tables, and those they refer to, directly or not. -/
inductive Needed (eqFold : Bytes → Bytes → Bool) (db : Db) (schemas tables : List Bytes) : Rel → Prop where
  | asked (r : Rel) : r ∈ db → isTable r → asked eqFold schemas tables r → Needed eqFold db schemas tables r
  | refers (r r' : Rel) (c : Con) : Needed eqFold db schemas tables r → c ∈ r.cons → c.kind = .foreign → r' ∈ db → r'.schema = c.refSchema → r'.name = c.refTable →
      Needed eqFold db schemas tables r'

/-- A table that was not requested is reported with its columns only. -/
def dependencyOf (r : Rel) : Tab := ⟨r.schema, r.name, [], false, (cols r).map some⟩

/-- Names discovery can deal with: no quotes and no dots. -/
def noDots (r : Rel) : Prop := c!"." ∉ r.schema ∧ c!"." ∉ r.name

/-- Foreign keys of one table that share a column refer to the same table. -/
def oneTarget (db : Db) : Prop := ∀ r ∈ db, ∀ c ∈ r.cons, c.kind = .foreign → ∀ c' ∈ r.cons, c'.kind = .foreign → ∀ n ∈ c.cols, n ∈ c'.cols →
  c.refSchema = c'.refSchema ∧ c.refTable = c'.refTable

/-- The reference a column may be reported with: none if no foreign key has it, else one of those that have it. -/
def refOk (r : Rel) (n : Bytes) : Option Schema.ForeignKey → Prop
  | none => ∀ c ∈ r.cons, c.kind = .foreign → n ∉ c.cols
  | some k => ∃ c ∈ r.cons, c.kind = .foreign ∧ n ∈ c.cols ∧ ∃ m ∈ c.refCols, k = key r c n m

end Catalog.PgSpec
