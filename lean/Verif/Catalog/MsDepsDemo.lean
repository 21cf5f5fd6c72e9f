import Verif.Catalog.MsDeps
import Verif.Catalog.MsDemo
set_option linter.unusedVariables false
set_option linter.unusedSimpArgs false
set_option synthInstance.maxSize 2000
set_option synthInstance.maxHeartbeats 400000
/-! C95, SQL Server: witnesses, and where it stops. -/
namespace Catalog.Ms
open Schema (Rows TableRow ColRow IdxRow FkRow Catalogue Table Prov listTables)

instance (db : Db) (r : Rel) : Decidable (MsSpec.noDots db r) := by unfold MsSpec.noDots; infer_instance
instance (db : Db) : Decidable (MsSpec.oneTarget db) := by unfold MsSpec.oneTarget; infer_instance
instance (db : Db) : Decidable (MsSpec.KeysWF db) := by unfold MsSpec.KeysWF; infer_instance

theorem shop_plainDeps (tables : List Bytes) : PlainDeps Schema.eqB shop [] tables := by
  have h : ∀ r ∈ shop.rels, (c!"'" ∉ schemaName shop r.schemaId ∧ c!"'" ∉ r.name) ∧ MsSpec.noDots shop r ∧ MsSpec.propsOf shop r = [] := by decide +kernel
  exact ⟨fun r hr ht _ => shop_plain r hr ht ⟨.inl rfl, .inl rfl⟩, fun r hr _ _ => (h r hr).2.2, fun r hr => (h r (needed_mem hr)).1, fun r hr => (h r (needed_mem hr)).2.1,
    fun r hr _ => (h r hr).2.1, by decide +kernel⟩

/-- The hypotheses of C95 hold for the shop: asking for the orders reports the users too, and the columns of the key over two columns with their own partners. -/
example : ∃ ts p', listTables Schema.eqB (ask shop) [] [b!"orders"] true 3 [b!"sales.orders.user", b!"sales.orders.org", b!"sales.orders.id"] Prov.new = (.ok ts, p')
    ∧ p'.leaked = 0 ∧ ∀ s n, (s, n) ∈ ts.map (fun t => (t.schema, t.name)) ↔ ∃ r, MsSpec.Needed Schema.eqB shop [] [b!"orders"] r ∧ schemaName shop r.schemaId = s ∧ r.name = n := by
  obtain ⟨ts, p', h1, -, h3, -, -, h6⟩ := C95_sqlserver_dependencies_partial Schema.eqB Pg.eqB_folds shop (ask shop) shop_wf (by decide +kernel) (ask_answers _) [] [b!"orders"] 3
    [b!"sales.orders.user", b!"sales.orders.org", b!"sales.orders.id"] (shop_plainDeps _) (by decide +kernel) (by decide +kernel)
  exact ⟨ts, p', h1, h6, h3⟩

/-- The tables of a listing with type, columns and their references. -/
def refs (o : Schema.Out (List Table) × Prov) : List (Bytes × Bytes × List (Bytes × Option (Bytes × Bytes))) :=
  match o.1 with
  | .ok ts => ts.map (fun t => (t.name, t.type, (Schema.Spec.view o.2.heap t).columns.filterMap (fun c => c.map (fun c => (c.name, c.ref.map (fun k => (k.refTable, k.refColumn)))))))
  | _ => []

example : refs (listTables Schema.eqB (ask shop) [] [b!"orders"] true 3 [b!"sales.orders.user", b!"sales.orders.org", b!"sales.orders.id"] Prov.new)
    = [(b!"users", [], [(b!"org", none), (b!"id", none), (b!"name", none)]),
       (b!"orders", b!"USER_TABLE", [(b!"id", none), (b!"org", some (b!"users", b!"org")), (b!"user", some (b!"users", b!"id"))])] := by decide +kernel

/-! ### Where it stops -/

/-- **C95 fails** for a documented table: although requested, it is reported as a mere dependency, without type (and so without indexes and primary key). -/
theorem C95_documented_table_is_a_mere_dependency : WF documented ∧ refs (listTables Schema.eqB (ask documented) [] [b!"users", b!"orders"] true 3
      [b!"sales.orders.user", b!"sales.orders.org", b!"sales.orders.id"] Prov.new)
    = [(b!"users", [], [(b!"org", none), (b!"id", none), (b!"name", none)]),
       (b!"orders", b!"USER_TABLE", [(b!"id", none), (b!"org", some (b!"users", b!"org")), (b!"user", some (b!"users", b!"id"))])] :=
  ⟨WF_of _ (by decide +kernel), by decide +kernel⟩

/-- A column with two keys: to the table of persons and to that of members. -/
def twoTargets : Db := {
  schemas := [(1, b!"dbo")]
  rels := [⟨10, 1, b!"person", .table, false, [col 1 b!"id"], [], []⟩, ⟨11, 1, b!"member", .table, false, [col 1 b!"id"], [], []⟩,
    ⟨12, 1, b!"seat", .table, false, [col 1 b!"who"], [], [⟨30, b!"FK_p", 10, [(1, 1)]⟩, ⟨31, b!"FK_m", 11, [(1, 1)]⟩]⟩]
  props := [] }

/-- **C95 fails** for a column with foreign keys to two tables: only one of them is reported. -/
theorem C95_second_target_is_missed : WF twoTargets ∧ ¬ MsSpec.oneTarget twoTargets
    ∧ MsSpec.Needed Schema.eqB twoTargets [] [b!"seat"] ⟨10, 1, b!"person", .table, false, [col 1 b!"id"], [], []⟩
    ∧ refs (listTables Schema.eqB (ask twoTargets) [] [b!"seat"] true 3 [b!"dbo.seat.who"] Prov.new)
      = [(b!"member", [], [(b!"id", none)]), (b!"seat", b!"USER_TABLE", [(b!"who", some (b!"member", b!"id"))])] := by
  refine ⟨WF_of _ (by decide +kernel), by decide +kernel, ?_, by decide +kernel⟩
  exact .refers ⟨12, 1, b!"seat", .table, false, [col 1 b!"who"], [], [⟨30, b!"FK_p", 10, [(1, 1)]⟩, ⟨31, b!"FK_m", 11, [(1, 1)]⟩]⟩ _ ⟨30, b!"FK_p", 10, [(1, 1)]⟩
    (.asked _ (by decide +kernel) (by decide +kernel) (by decide +kernel)) (by decide +kernel) (by decide +kernel) rfl

end Catalog.Ms
