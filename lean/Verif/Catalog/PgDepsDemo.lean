import Verif.Catalog.PgDeps
set_option linter.unusedVariables false
set_option linter.unusedSimpArgs false
set_option synthInstance.maxSize 2000
set_option synthInstance.maxHeartbeats 400000
/-! C95, Postgres: witnesses, and where it stops. -/
namespace Catalog.Pg
open Schema (Rows TableRow ColRow IdxRow FkRow Catalogue Table Prov listTables)

/-- A column that is part of one foreign key only, over that column alone, is reported with exactly that key. -/
theorem refOk_exact {r : Rel} {n m : Bytes} {c : Con} {k : Option Schema.ForeignKey} (h : PgSpec.refOk r n k) (hc : c ∈ r.cons) (hk : c.kind = .foreign) (h1 : c.cols = [n]) (h2 : c.refCols = [m])
    (hu : ∀ c' ∈ r.cons, c'.kind = .foreign → n ∈ c'.cols → c' = c) : k = some (PgSpec.key r c n m) := by
  cases k with
  | none => exact absurd (by rw [h1]; simp) (h c hc hk)
  | some k =>
    obtain ⟨c', g1, g2, g3, m', g4, rfl⟩ := h
    have := hu c' g1 g2 g3
    subst this
    rw [h2, List.mem_singleton] at g4
    rw [g4]

instance (r : Rel) : Decidable (PgSpec.noDots r) := by unfold PgSpec.noDots; infer_instance
instance (db : Db) : Decidable (PgSpec.oneTarget db) := by unfold PgSpec.oneTarget; infer_instance

theorem shop_keys : PgSpec.KeysWF shop := ⟨by decide +kernel, by decide +kernel⟩

theorem shop_plainDeps (tables : List Bytes) : PlainDeps Schema.eqB shop [] tables := by
  have h : ∀ r ∈ shop, ((c!"'" ∉ r.schema ∧ c!"'" ∉ r.name) ∧ ∀ a ∈ r.atts, c!"," ∉ a.name) ∧ PgSpec.ownIndexNames shop r ∧ PgSpec.noDots r := by decide +kernel
  exact ⟨fun r hr _ _ => ⟨⟨(h r hr).1.1.1, (h r hr).1.1.2, (h r hr).1.2⟩, (h r hr).2.1⟩, fun r hr => (h r (needed_mem hr)).1.1, fun r hr => (h r (needed_mem hr)).2.2,
    fun r hr _ _ _ => (h r hr).2.2, by decide +kernel, by decide +kernel⟩

/-- The hypotheses of C95 hold for the shop: asking for the orders reports the users too. -/
example : ∃ ts p', listTables Schema.eqB (ask shop) [] [b!"orders"] true 2 [b!"public.orders.user_id", b!"public.orders.id"] Prov.new = (.ok ts, p')
    ∧ ts.map (·.name) = [b!"orders", b!"users"] ∧ p'.leaked = 0
    ∧ ∃ r, PgSpec.Needed Schema.eqB shop [] [b!"orders"] r ∧ r.name = b!"users" := by
  obtain ⟨ts, p', h1, -, h3, -, -, h6⟩ := C95_postgres_dependencies_partial Schema.eqB eqB_folds shop (ask shop) shop_wf shop_keys (ask_answers _) [] [b!"orders"] 2
    [b!"public.orders.user_id", b!"public.orders.id"] (shop_plainDeps _) (by decide +kernel) (by decide +kernel)
  have hn : ts.map (·.name) = [b!"orders", b!"users"] := by
    have : (match (listTables Schema.eqB (ask shop) [] [b!"orders"] true 2 [b!"public.orders.user_id", b!"public.orders.id"] Prov.new).1 with
      | .ok ts => ts.map (·.name) | _ => []) = [b!"orders", b!"users"] := by decide +kernel
    rw [h1] at this
    exact this
  refine ⟨ts, p', h1, hn, h6, ?_⟩
  obtain ⟨t, ht, e⟩ : ∃ t ∈ ts, t.name = b!"users" := by
    have : b!"users" ∈ ts.map (·.name) := by rw [hn]; simp
    exact List.mem_map.1 this
  obtain ⟨r, g1, -, g2⟩ := (h3 t.schema t.name).1 (List.mem_map_of_mem (f := fun t : Table => (t.schema, t.name)) ht)
  exact ⟨r, g1, g2.trans e⟩

/-! ### Where it stops -/

/-- The tables of a listing with the columns and their references. -/
def refs (o : Schema.Out (List Table) × Prov) : List (Bytes × List (Bytes × Option (Bytes × Bytes))) :=
  match o.1 with
  | .ok ts => ts.map (fun t => (t.name, (Schema.Spec.view o.2.heap t).columns.filterMap (fun c => c.map (fun c => (c.name, c.ref.map (fun k => (k.refTable, k.refColumn)))))))
  | _ => []

/-- **C95 fails** for keys over two columns: `u(tx, ty)` refers to `t(x, y)`; `u.tx` is reported to refer to `t.y`. -/
theorem C95_composite_key_refers_to_the_wrong_column : PgSpec.KeysWF composite ∧ (⟨b!"u_fk", .foreign, [b!"tx", b!"ty"], b!"a", b!"t", [b!"x", b!"y"]⟩ : Con) ∈ (composite.flatMap (·.cons))
    ∧ refs (listTables Schema.eqB (ask composite) [] [b!"u"] true 9 [b!"a.u.tx", b!"a.u.ty"] Prov.new)
      = [(b!"t", [(b!"x", none), (b!"y", none)]), (b!"u", [(b!"tx", some (b!"t", b!"y")), (b!"ty", some (b!"t", b!"y"))])] := by
  refine ⟨⟨by decide +kernel, by decide +kernel⟩, by decide +kernel, by decide +kernel⟩

/-- **C95 fails** when two tables have keys of the same name: asking for `v`, which refers to `t`, reports `u` instead, to which nothing requested refers. -/
theorem C95_same_key_name_misses_a_dependency : PgSpec.KeysWF sameKeyName ∧ PgSpec.Needed Schema.eqB sameKeyName [] [b!"v"] ⟨1, b!"a", b!"t", .table, [att 1 b!"id"], [], []⟩
    ∧ refs (listTables Schema.eqB (ask sameKeyName) [] [b!"v"] true 9 [b!"a.v.t_id"] Prov.new) = [(b!"u", [(b!"id", none)]), (b!"v", [(b!"t_id", some (b!"u", b!"id"))])] := by
  refine ⟨⟨by decide +kernel, by decide +kernel⟩, ?_, by decide +kernel⟩
  refine .refers ⟨3, b!"a", b!"v", .table, [att 1 b!"t_id"], [], [⟨b!"owner_fk", .foreign, [b!"t_id"], b!"a", b!"t", [b!"id"]⟩]⟩ _ ⟨b!"owner_fk", .foreign, [b!"t_id"], b!"a", b!"t", [b!"id"]⟩
    (.asked _ (by decide +kernel) (by decide +kernel) (by decide +kernel)) (by decide +kernel) rfl (by decide +kernel) rfl rfl

end Catalog.Pg
