import Verif.Catalog.PgProps
import Mathlib.Data.List.Dedup
set_option linter.unusedVariables false
set_option linter.unusedSimpArgs false
/-! Every database can be asked; witnesses for C84 and C86, and where they stop. -/
namespace Catalog.Pg
open Schema (Rows TableRow ColRow IdxRow FkRow Catalogue Table Prov listTables listViews)

/-- The database reads the statement about columns. -/
def readColumnsText (db : Db) (q : Bytes) : Option (Rows ColRow) :=
  match tokens q with
  | some [.raw _, .str s, .raw _, .str t, .raw _] => some ⟨(queryColumns db s t).map some, false⟩
  | _ => none

/-- One possible result of grouping. -/
def groupUp (j : List ((Bytes × Bool × Bool) × Bytes)) : List IdxRow :=
  ((j.map (·.1)).dedup).map (fun k => ⟨k.1, k.2.1, k.2.2, Types.joinComma ((j.filter (fun x => x.1 = k)).map (·.2))⟩)

theorem groupUp_grouped (j : List ((Bytes × Bool × Bool) × Bytes)) : Grouped j (groupUp j) := by
  have hk : (groupUp j).map (fun r => (r.name, r.isPrimary, r.isUnique)) = (j.map (·.1)).dedup := by
    simp [groupUp, Function.comp_def]
  refine ⟨?_, ?_, ?_⟩
  · rw [hk]; exact List.nodup_dedup _
  · intro k; rw [hk, List.mem_dedup]
  · intro r hr
    obtain ⟨k, -, rfl⟩ := List.mem_map.1 hr
    exact ⟨_, .refl _, rfl⟩

/-- Answers of a database, rows in one particular order. -/
def ask (db : Db) : Catalogue :=
  { tables := some ⟨(queryTables db).map some, false⟩
    columns := fun s t => readColumnsText db (pgColumnsText s t)
    indexes := fun s t => some ⟨(groupUp (indexJoin db s t)).map some, false⟩
    fkeys := some ⟨(queryForeignKeys db).map some, false⟩
    views := some ⟨queryViews db, false⟩ }

theorem ask_answers (db : Db) : Answers db (ask db) where
  tables := ⟨_, .refl _, rfl⟩
  columns := by
    intro s t a b h
    refine ⟨queryColumns db a b, .refl _, ?_⟩
    simp only [ask, readColumnsText, h, Spec.pgColumnsOf]
  indexes := fun s t => ⟨_, groupUp_grouped _, rfl⟩
  fkeys := ⟨_, .refl _, rfl⟩
  views := ⟨_, .refl _, rfl⟩

def att (n : Int) (name : Bytes) : Att := ⟨n, name, b!"bigint", b!"int8", false, none⟩

/-- Users and orders in `public`, a partitioned table, a view, a foreign table and Postgres' own tables. -/
def shop : Db := [
  ⟨1, b!"pg_catalog", b!"pg_class", .table, [att 1 b!"oid"], [], []⟩,
  ⟨10, b!"public", b!"users", .table, [att 1 b!"id", ⟨3, b!"name", b!"character varying", b!"varchar", true, some 64⟩],
    [⟨100, b!"users_pkey", true, true, [1], 1⟩, ⟨101, b!"users_name", false, false, [3, 1, 0], 3⟩, ⟨102, b!"users_lower", false, false, [0], 1⟩],
    [⟨b!"users_pkey", .primary, [b!"id"], [], [], []⟩]⟩,
  ⟨11, b!"public", b!"orders", .table, [att 1 b!"id", att 2 b!"user_id"], [⟨103, b!"orders_pkey", true, true, [1], 1⟩],
    [⟨b!"orders_pkey", .primary, [b!"id"], [], [], []⟩, ⟨b!"orders_user_fk", .foreign, [b!"user_id"], b!"public", b!"users", [b!"id"]⟩]⟩,
  ⟨12, b!"public", b!"events", .partitioned, [att 1 b!"id"], [⟨104, b!"events_pkey", true, true, [1], 1⟩], [⟨b!"events_pkey", .primary, [b!"id"], [], [], []⟩]⟩,
  ⟨13, b!"ext", b!"remote", .foreign, [att 1 b!"id"], [], []⟩,
  ⟨14, b!"public", b!"names", .view, [⟨1, b!"name", b!"character varying", b!"varchar", true, some 64⟩], [], []⟩]

instance (db : Db) (r : Rel) : Decidable (PgSpec.ownIndexNames db r) := by unfold PgSpec.ownIndexNames; infer_instance

theorem WF_of (db : Db) (h1 : ((db.map (·.oid)) ++ db.flatMap (fun r => r.idxs.map (·.oid))).Nodup) (h2 : (db.map (fun r => (r.schema, r.name))).Nodup)
    (h3 : (db.flatMap (fun r => r.idxs.map (fun i => (r.schema, i.name)))).Nodup) (h4 : ∀ r ∈ db, r.atts.Pairwise (fun a b => a.num < b.num))
    (h5 : ∀ r ∈ db, ∀ a ∈ r.atts, (0 < a.num ∧ a.num < 2 ^ 32) ∧ 0 ≤ a.maxLen.getD 0 ∧ a.maxLen.getD 0 < 2 ^ 32) (h6 : ∀ r ∈ db, (r.atts.map (·.name)).Nodup ∧ (r.cons.map (·.name)).Nodup) : WF db :=
  ⟨h1, h2, h3, h4, fun r hr a ha => (h5 r hr a ha).1, fun r hr => (h6 r hr).1, fun r hr => (h6 r hr).2, fun r hr a ha n hn => by have := (h5 r hr a ha).2; rw [hn] at this; exact this⟩

theorem shop_wf : WF shop := WF_of _ (by decide +kernel) (by decide +kernel) (by decide +kernel) (by decide +kernel) (by decide +kernel) (by decide +kernel)

theorem shop_plain : Plain Schema.eqB shop [] [] := by
  have h : ∀ r ∈ shop, (c!"'" ∉ r.schema ∧ c!"'" ∉ r.name ∧ ∀ a ∈ r.atts, c!"," ∉ a.name) ∧ PgSpec.ownIndexNames shop r := by decide +kernel
  intro r hr _ _
  exact ⟨⟨(h r hr).1.1, (h r hr).1.2.1, (h r hr).1.2.2⟩, (h r hr).2⟩

theorem eqB_folds : Seen.Folds Schema.eqB := ⟨by decide, by decide, by decide, by decide⟩

/-- The hypotheses of C84 and C86 hold for the shop, and the listing has four tables. -/
example : ∃ ts p', listTables Schema.eqB (ask shop) [] [] false 0 [] Prov.new = (.ok ts, p') ∧
    (ts.map (fun t => Seen.tab (Schema.Spec.view p'.heap t))).Perm
      ((shop.filter (fun r => PgSpec.isTable r ∧ PgSpec.asked Schema.eqB [] [] r)).map PgSpec.tableOf) := by
  obtain ⟨ts, p', h1, h2, -⟩ := C84_exactly_the_tables_of_the_database_partial Schema.eqB eqB_folds shop (ask shop) shop_wf (ask_answers _) [] [] 0 [] Prov.new shop_plain
  exact ⟨ts, p', h1, h2⟩
example : (shop.filter (fun r => PgSpec.isTable r ∧ PgSpec.asked Schema.eqB [] [] r)).map (·.name) = [b!"users", b!"orders", b!"events", b!"remote"] := by decide +kernel
example : (Schema.Spec.rows ((ask shop).indexes b!"public" b!"users")) = [⟨b!"users_pkey", true, true, b!"id"⟩, ⟨b!"users_name", false, false, b!"id,name"⟩] := by decide +kernel

/-! ### Where it stops -/

/-- **C86 fails** when another schema has a table with an index of the same name: every row of the query for the first table mixes the columns of both indexes. -/
theorem C86_same_index_name_elsewhere_is_mixed_in {db : Db} (h : WF db) {r r' : Rel} (hr : r ∈ db) (hr' : r' ∈ db) (hk : r.kind = .table) (hk' : r'.kind = .table)
    {i i' : Idx} (hi : i ∈ r.idxs) (hi' : i' ∈ r'.idxs) (hne : r ≠ r') (hname : i'.name = i.name) (hflags : i'.primary = i.primary ∧ i'.unique = i.unique)
    {rows : List IdxRow} (hg : Grouped (indexJoin db r.schema r.name) rows) {n n' : Bytes} (hn : PgSpec.over r i n) (hn' : PgSpec.over r' i' n') :
    ∃ x ∈ rows, x.name = i.name ∧ x.isPrimary = i.primary ∧ x.isUnique = i.unique ∧ ∃ l, x.columnNames = Types.joinComma l ∧ n ∈ l ∧ n' ∈ l ∧ 2 ≤ l.length := by
  have hj := indexJoin_eq h r.schema r.name
  have hin : (r.schema, r.name, i.name) ∈ pgIndexes db := (mem_pgIndexes h hr _).2 ⟨by rw [hk]; decide, i, hi, rfl⟩
  have hm : ((i.name, i.primary, i.unique), n) ∈ indexJoin db r.schema r.name := by
    rw [hj, List.mem_flatMap]
    refine ⟨r, hr, List.mem_flatMap.2 ⟨i, hi, ?_⟩⟩
    rw [if_pos ⟨by rw [hk]; decide, hin⟩]
    obtain ⟨a, ha, hak, rfl⟩ := hn
    exact List.mem_map.2 ⟨a, List.mem_filter.2 ⟨ha, by simpa using hak⟩, rfl⟩
  obtain ⟨x, hx, e⟩ := List.mem_map.1 ((hg.groups _).2 (List.mem_map_of_mem hm))
  simp only [Prod.mk.injEq] at e
  refine ⟨x, hx, e.1, e.2.1, e.2.2, ?_⟩
  obtain ⟨l, hl, hc⟩ := hg.agg x hx
  rw [e.1, e.2.1, e.2.2] at hl
  refine ⟨l, hc, ?_⟩
  -- both indexes contribute to the group
  let G : Rel → List Bytes := fun r₀ => ((r₀.idxs.flatMap (fun i₀ => if relkind r₀.kind = c!"r" ∧ (r.schema, r.name, i₀.name) ∈ pgIndexes db
          then (r₀.atts.filter (fun a => a.num ∈ i₀.key)).map (fun a => ((i₀.name, i₀.primary, i₀.unique), a.name)) else [])).filter
            (fun x => x.1 = (i.name, i.primary, i.unique))).map (·.2)
  have hG : ((indexJoin db r.schema r.name).filter (fun x => x.1 = (i.name, i.primary, i.unique))).map (·.2) = db.flatMap G := by
    rw [hj, List.filter_flatMap, List.map_flatMap]
  have hone : ∀ r₀ : Rel, ∀ i₀ ∈ r₀.idxs, r₀.kind = .table → i₀.name = i.name → i₀.primary = i.primary → i₀.unique = i.unique → ∀ m, PgSpec.over r₀ i₀ m → m ∈ G r₀ := by
    intro r₀ i₀ hi₀ hk₀ e1 e2 e3 m hm
    obtain ⟨a, ha, hak, rfl⟩ := hm
    refine List.mem_map.2 ⟨((i.name, i.primary, i.unique), a.name), List.mem_filter.2 ⟨List.mem_flatMap.2 ⟨i₀, hi₀, ?_⟩, by simp⟩, rfl⟩
    rw [if_pos ⟨by rw [hk₀]; decide, by rw [e1]; exact hin⟩]
    exact List.mem_map.2 ⟨a, List.mem_filter.2 ⟨ha, by simpa using hak⟩, by rw [e1, e2, e3]⟩
  have h1 := hone r i hi hk rfl rfl rfl n hn
  have h2 := hone r' i' hi' hk' hname hflags.1 hflags.2 n' hn'
  have hp : db.Perm (r :: r' :: (db.erase r).erase r') :=
    (List.perm_cons_erase hr).trans ((List.perm_cons_erase ((List.mem_erase_of_ne (Ne.symm hne)).2 hr')).cons r)
  have hl' : l.Perm (G r ++ (G r' ++ ((db.erase r).erase r').flatMap G)) := by
    refine hl.trans ?_
    rw [hG]
    simpa using hp.flatMap_right G
  refine ⟨hl'.mem_iff.2 (by simp [h1]), hl'.mem_iff.2 (by simp [h2]), ?_⟩
  rw [hl'.length_eq]
  have := List.length_pos_of_mem h1
  have := List.length_pos_of_mem h2
  simp only [List.length_append]
  omega

/-- Two schemas with a table `t` each. -/
def twins (otherColumn : Bytes) : Db := [
  ⟨1, b!"a", b!"t", .table, [att 1 b!"id"], [⟨10, b!"t_pkey", true, true, [1], 1⟩], []⟩,
  ⟨2, b!"b", b!"t", .table, [att 1 otherColumn], [⟨11, b!"t_pkey", true, true, [1], 1⟩], []⟩]

/-- **C86 fails**: with the same table in two schemas, neither is reported with its primary key. -/
theorem C86_same_table_in_two_schemas_loses_primary_keys : WF (twins b!"id") ∧ ∃ ts p', listTables Schema.eqB (ask (twins b!"id")) [] [] false 0 [] Prov.new = (.ok ts, p') ∧
    ts.length = 2 ∧ ∀ t ∈ ts, (Schema.Spec.view p'.heap t).primaryKey = none ∧ t.indexes.map (·.columnNames) = [[b!"id", b!"id"]] := by
  refine ⟨WF_of _ (by decide +kernel) (by decide +kernel) (by decide +kernel) (by decide +kernel) (by decide +kernel) (by decide +kernel), ?_⟩
  exact ⟨_, _, rfl, by decide +kernel, by decide +kernel⟩

/-- **C86 fails**: when the columns differ, `ListTables` crashes. -/
theorem C86_same_index_name_crashes : WF (twins b!"uid") ∧ (listTables Schema.eqB (ask (twins b!"uid")) [] [] false 0 [] Prov.new).1 = .panic := by
  refine ⟨WF_of _ (by decide +kernel) (by decide +kernel) (by decide +kernel) (by decide +kernel) (by decide +kernel) (by decide +kernel), ?_⟩
  decide +kernel

/-- **C86 fails**: an `INCLUDE`d column counts as a column of the index, so a primary key with one is not reported. -/
theorem C86_include_column_hides_the_primary_key : ∃ ts p', listTables Schema.eqB (ask [⟨1, b!"a", b!"t", .table, [att 1 b!"id", att 2 b!"x"],
      [⟨10, b!"t_pkey", true, true, [1, 2], 1⟩], []⟩]) [] [] false 0 [] Prov.new = (.ok ts, p') ∧
    ts.length = 1 ∧ ∀ t ∈ ts, (Schema.Spec.view p'.heap t).primaryKey = none ∧ t.indexes.map (·.columnNames) = [[b!"id", b!"x"]] := by
  exact ⟨_, _, rfl, by decide +kernel, by decide +kernel⟩

/-- **C84 fails** for a table whose name has an apostrophe: the listing fails, whatever else is in the database. -/
theorem C84_apostrophe_fails_the_listing : (listTables Schema.eqB (ask [⟨1, b!"a", b!"t", .table, [att 1 b!"id"], [], []⟩, ⟨2, b!"a", b!"user's", .table, [att 1 b!"id"], [], []⟩])
    [] [] false 0 [] Prov.new).1 = .err := by decide +kernel

end Catalog.Pg
