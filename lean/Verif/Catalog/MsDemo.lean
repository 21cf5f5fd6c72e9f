import Verif.Catalog.MsViews
import Verif.Catalog.PgDemo
set_option linter.unusedVariables false
set_option linter.unusedSimpArgs false
/-! Every SQL Server database can be asked; witnesses for C89 to C92, and where they stop. -/
namespace Catalog.Ms
open Schema (Rows TableRow ColRow IdxRow FkRow Catalogue Table Prov listTables listViews listForeignKeys)

/-- The database reads the statement about columns. -/
def readColumnsText (db : Db) (q : Bytes) : Option (Rows ColRow) :=
  match tokens q with
  | some [.raw _, .str s, .raw _, .str t, .raw _] => some ⟨(queryColumns db s t).map some, false⟩
  | _ => none

/-- Answers of a database, rows in one particular order. -/
def ask (db : Db) : Catalogue :=
  { tables := some ⟨(queryTables db).map some, false⟩
    columns := fun s t => readColumnsText db (msColumnsText s t)
    indexes := fun s t => some ⟨queryIndexes db s t, false⟩
    fkeys := some ⟨(queryForeignKeys db).map some, false⟩
    views := some ⟨(queryViews db).map some, false⟩ }

theorem ask_answers (db : Db) : Answers db (ask db) where
  tables := ⟨_, .refl _, rfl⟩
  columns := by
    intro s t a b h
    refine ⟨queryColumns db a b, .refl _, ?_⟩
    simp only [ask, readColumnsText, h, Spec.msColumnsOf]
  indexes := fun s t => ⟨_, .refl _, rfl⟩
  fkeys := ⟨_, .refl _, rfl⟩
  views := ⟨_, .refl _, rfl⟩

/-- `WF`, in a form that can be computed: columns, indexes and keys of a relation. -/
def wfCols (r : Rel) : Prop :=
  (r.cols.map (·.id)).Nodup ∧ r.cols.Pairwise (fun a b => a.ordinal < b.ordinal) ∧ (r.cols.map (·.name)).Nodup
    ∧ (∀ c ∈ r.cols, 0 < c.ordinal ∧ c.ordinal < 2 ^ 32 ∧ -1 ≤ c.maxLen.getD 0 ∧ c.maxLen.getD 0 < 2 ^ 31) ∧ (r.kind = .view → r.cols ≠ []) ∧ (r.fks ≠ [] → r.kind = .table)

def wfIdxs (r : Rel) : Prop :=
  (∀ i ∈ r.idxs, (0 < i.id → ∃ c ∈ r.cols, c.id ∈ i.key ++ i.included) ∧ (i.key ++ i.included).Nodup)
    ∧ ((r.idxs.filter (fun i => 0 < i.id)).map (·.name)).Nodup ∧ (r.idxs.map (·.id)).Nodup

def wfFks (db : Db) (r : Rel) : Prop :=
  ∀ k ∈ r.fks, (∃ r' ∈ db.rels, r'.oid = k.ref ∧ r'.kind = .table) ∧ ∀ p ∈ k.pairs, p.1 ∈ r.cols.map (·.id) ∧ ∀ r' ∈ db.rels, r'.oid = k.ref → p.2 ∈ r'.cols.map (·.id)

def wfNames (db : Db) : Prop :=
  (db.schemas.map (·.1)).Nodup ∧ (db.schemas.map (·.2)).Nodup ∧ ((db.rels.map (·.oid)) ++ db.rels.flatMap (fun r => r.fks.map (·.oid))).Nodup
    ∧ (db.rels.map (fun r => (r.schemaId, r.name))).Nodup ∧ ∀ r ∈ db.rels, r.schemaId ∈ db.schemas.map (·.1)

instance (r : Rel) : Decidable (wfCols r) := by unfold wfCols; infer_instance
instance (r : Rel) : Decidable (wfIdxs r) := by unfold wfIdxs; infer_instance
instance (db : Db) (r : Rel) : Decidable (wfFks db r) := by unfold wfFks; infer_instance
instance (db : Db) : Decidable (wfNames db) := by unfold wfNames; infer_instance

def wf (db : Db) : Prop := wfNames db ∧ ∀ r ∈ db.rels, wfCols r ∧ wfIdxs r ∧ wfFks db r

instance (db : Db) : Decidable (wf db) := by unfold wf; infer_instance

theorem WF_of (db : Db) (h : wf db) : WF db := by
  obtain ⟨⟨a1, a2, a3, a4, a5⟩, b⟩ := h
  exact {
    schemaIds := a1, schemaNames := a2, oids := a3, names := a4, hasSchema := a5
    colIds := fun r hr => (b r hr).1.1
    colOrds := fun r hr => (b r hr).1.2.1
    colNames := fun r hr => (b r hr).1.2.2.1
    ordRange := fun r hr c hc => ⟨((b r hr).1.2.2.2.1 c hc).1, ((b r hr).1.2.2.2.1 c hc).2.1⟩
    lens := fun r hr c hc n hn => by
      have := ((b r hr).1.2.2.2.1 c hc).2.2
      rw [hn] at this
      exact this
    viewCols := fun r hr => (b r hr).1.2.2.2.2.1
    fkTables := fun r hr => (b r hr).1.2.2.2.2.2
    idxCols := fun r hr i hi => ((b r hr).2.1.1 i hi).1
    idxOnce := fun r hr i hi => ((b r hr).2.1.1 i hi).2
    idxNames := fun r hr => (b r hr).2.1.2.1
    idxIds := fun r hr => (b r hr).2.1.2.2
    fkRefs := fun r hr k hk => ((b r hr).2.2 k hk).1
    fkCols := fun r hr k hk => ((b r hr).2.2 k hk).2 }

def col (n : Nat) (name : Bytes) : Col := ⟨n, n, name, b!"bigint", false, none⟩

/-- Users and orders (a key of two columns between them), a heap, a view and a table of SQL Server's. -/
def shop : Db := {
  schemas := [(1, b!"dbo"), (5, b!"sales")]
  rels := [
    ⟨10, 1, b!"users", .table, false, [col 1 b!"org", col 2 b!"id", ⟨4, 4, b!"name", b!"nvarchar", true, some (-1)⟩],
      [⟨1, b!"PK_users", true, true, [1, 2], []⟩, ⟨2, b!"IX_name", false, false, [4], [1]⟩], []⟩,
    ⟨11, 5, b!"orders", .table, false, [col 1 b!"id", col 2 b!"org", col 3 b!"user"], [⟨1, b!"PK_orders", true, true, [1], []⟩],
      [⟨30, b!"FK_user", 10, [(2, 1), (3, 2)]⟩]⟩,
    ⟨12, 5, b!"log", .table, false, [col 1 b!"line"], [⟨0, [], false, false, [], []⟩], []⟩,
    ⟨13, 1, b!"names", .view, false, [⟨1, 1, b!"name", b!"nvarchar", true, some 64⟩], [], []⟩,
    ⟨14, 1, b!"sysdiagrams", .table, true, [col 1 b!"id"], [], []⟩]
  props := [] }

theorem shop_wf : WF shop := WF_of _ (by decide +kernel)

theorem shop_plain : Plain Schema.eqB shop [] [] := by
  have h : ∀ r ∈ shop.rels, c!"'" ∉ schemaName shop r.schemaId ∧ c!"'" ∉ r.name ∧ ∀ c ∈ r.cols, c!"," ∉ c.name ∧ c!"&" ∉ c.name ∧ c!"<" ∉ c.name ∧ c!">" ∉ c.name ∧ 13 ∉ c.name := by decide +kernel
  intro r hr _ _
  exact ⟨(h r hr).1, (h r hr).2.1, (h r hr).2.2⟩

instance (db : Db) : Decidable (MsSpec.ownViewNames db) := by unfold MsSpec.ownViewNames; infer_instance

/-! ### Witnesses -/

example : ∃ ts p', listTables Schema.eqB (ask shop) [] [] false 0 [] Prov.new = (.ok ts, p') ∧ ts.length = 3 := by
  obtain ⟨ts, p', h1, h2, -⟩ := C89_exactly_the_tables_of_the_database_partial Schema.eqB Pg.eqB_folds shop (ask shop) shop_wf (ask_answers _) [] [] 0 [] Prov.new shop_plain (by decide +kernel)
  refine ⟨ts, p', h1, ?_⟩
  have := h2.length_eq
  rw [List.length_map, List.length_map] at this
  rw [this]
  decide +kernel

example : ∃ ts p', listTables Schema.eqB (ask shop) [b!"sales"] [b!"orders"] false 0 [] Prov.new = (.ok ts, p') ∧ ts.length = 1 ∧
    ∀ t ∈ ts, ∃ k, (Schema.Spec.view p'.heap t).primaryKey = some k ∧ k.name = b!"id" := by
  obtain ⟨ts, p', h1, h2⟩ := C91_exactly_the_indexes_of_the_table_partial Schema.eqB shop (ask shop) shop_wf (ask_answers _) [b!"sales"] [b!"orders"] 0 [] Prov.new
    (fun r hr ht _ => shop_plain r hr ht (by constructor <;> exact Or.inl rfl))
  refine ⟨ts, p', h1, ?_⟩
  have e : (listTables Schema.eqB (ask shop) [b!"sales"] [b!"orders"] false 0 [] Prov.new).1 = .ok ts := by rw [h1]
  have hts : ts.map (fun t => (t.schema, t.name)) = [(b!"sales", b!"orders")] := by
    have : (match (listTables Schema.eqB (ask shop) [b!"sales"] [b!"orders"] false 0 [] Prov.new).1 with | .ok ts => ts.map (fun t => (t.schema, t.name)) | _ => []) = [(b!"sales", b!"orders")] := by decide +kernel
    rw [e] at this
    exact this
  refine ⟨by simpa using congrArg List.length hts, ?_⟩
  intro t ht
  have hm := List.mem_map_of_mem (f := fun t : Table => (t.schema, t.name)) ht
  rw [hts, List.mem_singleton, Prod.mk.injEq] at hm
  obtain ⟨-, -, -, h4⟩ := h2 ⟨11, 5, b!"orders", .table, false, [col 1 b!"id", col 2 b!"org", col 3 b!"user"], [⟨1, b!"PK_orders", true, true, [1], []⟩],
      [⟨30, b!"FK_user", 10, [(2, 1), (3, 2)]⟩]⟩ (by simp [shop]) t ht hm.1 hm.2
  obtain ⟨k, k1, -, k3⟩ := h4 _ (List.mem_singleton.2 rfl) (by decide) rfl (by simp) (col 1 b!"id") (by simp) rfl rfl
  exact ⟨k, k1, k3⟩

example : ∃ ts p', listViews Schema.eqB (ask shop) [] [] id Prov.new = (.ok ts, p') ∧
    (ts.map (fun t => Seen.tab (Schema.Spec.view p'.heap t))) = [⟨b!"dbo", b!"names", [], true, [some ⟨b!"name", b!"nvarchar", b!"nvarchar", true, 64, 1⟩]⟩] := by
  obtain ⟨ts, p', h1, -, h2, -⟩ := C90_exactly_the_views_of_the_database_partial Schema.eqB Pg.eqB_folds shop (ask shop) shop_wf (ask_answers _) [] [] id (fun _ => .refl _) Prov.new
    (by decide +kernel) (by decide +kernel)
  exact ⟨ts, p', h1, List.perm_singleton.1 (h2.trans (List.Perm.of_eq (by decide +kernel)))⟩

/-- The key over two columns is reported as its two pairs. -/
example : ∃ l p', listForeignKeys Schema.eqB (ask shop) [] [] Prov.new = (.ok l, p') ∧
    (l.map (fun k => (k.name, k.table, k.column, k.refTable, k.refColumn))).Perm
      [(b!"FK_user", b!"orders", b!"org", b!"users", b!"org"), (b!"FK_user", b!"orders", b!"user", b!"users", b!"id")] := by
  obtain ⟨l, p', h1, -, h2⟩ := C92_exactly_the_foreign_keys Schema.eqB shop (ask shop) shop_wf (ask_answers _) [] [] Prov.new
  exact ⟨l, p', h1, (h2.map _).trans (List.Perm.of_eq (by decide +kernel))⟩

/-! ### Where it stops -/

/-- Documents table `users`. -/
def documented : Db := { shop with props := [⟨b!"OBJECT_OR_COLUMN", 10, b!"MS_Description"⟩] }

/-- The shop whose table `users` has a description: the table is not listed. -/
example : ∃ ts p', listTables Schema.eqB (ask documented) [] [] false 0 [] Prov.new = (.ok ts, p') ∧ ∀ t ∈ ts, ¬(t.schema = b!"dbo" ∧ t.name = b!"users") :=
  C89_documented_table_is_left_out Schema.eqB documented (ask documented) (WF_of _ (by decide +kernel)) (ask_answers _) [] [] 0 [] Prov.new
    (fun r hr ht hk => by have := shop_plain r hr ht hk; exact ⟨this.schema, this.name, this.cols⟩) _ (List.mem_cons_self ..) (by decide +kernel) (by decide +kernel)

/-- **C89 fails**: a table whose two indexes are described (extended properties of class `INDEX` have the table as `major_id`) is listed twice. -/
theorem C89_described_indexes_repeat_the_table : WF { shop with props := [⟨b!"INDEX", 10, b!"MS_Description"⟩, ⟨b!"INDEX", 10, b!"MS_Description"⟩] } ∧
    ∃ ts p', listTables Schema.eqB (ask { shop with props := [⟨b!"INDEX", 10, b!"MS_Description"⟩, ⟨b!"INDEX", 10, b!"MS_Description"⟩] }) [] [] false 0 [] Prov.new = (.ok ts, p')
      ∧ ts.map (·.name) = [b!"users", b!"users", b!"log", b!"orders"] :=
  ⟨WF_of _ (by decide +kernel), _, _, rfl, by decide +kernel⟩

/-- One table with these columns and indexes. -/
def single (cols : List Col) (idxs : List Idx) : Db := ⟨[(1, b!"dbo")], [⟨10, 1, b!"t", .table, false, cols, idxs, []⟩], []⟩

/-- **C91 fails**: an index on `(b, a)` is reported as one on `(a, b)`. -/
theorem C91_index_columns_in_table_order : WF (single [col 1 b!"a", col 2 b!"b"] [⟨2, b!"ix", false, false, [2, 1], []⟩]) ∧
    ∃ ts p', listTables Schema.eqB (ask (single [col 1 b!"a", col 2 b!"b"] [⟨2, b!"ix", false, false, [2, 1], []⟩])) [] [] false 0 [] Prov.new = (.ok ts, p')
      ∧ ts.map (fun t => t.indexes.map (·.columnNames)) = [[[b!"a", b!"b"]]] :=
  ⟨WF_of _ (by decide +kernel), _, _, rfl, by decide +kernel⟩

/-- **C91 fails**: a column with an ampersand in an index crashes `ListTables`, because `FOR XML` writes it as `&amp;` and no column has that name. -/
theorem C91_ampersand_crashes : WF (single [col 1 b!"R&D"] [⟨1, b!"pk", true, true, [1], []⟩]) ∧
    (listTables Schema.eqB (ask (single [col 1 b!"R&D"] [⟨1, b!"pk", true, true, [1], []⟩])) [] [] false 0 [] Prov.new).1 = .panic :=
  ⟨WF_of _ (by decide +kernel), by decide +kernel⟩

/-- A table of `dbo` named like a view of `sales`. -/
def namesake : Db := { schemas := [(1, b!"dbo"), (5, b!"sales")], props := [], rels := [
    ⟨10, 1, b!"report", .table, false, [col 1 b!"id"], [], []⟩, ⟨11, 5, b!"report", .view, false, [col 1 b!"total"], [], []⟩] }

example : WF namesake := WF_of _ (by decide +kernel)
example : ∃ ts p', listViews Schema.eqB (ask namesake) [b!"dbo"] [] id Prov.new = (.ok ts, p') ∧ ∃ t ∈ ts, t.schema = b!"dbo" ∧ t.name = b!"report" :=
  C90_table_with_the_name_of_a_view_is_listed Schema.eqB namesake (ask namesake) (ask_answers _) [b!"dbo"] [] id (fun _ => .refl _) Prov.new (by decide +kernel)
    _ ⟨11, 5, b!"report", .view, false, [col 1 b!"total"], [], []⟩ (List.mem_cons_self ..) (by simp [namesake]) (by decide) rfl (by simp) (by decide +kernel)

/-- **C90 fails**: two views of the same name in two schemas are each reported with every column twice. -/
theorem C90_same_view_in_two_schemas_doubles_columns :
    ∃ ts p', listViews Schema.eqB (ask ⟨[(1, b!"dbo"), (5, b!"sales")], [⟨10, 1, b!"v", .view, false, [col 1 b!"a"], [], []⟩, ⟨11, 5, b!"v", .view, false, [col 1 b!"b"], [], []⟩], []⟩)
        [] [] id Prov.new = (.ok ts, p')
      ∧ ts.map (fun t => (t.schema, ((Schema.Spec.view p'.heap t).columns.map (fun c => c.map (·.name))))) = [(b!"dbo", [some b!"a", some b!"a"]), (b!"sales", [some b!"b", some b!"b"])] :=
  ⟨_, _, rfl, by decide +kernel⟩

end Catalog.Ms
