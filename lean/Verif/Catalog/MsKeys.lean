import Verif.Catalog.MsProps
set_option linter.unusedVariables false
set_option linter.unusedSimpArgs false
/-! `ListForeignKeys` of a SQL Server database: C92. -/
namespace Catalog.Ms
open Schema (Rows TableRow ColRow IdxRow FkRow Catalogue Table Prov listForeignKeys)
open Pg (flatMap_only)

variable {db : Db} {cat : Catalogue}

theorem join_object {β : Type} (h : WF db) {r : Rel} (hr : r ∈ db.rels) {k : Fk} (hk : k ∈ r.fks) (f : Nat × Bytes → List β) :
    (sysObjects db).flatMap (fun o => if o.1 = k.oid then f o else []) = f (k.oid, k.name) := by
  have hnd : ((sysObjects db).map (·.1)).Nodup := by
    have e : (sysObjects db).map (·.1) = (db.rels.map (·.oid)) ++ db.rels.flatMap (fun r => r.fks.map (·.oid)) := by
      simp [sysObjects, Function.comp_def, List.map_flatMap]
    rw [e]; exact h.oids
  exact flatMap_key (fun o : Nat × Bytes => o.1) f (k.oid, k.name) (sysObjects db) hnd
    (List.mem_append_right _ (List.mem_flatMap.2 ⟨r, hr, List.mem_map_of_mem (f := fun k : Fk => (k.oid, k.name)) hk⟩))

theorem join_table {β : Type} (h : WF db) {r : Rel} (hr : r ∈ db.rels) (hk : r.kind = .table) (f : Rel → List β) :
    (sysTables db).flatMap (fun t => if t.oid = r.oid then f t else []) = f r :=
  flatMap_key (fun t : Rel => t.oid) f r (sysTables db) (h.oid_nodup.sublist (List.Sublist.map _ List.filter_sublist)) (List.mem_filter.2 ⟨hr, decide_eq_true hk⟩)

theorem colName_of (h : WF db) {r : Rel} (hr : r ∈ db.rels) {c : Col} (hc : c ∈ r.cols) : MsSpec.colName r c.id = c.name := by
  unfold MsSpec.colName
  cases hf : r.cols.find? (fun d => d.id = c.id) with
  | none =>
    have := List.find?_eq_none.1 hf c hc
    simp at this
  | some d =>
    have hd := List.mem_of_find?_eq_some hf
    have e : d.id = c.id := by simpa using List.find?_some hf
    rw [List.inj_on_of_nodup_map (h.colIds r hr) hd hc e]
    rfl

theorem join_column {β : Type} (h : WF db) {r : Rel} (hr : r ∈ db.rels) {cid : Nat} (hc : cid ∈ r.cols.map (·.id)) (f : Nat × Nat × Bytes → List β) :
    (sysColumns db).flatMap (fun c => if c.2.1 = cid ∧ c.1 = r.oid then f c else []) = f (r.oid, cid, MsSpec.colName r cid) := by
  obtain ⟨c, hcm, rfl⟩ := List.mem_map.1 hc
  unfold sysColumns
  rw [List.flatMap_assoc, flatMap_only _ r db.rels h.nodup hr]
  · rw [List.flatMap_map, colName_of h hr hcm]
    simp only [and_true]
    exact flatMap_key (fun c : Col => c.id) (fun c : Col => f (r.oid, c.id, c.name)) c r.cols (h.colIds r hr) hcm
  · intro y hy hne
    rw [List.flatMap_map]
    apply flatMap_none
    intro d _
    rw [if_neg]
    rintro ⟨-, e⟩
    exact hne (h.oid_inj hy hr e)

/-- The row of a pair of columns. -/
def pairRow (db : Db) (r : Rel) (k : Fk) (r' : Rel) (p : Nat × Nat) : FkRow :=
  ⟨k.name, schemaName db r.schemaId, r.name, MsSpec.colName r p.1, schemaName db r'.schemaId, r'.name, MsSpec.colName r' p.2⟩

theorem queryForeignKeys_eq (h : WF db) :
    queryForeignKeys db = db.rels.flatMap (fun r => r.fks.flatMap (fun k => (db.rels.filter (fun r' => r'.oid = k.ref)).flatMap (fun r' => k.pairs.map (pairRow db r k r')))) := by
  unfold queryForeignKeys sysForeignKeyColumns
  rw [List.flatMap_assoc]
  apply flatMap_congr
  intro r hr
  rw [List.flatMap_assoc]
  apply flatMap_congr
  intro k hk
  have ht : r.kind = .table := h.fkTables r hr (by intro e; rw [e] at hk; cases hk)
  obtain ⟨r', hr', e', ht'⟩ := h.fkRefs r hr k hk
  have hfil : db.rels.filter (fun x => x.oid = k.ref) = [r'] := by
    have : db.rels.filter (fun x => x.oid = k.ref) = db.rels.flatMap (fun x => if x.oid = r'.oid then [x] else []) := by
      rw [e']
      generalize db.rels = l
      induction l with
      | nil => rfl
      | cons x xs ih =>
        rw [List.flatMap_cons, ← ih, List.filter_cons]
        by_cases hx : x.oid = k.ref
        · simp [hx]
        · simp [hx]
    rw [this]
    exact flatMap_key (fun t : Rel => t.oid) (fun t => [t]) r' db.rels h.oid_nodup hr'
  rw [hfil, List.flatMap_map, List.flatMap_singleton, ← List.flatMap_singleton' (k.pairs.map (pairRow db r k r')), List.flatMap_map]
  apply flatMap_congr
  intro p hp
  obtain ⟨c1, c2⟩ := h.fkCols r hr k hk p hp
  have c2 := c2 r' hr' e'
  simp only [← e']
  rw [join_object h hr hk, join_table h hr ht]
  have hs1 := fun f : Nat × Bytes → List FkRow => join_schema h hr f
  have hs2 := fun f : Nat × Bytes → List FkRow => join_schema h hr' f
  simp only [eq_comm (a := r.schemaId)]
  rw [hs1, join_column h hr c1, join_table h hr' ht']
  simp only [eq_comm (a := r'.schemaId)]
  rw [hs2, join_column h hr' c2]
  rfl

/-- **C92**: `ListForeignKeys` of a SQL Server database returns exactly the foreign keys of the tables that pass the filters, each pair of columns once, keys over several columns included. -/
theorem C92_exactly_the_foreign_keys (eqFold : Bytes → Bytes → Bool) (db : Db) (cat : Catalogue) (h : WF db) (ha : Answers db cat) (schemas tables : List Bytes) (p : Prov) :
    ∃ l p', listForeignKeys eqFold cat schemas tables p = (.ok l, p') ∧ p'.leaked = p.leaked
      ∧ l.Perm ((db.rels.filter (fun r => MsSpec.asked eqFold db schemas tables r)).flatMap (MsSpec.keysOf db)) := by
  obtain ⟨hfine, hperm⟩ := answer_fine ha.fkeys
  obtain ⟨h1, h2⟩ := (Schema.C70_exactly_the_matching_foreign_keys eqFold cat schemas tables p).1 hfine
  refine ⟨_, _, Prod.ext h1 rfl, h2, ?_⟩
  unfold Schema.Spec.foreignKeys
  rw [queryForeignKeys_eq h] at hperm
  refine ((hperm.filter _).map _).trans (List.Perm.of_eq ?_)
  have main : ∀ l : List Rel, ((l.flatMap (fun r => r.fks.flatMap (fun k => (db.rels.filter (fun r' => r'.oid = k.ref)).flatMap (fun r' => k.pairs.map (pairRow db r k r'))))).filter
      (fun r => Schema.Spec.matchesFilter eqFold schemas r.schema ∧ Schema.Spec.matchesFilter eqFold tables r.table)).map (fun k : FkRow => ({ name := k.name, schema := k.schema, table := k.table, column := k.column, refSchema := k.refSchema, refTable := k.refTable, refColumn := k.refColumn, schemaName := k.schema ++ b!"." ++ k.table ++ b!"." ++ k.name } : Schema.ForeignKey))
      = (l.filter (fun r => MsSpec.asked eqFold db schemas tables r)).flatMap (MsSpec.keysOf db) := by
    intro l
    induction l with
    | nil => rfl
    | cons r rs ih =>
      rw [List.flatMap_cons, List.filter_append, List.map_append, ih]
      by_cases hask : MsSpec.asked eqFold db schemas tables r
      · rw [List.filter_cons_of_pos (by simpa using hask), List.flatMap_cons]
        congr 1
        rw [List.filter_eq_self.2]
        · simp only [List.map_flatMap, List.map_map]
          rfl
        · intro x hx
          obtain ⟨k, -, hx⟩ := List.mem_flatMap.1 hx
          obtain ⟨r', -, hx⟩ := List.mem_flatMap.1 hx
          obtain ⟨p, -, rfl⟩ := List.mem_map.1 hx
          exact decide_eq_true hask
      · rw [List.filter_cons_of_neg (by simpa using hask), List.filter_eq_nil_iff.2, List.map_nil, List.nil_append]
        intro x hx
        obtain ⟨k, -, hx⟩ := List.mem_flatMap.1 hx
        obtain ⟨r', -, hx⟩ := List.mem_flatMap.1 hx
        obtain ⟨p, -, rfl⟩ := List.mem_map.1 hx
        simp only [decide_eq_true_eq]
        exact hask
  exact main db.rels

end Catalog.Ms
