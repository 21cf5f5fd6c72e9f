import Verif.Catalog.MsKeys
import Verif.Schema.ViewProps
set_option linter.unusedVariables false
set_option linter.unusedSimpArgs false
/-! `ListViews` of a SQL Server database: C90. -/
namespace Catalog.Ms
open Schema (Rows TableRow ColRow IdxRow FkRow Catalogue Table Prov listTables listViews)

variable {db : Db} {cat : Catalogue}

/-- The rows of a view. -/
def viewRowsOf (db : Db) (r : Rel) : List (Bytes × Bytes × ColRow) := r.cols.map (fun c => (schemaName db r.schemaId, r.name, colRow c))

theorem mem_queryViews (x : Bytes × Bytes × ColRow) : x ∈ queryViews db ↔ ∃ r ∈ db.rels, x ∈ viewRowsOf db r ∧ ∃ v ∈ db.rels, MsSpec.isView v ∧ v.name = r.name := by
  unfold queryViews infoColumns
  rw [List.flatMap_assoc, List.mem_flatMap]
  constructor
  · rintro ⟨r, hr, hx⟩
    rw [List.flatMap_map, List.mem_flatMap] at hx
    obtain ⟨c, hc, hx⟩ := hx
    obtain ⟨v, hv, hx⟩ := List.mem_flatMap.1 hx
    by_cases e : v.name = r.name
    · rw [if_pos e, List.mem_singleton] at hx
      subst hx
      exact ⟨r, hr, List.mem_map_of_mem (f := fun c => (schemaName db r.schemaId, r.name, colRow c)) hc, v, (List.mem_filter.1 hv).1, of_decide_eq_true (List.mem_filter.1 hv).2, e⟩
    · rw [if_neg e] at hx
      cases hx
  · rintro ⟨r, hr, hx, v, hv, hk, e⟩
    refine ⟨r, hr, ?_⟩
    rw [List.flatMap_map, List.mem_flatMap]
    obtain ⟨c, hc, rfl⟩ := List.mem_map.1 hx
    refine ⟨c, hc, List.mem_flatMap.2 ⟨v, List.mem_filter.2 ⟨hv, decide_eq_true hk⟩, ?_⟩⟩
    rw [if_pos e]
    exact List.mem_singleton.2 rfl

theorem queryViews_eq (h : WF db) (ho : MsSpec.ownViewNames db) : queryViews db = (db.rels.filter (fun r => MsSpec.isView r)).flatMap (viewRowsOf db) := by
  have hfil : (db.rels.filter (fun r => MsSpec.isView r)).flatMap (viewRowsOf db) = db.rels.flatMap (fun r => if MsSpec.isView r then viewRowsOf db r else []) := by
    generalize db.rels = l
    induction l with
    | nil => rfl
    | cons x xs ih =>
      by_cases hx : MsSpec.isView x
      · rw [List.filter_cons_of_pos (p := fun r : Rel => decide (MsSpec.isView r)) (decide_eq_true hx), List.flatMap_cons, List.flatMap_cons, ih, if_pos hx]
      · rw [List.filter_cons_of_neg (by simpa using hx), List.flatMap_cons, ih, if_neg hx, List.nil_append]
  rw [hfil]
  unfold queryViews infoColumns
  rw [List.flatMap_assoc]
  apply flatMap_congr
  intro r hr
  rw [List.flatMap_map]
  by_cases hv : MsSpec.isView r
  · rw [if_pos hv]
    unfold viewRowsOf
    rw [← List.flatMap_singleton' (r.cols.map (fun c => (schemaName db r.schemaId, r.name, colRow c))), List.flatMap_map]
    apply flatMap_congr
    intro c _
    simp only
    rw [Pg.flatMap_only _ r (sysViews db) (h.nodup.filter _) (List.mem_filter.2 ⟨hr, decide_eq_true hv⟩)]
    · simp [colRow]
    · intro v hvm hne
      rw [if_neg]
      intro e
      obtain ⟨hvm, hk⟩ := List.mem_filter.1 hvm
      exact hne (ho v hvm (of_decide_eq_true hk) r hr e.symm).symm
  · rw [if_neg hv]
    apply flatMap_none
    intro c _
    apply flatMap_none
    intro v hvm
    rw [if_neg]
    intro e
    obtain ⟨hvm, hk⟩ := List.mem_filter.1 hvm
    rw [ho v hvm (of_decide_eq_true hk) r hr e.symm] at hv
    exact hv (of_decide_eq_true hk)

/-- **C90**: `ListViews` of a SQL Server database in which no table or view has the name of another view returns exactly the views that pass the filters, each once, with exactly
their columns in order. -/
theorem C90_exactly_the_views_of_the_database_partial (eqFold : Bytes → Bytes → Bool) (hf : Seen.Folds eqFold) (db : Db) (cat : Catalogue) (h : WF db) (ha : Answers db cat)
    (schemas tables : List Bytes) (ord : List Table → List Table) (hord : ∀ l, (ord l).Perm l) (p : Prov) (ho : MsSpec.ownViewNames db)
    (hdot : ∀ r ∈ db.rels, MsSpec.isView r → MsSpec.asked eqFold db schemas tables r → c!"." ∉ schemaName db r.schemaId) :
    ∃ ts p', listViews eqFold cat schemas tables ord p = (.ok ts, p') ∧ p'.leaked = p.leaked
      ∧ (ts.map (fun t => Seen.tab (Schema.Spec.view p'.heap t))).Perm
          ((db.rels.filter (fun r => MsSpec.isView r ∧ MsSpec.asked eqFold db schemas tables r)).map (MsSpec.viewOf db))
      ∧ ts.Pairwise (fun a b => Query.leBytes a.schemaName b.schemaName = true) := by
  obtain ⟨hfine, hl'⟩ := answer_fine ha.views
  rw [queryViews_eq h ho] at hl'
  have hvr : ∀ x : Bytes × Bytes × ColRow, x ∈ Schema.Spec.viewRows eqFold cat schemas tables ↔
      ∃ r ∈ db.rels, MsSpec.isView r ∧ MsSpec.asked eqFold db schemas tables r ∧ ∃ a ∈ r.cols, x = (schemaName db r.schemaId, r.name, colRow a) := by
    intro x
    unfold Schema.Spec.viewRows
    rw [List.mem_filter, hl'.mem_iff, List.mem_flatMap]
    constructor
    · rintro ⟨⟨r, hr, hx⟩, hm⟩
      obtain ⟨a, ha', rfl⟩ := List.mem_map.1 hx
      obtain ⟨hr, hv⟩ := List.mem_filter.1 hr
      exact ⟨r, hr, of_decide_eq_true hv, of_decide_eq_true hm, a, ha', rfl⟩
    · rintro ⟨r, hr, hv, hask, a, ha', rfl⟩
      exact ⟨⟨r, List.mem_filter.2 ⟨hr, decide_eq_true hv⟩, List.mem_map_of_mem (f := fun a => (schemaName db r.schemaId, r.name, colRow a)) ha'⟩, decide_eq_true hask⟩
  obtain ⟨ts, p', h1, h2, h3, h4, h5, h6⟩ := Schema.C69_exactly_the_matching_views eqFold cat schemas tables ord hord p hfine (by
    intro x hx
    obtain ⟨r, hr, hv, hask, a, -, rfl⟩ := (hvr x).1 hx
    exact hdot r hr hv hask)
  refine ⟨ts, p', h1, h2, ?_, h5⟩
  have hrep : ∀ t ∈ ts, ∀ r ∈ db.rels, MsSpec.isView r → MsSpec.asked eqFold db schemas tables r → t.schema = schemaName db r.schemaId → t.name = r.name →
      Seen.tab (Schema.Spec.view p'.heap t) = MsSpec.viewOf db r := by
    intro t ht r hr hv hask e1 e2
    rw [h6 t ht, e1, e2]
    have hrow : ((Schema.Spec.viewRows eqFold cat schemas tables).filter (fun x => x.1 = schemaName db r.schemaId ∧ x.2.1 = r.name)).Perm (viewRowsOf db r) := by
      unfold Schema.Spec.viewRows
      rw [List.filter_filter]
      refine (hl'.filter _).trans (List.Perm.of_eq ?_)
      rw [List.filter_flatMap]
      have hx := flatMap_key (fun r : Rel => (schemaName db r.schemaId, r.name)) (viewRowsOf db) r (db.rels.filter (fun r => MsSpec.isView r))
        (h.fullnames.sublist (List.Sublist.map _ List.filter_sublist)) (List.mem_filter.2 ⟨hr, decide_eq_true hv⟩)
      rw [← hx]
      apply flatMap_congr
      intro x hxm
      by_cases hn : (schemaName db x.schemaId, x.name) = (schemaName db r.schemaId, r.name)
      · rw [if_pos hn, List.filter_eq_self.2]
        intro c hc
        obtain ⟨a, -, rfl⟩ := List.mem_map.1 hc
        simp only [Prod.mk.injEq] at hn
        simp only [hn.1, hn.2, and_self, decide_true, Bool.true_and, decide_eq_true_eq]
        exact hask
      · rw [if_neg hn, List.filter_eq_nil_iff.2]
        intro c hc
        obtain ⟨a, -, rfl⟩ := List.mem_map.1 hc
        simp only [Prod.mk.injEq] at hn
        simp only [Bool.and_eq_true, decide_eq_true_eq]
        exact fun hh => hn hh.1
    have hp : (((Schema.Spec.viewRows eqFold cat schemas tables).filter (fun x => x.1 = schemaName db r.schemaId ∧ x.2.1 = r.name)).map (·.2.2)).Perm (r.cols.map colRow) := by
      refine (hrow.map _).trans (List.Perm.of_eq ?_)
      simp [viewRowsOf, Function.comp_def]
    have hc := sorted_seen eqFold (schemaName db r.schemaId) r.name [] (fun _ => none) (r.cols.map colRow) _ hp (rows_ordered h hr).1 (rows_ordered h hr).2
    rw [cols_seen eqFold hf h hr] at hc
    simp only [Seen.tab, Schema.Spec.viewTable, MsSpec.viewOf]
    congr 1
    rw [← hc, List.map_map, List.map_map, List.map_map]
    rfl
  rw [List.perm_ext_iff_of_nodup]
  · intro x
    rw [List.mem_map, List.mem_map]
    constructor
    · rintro ⟨t, ht, rfl⟩
      obtain ⟨x, hx, e1, e2⟩ := (h4 t.schema t.name).1 (List.mem_map_of_mem (f := fun t : Table => (t.schema, t.name)) ht)
      obtain ⟨r, hr, hv, hask, a, -, rfl⟩ := (hvr x).1 hx
      exact ⟨r, List.mem_filter.2 ⟨hr, decide_eq_true ⟨hv, hask⟩⟩, (hrep t ht r hr hv hask e1.symm e2.symm).symm⟩
    · rintro ⟨r, hr, rfl⟩
      obtain ⟨hr, hc⟩ := List.mem_filter.1 hr
      obtain ⟨hv, hask⟩ := of_decide_eq_true hc
      obtain ⟨a, ha'⟩ := List.exists_mem_of_ne_nil _ (h.viewCols r hr hv)
      obtain ⟨t, ht, e⟩ := List.mem_map.1 ((h4 (schemaName db r.schemaId) r.name).2 ⟨(schemaName db r.schemaId, r.name, colRow a), (hvr _).2 ⟨r, hr, hv, hask, a, ha', rfl⟩, rfl, rfl⟩)
      simp only [Prod.mk.injEq] at e
      exact ⟨t, ht, hrep t ht r hr hv hask e.1 e.2⟩
  · refine List.Pairwise.of_map (S := fun a b : Bytes × Bytes => a ≠ b) (fun x : Seen.Tab => (x.schema, x.name)) (fun a b h e => h (by rw [e])) ?_
    rw [List.map_map]
    exact h3
  · refine List.Pairwise.of_map (S := fun a b : Bytes × Bytes => a ≠ b) (fun x : Seen.Tab => (x.schema, x.name)) (fun a b h e => h (by rw [e])) ?_
    rw [List.map_map]
    exact h.fullnames.sublist (List.Sublist.map _ List.filter_sublist)

/-- **C90 fails** for a table that has the name of a view of another schema: `ListViews` reports that table as a view. -/
theorem C90_table_with_the_name_of_a_view_is_listed (eqFold : Bytes → Bytes → Bool) (db : Db) (cat : Catalogue) (ha : Answers db cat)
    (schemas tables : List Bytes) (ord : List Table → List Table) (hord : ∀ l, (ord l).Perm l) (p : Prov)
    (hdot : ∀ r ∈ db.rels, c!"." ∉ schemaName db r.schemaId)
    (r v : Rel) (hr : r ∈ db.rels) (hv : v ∈ db.rels) (hk : MsSpec.isView v) (hn : v.name = r.name) (hc : r.cols ≠ []) (hask : MsSpec.asked eqFold db schemas tables r) :
    ∃ ts p', listViews eqFold cat schemas tables ord p = (.ok ts, p') ∧ ∃ t ∈ ts, t.schema = schemaName db r.schemaId ∧ t.name = r.name := by
  obtain ⟨hfine, hl'⟩ := answer_fine ha.views
  obtain ⟨ts, p', h1, -, -, h4, -, -⟩ := Schema.C69_exactly_the_matching_views eqFold cat schemas tables ord hord p hfine (by
    intro x hx
    unfold Schema.Spec.viewRows at hx
    obtain ⟨hx, -⟩ := List.mem_filter.1 hx
    obtain ⟨r', hr', hx, -⟩ := mem_queryViews x |>.1 (hl'.mem_iff.1 hx)
    obtain ⟨a, -, rfl⟩ := List.mem_map.1 hx
    exact hdot r' hr')
  refine ⟨ts, p', h1, ?_⟩
  obtain ⟨a, ha'⟩ := List.exists_mem_of_ne_nil _ hc
  have hx : (schemaName db r.schemaId, r.name, colRow a) ∈ viewRowsOf db r := List.mem_map_of_mem (f := fun c => (schemaName db r.schemaId, r.name, colRow c)) ha'
  obtain ⟨t, ht, e⟩ := List.mem_map.1 ((h4 (schemaName db r.schemaId) r.name).2 ⟨(schemaName db r.schemaId, r.name, colRow a),
    List.mem_filter.2 ⟨hl'.mem_iff.2 ((mem_queryViews _).2 ⟨r, hr, hx, v, hv, hk, hn⟩), decide_eq_true hask⟩, rfl, rfl⟩)
  simp only [Prod.mk.injEq] at e
  exact ⟨t, ht, e⟩

end Catalog.Ms
