import Verif.Catalog.PgTables
import Verif.Catalog.SeenLemmas
set_option linter.unusedVariables false
set_option linter.unusedSimpArgs false
/-! `ListTables` of a Postgres database: C84 and C86. -/
namespace Catalog.Pg
open Schema (Rows TableRow ColRow IdxRow FkRow Catalogue Table Prov listTables listViews)

variable {db : Db} {cat : Catalogue}

/-- The columns of a relation, as reported. -/
theorem columns_seen (eqFold : Bytes → Bytes → Bool) (hf : Seen.Folds eqFold) (h : WF db) {r : Rel} (hr : r ∈ db) (s t : Bytes) (ii : List Schema.Index)
    (ref : Bytes → Option Schema.ForeignKey) (rows : List ColRow) (hp : rows.Perm (r.atts.map colRow)) :
    (Util.sort (fun a b : Schema.Column => decide (a.position ≤ b.position)) (rows.map (fun c => Schema.Spec.column eqFold s t ii (ref c.name) c))).map Seen.seen = PgSpec.cols r := by
  rw [sorted_seen eqFold s t ii ref (r.atts.map colRow) rows hp]
  · unfold PgSpec.cols
    rw [List.map_map]
    apply List.map_congr_left
    intro a ha
    have hlen : (UInt32.ofInt (a.maxLen.getD 0)).toNat = (a.maxLen.getD 0).toNat := by
      cases hm : a.maxLen with
      | none => rfl
      | some n => exact ofInt_toNat (h.lens r hr a ha n hm).1 (h.lens r hr a ha n hm).2
    have hnull : (eqFold b!"YES" (if a.nullable then b!"YES" else b!"NO") || eqFold b!"TRUE" (if a.nullable then b!"YES" else b!"NO")
        || eqFold b!"NULL" (if a.nullable then b!"YES" else b!"NO")) = a.nullable := by
      cases a.nullable
      · simp [hf.no1, hf.no2, hf.no3]
      · simp [hf.yes]
    simp only [Function.comp, rowSeen, colRow, hlen, hnull]
  · rw [List.pairwise_map]
    exact h.nums r hr
  · intro c hc
    obtain ⟨a, ha, rfl⟩ := List.mem_map.1 hc
    exact h.numRange r hr a ha

theorem tab_table (eqFold : Bytes → Bytes → Bool) (hf : Seen.Folds eqFold) (h : WF db) {r : Rel} (hr : r ∈ db)
    (hp : (Schema.Spec.rows (cat.columns r.schema r.name)).Perm (r.atts.map colRow)) :
    Seen.tab (Schema.Spec.table eqFold cat (fun _ => none) (tableRow r)) = PgSpec.tableOf r := by
  have hc := columns_seen eqFold hf h hr r.schema r.name (Schema.Spec.indexes cat r.schema r.name) (fun _ => none) _ hp
  simp only [Seen.tab, Schema.Spec.table, PgSpec.tableOf, tableRow]
  congr 1
  rw [← hc]
  simp [Schema.Spec.columns, Function.comp_def]

/-- The rows of the tables query a listing is about. -/
theorem selected_perm (eqFold : Bytes → Bytes → Bool) (ha : Answers db cat) (schemas tables : List Bytes) :
    (Schema.Spec.selected eqFold cat schemas tables).Perm ((db.filter (fun r => PgSpec.isTable r ∧ PgSpec.asked eqFold schemas tables r)).map tableRow) := by
  have hp := (answer_fine ha.tables).2
  rw [queryTables_eq] at hp
  unfold Schema.Spec.selected
  refine (hp.filter _).trans (List.Perm.of_eq ?_)
  rw [List.filter_map, List.filter_filter]
  congr 2
  funext r
  rw [Bool.eq_iff_iff]
  simp only [Function.comp, Bool.and_eq_true, decide_eq_true_eq]
  exact and_comm

/-- What is asked of the tables of a listing: names the queries can deal with, and index names that no other table uses. -/
def Plain (eqFold : Bytes → Bytes → Bool) (db : Db) (schemas tables : List Bytes) : Prop :=
  ∀ r ∈ db, PgSpec.isTable r → PgSpec.asked eqFold schemas tables r → PgSpec.PlainNames r ∧ PgSpec.ownIndexNames db r

theorem table_not_matview {r : Rel} (h : PgSpec.isTable r) : r.kind ≠ .matview := by
  intro e
  rcases h.1 with hh | hh | hh <;> rw [e] at hh <;> cases hh

theorem listed (eqFold : Bytes → Bytes → Bool) (h : WF db) (ha : Answers db cat) (schemas tables : List Bytes) (hn : Plain eqFold db schemas tables)
    (x : TableRow) (hx : x ∈ Schema.Spec.selected eqFold cat schemas tables) :
    ∃ r ∈ db, PgSpec.isTable r ∧ PgSpec.asked eqFold schemas tables r ∧ x = tableRow r ∧ Schema.Spec.Consistent cat r.schema r.name
      ∧ (Schema.Spec.rows (cat.columns r.schema r.name)).Perm (r.atts.map colRow) := by
  obtain ⟨r, hr, rfl⟩ := List.mem_map.1 ((selected_perm eqFold ha schemas tables).mem_iff.1 hx)
  obtain ⟨hr, hc⟩ := List.mem_filter.1 hr
  simp only [decide_eq_true_eq] at hc
  obtain ⟨h1, h2⟩ := hn r hr hc.1 hc.2
  obtain ⟨h3, h4⟩ := consistent h ha hr (table_not_matview hc.1) h1 h2
  exact ⟨r, hr, hc.1, hc.2, rfl, h3, h4⟩

/-- **C84**: `ListTables` of a Postgres database returns exactly the user's ordinary, partitioned and foreign tables that pass the filters, each once, with exactly their
columns in order; whatever order the database returns rows in, and from any earlier history of the provider. -/
theorem C84_exactly_the_tables_of_the_database_partial (eqFold : Bytes → Bytes → Bool) (hf : Seen.Folds eqFold) (db : Db) (cat : Catalogue) (h : WF db) (ha : Answers db cat)
    (schemas tables : List Bytes) (fuel : Nat) (ks : List Bytes) (p : Prov) (hn : Plain eqFold db schemas tables) :
    ∃ ts p', listTables eqFold cat schemas tables false fuel ks p = (.ok ts, p')
      ∧ (ts.map (fun t => Seen.tab (Schema.Spec.view p'.heap t))).Perm
          ((db.filter (fun r => PgSpec.isTable r ∧ PgSpec.asked eqFold schemas tables r)).map PgSpec.tableOf)
      ∧ ts.Pairwise (fun a b => Query.leBytes a.schemaName b.schemaName = true) ∧ p'.leaked = p.leaked := by
  obtain ⟨ts, p', h1, h2, h3, h4⟩ := Schema.C52_exactly_the_matching_tables eqFold cat schemas tables fuel ks p (answer_fine ha.tables).1 (by
    intro x hx
    obtain ⟨r, -, -, -, rfl, hc, -⟩ := listed eqFold h ha schemas tables hn x hx
    exact hc)
  refine ⟨ts, p', h1, ?_, h3, h4⟩
  have := h2.map Seen.tab
  rw [List.map_map] at this
  refine this.trans ?_
  rw [List.map_map]
  refine ((selected_perm eqFold ha schemas tables).map _).trans (List.Perm.of_eq ?_)
  rw [List.map_map]
  apply List.map_congr_left
  intro r hr
  obtain ⟨hr, hc⟩ := List.mem_filter.1 hr
  simp only [decide_eq_true_eq] at hc
  obtain ⟨g1, g2⟩ := hn r hr hc.1 hc.2
  exact tab_table eqFold hf h hr (consistent h ha hr (table_not_matview hc.1) g1 g2).2

/-- **C86**: every reported ordinary table has exactly the indexes it has in the database that are over at least one column, each once, with their flags and exactly their
columns (the order is not specified); a table that is partitioned or foreign is reported without indexes. -/
theorem C86_exactly_the_indexes_of_the_table_partial (eqFold : Bytes → Bytes → Bool) (db : Db) (cat : Catalogue) (h : WF db) (ha : Answers db cat)
    (schemas tables : List Bytes) (fuel : Nat) (ks : List Bytes) (p : Prov) (hn : Plain eqFold db schemas tables) :
    ∃ ts p', listTables eqFold cat schemas tables false fuel ks p = (.ok ts, p') ∧ ∀ r ∈ db, PgSpec.isTable r → ∀ t ∈ ts, t.schema = r.schema → t.name = r.name →
      (t.indexes.map (·.name)).Nodup
      ∧ (∀ x ∈ t.indexes, r.kind = .table ∧ ∃ i ∈ r.idxs, x.name = i.name ∧ x.isPrimary = i.primary ∧ x.isUnique = i.unique
          ∧ x.columnNames.Nodup ∧ ∀ n, n ∈ x.columnNames ↔ PgSpec.over r i n)
      ∧ (r.kind = .table → ∀ i ∈ r.idxs, (∃ n, PgSpec.over r i n) → ∃ x ∈ t.indexes, x.name = i.name)
      ∧ (r.kind = .table → ∀ i ∈ r.idxs, i.primary = true → (∀ j ∈ r.idxs, j.primary = true → j = i) → ∀ a ∈ r.atts, i.key = [a.num] →
          ∃ c, (Schema.Spec.view p'.heap t).primaryKey = some c ∧ some c ∈ (Schema.Spec.view p'.heap t).columns ∧ c.name = a.name) := by
  have hcons : ∀ x ∈ Schema.Spec.selected eqFold cat schemas tables, Schema.Spec.Consistent cat x.schema x.name := by
    intro x hx
    obtain ⟨r, -, -, -, rfl, hc, -⟩ := listed eqFold h ha schemas tables hn x hx
    exact hc
  obtain ⟨ts, p', h1, h2, h3, h4⟩ := Schema.C52_exactly_the_matching_tables eqFold cat schemas tables fuel ks p (answer_fine ha.tables).1 hcons
  obtain ⟨ts', q', g1, g2⟩ := Schema.C54_indexes_and_primary_key_partial eqFold cat schemas tables fuel ks p (answer_fine ha.tables).1 hcons
  rw [h1] at g1
  cases g1
  refine ⟨ts, p', h1, ?_⟩
  intro r hr hit t ht es en
  obtain ⟨i1, -, i3, -⟩ := g2 t ht
  obtain ⟨x, hx, hv⟩ := List.mem_map.1 (h2.mem_iff.1 (List.mem_map_of_mem (f := Schema.Spec.view p'.heap) ht))
  obtain ⟨r', hr', -, hask, rfl, -, -⟩ := listed eqFold h ha schemas tables hn x hx
  have es' : t.schema = r'.schema := (congrArg Schema.Spec.TableView.schema hv).symm
  have en' : t.name = r'.name := (congrArg Schema.Spec.TableView.name hv).symm
  have : r' = r := h.name_inj hr' hr (by rw [← es', es]) (by rw [← en', en])
  subst this
  obtain ⟨hpl, ho⟩ := hn r' hr hit hask
  have hti : t.indexes = Schema.Spec.indexes cat r'.schema r'.name := (congrArg Schema.Spec.TableView.indexes hv).symm
  obtain ⟨rows, hg, hi⟩ := ha.indexes r'.schema r'.name
  have hrows : Schema.Spec.rows (cat.indexes r'.schema r'.name) = rows := by rw [hi]; simp [Schema.Spec.rows, List.filterMap_map, Function.comp_def]
  obtain ⟨k1, k2, k3⟩ := grouped_own h hr ho hg
  have hrk : relkind r'.kind = c!"r" ↔ r'.kind = .table := by
    rcases hit.1 with e | e | e <;> rw [e] <;> decide
  have hcn : ∀ y ∈ rows, ∃ i ∈ r'.idxs, y.name = i.name ∧ y.isPrimary = i.primary ∧ y.isUnique = i.unique ∧ (Types.splitComma y.columnNames).Perm (colNames r' i) := by
    intro y hy
    obtain ⟨-, i, hi', e1, e2, e3, l, hl, hne, e⟩ := k2 y hy
    refine ⟨i, hi', e1, e2, e3, ?_⟩
    rw [e, split_join hne]
    · exact hl
    · intro n hn'
      obtain ⟨a, ha', -, e⟩ := mem_colNames.1 (hl.mem_iff.1 hn')
      rw [← e]
      exact hpl.cols a ha'
  have hnames : t.indexes.map (·.name) = rows.map (·.name) := by
    rw [hti]; unfold Schema.Spec.indexes; rw [hrows, List.map_map]; rfl
  refine ⟨by rw [hnames]; exact k1, ?_, ?_, ?_⟩
  · intro x hx
    rw [hti] at hx
    unfold Schema.Spec.indexes at hx
    rw [hrows] at hx
    obtain ⟨y, hy, rfl⟩ := List.mem_map.1 hx
    obtain ⟨i, hi', e1, e2, e3, hp⟩ := hcn y hy
    refine ⟨hrk.1 (k2 y hy).1, i, hi', e1, e2, e3, hp.nodup_iff.2 (colNames_nodup h hr i), ?_⟩
    intro n
    simp only
    rw [hp.mem_iff, mem_colNames]
  · intro hk i hi' ⟨n, hn'⟩
    obtain ⟨y, hy, e, -⟩ := k3 (hrk.2 hk) i hi' (List.ne_nil_of_mem (mem_colNames.2 hn'))
    have : y.name ∈ t.indexes.map (·.name) := by rw [hnames]; exact List.mem_map_of_mem hy
    obtain ⟨x, hx, ex⟩ := List.mem_map.1 this
    exact ⟨x, hx, ex.trans e⟩
  · intro hk i hi' hprim huniq a haa hkey
    have hcol : colNames r' i = [a.name] := by
      have hnum : ∀ b ∈ r'.atts, b.num = a.num → b = a := by
        intro b hb e
        by_contra hne
        have hnd : (r'.atts.map (·.num)).Nodup := by
          rw [List.Nodup, List.pairwise_map]
          exact (h.nums r' hr).imp (fun hlt e => by omega)
        exact hne (List.inj_on_of_nodup_map hnd hb haa e)
      have hp : (colNames r' i).Perm [a.name] := by
        rw [List.perm_ext_iff_of_nodup (colNames_nodup h hr i) (by simp)]
        intro n
        rw [mem_colNames]
        constructor
        · rintro ⟨b, hb, hbk, rfl⟩
          rw [hkey, List.mem_singleton] at hbk
          rw [hnum b hb hbk]; simp
        · intro hm
          rw [List.mem_singleton] at hm
          exact ⟨a, haa, by rw [hkey]; simp, hm.symm⟩
      exact List.perm_singleton.1 hp
    obtain ⟨y, hy, e1, e2, e3⟩ := k3 (hrk.2 hk) i hi' (by rw [hcol]; simp)
    obtain ⟨j, hj, f1, f2, f3, hp⟩ := hcn y hy
    have : j = i := idx_inj h hr hj hi' (by rw [← f1, e1])
    subst this
    rw [hcol] at hp
    have hy' : (⟨y.name, y.isPrimary, y.isUnique, Types.splitComma y.columnNames, r'.schema ++ b!"." ++ r'.name ++ b!"." ++ y.name⟩ : Schema.Index) ∈ t.indexes := by
      rw [hti]; unfold Schema.Spec.indexes; rw [hrows]
      exact List.mem_map_of_mem (f := fun r : IdxRow => (⟨r.name, r.isPrimary, r.isUnique, Types.splitComma r.columnNames, r'.schema ++ b!"." ++ r'.name ++ b!"." ++ r.name⟩ : Schema.Index)) hy
    refine i3 _ hy' (by rw [f2, hprim]) a.name (by simpa using List.perm_singleton.1 hp) ?_
    intro z hz hzp
    rw [hti] at hz
    unfold Schema.Spec.indexes at hz
    rw [hrows] at hz
    obtain ⟨w, hw, rfl⟩ := List.mem_map.1 hz
    obtain ⟨m, hm, m1, m2, -, -⟩ := hcn w hw
    have hmj := huniq m hm (by rw [← m2]; exact hzp)
    subst hmj
    have : w = y := List.inj_on_of_nodup_map k1 hw hy (by rw [m1, f1])
    rw [this]

end Catalog.Pg
