import Verif.Catalog.MsKeys
import Verif.Catalog.MsDepsSpec
import Verif.Catalog.PgDeps
set_option linter.unusedVariables false
set_option linter.unusedSimpArgs false
/-! `ListTables` with dependencies of a SQL Server database: C95. -/
namespace Catalog.Ms
open Schema (Rows TableRow ColRow IdxRow FkRow Catalogue Table Prov listTables)

variable {db : Db} {cat : Catalogue}

/-- What listing with dependencies can deal with: names without quotes and dots, requested tables without extended properties (C89), columns with one target. -/
structure PlainDeps (eqFold : Bytes → Bytes → Bool) (db : Db) (schemas tables : List Bytes) : Prop where
  asked : Plain eqFold db schemas tables
  props : ∀ r ∈ db.rels, MsSpec.isTable r → MsSpec.asked eqFold db schemas tables r → MsSpec.propsOf db r = []
  quotes : ∀ r, MsSpec.Needed eqFold db schemas tables r → c!"'" ∉ schemaName db r.schemaId ∧ c!"'" ∉ r.name
  dots : ∀ r, MsSpec.Needed eqFold db schemas tables r → MsSpec.noDots db r
  keyDots : ∀ r ∈ db.rels, r.fks ≠ [] → MsSpec.noDots db r
  target : MsSpec.oneTarget db

theorem needed_mem {eqFold : Bytes → Bytes → Bool} {schemas tables : List Bytes} {r : Rel} (h : MsSpec.Needed eqFold db schemas tables r) : r ∈ db.rels := by
  cases h <;> assumption

theorem colName_inj (h : WF db) {r : Rel} (hr : r ∈ db.rels) {a b : Nat} (ha : a ∈ r.cols.map (·.id)) (hb : b ∈ r.cols.map (·.id)) (e : MsSpec.colName r a = MsSpec.colName r b) : a = b := by
  obtain ⟨c, hc, rfl⟩ := List.mem_map.1 ha
  obtain ⟨d, hd, rfl⟩ := List.mem_map.1 hb
  rw [colName_of h hr hc, colName_of h hr hd] at e
  rw [List.inj_on_of_nodup_map (h.colNames r hr) hc hd e]

/-- Rows of the foreign key query. -/
theorem fk_mem (h : WF db) (ha : Answers db cat) (x : FkRow) :
    x ∈ Schema.Spec.rows cat.fkeys ↔ ∃ r ∈ db.rels, ∃ k ∈ r.fks, ∃ r' ∈ db.rels, r'.oid = k.ref ∧ ∃ p ∈ k.pairs, x = pairRow db r k r' p := by
  rw [(answer_fine ha.fkeys).2.mem_iff, queryForeignKeys_eq h]
  simp only [List.mem_flatMap, List.mem_filter, decide_eq_true_eq, List.mem_map]
  constructor
  · rintro ⟨r, hr, k, hk, r', ⟨hr', e⟩, p, hp, rfl⟩; exact ⟨r, hr, k, hk, r', hr', e, p, hp, rfl⟩
  · rintro ⟨r, hr, k, hk, r', hr', e, p, hp, rfl⟩; exact ⟨r, hr, k, hk, r', ⟨hr', e⟩, p, hp, rfl⟩

theorem needed_columns (h : WF db) (ha : Answers db cat) {r : Rel} (hr : r ∈ db.rels) (hq : c!"'" ∉ schemaName db r.schemaId ∧ c!"'" ∉ r.name) :
    Schema.Spec.fine (cat.columns (schemaName db r.schemaId) r.name) ∧ (Schema.Spec.rows (cat.columns (schemaName db r.schemaId) r.name)).Perm (r.cols.map colRow) := by
  have hc := answer_fine (ha.columns (schemaName db r.schemaId) r.name _ _ ((C85_sqlserver_text_iff_no_quote_partial _ _).2 hq))
  rwa [queryColumns_eq h hr] at hc

theorem colRow_names {rows : List ColRow} {r : Rel} (hp : rows.Perm (r.cols.map colRow)) : (rows.map (·.name)).Perm (r.cols.map (·.name)) := by
  have := hp.map (fun c : ColRow => c.name)
  rw [List.map_map] at this
  exact this

theorem selected_mem (eqFold : Bytes → Bytes → Bool) (h : WF db) (ha : Answers db cat) (schemas tables : List Bytes) (hp : PlainDeps eqFold db schemas tables) :
    (Schema.Spec.selected eqFold cat schemas tables).Perm ((db.rels.filter (fun r => MsSpec.isTable r ∧ MsSpec.asked eqFold db schemas tables r)).map (tableRow db)) := by
  refine (selected_perm eqFold h ha schemas tables).trans (List.Perm.of_eq ?_)
  rw [← List.flatMap_singleton' ((db.rels.filter (fun r => MsSpec.isTable r ∧ MsSpec.asked eqFold db schemas tables r)).map (tableRow db)), List.flatMap_map]
  apply flatMap_congr
  intro r hr
  obtain ⟨hr, hc⟩ := List.mem_filter.1 hr
  obtain ⟨g1, g2⟩ := of_decide_eq_true hc
  have : MsSpec.times db r = 1 := by unfold MsSpec.times; rw [if_pos (hp.props r hr g1 g2)]
  rw [this]
  rfl

/-- Reachable by rows of the queries is reachable in the database. -/
theorem reach_iff (eqFold : Bytes → Bytes → Bool) (h : WF db) (hk : MsSpec.KeysWF db) (ha : Answers db cat) (schemas tables : List Bytes) (hp : PlainDeps eqFold db schemas tables) (s n : Bytes) :
    Schema.Spec.Reach cat (Schema.Spec.selected eqFold cat schemas tables) s n ↔ ∃ r, MsSpec.Needed eqFold db schemas tables r ∧ schemaName db r.schemaId = s ∧ r.name = n := by
  constructor
  · intro hr
    induction hr with
    | listed x hx =>
      obtain ⟨r, hr, h1, h2, -, rfl, -, -⟩ := listed eqFold h ha schemas tables hp.asked x hx
      exact ⟨r, .asked r hr h1 h2, rfl, rfl⟩
    | follow s n k hr hkm e1 e2 hcol ih =>
      obtain ⟨r, hn, f1, f2⟩ := ih
      obtain ⟨r', hr', k, hk, r'', hr'', e, p, hpp, rfl⟩ := (fk_mem h ha k).1 hkm
      have := h.name_inj hr' (needed_mem hn) (e1.trans f1.symm) (e2.trans f2.symm)
      subst this
      exact ⟨r'', .refers r' r'' k hn hk hr'' e, rfl, rfl⟩
  · rintro ⟨r, hn, rfl, rfl⟩
    induction hn with
    | asked r hr h1 h2 =>
      have : tableRow db r ∈ Schema.Spec.selected eqFold cat schemas tables := by
        rw [(selected_mem eqFold h ha schemas tables hp).mem_iff]
        exact List.mem_map_of_mem (List.mem_filter.2 ⟨hr, by simpa using ⟨h1, h2⟩⟩)
      exact .listed _ this
    | refers r r' k hn hkm hr' e ih =>
      obtain ⟨p, hpp⟩ := List.exists_mem_of_ne_nil _ (hk r (needed_mem hn) k hkm)
      have hrow := (fk_mem h ha (pairRow db r k r' p)).2 ⟨r, needed_mem hn, k, hkm, r', hr', e, p, hpp, rfl⟩
      have hcol : MsSpec.colName r p.1 ∈ (Schema.Spec.rows (cat.columns (schemaName db r.schemaId) r.name)).map (·.name) := by
        rw [(colRow_names (needed_columns h ha (needed_mem hn) (hp.quotes r hn)).2).mem_iff]
        obtain ⟨c, hc, ec⟩ := List.mem_map.1 (h.fkCols r (needed_mem hn) k hkm p hpp).1
        rw [← ec, colName_of h (needed_mem hn) hc]
        exact List.mem_map_of_mem hc
      exact Schema.Spec.Reach.follow (schemaName db r.schemaId) r.name _ ih hrow rfl rfl hcol

theorem discoverable (eqFold : Bytes → Bytes → Bool) (h : WF db) (hk : MsSpec.KeysWF db) (ha : Answers db cat) (schemas tables : List Bytes) (hp : PlainDeps eqFold db schemas tables) :
    Schema.Spec.Discoverable cat (Schema.Spec.selected eqFold cat schemas tables) where
  fks := (answer_fine ha.fkeys).1
  same := by
    intro x hx x' hx' e1 e2 e3
    obtain ⟨r, hr, k, hkm, t, ht, e, p, hpp, rfl⟩ := (fk_mem h ha x).1 hx
    obtain ⟨r', hr', k', hkm', t', ht', e', p', hpp', rfl⟩ := (fk_mem h ha x').1 hx'
    have := h.name_inj hr hr' e1 e2
    subst this
    have ep : p.1 = p'.1 := colName_inj h hr (h.fkCols r hr k hkm p hpp).1 (h.fkCols r hr k' hkm' p' hpp').1 e3
    have := h.oid_inj ht ht' (by rw [e, e']; exact hp.target r hr k hkm k' hkm' p hpp p' hpp' ep)
    subst this
    exact ⟨rfl, rfl⟩
  names := by
    intro s n hr
    obtain ⟨r, hn, rfl, rfl⟩ := (reach_iff eqFold h hk ha schemas tables hp s n).1 hr
    exact hp.dots r hn
  fkNames := by
    intro x hx
    obtain ⟨r, hr, k, hkm, t, ht, e, p, hpp, rfl⟩ := (fk_mem h ha x).1 hx
    exact hp.keyDots r hr (List.ne_nil_of_mem hkm)
  cols := by
    intro s n hr
    obtain ⟨r, hn, rfl, rfl⟩ := (reach_iff eqFold h hk ha schemas tables hp s n).1 hr
    exact (needed_columns h ha (needed_mem hn) (hp.quotes r hn)).1
  distinct := by
    intro s n hr
    obtain ⟨r, hn, rfl, rfl⟩ := (reach_iff eqFold h hk ha schemas tables hp s n).1 hr
    rw [(colRow_names (needed_columns h ha (needed_mem hn) (hp.quotes r hn)).2).nodup_iff]
    exact h.colNames r (needed_mem hn)

theorem keysOf_mem {r : Rel} (x : Schema.ForeignKey) : x ∈ MsSpec.keysOf db r ↔ ∃ k ∈ r.fks, ∃ r' ∈ db.rels, r'.oid = k.ref ∧ ∃ p ∈ k.pairs,
    x = ⟨k.name, schemaName db r.schemaId, r.name, MsSpec.colName r p.1, schemaName db r'.schemaId, r'.name, MsSpec.colName r' p.2, schemaName db r.schemaId ++ b!"." ++ r.name ++ b!"." ++ k.name⟩ := by
  unfold MsSpec.keysOf
  simp only [List.mem_flatMap, List.mem_filter, decide_eq_true_eq, List.mem_map]
  constructor
  · rintro ⟨k, hk, r', ⟨hr', e⟩, p, hp, rfl⟩; exact ⟨k, hk, r', hr', e, p, hp, rfl⟩
  · rintro ⟨k, hk, r', hr', e, p, hp, rfl⟩; exact ⟨k, hk, r', ⟨hr', e⟩, p, hp, rfl⟩

/-- The reference that is reported for a column. -/
theorem refOf_ok (h : WF db) (ha : Answers db cat) {r : Rel} (hr : r ∈ db.rels) (n : Bytes) :
    MsSpec.refOk db r n (Schema.Spec.refOf cat (schemaName db r.schemaId) r.name n) := by
  unfold Schema.Spec.refOf
  cases hl : ((Schema.Spec.rows cat.fkeys).filter (fun k => k.schema = schemaName db r.schemaId ∧ k.table = r.name ∧ k.column = n)).getLast? with
  | none =>
    rw [List.getLast?_eq_none_iff] at hl
    intro x hx e
    obtain ⟨k, hkm, r', hr', ek, p, hpp, rfl⟩ := (keysOf_mem x).1 hx
    have hrow := (fk_mem h ha (pairRow db r k r' p)).2 ⟨r, hr, k, hkm, r', hr', ek, p, hpp, rfl⟩
    have := List.filter_eq_nil_iff.1 hl _ hrow
    simp only [decide_eq_true_eq] at this
    exact this ⟨rfl, rfl, e⟩
  | some x =>
    obtain ⟨hx, he⟩ := List.mem_filter.1 (List.mem_of_getLast? hl)
    simp only [decide_eq_true_eq] at he
    obtain ⟨r', hr', k, hkm, t, ht, ek, p, hpp, rfl⟩ := (fk_mem h ha x).1 hx
    have := h.name_inj hr' hr he.1 he.2.1
    subst this
    exact ⟨(keysOf_mem _).2 ⟨k, hkm, t, ht, ek, p, hpp, rfl⟩, he.2.2⟩

theorem tab_of (eqFold : Bytes → Bytes → Bool) (hf : Seen.Folds eqFold) (h : WF db) {r : Rel} (hr : r ∈ db.rels) (ref : Bytes → Option Schema.ForeignKey)
    (hp : (Schema.Spec.rows (cat.columns (schemaName db r.schemaId) r.name)).Perm (r.cols.map colRow)) :
    Seen.tab (Schema.Spec.table eqFold cat ref (tableRow db r)) = MsSpec.tableOf db r
    ∧ Seen.tab (Schema.Spec.dependency eqFold cat ref (schemaName db r.schemaId) r.name) = MsSpec.dependencyOf db r := by
  constructor
  · have hc := sorted_seen eqFold (schemaName db r.schemaId) r.name (Schema.Spec.indexes cat (schemaName db r.schemaId) r.name) ref (r.cols.map colRow) _ hp
      (rows_ordered h hr).1 (rows_ordered h hr).2
    rw [cols_seen eqFold hf h hr] at hc
    simp only [Seen.tab, Schema.Spec.table, MsSpec.tableOf, tableRow]
    congr 1
    rw [← hc]
    simp [Schema.Spec.columns, Function.comp_def]
  · have hc := sorted_seen eqFold (schemaName db r.schemaId) r.name [] ref (r.cols.map colRow) _ hp (rows_ordered h hr).1 (rows_ordered h hr).2
    rw [cols_seen eqFold hf h hr] at hc
    simp only [Seen.tab, Schema.Spec.dependency, MsSpec.dependencyOf]
    congr 1
    rw [← hc]
    simp [Schema.Spec.columns, Function.comp_def]

/-- **C95**: on a fresh provider `ListTables` with dependencies of a SQL Server database returns exactly the requested tables and all tables they refer to, directly or through others, each once,
by name; each with exactly its columns in order, and each column that a foreign key has with such a key and the column it is paired with; whatever order the database returns rows in and Go
iterates in. -/
theorem C95_sqlserver_dependencies_partial (eqFold : Bytes → Bytes → Bool) (hf : Seen.Folds eqFold) (db : Db) (cat : Catalogue) (h : WF db) (hk : MsSpec.KeysWF db) (ha : Answers db cat)
    (schemas tables : List Bytes) (fuel : Nat) (ks : List Bytes) (hp : PlainDeps eqFold db schemas tables)
    (hks : ∀ r ∈ db.rels, MsSpec.isTable r → MsSpec.asked eqFold db schemas tables r → ∀ c ∈ r.cols, schemaName db r.schemaId ++ b!"." ++ r.name ++ b!"." ++ c.name ∈ ks)
    (hfuel : (queryForeignKeys db).length < fuel) :
    ∃ ts p', listTables eqFold cat schemas tables true fuel ks Prov.new = (.ok ts, p')
      ∧ (ts.map (fun t => (t.schema, t.name))).Nodup
      ∧ (∀ s n, (s, n) ∈ ts.map (fun t => (t.schema, t.name)) ↔ ∃ r, MsSpec.Needed eqFold db schemas tables r ∧ schemaName db r.schemaId = s ∧ r.name = n)
      ∧ ts.Pairwise (fun a b => Query.leBytes a.schemaName b.schemaName = true)
      ∧ (∀ r ∈ db.rels, ∀ t ∈ ts, t.schema = schemaName db r.schemaId → t.name = r.name →
          Seen.tab (Schema.Spec.view p'.heap t) = (if MsSpec.isTable r ∧ MsSpec.asked eqFold db schemas tables r then MsSpec.tableOf db r else MsSpec.dependencyOf db r)
          ∧ ∀ c, some c ∈ (Schema.Spec.view p'.heap t).columns → MsSpec.refOk db r c.name c.ref)
      ∧ p'.leaked = 0 := by
  have hsel := selected_mem eqFold h ha schemas tables hp
  have hlen : (Schema.Spec.rows cat.fkeys).length < fuel := by rw [(answer_fine ha.fkeys).2.length_eq]; exact hfuel
  have hnames : (db.rels.map (fun r => (schemaName db r.schemaId, r.name))).Nodup := by
    rw [List.Nodup, List.pairwise_map]
    refine List.Pairwise.imp_of_mem ?_ h.nodup
    intro a b ha' hb' hne e
    simp only [Prod.mk.injEq] at e
    exact hne (h.name_inj ha' hb' e.1 e.2)
  obtain ⟨ts, p', a1, a2, a3, a4, a5, a6, a7⟩ := Schema.C53_discovery_is_complete_partial eqFold cat schemas tables fuel ks (answer_fine ha.tables).1 (by
      intro x hx
      obtain ⟨r, -, -, -, -, rfl, hc, -⟩ := listed eqFold h ha schemas tables hp.asked x hx
      exact hc) (discoverable eqFold h hk ha schemas tables hp) (by
      refine ((hsel.map (fun r : TableRow => (r.schema, r.name))).nodup_iff).2 ?_
      rw [List.map_map]
      exact hnames.sublist (List.Sublist.map (fun r : Rel => (schemaName db r.schemaId, r.name)) List.filter_sublist)) (by
      intro x hx c hc
      obtain ⟨r, hr, h1, h2, -, rfl, -, hperm⟩ := listed eqFold h ha schemas tables hp.asked x hx
      obtain ⟨a, ha', rfl⟩ := List.mem_map.1 (hperm.mem_iff.1 hc)
      exact hks r hr h1 h2 a ha') hlen
  refine ⟨ts, p', a1, a2, ?_, a4, ?_, a7⟩
  · intro s n
    rw [a3 s n]
    exact reach_iff eqFold h hk ha schemas tables hp s n
  · intro r hr t ht es en
    have hreach : Schema.Spec.Reach cat (Schema.Spec.selected eqFold cat schemas tables) (schemaName db r.schemaId) r.name := by
      rw [← a3, ← es, ← en]
      exact List.mem_map_of_mem (f := fun t : Table => (t.schema, t.name)) ht
    have hneed : MsSpec.Needed eqFold db schemas tables r := by
      obtain ⟨r', hn, e1, e2⟩ := (reach_iff eqFold h hk ha schemas tables hp _ _).1 hreach
      have := h.name_inj (needed_mem hn) hr e1 e2
      rwa [this] at hn
    have hperm := (needed_columns h ha hr (hp.quotes r hneed)).2
    obtain ⟨t1, t2⟩ := tab_of eqFold hf h hr (Schema.Spec.refOf cat (schemaName db r.schemaId) r.name) hperm
    have huniq : ∀ v, v ∈ ts.map (Schema.Spec.view p'.heap) → v.schema = schemaName db r.schemaId → v.name = r.name → v = Schema.Spec.view p'.heap t := by
      intro v hv e1 e2
      obtain ⟨u, hu, rfl⟩ := List.mem_map.1 hv
      have : u = t := List.inj_on_of_nodup_map a2 hu ht (by
        have e1 : u.schema = schemaName db r.schemaId := e1
        have e2 : u.name = r.name := e2
        simp only [e1, e2, es, en])
      rw [this]
    have hrefs : ∀ ii, ∀ c ∈ Schema.Spec.columns eqFold cat (schemaName db r.schemaId) r.name ii (Schema.Spec.refOf cat (schemaName db r.schemaId) r.name), MsSpec.refOk db r c.name c.ref := by
      intro ii c hc
      rw [Pg.column_ref eqFold cat _ _ _ _ c hc]
      exact refOf_ok h ha hr c.name
    by_cases hask : MsSpec.isTable r ∧ MsSpec.asked eqFold db schemas tables r
    · have hmem : tableRow db r ∈ Schema.Spec.selected eqFold cat schemas tables := by
        rw [hsel.mem_iff]
        exact List.mem_map_of_mem (List.mem_filter.2 ⟨hr, by simpa using hask⟩)
      have := huniq _ (a5 _ hmem) rfl rfl
      rw [← this, if_pos hask]
      refine ⟨t1, ?_⟩
      intro c hc
      obtain ⟨c', hc', e⟩ := List.mem_map.1 hc
      cases e
      exact hrefs _ c hc'
    · have hno : ∀ x ∈ Schema.Spec.selected eqFold cat schemas tables, ¬(x.schema = schemaName db r.schemaId ∧ x.name = r.name) := by
        rintro x hx ⟨e1, e2⟩
        obtain ⟨r', hr', h1, h2, -, rfl, -, -⟩ := listed eqFold h ha schemas tables hp.asked x hx
        have := h.name_inj hr' hr e1 e2
        subst this
        exact hask ⟨h1, h2⟩
      have := huniq _ (a6 _ _ hreach hno) rfl rfl
      rw [← this, if_neg hask]
      refine ⟨t2, ?_⟩
      intro c hc
      obtain ⟨c', hc', e⟩ := List.mem_map.1 hc
      cases e
      exact hrefs _ c hc'

end Catalog.Ms
