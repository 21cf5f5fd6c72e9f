import Verif.Catalog.PgKeys
import Verif.Catalog.PgDepsSpec
import Verif.Schema.DiscoverProps
set_option linter.unusedVariables false
set_option linter.unusedSimpArgs false
/-! `ListTables` with dependencies of a Postgres database: C95. -/
namespace Catalog.Pg
open Schema (Rows TableRow ColRow IdxRow FkRow Catalogue Table Prov listTables)

variable {db : Db} {cat : Catalogue}

/-- Names that listing with dependencies can deal with. -/
structure PlainDeps (eqFold : Bytes → Bytes → Bool) (db : Db) (schemas tables : List Bytes) : Prop where
  asked : Plain eqFold db schemas tables
  quotes : ∀ r, PgSpec.Needed eqFold db schemas tables r → c!"'" ∉ r.schema ∧ c!"'" ∉ r.name
  dots : ∀ r, PgSpec.Needed eqFold db schemas tables r → PgSpec.noDots r
  keyDots : ∀ r ∈ db, ∀ c ∈ r.cons, c.kind = .foreign → PgSpec.noDots r
  target : PgSpec.oneTarget db
  keys : PgSpec.ownKeyNames db

theorem needed_mem {eqFold : Bytes → Bytes → Bool} {schemas tables : List Bytes} {r : Rel} (h : PgSpec.Needed eqFold db schemas tables r) : r ∈ db := by
  cases h <;> assumption

theorem needed_not_matview (h : WF db) (hk : PgSpec.KeysWF db) {eqFold : Bytes → Bytes → Bool} {schemas tables : List Bytes} {r : Rel} (hn : PgSpec.Needed eqFold db schemas tables r) :
    r.kind ≠ .matview := by
  cases hn with
  | asked _ h1 h2 h3 => exact table_not_matview h2
  | refers r r' c h1 h2 h3 h4 h5 h6 =>
    obtain ⟨r'', g1, g2, g3, g4⟩ := hk.refs _ (needed_mem h1) c h2 h3
    have := h.name_inj g1 h4 (by rw [g3, h5]) (by rw [g4, h6])
    subst this
    intro e
    rcases g2 with g | g | g <;> rw [e] at g <;> cases g

/-- Rows of the foreign key query. -/
theorem fk_mem (h : WF db) (ha : Answers db cat) (ho : PgSpec.ownKeyNames db) (k : FkRow) :
    k ∈ Schema.Spec.rows cat.fkeys ↔ ∃ r ∈ db, ∃ c ∈ r.cons, c.kind = .foreign ∧ ∃ n ∈ c.cols, ∃ m ∈ c.refCols, k = ⟨c.name, r.schema, r.name, n, c.refSchema, c.refTable, m⟩ := by
  rw [(answer_fine ha.fkeys).2.mem_iff, queryForeignKeys_eq h ho]
  simp only [List.mem_flatMap, List.mem_filter, decide_eq_true_eq, pairRows, List.mem_map]
  constructor
  · rintro ⟨r, hr, c, ⟨hc, hk⟩, n, hn, m, hm, rfl⟩; exact ⟨r, hr, c, hc, hk, n, hn, m, hm, rfl⟩
  · rintro ⟨r, hr, c, hc, hk, n, hn, m, hm, rfl⟩; exact ⟨r, hr, c, ⟨hc, hk⟩, n, hn, m, hm, rfl⟩

theorem needed_columns (h : WF db) (ha : Answers db cat) {r : Rel} (hr : r ∈ db) (hk : r.kind ≠ .matview) (hq : c!"'" ∉ r.schema ∧ c!"'" ∉ r.name) :
    Schema.Spec.fine (cat.columns r.schema r.name) ∧ (Schema.Spec.rows (cat.columns r.schema r.name)).Perm (r.atts.map colRow) := by
  have hc := answer_fine (ha.columns r.schema r.name _ _ ((C85_postgres_text_iff_no_quote_partial _ _).2 hq))
  rwa [queryColumns_eq h hr hk] at hc

theorem colRow_names {rows : List ColRow} {r : Rel} (hp : rows.Perm (r.atts.map colRow)) : (rows.map (·.name)).Perm (r.atts.map (·.name)) := by
  have := hp.map (fun c : ColRow => c.name)
  rw [List.map_map] at this
  exact this

/-- Reachable by rows of the queries is reachable in the database. -/
theorem reach_iff (eqFold : Bytes → Bytes → Bool) (h : WF db) (hk : PgSpec.KeysWF db) (ha : Answers db cat) (schemas tables : List Bytes) (hp : PlainDeps eqFold db schemas tables) (s n : Bytes) :
    Schema.Spec.Reach cat (Schema.Spec.selected eqFold cat schemas tables) s n ↔ ∃ r, PgSpec.Needed eqFold db schemas tables r ∧ r.schema = s ∧ r.name = n := by
  constructor
  · intro hr
    induction hr with
    | listed x hx =>
      obtain ⟨r, hr, h1, h2, rfl, -, -⟩ := listed eqFold h ha schemas tables hp.asked x hx
      exact ⟨r, .asked r hr h1 h2, rfl, rfl⟩
    | follow s n k hr hkm e1 e2 hcol ih =>
      obtain ⟨r, hn, f1, f2⟩ := ih
      obtain ⟨r', hr', c, hc, hck, x, hx, m, hm, rfl⟩ := (fk_mem h ha hp.keys k).1 hkm
      have := h.name_inj hr' (needed_mem hn) (e1.trans f1.symm) (e2.trans f2.symm)
      subst this
      obtain ⟨r'', g1, -, g3, g4⟩ := hk.refs r' hr' c hc hck
      exact ⟨r'', .refers r' r'' c hn hc hck g1 g3 g4, g3, g4⟩
  · rintro ⟨r, hn, rfl, rfl⟩
    induction hn with
    | asked r hr h1 h2 =>
      have : tableRow r ∈ Schema.Spec.selected eqFold cat schemas tables := by
        rw [(selected_perm eqFold ha schemas tables).mem_iff]
        exact List.mem_map_of_mem (List.mem_filter.2 ⟨hr, by simpa using ⟨h1, h2⟩⟩)
      exact .listed _ this
    | refers r r' c hn hc hck hr' e1 e2 ih =>
      obtain ⟨h1, h2, h3⟩ := hk.cols r (needed_mem hn) c hc hck
      obtain ⟨x, hx⟩ := List.exists_mem_of_ne_nil _ h1
      have hne : c.refCols ≠ [] := by
        intro e
        rw [e] at h2
        exact h1 (List.length_eq_zero_iff.1 h2)
      obtain ⟨m, hm⟩ := List.exists_mem_of_ne_nil _ hne
      have hrow := (fk_mem h ha hp.keys ⟨c.name, r.schema, r.name, x, c.refSchema, c.refTable, m⟩).2 ⟨r, needed_mem hn, c, hc, hck, x, hx, m, hm, rfl⟩
      have hcol : x ∈ (Schema.Spec.rows (cat.columns r.schema r.name)).map (·.name) := by
        rw [(colRow_names (needed_columns h ha (needed_mem hn) (needed_not_matview h hk hn) (hp.quotes r hn)).2).mem_iff]
        obtain ⟨a, ha', e⟩ := h3 x hx
        exact List.mem_map.2 ⟨a, ha', e⟩
      have := Schema.Spec.Reach.follow r.schema r.name _ ih hrow rfl rfl hcol
      rw [e1, e2]
      exact this

theorem discoverable (eqFold : Bytes → Bytes → Bool) (h : WF db) (hk : PgSpec.KeysWF db) (ha : Answers db cat) (schemas tables : List Bytes) (hp : PlainDeps eqFold db schemas tables) :
    Schema.Spec.Discoverable cat (Schema.Spec.selected eqFold cat schemas tables) where
  fks := (answer_fine ha.fkeys).1
  same := by
    intro k hkm k' hkm' e1 e2 e3
    obtain ⟨r, hr, c, hc, hck, x, hx, m, hm, rfl⟩ := (fk_mem h ha hp.keys k).1 hkm
    obtain ⟨r', hr', c', hc', hck', x', hx', m', hm', rfl⟩ := (fk_mem h ha hp.keys k').1 hkm'
    have := h.name_inj hr hr' e1 e2
    subst this
    simp only at e3
    subst e3
    exact hp.target r hr c hc hck c' hc' hck' x hx hx'
  names := by
    intro s n hr
    obtain ⟨r, hn, rfl, rfl⟩ := (reach_iff eqFold h hk ha schemas tables hp s n).1 hr
    exact hp.dots r hn
  fkNames := by
    intro k hkm
    obtain ⟨r, hr, c, hc, hck, x, hx, m, hm, rfl⟩ := (fk_mem h ha hp.keys k).1 hkm
    exact hp.keyDots r hr c hc hck
  cols := by
    intro s n hr
    obtain ⟨r, hn, rfl, rfl⟩ := (reach_iff eqFold h hk ha schemas tables hp s n).1 hr
    exact (needed_columns h ha (needed_mem hn) (needed_not_matview h hk hn) (hp.quotes r hn)).1
  distinct := by
    intro s n hr
    obtain ⟨r, hn, rfl, rfl⟩ := (reach_iff eqFold h hk ha schemas tables hp s n).1 hr
    rw [(colRow_names (needed_columns h ha (needed_mem hn) (needed_not_matview h hk hn) (hp.quotes r hn)).2).nodup_iff]
    exact h.attNames r (needed_mem hn)

/-- The reference that is reported for a column. -/
theorem refOf_ok (h : WF db) (ha : Answers db cat) (ho : PgSpec.ownKeyNames db) (hk : PgSpec.KeysWF db) {r : Rel} (hr : r ∈ db) (n : Bytes) :
    PgSpec.refOk r n (Schema.Spec.refOf cat r.schema r.name n) := by
  unfold Schema.Spec.refOf
  cases hl : ((Schema.Spec.rows cat.fkeys).filter (fun k => k.schema = r.schema ∧ k.table = r.name ∧ k.column = n)).getLast? with
  | none =>
    rw [List.getLast?_eq_none_iff] at hl
    intro c hc hck hn
    obtain ⟨h1, h2, h3⟩ := hk.cols r hr c hc hck
    have hne : c.refCols ≠ [] := by
      intro e
      rw [e] at h2
      exact h1 (List.length_eq_zero_iff.1 h2)
    obtain ⟨m, hm⟩ := List.exists_mem_of_ne_nil _ hne
    have hrow := (fk_mem h ha ho ⟨c.name, r.schema, r.name, n, c.refSchema, c.refTable, m⟩).2 ⟨r, hr, c, hc, hck, n, hn, m, hm, rfl⟩
    have := List.filter_eq_nil_iff.1 hl _ hrow
    simp at this
  | some k =>
    obtain ⟨hkm, he⟩ := List.mem_filter.1 (List.mem_of_getLast? hl)
    simp only [decide_eq_true_eq] at he
    obtain ⟨r', hr', c, hc, hck, x, hx, m, hm, rfl⟩ := (fk_mem h ha ho k).1 hkm
    have := h.name_inj hr' hr he.1 he.2.1
    subst this
    have e3 : x = n := he.2.2
    subst e3
    exact ⟨c, hc, hck, hx, m, hm, rfl⟩

theorem tab_of (eqFold : Bytes → Bytes → Bool) (hf : Seen.Folds eqFold) (h : WF db) {r : Rel} (hr : r ∈ db) (ref : Bytes → Option Schema.ForeignKey)
    (hp : (Schema.Spec.rows (cat.columns r.schema r.name)).Perm (r.atts.map colRow)) :
    Seen.tab (Schema.Spec.table eqFold cat ref (tableRow r)) = PgSpec.tableOf r ∧ Seen.tab (Schema.Spec.dependency eqFold cat ref r.schema r.name) = PgSpec.dependencyOf r := by
  constructor
  · have hc := columns_seen eqFold hf h hr r.schema r.name (Schema.Spec.indexes cat r.schema r.name) ref _ hp
    simp only [Seen.tab, Schema.Spec.table, PgSpec.tableOf, tableRow]
    congr 1
    rw [← hc]
    simp [Schema.Spec.columns, Function.comp_def]
  · have hc := columns_seen eqFold hf h hr r.schema r.name [] ref _ hp
    simp only [Seen.tab, Schema.Spec.dependency, PgSpec.dependencyOf]
    congr 1
    rw [← hc]
    simp [Schema.Spec.columns, Function.comp_def]

theorem column_ref (eqFold : Bytes → Bytes → Bool) (cat : Catalogue) (s n : Bytes) (ii : List Schema.Index) (ref : Bytes → Option Schema.ForeignKey) (c : Schema.Column)
    (hc : c ∈ Schema.Spec.columns eqFold cat s n ii ref) : c.ref = ref c.name := by
  unfold Schema.Spec.columns at hc
  rw [(Util.sort_perm _ _).mem_iff, List.mem_map] at hc
  obtain ⟨x, -, rfl⟩ := hc
  rfl

/-- **C95**: on a fresh provider `ListTables` with dependencies of a Postgres database returns exactly the requested tables and all tables they refer to, directly or through others, each once,
by name; each with exactly its columns in order, and each column with a reference of a foreign key it is part of, if it is part of one; whatever order the database returns rows in and Go iterates in. -/
theorem C95_postgres_dependencies_partial (eqFold : Bytes → Bytes → Bool) (hf : Seen.Folds eqFold) (db : Db) (cat : Catalogue) (h : WF db) (hk : PgSpec.KeysWF db) (ha : Answers db cat)
    (schemas tables : List Bytes) (fuel : Nat) (ks : List Bytes) (hp : PlainDeps eqFold db schemas tables)
    (hks : ∀ r ∈ db, PgSpec.isTable r → PgSpec.asked eqFold schemas tables r → ∀ a ∈ r.atts, r.schema ++ b!"." ++ r.name ++ b!"." ++ a.name ∈ ks)
    (hfuel : (queryForeignKeys db).length < fuel) :
    ∃ ts p', listTables eqFold cat schemas tables true fuel ks Prov.new = (.ok ts, p')
      ∧ (ts.map (fun t => (t.schema, t.name))).Nodup
      ∧ (∀ s n, (s, n) ∈ ts.map (fun t => (t.schema, t.name)) ↔ ∃ r, PgSpec.Needed eqFold db schemas tables r ∧ r.schema = s ∧ r.name = n)
      ∧ ts.Pairwise (fun a b => Query.leBytes a.schemaName b.schemaName = true)
      ∧ (∀ r ∈ db, ∀ t ∈ ts, t.schema = r.schema → t.name = r.name →
          Seen.tab (Schema.Spec.view p'.heap t) = (if PgSpec.isTable r ∧ PgSpec.asked eqFold schemas tables r then PgSpec.tableOf r else PgSpec.dependencyOf r)
          ∧ ∀ c, some c ∈ (Schema.Spec.view p'.heap t).columns → PgSpec.refOk r c.name c.ref)
      ∧ p'.leaked = 0 := by
  have hsel := selected_perm eqFold ha schemas tables
  have hlen : (Schema.Spec.rows cat.fkeys).length < fuel := by rw [(answer_fine ha.fkeys).2.length_eq]; exact hfuel
  obtain ⟨ts, p', a1, a2, a3, a4, a5, a6, a7⟩ := Schema.C53_discovery_is_complete_partial eqFold cat schemas tables fuel ks (answer_fine ha.tables).1 (by
      intro x hx
      obtain ⟨r, -, -, -, rfl, hc, -⟩ := listed eqFold h ha schemas tables hp.asked x hx
      exact hc) (discoverable eqFold h hk ha schemas tables hp) (by
      refine ((hsel.map (fun r : TableRow => (r.schema, r.name))).nodup_iff).2 ?_
      rw [List.map_map]
      exact h.names.sublist (List.Sublist.map (fun r : Rel => (r.schema, r.name)) List.filter_sublist)) (by
      intro x hx c hc
      obtain ⟨r, hr, h1, h2, rfl, -, hperm⟩ := listed eqFold h ha schemas tables hp.asked x hx
      obtain ⟨a, ha', rfl⟩ := List.mem_map.1 (hperm.mem_iff.1 hc)
      exact hks r hr h1 h2 a ha') hlen
  refine ⟨ts, p', a1, a2, ?_, a4, ?_, a7⟩
  · intro s n
    rw [a3 s n]
    exact reach_iff eqFold h hk ha schemas tables hp s n
  · intro r hr t ht es en
    have hreach : Schema.Spec.Reach cat (Schema.Spec.selected eqFold cat schemas tables) r.schema r.name := by
      rw [← a3, ← es, ← en]
      exact List.mem_map_of_mem (f := fun t : Table => (t.schema, t.name)) ht
    have hneed : PgSpec.Needed eqFold db schemas tables r := by
      obtain ⟨r', hn, e1, e2⟩ := (reach_iff eqFold h hk ha schemas tables hp _ _).1 hreach
      have := h.name_inj (needed_mem hn) hr e1 e2
      rwa [this] at hn
    have hperm := (needed_columns h ha hr (needed_not_matview h hk hneed) (hp.quotes r hneed)).2
    obtain ⟨t1, t2⟩ := tab_of eqFold hf h hr (Schema.Spec.refOf cat r.schema r.name) hperm
    have huniq : ∀ v, v ∈ ts.map (Schema.Spec.view p'.heap) → v.schema = r.schema → v.name = r.name → v = Schema.Spec.view p'.heap t := by
      intro v hv e1 e2
      obtain ⟨u, hu, rfl⟩ := List.mem_map.1 hv
      have : u = t := List.inj_on_of_nodup_map a2 hu ht (by
        have e1 : u.schema = r.schema := e1
        have e2 : u.name = r.name := e2
        simp only [e1, e2, es, en])
      rw [this]
    have hrefs : ∀ ii, ∀ c ∈ Schema.Spec.columns eqFold cat r.schema r.name ii (Schema.Spec.refOf cat r.schema r.name), PgSpec.refOk r c.name c.ref := by
      intro ii c hc
      rw [column_ref eqFold cat _ _ _ _ c hc]
      exact refOf_ok h ha hp.keys hk hr c.name
    by_cases hask : PgSpec.isTable r ∧ PgSpec.asked eqFold schemas tables r
    · have hmem : tableRow r ∈ Schema.Spec.selected eqFold cat schemas tables := by
        rw [hsel.mem_iff]
        exact List.mem_map_of_mem (List.mem_filter.2 ⟨hr, by simpa using hask⟩)
      have := huniq _ (a5 _ hmem) rfl rfl
      rw [← this, if_pos hask]
      refine ⟨t1, ?_⟩
      intro c hc
      obtain ⟨c', hc', e⟩ := List.mem_map.1 hc
      cases e
      exact hrefs _ c hc'
    · have hno : ∀ x ∈ Schema.Spec.selected eqFold cat schemas tables, ¬(x.schema = r.schema ∧ x.name = r.name) := by
        rintro x hx ⟨e1, e2⟩
        obtain ⟨r', hr', h1, h2, rfl, -, -⟩ := listed eqFold h ha schemas tables hp.asked x hx
        have := h.name_inj hr' hr e1 e2
        subst this
        exact hask ⟨h1, h2⟩
      have := huniq _ (a6 _ _ hreach hno) rfl rfl
      rw [← this, if_neg hask]
      refine ⟨t2, ?_⟩
      intro c hc
      obtain ⟨c', hc', e⟩ := List.mem_map.1 hc
      cases e
      exact hrefs _ c hc'

end Catalog.Pg
