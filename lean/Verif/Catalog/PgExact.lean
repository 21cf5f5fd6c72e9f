import Verif.Catalog.PgDemo
import Verif.Schema.Crash
set_option linter.unusedVariables false
set_option linter.unusedSimpArgs false
/-! C86, exactly: which indexes `ListTables` reports for the tables of a Postgres database, and when it crashes, also when index names are used more than once. -/

namespace Schema

/-- A reported table has the indexes of its index query, whatever happened before. -/
theorem addTable_indexes {eqFold : Bytes → Bytes → Bool} {cat : Catalogue} {r : TableRow} {p p' : Prov} {t : Table} (h : addTable eqFold cat r p = (.ok t, p')) :
    t.schema = r.schema ∧ t.name = r.name ∧ t.indexes = Spec.indexes cat r.schema r.name := by
  have hr : Spec.Readable cat r := Classical.byContradiction fun hn => by
    have := addTable_unreadable eqFold cat r p hn
    rw [h] at this
    cases this
  obtain ⟨p1, h1, -⟩ := readColumns_ok eqFold cat r.schema r.name p hr.1
  unfold addTable at h
  rw [h1] at h
  simp only [readIndexes_ok cat r.schema r.name _ hr.2] at h
  split at h
  · cases h
  · simp only [Prod.mk.injEq, Out.ok.injEq] at h
    rw [← h.1]
    exact ⟨rfl, rfl, rfl⟩

theorem tableLoop_indexes (eqFold : Bytes → Bytes → Bool) (cat : Catalogue) (schemas tables : List Bytes) (e : Bool) : ∀ (items : List (Option TableRow)) (acc ts : List Table) (p p' : Prov),
    (∀ t ∈ acc, t.indexes = Spec.indexes cat t.schema t.name) → tableLoop eqFold cat schemas tables e items acc p = (.ok ts, p') → ∀ t ∈ ts, t.indexes = Spec.indexes cat t.schema t.name := by
  intro items
  induction items with
  | nil =>
    intro acc ts p p' ha h
    unfold tableLoop at h
    split at h
    · cases h
    · cases h; exact ha
  | cons x items ih =>
    intro acc ts p p' ha h
    cases x with
    | none => cases h
    | some r =>
      unfold tableLoop at h
      split at h
      · cases hx : addTable eqFold cat r p with
        | mk o p1 =>
          rw [hx] at h
          cases o with
          | ok t =>
            obtain ⟨h1, h2, h3⟩ := addTable_indexes hx
            refine ih _ ts p1 p' ?_ h
            intro t' ht'
            rcases List.mem_append.1 ht' with g | g
            · exact ha t' g
            · rw [List.mem_singleton.1 g, h1, h2, h3]
          | panic => cases h
          | diverge => cases h
          | err => cases h
      · exact ih acc ts p p' ha h

theorem listTables_indexes {eqFold : Bytes → Bytes → Bool} {cat : Catalogue} {schemas tables : List Bytes} {fuel : Nat} {ks : List Bytes} {p p' : Prov} {ts : List Table}
    (h : listTables eqFold cat schemas tables false fuel ks p = (.ok ts, p')) : ∀ t ∈ ts, t.indexes = Spec.indexes cat t.schema t.name := by
  unfold listTables at h
  split at h
  · cases h
  · rename_i rows _
    cases hl : tableLoop eqFold cat schemas tables rows.endErr rows.items [] p with
    | mk o p1 =>
      rw [hl] at h
      cases o with
      | ok tt =>
        simp only [Bool.false_eq_true, if_false, Prod.mk.injEq, Out.ok.injEq] at h
        intro t ht
        rw [← h.1, sortTables] at ht
        exact tableLoop_indexes eqFold cat schemas tables _ _ [] tt p p1 (by simp) hl t ((Util.sort_perm _ _).mem_iff.1 ht)
      | panic => cases h
      | diverge => cases h
      | err => cases h

/-- When all queries succeed, the listing succeeds or crashes. -/
theorem tableLoop_readable (eqFold : Bytes → Bytes → Bool) (cat : Catalogue) (schemas tables : List Bytes) : ∀ (l : List TableRow) (acc : List Table) (p : Prov),
    (∀ r ∈ l, Spec.matchesFilter eqFold schemas r.schema → Spec.matchesFilter eqFold tables r.name → Spec.Readable cat r) →
    (∃ ts, (tableLoop eqFold cat schemas tables false (l.map some) acc p).1 = .ok ts) ∨ (tableLoop eqFold cat schemas tables false (l.map some) acc p).1 = .panic := by
  intro l
  induction l with
  | nil => intro acc p _; exact Or.inl ⟨acc, rfl⟩
  | cons r l ih =>
    intro acc p h
    rw [List.map_cons, tableLoop]
    split
    · rename_i hs
      have hr : Spec.Readable cat r := by
        rw [Bool.and_eq_true] at hs
        have hm : ∀ f s, passes eqFold f s = true → Spec.matchesFilter eqFold f s := by
          intro f s hp
          unfold passes at hp
          unfold Spec.matchesFilter
          simpa using hp
        exact h r (List.mem_cons_self ..) (hm _ _ hs.1) (hm _ _ hs.2)
      by_cases hk : Spec.IndexesKnown p.knows cat [r] r
      · obtain ⟨t, p', h1, -⟩ := addTable_good eqFold cat r p hr hk
        rw [h1]
        exact ih _ _ (fun q hq => h q (List.mem_cons_of_mem _ hq))
      · have h1 := addTable_unknown eqFold cat r p hr hk
        cases hx : addTable eqFold cat r p with
        | mk o p1 =>
          rw [hx] at h1
          cases h1
          exact Or.inr rfl
    · exact ih _ _ (fun q hq => h q (List.mem_cons_of_mem _ hq))

theorem listTables_readable (eqFold : Bytes → Bytes → Bool) (cat : Catalogue) (schemas tables : List Bytes) (fuel : Nat) (ks : List Bytes) (p : Prov) (hf : Spec.fine cat.tables)
    (h : ∀ r ∈ Spec.selected eqFold cat schemas tables, Spec.Readable cat r) :
    (∃ ts, (listTables eqFold cat schemas tables false fuel ks p).1 = .ok ts) ∨ (listTables eqFold cat schemas tables false fuel ks p).1 = .panic := by
  have hrows := fine_rows hf
  have hl := tableLoop_readable eqFold cat schemas tables (Spec.rows cat.tables) [] p (by
    intro r hr h1 h2
    exact h r (List.mem_filter.2 ⟨hr, by simp [h1, h2]⟩))
  unfold listTables
  rw [hrows]
  simp only
  cases hx : tableLoop eqFold cat schemas tables false ((Spec.rows cat.tables).map some) [] p with
  | mk o p1 =>
    rw [hx] at hl
    cases o with
    | ok tt => exact Or.inl ⟨_, rfl⟩
    | panic => exact Or.inr rfl
    | diverge => rcases hl with ⟨ts, h⟩ | h <;> cases h
    | err => rcases hl with ⟨ts, h⟩ | h <;> cases h

end Schema

namespace Catalog.PgSpec
open Pg

/-- The names of the columns an index is over, in the order of the table. -/
def names (r : Rel) (i : Idx) : List Bytes := (r.atts.filter (fun a => a.num ∈ i.key)).map (·.name)

/-- The table has an index of this name. -/
def hasIndex (r : Rel) (n : Bytes) : Prop := r.kind ≠ .foreign ∧ ∃ i ∈ r.idxs, i.name = n

/-- The columns of all indexes of this name and these flags on ordinary and temporary tables, wherever in the database. -/
def mixture (db : Db) (n : Bytes) (primary unique : Bool) : List Bytes :=
  db.flatMap fun r => if r.kind = .table ∨ r.kind = .temp then
    r.idxs.flatMap fun i => if i.name = n ∧ i.primary = primary ∧ i.unique = unique then names r i else [] else []

theorem mem_mixture {db : Db} {n : Bytes} {p u : Bool} {c : Bytes} : c ∈ mixture db n p u ↔
    ∃ r ∈ db, (r.kind = .table ∨ r.kind = .temp) ∧ ∃ i ∈ r.idxs, i.name = n ∧ i.primary = p ∧ i.unique = u ∧ over r i c := by
  unfold mixture
  rw [List.mem_flatMap]
  constructor
  · rintro ⟨r, hr, h⟩
    split at h
    · rename_i hk
      obtain ⟨i, hi, h⟩ := List.mem_flatMap.1 h
      split at h
      · rename_i e
        exact ⟨r, hr, hk, i, hi, e.1, e.2.1, e.2.2, mem_colNames.1 h⟩
      · cases h
    · cases h
  · rintro ⟨r, hr, hk, i, hi, e1, e2, e3, h⟩
    refine ⟨r, hr, ?_⟩
    rw [if_pos hk]
    exact List.mem_flatMap.2 ⟨i, hi, by rw [if_pos ⟨e1, e2, e3⟩]; exact mem_colNames.2 h⟩

end Catalog.PgSpec

namespace Catalog.Pg
open Schema (Rows TableRow ColRow IdxRow FkRow Catalogue Table Prov listTables)

variable {db : Db} {cat : Catalogue}

theorem relkind_r (k : Kind) : relkind k = c!"r" ↔ k = .table ∨ k = .temp := by cases k <;> decide

theorem shown_in_pgIndexes (h : WF db) {r : Rel} (hr : r ∈ db) (ht : PgSpec.isTable r) (n : Bytes) : (r.schema, r.name, n) ∈ pgIndexes db ↔ PgSpec.hasIndex r n := by
  rw [mem_pgIndexes h hr]
  have : relkind r.kind ∈ [c!"r", c!"m", c!"p"] ↔ r.kind ≠ .foreign := by
    rcases ht.1 with e | e | e <;> rw [e] <;> decide
  rw [this]
  rfl

/-- The rows of the join that belong to one group. -/
theorem join_group (h : WF db) {r : Rel} (hr : r ∈ db) (ht : PgSpec.isTable r) (n : Bytes) (p u : Bool) :
    ((indexJoin db r.schema r.name).filter (fun x => x.1 = (n, p, u))).map (·.2) = if (r.schema, r.name, n) ∈ pgIndexes db then PgSpec.mixture db n p u else [] := by
  rw [indexJoin_eq h, List.filter_flatMap, List.map_flatMap]
  unfold PgSpec.mixture
  have hone : ∀ (r' : Rel) (i : Idx), ((if relkind r'.kind = c!"r" ∧ (r.schema, r.name, i.name) ∈ pgIndexes db then
        (r'.atts.filter (fun a => a.num ∈ i.key)).map (fun a => ((i.name, i.primary, i.unique), a.name)) else []).filter (fun x => x.1 = (n, p, u))).map (·.2)
      = if (r.schema, r.name, n) ∈ pgIndexes db then (if r'.kind = .table ∨ r'.kind = .temp then (if i.name = n ∧ i.primary = p ∧ i.unique = u then PgSpec.names r' i else []) else []) else [] := by
    intro r' i
    by_cases e : i.name = n ∧ i.primary = p ∧ i.unique = u
    · obtain ⟨rfl, rfl, rfl⟩ := e
      by_cases hm : (r.schema, r.name, i.name) ∈ pgIndexes db
      · by_cases hk : r'.kind = .table ∨ r'.kind = .temp
        · rw [if_pos ⟨(relkind_r _).2 hk, hm⟩, if_pos hm, if_pos hk, if_pos ⟨rfl, rfl, rfl⟩, List.filter_eq_self.2]
          · simp [PgSpec.names, Function.comp_def]
          · intro x hx
            obtain ⟨a, -, rfl⟩ := List.mem_map.1 hx
            simp
        · rw [if_neg (fun hh => hk ((relkind_r _).1 hh.1)), if_pos hm, if_neg hk]
          rfl
      · rw [if_neg (fun hh => hm hh.2), if_neg hm]
        rfl
    · have hr0 : (if (r.schema, r.name, n) ∈ pgIndexes db then (if r'.kind = .table ∨ r'.kind = .temp then (if i.name = n ∧ i.primary = p ∧ i.unique = u then PgSpec.names r' i else []) else []) else []) = [] := by
        rw [if_neg e]; simp
      rw [hr0, List.filter_eq_nil_iff.2, List.map_nil]
      intro x hx
      split at hx
      · obtain ⟨a, -, rfl⟩ := List.mem_map.1 hx
        simpa using e
      · cases hx
  by_cases hm : (r.schema, r.name, n) ∈ pgIndexes db
  · rw [if_pos hm]
    apply flatMap_congr
    intro r' hr'
    rw [List.filter_flatMap, List.map_flatMap]
    by_cases hk : r'.kind = .table ∨ r'.kind = .temp
    · rw [if_pos hk]
      apply flatMap_congr
      intro i hi
      rw [hone r' i, if_pos hm, if_pos hk]
    · rw [if_neg hk]
      apply flatMap_none
      intro i hi
      rw [hone r' i, if_pos hm, if_neg hk]
  · rw [if_neg hm]
    apply flatMap_none
    intro r' hr'
    rw [List.filter_flatMap, List.map_flatMap]
    apply flatMap_none
    intro i hi
    rw [hone r' i, if_neg hm]

/-- The rows of the index query. -/
theorem grouped_exactly (h : WF db) {r : Rel} (hr : r ∈ db) (ht : PgSpec.isTable r) {rows : List IdxRow} (hg : Grouped (indexJoin db r.schema r.name) rows) :
    (∀ n p u, (n, p, u) ∈ rows.map (fun x => (x.name, x.isPrimary, x.isUnique)) ↔ PgSpec.hasIndex r n ∧ PgSpec.mixture db n p u ≠ [])
    ∧ ∀ x ∈ rows, ∃ l, l.Perm (PgSpec.mixture db x.name x.isPrimary x.isUnique) ∧ l ≠ [] ∧ x.columnNames = Types.joinComma l := by
  have hkey : ∀ n p u, (n, p, u) ∈ rows.map (fun x => (x.name, x.isPrimary, x.isUnique)) ↔ PgSpec.hasIndex r n ∧ PgSpec.mixture db n p u ≠ [] := by
    intro n p u
    rw [hg.groups, ← shown_in_pgIndexes h hr ht]
    have hgr := join_group h hr ht n p u
    have : (n, p, u) ∈ (indexJoin db r.schema r.name).map (·.1) ↔ ((indexJoin db r.schema r.name).filter (fun x => x.1 = (n, p, u))).map (·.2) ≠ [] := by
      rw [Ne, List.map_eq_nil_iff, List.filter_eq_nil_iff, List.mem_map]
      constructor
      · rintro ⟨x, hx, e⟩ hall
        exact hall x hx (by simp [e])
      · intro hno
        apply Classical.byContradiction
        intro hex
        exact hno fun x hx hd => hex ⟨x, hx, by simpa using hd⟩
    rw [this, hgr]
    by_cases hm : (r.schema, r.name, n) ∈ pgIndexes db
    · rw [if_pos hm]; exact ⟨fun g => ⟨hm, g⟩, fun g => g.2⟩
    · rw [if_neg hm]; exact ⟨fun g => absurd rfl g, fun g => absurd g.1 hm⟩
  refine ⟨hkey, ?_⟩
  intro x hx
  obtain ⟨g1, g2⟩ := (hkey _ _ _).1 (List.mem_map_of_mem (f := fun x : IdxRow => (x.name, x.isPrimary, x.isUnique)) hx)
  obtain ⟨l, hl, hc⟩ := hg.agg x hx
  rw [join_group h hr ht, if_pos ((shown_in_pgIndexes h hr ht _).2 g1)] at hl
  refine ⟨l, hl, ?_, hc⟩
  rintro rfl
  exact g2 hl.symm.eq_nil

theorem indexes_exactly (h : WF db) (ha : Answers db cat) (hcomma : ∀ r ∈ db, ∀ a ∈ r.atts, c!"," ∉ a.name) {r : Rel} (hr : r ∈ db) (ht : PgSpec.isTable r) :
    ((Schema.Spec.indexes cat r.schema r.name).map (fun x => (x.name, x.isPrimary, x.isUnique))).Nodup
    ∧ (∀ n p u, (n, p, u) ∈ (Schema.Spec.indexes cat r.schema r.name).map (fun x => (x.name, x.isPrimary, x.isUnique)) ↔ PgSpec.hasIndex r n ∧ PgSpec.mixture db n p u ≠ [])
    ∧ ∀ x ∈ Schema.Spec.indexes cat r.schema r.name, x.columnNames.Perm (PgSpec.mixture db x.name x.isPrimary x.isUnique) := by
  obtain ⟨rows, hg, hi⟩ := ha.indexes r.schema r.name
  have hrows : Schema.Spec.rows (cat.indexes r.schema r.name) = rows := by rw [hi]; simp [Schema.Spec.rows, List.filterMap_map, Function.comp_def]
  obtain ⟨g1, g2⟩ := grouped_exactly h hr ht hg
  unfold Schema.Spec.indexes
  rw [hrows, List.map_map]
  refine ⟨hg.once, g1, ?_⟩
  intro x hx
  obtain ⟨y, hy, rfl⟩ := List.mem_map.1 hx
  obtain ⟨l, hl, hne, e⟩ := g2 y hy
  simp only [e]
  rw [split_join hne]
  · exact hl
  · intro n hn
    obtain ⟨r', hr', -, i, -, -, -, -, a, ha', -, rfl⟩ := PgSpec.mem_mixture.1 (hl.mem_iff.1 hn)
    exact hcomma r' hr' a ha'

/-- **C86, exactly**: whatever index names are used where, and whatever the provider did before: a listing that succeeds reports for a table one index for every name and pair of flags such that the
table has an index of that name and some ordinary or temporary table of the database has one with that name, these flags and a column; and its columns are those of all these indexes together. -/
theorem C86_reported_indexes_exactly (eqFold : Bytes → Bytes → Bool) (db : Db) (cat : Catalogue) (h : WF db) (ha : Answers db cat) (hcomma : ∀ r ∈ db, ∀ a ∈ r.atts, c!"," ∉ a.name)
    (schemas tables : List Bytes) (fuel : Nat) (ks : List Bytes) (p p' : Prov) (ts : List Table) (hok : listTables eqFold cat schemas tables false fuel ks p = (.ok ts, p')) :
    ∀ r ∈ db, PgSpec.isTable r → ∀ t ∈ ts, t.schema = r.schema → t.name = r.name →
      (t.indexes.map (fun x => (x.name, x.isPrimary, x.isUnique))).Nodup
      ∧ (∀ n primary unique, (n, primary, unique) ∈ t.indexes.map (fun x => (x.name, x.isPrimary, x.isUnique)) ↔ PgSpec.hasIndex r n ∧ PgSpec.mixture db n primary unique ≠ [])
      ∧ ∀ x ∈ t.indexes, x.columnNames.Perm (PgSpec.mixture db x.name x.isPrimary x.isUnique) := by
  intro r hr hrt t ht e1 e2
  rw [Schema.listTables_indexes hok t ht, e1, e2]
  exact indexes_exactly h ha hcomma hr hrt

/-- **C84/C86, when `ListTables` crashes, exactly**: for a new provider, and asked-for tables without quotes and dots in their names: it succeeds if every column of every index that shares its name with
an index of an asked-for table is the name of a column of that table too, and crashes otherwise. -/
theorem C86_listing_succeeds_iff (eqFold : Bytes → Bytes → Bool) (db : Db) (cat : Catalogue) (h : WF db) (ha : Answers db cat) (hcomma : ∀ r ∈ db, ∀ a ∈ r.atts, c!"," ∉ a.name)
    (schemas tables : List Bytes) (fuel : Nat) (ks : List Bytes)
    (hn : ∀ r ∈ db, PgSpec.isTable r → PgSpec.asked eqFold schemas tables r → c!"'" ∉ r.schema ∧ c!"'" ∉ r.name ∧ c!"." ∉ r.schema ∧ c!"." ∉ r.name) :
    ((∃ ts, (listTables eqFold cat schemas tables false fuel ks Prov.new).1 = .ok ts)
      ↔ ∀ r ∈ db, PgSpec.isTable r → PgSpec.asked eqFold schemas tables r → r.kind ≠ .foreign → ∀ i ∈ r.idxs,
          ∀ r' ∈ db, (r'.kind = .table ∨ r'.kind = .temp) → ∀ i' ∈ r'.idxs, i'.name = i.name → ∀ n, PgSpec.over r' i' n → ∃ a ∈ r.atts, a.name = n)
    ∧ ((listTables eqFold cat schemas tables false fuel ks Prov.new).1 = .panic ↔ ¬ ∃ ts, (listTables eqFold cat schemas tables false fuel ks Prov.new).1 = .ok ts) := by
  have hsel : ∀ x ∈ Schema.Spec.selected eqFold cat schemas tables, ∃ r ∈ db, PgSpec.isTable r ∧ PgSpec.asked eqFold schemas tables r ∧ x.schema = r.schema ∧ x.name = r.name := by
    intro x hx
    obtain ⟨r, hr, rfl⟩ := List.mem_map.1 ((selected_perm eqFold ha schemas tables).mem_iff.1 hx)
    obtain ⟨hr, hc⟩ := List.mem_filter.1 hr
    simp only [decide_eq_true_eq] at hc
    exact ⟨r, hr, hc.1, hc.2, rfl, rfl⟩
  have hsel' : ∀ r ∈ db, PgSpec.isTable r → PgSpec.asked eqFold schemas tables r → ∃ x ∈ Schema.Spec.selected eqFold cat schemas tables, x.schema = r.schema ∧ x.name = r.name := by
    intro r hr h1 h2
    exact ⟨tableRow r, (selected_perm eqFold ha schemas tables).mem_iff.2 (List.mem_map_of_mem (List.mem_filter.2 ⟨hr, by simp [h1, h2]⟩)), rfl, rfl⟩
  have hcols : ∀ r ∈ db, PgSpec.isTable r → PgSpec.asked eqFold schemas tables r →
      Schema.Spec.fine (cat.columns r.schema r.name) ∧ ∀ n, n ∈ (Schema.Spec.rows (cat.columns r.schema r.name)).map (·.name) ↔ ∃ a ∈ r.atts, a.name = n := by
    intro r hr h1 h2
    obtain ⟨q1, q2, -⟩ := hn r hr h1 h2
    have hc := answer_fine (ha.columns r.schema r.name _ _ ((C85_postgres_text_iff_no_quote_partial _ _).2 ⟨q1, q2⟩))
    rw [queryColumns_eq h hr (table_not_matview h1)] at hc
    refine ⟨hc.1, ?_⟩
    intro n
    have := (hc.2.map (fun c : ColRow => c.name)).mem_iff (a := n)
    rw [this, List.map_map, List.mem_map]
    rfl
  have hread : ∀ x ∈ Schema.Spec.selected eqFold cat schemas tables, Schema.Spec.Readable cat x := by
    intro x hx
    obtain ⟨r, hr, h1, h2, e1, e2⟩ := hsel x hx
    unfold Schema.Spec.Readable
    rw [e1, e2]
    obtain ⟨rows, -, hi⟩ := ha.indexes r.schema r.name
    exact ⟨(hcols r hr h1 h2).1, rows, hi⟩
  have hfine := (answer_fine ha.tables).1
  refine ⟨?_, ?_⟩
  · rw [Schema.C54_new_provider_succeeds_iff eqFold cat schemas tables fuel ks (by
      intro x hx
      obtain ⟨r, hr, h1, h2, e1, e2⟩ := hsel x hx
      rw [e1, e2]
      exact (hn r hr h1 h2).2.2)]
    constructor
    · rintro ⟨-, hall⟩ r hr h1 h2 hk i hi r' hr' hk' i' hi' e n hno
      obtain ⟨x, hx, e1, e2⟩ := hsel' r hr h1 h2
      have hown := (hall x hx).2
      unfold Schema.Spec.OwnIndexes at hown
      rw [e1, e2] at hown
      obtain ⟨-, g2, g3⟩ := indexes_exactly h ha hcomma hr h1
      have hm : n ∈ PgSpec.mixture db i.name i'.primary i'.unique := PgSpec.mem_mixture.2 ⟨r', hr', hk', i', hi', e, rfl, rfl, hno⟩
      obtain ⟨y, hy, ey⟩ := List.mem_map.1 ((g2 i.name i'.primary i'.unique).2 ⟨⟨hk, i, hi, rfl⟩, List.ne_nil_of_mem hm⟩)
      simp only [Prod.mk.injEq] at ey
      have hp := g3 y hy
      rw [ey.1, ey.2.1, ey.2.2] at hp
      exact ((hcols r hr h1 h2).2 n).1 (hown y hy n (hp.mem_iff.2 hm))
    · intro hall
      refine ⟨hfine, fun x hx => ⟨hread x hx, ?_⟩⟩
      obtain ⟨r, hr, h1, h2, e1, e2⟩ := hsel x hx
      unfold Schema.Spec.OwnIndexes
      rw [e1, e2]
      intro y hy n hny
      obtain ⟨-, g2, g3⟩ := indexes_exactly h ha hcomma hr h1
      obtain ⟨⟨hk, i, hi, ei⟩, -⟩ := (g2 _ _ _).1 (List.mem_map_of_mem (f := fun x : Schema.Index => (x.name, x.isPrimary, x.isUnique)) hy)
      obtain ⟨r', hr', hk', i', hi', e1', -, -, ho⟩ := PgSpec.mem_mixture.1 ((g3 y hy).mem_iff.1 hny)
      exact ((hcols r hr h1 h2).2 n).2 (hall r hr h1 h2 hk i hi r' hr' hk' i' hi' (by rw [e1', ei]) n ho)
  · constructor
    · intro hp hok
      obtain ⟨ts, hok⟩ := hok
      rw [hok] at hp
      cases hp
    · intro hno
      rcases Schema.listTables_readable eqFold cat schemas tables fuel ks Prov.new hfine hread with g | g
      · exact absurd g hno
      · exact g

/-! ### Witnesses -/

/-- A partitioned table is reported with an index when an ordinary table elsewhere has one of the same name, and with that table's columns. -/
def lent : Db := [⟨1, b!"a", b!"events", .partitioned, [att 1 b!"id", att 2 b!"at"], [⟨10, b!"events_at", false, false, [2], 1⟩], []⟩,
  ⟨2, b!"b", b!"events", .table, [att 1 b!"id"], [⟨11, b!"events_at", false, false, [1], 1⟩], []⟩]

example : WF lent := WF_of _ (by decide +kernel) (by decide +kernel) (by decide +kernel) (by decide +kernel) (by decide +kernel) (by decide +kernel)
example : PgSpec.mixture lent b!"events_at" false false = [b!"id"] := by decide +kernel
example : ∃ ts p', listTables Schema.eqB (ask lent) [] [] false 0 [] Prov.new = (.ok ts, p') ∧ ts.map (fun t => (t.schema, t.indexes.map (fun x => (x.name, x.columnNames))))
    = [(b!"a", [(b!"events_at", [b!"id"])]), (b!"b", [(b!"events_at", [b!"id"])])] := ⟨_, _, rfl, by decide +kernel⟩
/-- The crash of `C86_same_index_name_crashes`, from the criterion. -/
example : (listTables Schema.eqB (ask (twins b!"uid")) [] [] false 0 [] Prov.new).1 = .panic := by
  obtain ⟨h1, h2⟩ := C86_listing_succeeds_iff Schema.eqB (twins b!"uid") (ask (twins b!"uid")) C86_same_index_name_crashes.1 (ask_answers _) (by decide +kernel) [] [] 0 [] (by decide +kernel)
  rw [h2, h1]
  intro hall
  obtain ⟨a, ha, e⟩ := hall ⟨1, b!"a", b!"t", .table, [att 1 b!"id"], [⟨10, b!"t_pkey", true, true, [1], 1⟩], []⟩ (by decide +kernel) (by decide +kernel) (by decide +kernel) (by decide)
    ⟨10, b!"t_pkey", true, true, [1], 1⟩ (by decide) ⟨2, b!"b", b!"t", .table, [att 1 b!"uid"], [⟨11, b!"t_pkey", true, true, [1], 1⟩], []⟩ (by decide +kernel) (by decide)
    ⟨11, b!"t_pkey", true, true, [1], 1⟩ (by decide) rfl b!"uid" ⟨att 1 b!"uid", by decide, by decide, rfl⟩
  rw [List.mem_singleton.1 ha] at e
  revert e
  decide

end Catalog.Pg
