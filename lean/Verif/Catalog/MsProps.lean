import Verif.Catalog.MsLemmas
set_option linter.unusedVariables false
set_option linter.unusedSimpArgs false
/-! `ListTables` of a SQL Server database: C89 and C91. -/
namespace Catalog.Ms
open Schema (Rows TableRow ColRow IdxRow FkRow Catalogue Table Prov listTables listViews)

variable {db : Db} {cat : Catalogue}

theorem answer_fine {ρ : Type} {q : Option (Rows ρ)} {l : List ρ} (h : answer q l) : Schema.Spec.fine q ∧ (Schema.Spec.rows q).Perm l := by
  obtain ⟨l', hp, rfl⟩ := h
  refine ⟨⟨l', rfl⟩, ?_⟩
  simpa [Schema.Spec.rows, List.filterMap_map, Function.comp_def] using hp

/-- A list of successes. -/
theorem all_some {α : Type} : ∀ l : List (Option α), none ∉ l → ∃ l' : List α, l = l'.map some := by
  intro l
  induction l with
  | nil => intro _; exact ⟨[], rfl⟩
  | cons x xs ih =>
    intro h
    simp only [List.mem_cons, not_or] at h
    obtain ⟨l', rfl⟩ := ih h.2
    cases x with
    | none => exact absurd rfl h.1
    | some y => exact ⟨y :: l', rfl⟩

theorem length_toNat {n : Option Int} (h : ∀ m, n = some m → -1 ≤ m ∧ m < 2 ^ 31) : (UInt32.ofInt (n.getD 0)).toNat = MsSpec.length n := by
  cases n with
  | none => rfl
  | some m =>
    obtain ⟨h1, h2⟩ := h m rfl
    simp only [Option.getD_some, MsSpec.length]
    by_cases hm : m < 0
    · have : m = -1 := by omega
      subst this
      decide
    · rw [if_neg hm]
      exact ofInt_toNat (by omega) (by omega)

theorem cols_seen (eqFold : Bytes → Bytes → Bool) (hf : Seen.Folds eqFold) (h : WF db) {r : Rel} (hr : r ∈ db.rels) : (r.cols.map colRow).map (rowSeen eqFold) = MsSpec.cols r := by
  unfold MsSpec.cols
  rw [List.map_map]
  apply List.map_congr_left
  intro c hc
  have hnull : (eqFold b!"YES" (if c.nullable then b!"YES" else b!"NO") || eqFold b!"TRUE" (if c.nullable then b!"YES" else b!"NO")
      || eqFold b!"NULL" (if c.nullable then b!"YES" else b!"NO")) = c.nullable := by
    cases c.nullable
    · simp [hf.no1, hf.no2, hf.no3]
    · simp [hf.yes]
  simp only [Function.comp, rowSeen, colRow, hnull, length_toNat (h.lens r hr c hc)]

theorem rows_ordered (h : WF db) {r : Rel} (hr : r ∈ db.rels) : (r.cols.map colRow).Pairwise (fun a b => a.ordinal < b.ordinal) ∧ ∀ c ∈ r.cols.map colRow, 0 < c.ordinal ∧ c.ordinal < 2 ^ 32 := by
  constructor
  · rw [List.pairwise_map]; exact h.colOrds r hr
  · intro c hc
    obtain ⟨a, ha, rfl⟩ := List.mem_map.1 hc
    exact h.ordRange r hr a ha

/-- The rows of the index query. -/
theorem index_rows (h : WF db) (ha : Answers db cat) {r : Rel} (hr : r ∈ db.rels) (ht : MsSpec.isTable r) (hn : MsSpec.PlainNames db r) :
    ∃ rows : List IdxRow, cat.indexes (schemaName db r.schemaId) r.name = some ⟨rows.map some, false⟩ ∧ (rows.map (·.name)).Nodup
      ∧ (∀ x ∈ rows, ∃ i ∈ r.idxs, 0 < i.id ∧ x.name = i.name ∧ x.isPrimary = i.primary ∧ x.isUnique = i.unique
          ∧ MsSpec.inTableOrder r i (Types.splitComma x.columnNames)
          ∧ (Types.splitComma x.columnNames).Nodup ∧ ∀ n, n ∈ Types.splitComma x.columnNames ↔ MsSpec.over r i n)
      ∧ (∀ i ∈ r.idxs, 0 < i.id → ∃ x ∈ rows, x.name = i.name) := by
  obtain ⟨l, hl, hc⟩ := ha.indexes (schemaName db r.schemaId) r.name
  have hq : queryIndexes db (schemaName db r.schemaId) r.name
      = (r.idxs.filter (fun i => 0 < i.id)).map (fun i => (indexText (indexColumns db r.oid i.id)).map (fun x => ⟨i.name, i.primary, i.unique, x⟩)) := by
    unfold queryIndexes
    have hfind : (db.schemas.find? (fun s => s.2 = schemaName db r.schemaId)).map (·.1) = some r.schemaId := by
      cases hf : db.schemas.find? (fun s => s.2 = schemaName db r.schemaId) with
      | none =>
        have := List.find?_eq_none.1 hf _ (h.schema_mem hr)
        simp at this
      | some x =>
        have hx := List.mem_of_find?_eq_some hf
        have e : x.2 = schemaName db r.schemaId := by simpa using List.find?_some hf
        have := List.inj_on_of_nodup_map h.schemaNames hx (h.schema_mem hr) e
        simp [this]
    rw [hfind, Pg.flatMap_only _ r _ (h.nodup.filter _) (List.mem_filter.2 ⟨hr, decide_eq_true ht.1⟩)]
    · simp only [ht.2, true_and, and_true]
      generalize r.idxs = is
      induction is with
      | nil => rfl
      | cons i is ih =>
        rw [List.flatMap_cons, ih]
        by_cases hp : 0 < i.id
        · rw [if_pos hp, List.filter_cons_of_pos (by simpa using hp)]; rfl
        · rw [if_neg hp, List.filter_cons_of_neg (by simpa using hp)]; rfl
    · intro y hy hne
      apply flatMap_none
      intro i _
      rw [if_neg]
      rintro ⟨-, -, e1, e2⟩
      simp only [Option.some.injEq] at e1
      exact hne (h.name_inj (List.mem_filter.1 hy).1 hr (by rw [e1]) e2)
  rw [hq] at hl
  have hno : none ∉ l := by
    intro hm
    obtain ⟨i, hi, e⟩ := List.mem_map.1 (hl.mem_iff.1 hm)
    obtain ⟨hi, hp⟩ := List.mem_filter.1 hi
    obtain ⟨x, -, -, -, -, e'⟩ := indexText_eq h hr hn hi (of_decide_eq_true hp)
    rw [e'] at e
    cases e
  obtain ⟨rows, rfl⟩ := all_some l hno
  refine ⟨rows, hc, ?_, ?_, ?_⟩
  · have := hl.map (fun x : Option IdxRow => x.map (·.name))
    rw [List.map_map, List.map_map] at this
    have e : (r.idxs.filter (fun i => 0 < i.id)).map ((fun x : Option IdxRow => x.map (·.name)) ∘ fun i => (indexText (indexColumns db r.oid i.id)).map (fun x => (⟨i.name, i.primary, i.unique, x⟩ : IdxRow)))
        = (r.idxs.filter (fun i => 0 < i.id)).map (fun i => some i.name) := by
      apply List.map_congr_left
      intro i hi
      obtain ⟨hi, hp⟩ := List.mem_filter.1 hi
      obtain ⟨x, -, -, -, -, e'⟩ := indexText_eq h hr hn hi (of_decide_eq_true hp)
      simp [e']
    rw [e] at this
    have hnd : ((r.idxs.filter (fun i => 0 < i.id)).map (fun i => some i.name)).Nodup := by
      rw [show (fun i : Idx => some i.name) = some ∘ (fun i => i.name) from rfl, ← List.map_map]
      exact (h.idxNames r hr).map (fun a b e => Option.some.inj e)
    have := this.nodup_iff.2 hnd
    rw [show ((fun x : Option IdxRow => x.map (·.name)) ∘ some) = some ∘ (fun x : IdxRow => x.name) from rfl, ← List.map_map] at this
    exact List.Nodup.of_map _ this
  · intro x hx
    obtain ⟨i, hi, e⟩ := List.mem_map.1 (hl.mem_iff.1 (List.mem_map_of_mem (f := some) hx))
    obtain ⟨hi, hp⟩ := List.mem_filter.1 hi
    obtain ⟨y, y1, y2, y3, y4, e'⟩ := indexText_eq h hr hn hi (of_decide_eq_true hp)
    rw [e', Option.map_some, Option.some.injEq] at e
    subst e
    have hsp : Types.splitComma (Types.joinComma y) = y := by
      apply Pg.split_join y1
      intro n hny
      obtain ⟨c, hcc, -, rfl⟩ := (y3 n).1 hny
      exact (hn.cols c hcc).1
    refine ⟨i, hi, of_decide_eq_true hp, rfl, rfl, rfl, ?_, ?_, ?_⟩
    · simp only [hsp]; exact y4
    · simp only [hsp]; exact y2
    · intro n; simp only [hsp]; exact y3 n
  · intro i hi hp
    obtain ⟨y, y1, y2, y3, y4, e'⟩ := indexText_eq h hr hn hi hp
    have : some (⟨i.name, i.primary, i.unique, Types.joinComma y⟩ : IdxRow) ∈ rows.map some := by
      rw [hl.mem_iff, List.mem_map]
      exact ⟨i, List.mem_filter.2 ⟨hi, decide_eq_true hp⟩, by rw [e']; rfl⟩
    obtain ⟨x, hx, e⟩ := List.mem_map.1 this
    cases e
    exact ⟨_, hx, rfl⟩

theorem consistent (h : WF db) (ha : Answers db cat) {r : Rel} (hr : r ∈ db.rels) (ht : MsSpec.isTable r) (hn : MsSpec.PlainNames db r) :
    Schema.Spec.Consistent cat (schemaName db r.schemaId) r.name ∧ (Schema.Spec.rows (cat.columns (schemaName db r.schemaId) r.name)).Perm (r.cols.map colRow) := by
  have hc := answer_fine (ha.columns _ r.name _ _ ((C85_sqlserver_text_iff_no_quote_partial _ _).2 ⟨hn.schema, hn.name⟩))
  rw [queryColumns_eq h hr] at hc
  obtain ⟨rows, hi, -, g2, -⟩ := index_rows h ha hr ht hn
  have hrows : Schema.Spec.rows (cat.indexes (schemaName db r.schemaId) r.name) = rows := by rw [hi]; simp [Schema.Spec.rows, List.filterMap_map, Function.comp_def]
  have hmap : ((Schema.Spec.rows (cat.columns (schemaName db r.schemaId) r.name)).map (·.name)).Perm (r.cols.map (·.name)) := by
    have := hc.2.map (fun c : ColRow => c.name)
    rw [List.map_map] at this
    exact this
  refine ⟨⟨hc.1, ⟨rows, hi⟩, hmap.nodup_iff.2 (h.colNames r hr), ?_, ?_⟩, hc.2⟩
  · intro x hx
    unfold Schema.Spec.indexes at hx
    rw [hrows] at hx
    obtain ⟨y, hy, rfl⟩ := List.mem_map.1 hx
    obtain ⟨i, -, -, -, -, -, -, hnd, -⟩ := g2 y hy
    exact hnd
  · intro x hx n hnx
    unfold Schema.Spec.indexes at hx
    rw [hrows] at hx
    obtain ⟨y, hy, rfl⟩ := List.mem_map.1 hx
    obtain ⟨i, -, -, -, -, -, -, -, hm⟩ := g2 y hy
    obtain ⟨c, hc', -, rfl⟩ := (hm n).1 hnx
    rw [hmap.mem_iff]
    exact List.mem_map_of_mem hc'

theorem tab_table (eqFold : Bytes → Bytes → Bool) (hf : Seen.Folds eqFold) (h : WF db) {r : Rel} (hr : r ∈ db.rels)
    (hp : (Schema.Spec.rows (cat.columns (schemaName db r.schemaId) r.name)).Perm (r.cols.map colRow)) :
    Seen.tab (Schema.Spec.table eqFold cat (fun _ => none) (tableRow db r)) = MsSpec.tableOf db r := by
  have hc := sorted_seen eqFold (schemaName db r.schemaId) r.name (Schema.Spec.indexes cat (schemaName db r.schemaId) r.name) (fun _ => none) (r.cols.map colRow) _ hp
    (rows_ordered h hr).1 (rows_ordered h hr).2
  rw [cols_seen eqFold hf h hr] at hc
  simp only [Seen.tab, Schema.Spec.table, MsSpec.tableOf, tableRow]
  congr 1
  rw [← hc]
  simp [Schema.Spec.columns, Function.comp_def]

theorem selected_perm (eqFold : Bytes → Bytes → Bool) (h : WF db) (ha : Answers db cat) (schemas tables : List Bytes) :
    (Schema.Spec.selected eqFold cat schemas tables).Perm ((db.rels.filter (fun r => MsSpec.isTable r ∧ MsSpec.asked eqFold db schemas tables r)).flatMap
      (fun r => List.replicate (MsSpec.times db r) (tableRow db r))) := by
  have hp := (answer_fine ha.tables).2
  rw [queryTables_eq h] at hp
  unfold Schema.Spec.selected
  refine (hp.filter _).trans (List.Perm.of_eq ?_)
  generalize db.rels = l
  induction l with
  | nil => rfl
  | cons r rs ih =>
    by_cases hi : MsSpec.isTable r
    · rw [List.filter_cons_of_pos (p := fun r => decide (MsSpec.isTable r)) (decide_eq_true hi), List.flatMap_cons, List.filter_append, ih]
      by_cases hask : MsSpec.asked eqFold db schemas tables r
      · rw [List.filter_cons_of_pos (p := fun r => decide (MsSpec.isTable r ∧ MsSpec.asked eqFold db schemas tables r)) (decide_eq_true ⟨hi, hask⟩), List.flatMap_cons]
        congr 1
        rw [List.filter_eq_self.2]
        intro x hx
        rw [List.eq_of_mem_replicate hx]
        exact decide_eq_true hask
      · rw [List.filter_cons_of_neg (p := fun r => decide (MsSpec.isTable r ∧ MsSpec.asked eqFold db schemas tables r)) (by simpa using fun _ => hask), List.filter_eq_nil_iff.2, List.nil_append]
        intro x hx
        rw [List.eq_of_mem_replicate hx]
        simp only [decide_eq_true_eq]
        exact hask
    · rw [List.filter_cons_of_neg (p := fun r => decide (MsSpec.isTable r)) (by simpa using hi),
        List.filter_cons_of_neg (p := fun r => decide (MsSpec.isTable r ∧ MsSpec.asked eqFold db schemas tables r)) (by simpa using fun hh => absurd hh hi), ih]

/-- Names the queries can deal with, in the tables of a listing. -/
def Plain (eqFold : Bytes → Bytes → Bool) (db : Db) (schemas tables : List Bytes) : Prop :=
  ∀ r ∈ db.rels, MsSpec.isTable r → MsSpec.asked eqFold db schemas tables r → MsSpec.PlainNames db r

theorem listed (eqFold : Bytes → Bytes → Bool) (h : WF db) (ha : Answers db cat) (schemas tables : List Bytes) (hn : Plain eqFold db schemas tables)
    (x : TableRow) (hx : x ∈ Schema.Spec.selected eqFold cat schemas tables) :
    ∃ r ∈ db.rels, MsSpec.isTable r ∧ MsSpec.asked eqFold db schemas tables r ∧ 0 < MsSpec.times db r ∧ x = tableRow db r ∧ Schema.Spec.Consistent cat (schemaName db r.schemaId) r.name
      ∧ (Schema.Spec.rows (cat.columns (schemaName db r.schemaId) r.name)).Perm (r.cols.map colRow) := by
  obtain ⟨r, hr, hx⟩ := List.mem_flatMap.1 ((selected_perm eqFold h ha schemas tables).mem_iff.1 hx)
  obtain ⟨hr, hc⟩ := List.mem_filter.1 hr
  obtain ⟨h1, h2⟩ := of_decide_eq_true hc
  obtain ⟨h3, h4⟩ := consistent h ha hr h1 (hn r hr h1 h2)
  refine ⟨r, hr, h1, h2, ?_, List.eq_of_mem_replicate hx, h3, h4⟩
  rw [List.mem_replicate] at hx
  omega

/-- **C89**: what `ListTables` of a SQL Server database returns: every table of the user that passes the filters, with exactly its columns in order, as many times as `times` says. -/
theorem C89_how_often_a_table_is_listed (eqFold : Bytes → Bytes → Bool) (hf : Seen.Folds eqFold) (db : Db) (cat : Catalogue) (h : WF db) (ha : Answers db cat)
    (schemas tables : List Bytes) (fuel : Nat) (ks : List Bytes) (p : Prov) (hn : Plain eqFold db schemas tables) :
    ∃ ts p', listTables eqFold cat schemas tables false fuel ks p = (.ok ts, p')
      ∧ (ts.map (fun t => Seen.tab (Schema.Spec.view p'.heap t))).Perm
          ((db.rels.filter (fun r => MsSpec.isTable r ∧ MsSpec.asked eqFold db schemas tables r)).flatMap (fun r => List.replicate (MsSpec.times db r) (MsSpec.tableOf db r)))
      ∧ ts.Pairwise (fun a b => Query.leBytes a.schemaName b.schemaName = true) ∧ p'.leaked = p.leaked := by
  obtain ⟨ts, p', h1, h2, h3, h4⟩ := Schema.C52_exactly_the_matching_tables eqFold cat schemas tables fuel ks p (answer_fine ha.tables).1 (by
    intro x hx
    obtain ⟨r, -, -, -, -, rfl, hc, -⟩ := listed eqFold h ha schemas tables hn x hx
    exact hc)
  refine ⟨ts, p', h1, ?_, h3, h4⟩
  have := h2.map Seen.tab
  rw [List.map_map] at this
  refine this.trans ?_
  rw [List.map_map]
  refine ((selected_perm eqFold h ha schemas tables).map _).trans (List.Perm.of_eq ?_)
  rw [List.map_flatMap]
  apply flatMap_congr
  intro r hr
  obtain ⟨hr, hc⟩ := List.mem_filter.1 hr
  obtain ⟨g1, g2⟩ := of_decide_eq_true hc
  rw [List.map_replicate]
  congr 1
  exact tab_table eqFold hf h hr (consistent h ha hr g1 (hn r hr g1 g2)).2

/-- **C89**: when no table of the listing has an extended property, `ListTables` returns exactly the user's tables that pass the filters, each once. -/
theorem C89_exactly_the_tables_of_the_database_partial (eqFold : Bytes → Bytes → Bool) (hf : Seen.Folds eqFold) (db : Db) (cat : Catalogue) (h : WF db) (ha : Answers db cat)
    (schemas tables : List Bytes) (fuel : Nat) (ks : List Bytes) (p : Prov) (hn : Plain eqFold db schemas tables)
    (hno : ∀ r ∈ db.rels, MsSpec.isTable r → MsSpec.asked eqFold db schemas tables r → MsSpec.propsOf db r = []) :
    ∃ ts p', listTables eqFold cat schemas tables false fuel ks p = (.ok ts, p')
      ∧ (ts.map (fun t => Seen.tab (Schema.Spec.view p'.heap t))).Perm
          ((db.rels.filter (fun r => MsSpec.isTable r ∧ MsSpec.asked eqFold db schemas tables r)).map (MsSpec.tableOf db))
      ∧ ts.Pairwise (fun a b => Query.leBytes a.schemaName b.schemaName = true) ∧ p'.leaked = p.leaked := by
  obtain ⟨ts, p', h1, h2, h3⟩ := C89_how_often_a_table_is_listed eqFold hf db cat h ha schemas tables fuel ks p hn
  refine ⟨ts, p', h1, h2.trans (List.Perm.of_eq ?_), h3⟩
  rw [← List.flatMap_singleton' ((db.rels.filter (fun r => MsSpec.isTable r ∧ MsSpec.asked eqFold db schemas tables r)).map (MsSpec.tableOf db)), List.flatMap_map]
  apply flatMap_congr
  intro r hr
  obtain ⟨hr, hc⟩ := List.mem_filter.1 hr
  obtain ⟨g1, g2⟩ := of_decide_eq_true hc
  have : MsSpec.times db r = 1 := by unfold MsSpec.times; rw [if_pos (hno r hr g1 g2)]
  rw [this]
  rfl

/-- **C89 fails** for documented tables: a table whose extended properties are all of class `OBJECT_OR_COLUMN` (a description of the table or of one of its columns) is left out. -/
theorem C89_documented_table_is_left_out (eqFold : Bytes → Bytes → Bool) (db : Db) (cat : Catalogue) (h : WF db) (ha : Answers db cat)
    (schemas tables : List Bytes) (fuel : Nat) (ks : List Bytes) (p : Prov) (hn : Plain eqFold db schemas tables) (r : Rel) (hr : r ∈ db.rels)
    (hp : MsSpec.propsOf db r ≠ []) (hall : ∀ e ∈ MsSpec.propsOf db r, e.cls = b!"OBJECT_OR_COLUMN") :
    ∃ ts p', listTables eqFold cat schemas tables false fuel ks p = (.ok ts, p') ∧ ∀ t ∈ ts, ¬(t.schema = schemaName db r.schemaId ∧ t.name = r.name) := by
  obtain ⟨ts, p', h1, h2, -⟩ := Schema.C52_exactly_the_matching_tables eqFold cat schemas tables fuel ks p (answer_fine ha.tables).1 (by
    intro x hx
    obtain ⟨r, -, -, -, -, rfl, hc, -⟩ := listed eqFold h ha schemas tables hn x hx
    exact hc)
  refine ⟨ts, p', h1, ?_⟩
  rintro t ht ⟨e1, e2⟩
  obtain ⟨x, hx, hv⟩ := List.mem_map.1 (h2.mem_iff.1 (List.mem_map_of_mem (f := Schema.Spec.view p'.heap) ht))
  obtain ⟨r', hr', -, -, htimes, rfl, -, -⟩ := listed eqFold h ha schemas tables hn x hx
  have es' : t.schema = schemaName db r'.schemaId := (congrArg Schema.Spec.TableView.schema hv).symm
  have en' : t.name = r'.name := (congrArg Schema.Spec.TableView.name hv).symm
  have : r' = r := h.name_inj hr' hr (by rw [← es', e1]) (by rw [← en', e2])
  subst this
  unfold MsSpec.times at htimes
  rw [if_neg hp, List.filter_eq_nil_iff.2] at htimes
  · simp at htimes
  · intro e he
    simp [hall e he]

/-- **C91**: every reported table has exactly its indexes (the heap is not one), each once, with their flags and exactly their columns in the order of the table, `INCLUDE`d ones too; a primary key
index on one column makes that column the primary key. -/
theorem C91_exactly_the_indexes_of_the_table_partial (eqFold : Bytes → Bytes → Bool) (db : Db) (cat : Catalogue) (h : WF db) (ha : Answers db cat)
    (schemas tables : List Bytes) (fuel : Nat) (ks : List Bytes) (p : Prov) (hn : Plain eqFold db schemas tables) :
    ∃ ts p', listTables eqFold cat schemas tables false fuel ks p = (.ok ts, p') ∧ ∀ r ∈ db.rels, ∀ t ∈ ts, t.schema = schemaName db r.schemaId → t.name = r.name →
      (t.indexes.map (·.name)).Nodup
      ∧ (∀ x ∈ t.indexes, ∃ i ∈ r.idxs, 0 < i.id ∧ x.name = i.name ∧ x.isPrimary = i.primary ∧ x.isUnique = i.unique
          ∧ MsSpec.inTableOrder r i x.columnNames ∧ x.columnNames.Nodup ∧ ∀ n, n ∈ x.columnNames ↔ MsSpec.over r i n)
      ∧ (∀ i ∈ r.idxs, 0 < i.id → ∃ x ∈ t.indexes, x.name = i.name)
      ∧ (∀ i ∈ r.idxs, 0 < i.id → i.primary = true → (∀ j ∈ r.idxs, j.primary = true → j = i) → ∀ c ∈ r.cols, i.key = [c.id] → i.included = [] →
          ∃ k, (Schema.Spec.view p'.heap t).primaryKey = some k ∧ some k ∈ (Schema.Spec.view p'.heap t).columns ∧ k.name = c.name) := by
  have hcons : ∀ x ∈ Schema.Spec.selected eqFold cat schemas tables, Schema.Spec.Consistent cat x.schema x.name := by
    intro x hx
    obtain ⟨r, -, -, -, -, rfl, hc, -⟩ := listed eqFold h ha schemas tables hn x hx
    exact hc
  obtain ⟨ts, p', h1, h2, h3, h4⟩ := Schema.C52_exactly_the_matching_tables eqFold cat schemas tables fuel ks p (answer_fine ha.tables).1 hcons
  obtain ⟨ts', q', g1, g2⟩ := Schema.C54_indexes_and_primary_key_partial eqFold cat schemas tables fuel ks p (answer_fine ha.tables).1 hcons
  rw [h1] at g1
  cases g1
  refine ⟨ts, p', h1, ?_⟩
  intro r hr t ht es en
  obtain ⟨i1, -, i3, -⟩ := g2 t ht
  obtain ⟨x, hx, hv⟩ := List.mem_map.1 (h2.mem_iff.1 (List.mem_map_of_mem (f := Schema.Spec.view p'.heap) ht))
  obtain ⟨r', hr', hit, hask, -, rfl, -, -⟩ := listed eqFold h ha schemas tables hn x hx
  have es' : t.schema = schemaName db r'.schemaId := (congrArg Schema.Spec.TableView.schema hv).symm
  have en' : t.name = r'.name := (congrArg Schema.Spec.TableView.name hv).symm
  have : r' = r := h.name_inj hr' hr (by rw [← es', es]) (by rw [← en', en])
  subst this
  have hti : t.indexes = Schema.Spec.indexes cat (schemaName db r'.schemaId) r'.name := (congrArg Schema.Spec.TableView.indexes hv).symm
  obtain ⟨rows, hi, k1, k2, k3⟩ := index_rows h ha hr hit (hn r' hr hit hask)
  have hrows : Schema.Spec.rows (cat.indexes (schemaName db r'.schemaId) r'.name) = rows := by rw [hi]; simp [Schema.Spec.rows, List.filterMap_map, Function.comp_def]
  have hnames : t.indexes.map (·.name) = rows.map (·.name) := by
    rw [hti]; unfold Schema.Spec.indexes; rw [hrows, List.map_map]; rfl
  have hidx : ∀ x ∈ t.indexes, ∃ i ∈ r'.idxs, 0 < i.id ∧ x.name = i.name ∧ x.isPrimary = i.primary ∧ x.isUnique = i.unique
      ∧ MsSpec.inTableOrder r' i x.columnNames ∧ x.columnNames.Nodup ∧ ∀ n, n ∈ x.columnNames ↔ MsSpec.over r' i n := by
    intro x hx
    rw [hti] at hx
    unfold Schema.Spec.indexes at hx
    rw [hrows] at hx
    obtain ⟨y, hy, rfl⟩ := List.mem_map.1 hx
    exact k2 y hy
  have hall : ∀ i ∈ r'.idxs, 0 < i.id → ∃ x ∈ t.indexes, x.name = i.name := by
    intro i hi' hp
    obtain ⟨y, hy, e⟩ := k3 i hi' hp
    have : y.name ∈ t.indexes.map (·.name) := by rw [hnames]; exact List.mem_map_of_mem hy
    obtain ⟨x, hx, ex⟩ := List.mem_map.1 this
    exact ⟨x, hx, ex.trans e⟩
  have hnd : (t.indexes.map (·.name)).Nodup := by rw [hnames]; exact k1
  refine ⟨hnd, hidx, hall, ?_⟩
  intro i hi' hp hprim huniq c hc hkey hinc
  obtain ⟨x, hx, ex⟩ := hall i hi' hp
  obtain ⟨j, hj, jp, e1, e2, e3, -, x4, x5⟩ := hidx x hx
  have hji : j = i := List.inj_on_of_nodup_map (h.idxNames r' hr) (List.mem_filter.2 ⟨hj, decide_eq_true jp⟩) (List.mem_filter.2 ⟨hi', decide_eq_true hp⟩) (by rw [← e1, ex])
  subst hji
  have hcol : x.columnNames = [c.name] := by
    apply List.perm_singleton.1
    rw [List.perm_ext_iff_of_nodup x4 (by simp)]
    intro n
    rw [x5, List.mem_singleton]
    constructor
    · rintro ⟨d, hd, hdk, rfl⟩
      rw [hkey, hinc, List.append_nil, List.mem_singleton] at hdk
      rw [List.inj_on_of_nodup_map (h.colIds r' hr) hd hc hdk]
    · rintro rfl
      exact ⟨c, hc, by rw [hkey]; simp, rfl⟩
  refine i3 x hx (by rw [e2, hprim]) c.name hcol ?_
  intro z hz hzp
  obtain ⟨m, hm, mp, m1, m2, -⟩ := hidx z hz
  have := huniq m hm (by rw [← m2]; exact hzp)
  subst this
  exact List.inj_on_of_nodup_map hnd hz hx (by rw [m1, e1])

end Catalog.Ms
