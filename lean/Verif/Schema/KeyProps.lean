import Verif.Schema.ListProps
set_option linter.unusedVariables false
set_option linter.unusedSimpArgs false
/-! Indexes and primary keys of listed tables: C54. -/
namespace Schema

theorem primaryKey_single (ii : List Index) (i : Index) (hi : i ∈ ii) (hp : i.isPrimary = true) (n : Bytes) (hn : i.columnNames = [n])
    (hu : ∀ j ∈ ii, j.isPrimary = true → j = i) : Spec.primaryKey ii = some n := by
  unfold Spec.primaryKey
  have hmem : i ∈ ii.filter (fun i => decide (i.isPrimary = true ∧ i.columnNames.length = 1)) := by
    rw [List.mem_filter]; exact ⟨hi, by simp [hp, hn]⟩
  cases hl : (ii.filter (fun i => decide (i.isPrimary = true ∧ i.columnNames.length = 1))).getLast? with
  | none => rw [List.getLast?_eq_none_iff.1 hl] at hmem; cases hmem
  | some j =>
    have hj := List.mem_filter.1 (List.mem_of_getLast? hl)
    have hj2 := hj.2
    simp only [decide_eq_true_eq] at hj2
    rw [hu j hj.1 hj2.1]
    simp [hn]

theorem primaryKey_none (ii : List Index) (h : ∀ i ∈ ii, ¬(i.isPrimary = true ∧ i.columnNames.length = 1)) : Spec.primaryKey ii = none := by
  unfold Spec.primaryKey
  rw [List.filter_eq_nil_iff.2 (fun i hi => by simpa using h i hi)]
  rfl

/-- **C54**, for directly listed tables: indexes are reported in catalogue order with their columns; every column knows exactly the indexes of its table that
mention it; the primary key is the table's own column named by the table's primary index if that has a single column, and nil if there is no such index.
The call does not crash.  Missing: composite primary keys (`C54_composite_primary_key_is_not_reported`) and tables found by dependency discovery
(`C54_dependencies_have_no_indexes`). -/
theorem C54_indexes_and_primary_key_partial (eqFold : Bytes → Bytes → Bool) (cat : Catalogue) (schemas tables : List Bytes) (fuel : Nat) (ks : List Bytes) (p : Prov)
    (ht : Spec.fine cat.tables) (hc : ∀ r ∈ Spec.selected eqFold cat schemas tables, Spec.Consistent cat r.schema r.name) :
    ∃ ts p', listTables eqFold cat schemas tables false fuel ks p = (.ok ts, p') ∧ ∀ t ∈ ts,
      (t.indexes.map (fun i => (i.name, i.isPrimary, i.isUnique, i.columnNames))
        = (Spec.rows (cat.indexes t.schema t.name)).map (fun r => (r.name, r.isPrimary, r.isUnique, Types.splitComma r.columnNames)))
      ∧ (∀ c, some c ∈ (Spec.view p'.heap t).columns → c.indexes = t.indexes.filter (fun i => c.name ∈ i.columnNames))
      ∧ (∀ i ∈ t.indexes, i.isPrimary = true → ∀ n, i.columnNames = [n] → (∀ j ∈ t.indexes, j.isPrimary = true → j = i) →
          ∃ c, (Spec.view p'.heap t).primaryKey = some c ∧ some c ∈ (Spec.view p'.heap t).columns ∧ c.name = n)
      ∧ ((∀ i ∈ t.indexes, ¬(i.isPrimary = true ∧ i.columnNames.length = 1)) → (Spec.view p'.heap t).primaryKey = none) := by
  obtain ⟨ts, p', h1, h2, -, -⟩ := C52_exactly_the_matching_tables eqFold cat schemas tables fuel ks p ht hc
  refine ⟨ts, p', h1, ?_⟩
  intro t htm
  obtain ⟨r, hr, hv⟩ := List.mem_map.1 (h2.mem_iff.1 (List.mem_map_of_mem htm))
  have hcr := hc r hr
  have hi : t.indexes = Spec.indexes cat r.schema r.name := (congrArg Spec.TableView.indexes hv).symm
  have hs : t.schema = r.schema := (congrArg Spec.TableView.schema hv).symm
  have hn : t.name = r.name := (congrArg Spec.TableView.name hv).symm
  rw [← hv, hi, hs, hn]
  refine ⟨?_, ?_, ?_, ?_⟩
  · unfold Spec.indexes; rw [List.map_map]; rfl
  · intro c hcm
    simp only [Spec.table, List.mem_map, Option.some.injEq, exists_eq_right] at hcm
    unfold Spec.columns at hcm
    rw [(Util.sort_perm _ _).mem_iff, List.mem_map] at hcm
    obtain ⟨x, -, rfl⟩ := hcm
    rfl
  · intro i him hp n hin hu
    have hpk := primaryKey_single _ i him hp n hin hu
    have hmem : n ∈ (Spec.rows (cat.columns r.schema r.name)).map (·.name) := hcr.idxCols i him n (by rw [hin]; simp)
    obtain ⟨x, hx, hxn⟩ := List.mem_map.1 hmem
    have hin : Spec.column eqFold r.schema r.name (Spec.indexes cat r.schema r.name) none x ∈ Spec.columns eqFold cat r.schema r.name (Spec.indexes cat r.schema r.name) (fun _ => none) := by
      unfold Spec.columns
      rw [(Util.sort_perm _ _).mem_iff]
      exact List.mem_map_of_mem (f := fun x : ColRow => Spec.column eqFold r.schema r.name (Spec.indexes cat r.schema r.name) none x) hx
    refine ⟨Spec.column eqFold r.schema r.name (Spec.indexes cat r.schema r.name) none x, ?_, ?_, hxn⟩
    · simp only [Spec.table, hpk, Option.bind_some]
      apply find_unique _ _ _ hin hxn
      unfold Spec.columns
      refine (((Util.sort_perm _ _).map (fun c : Column => c.name)).nodup_iff).2 ?_
      rw [List.map_map]
      exact hcr.distinct
    · simp only [Spec.table, List.mem_map, Option.some.injEq, exists_eq_right]
      exact hin
  · intro hno
    simp only [Spec.table, primaryKey_none _ hno, Option.bind_none]

/-! ### Witnesses -/

/-- Answers of one table. -/
def oneOf {ρ : Type} (m : List (Bytes × Bytes × List ρ)) (s t : Bytes) : Option (Rows ρ) :=
  some ⟨((m.find? (fun e => e.1 = s ∧ e.2.1 = t)).elim [] (·.2.2)).map some, false⟩

theorem oneOf_fine {ρ : Type} (m : List (Bytes × Bytes × List ρ)) (s t : Bytes) : Spec.fine (oneOf m s t) := ⟨_, rfl⟩

/-- A small catalogue: orders reference users; users reference themselves and teams; logs stand alone. -/
def demo : Catalogue :=
  { tables := some ⟨[some ⟨b!"public", b!"users", b!"BASE TABLE"⟩, some ⟨b!"public", b!"logs", b!"BASE TABLE"⟩,
      some ⟨b!"public", b!"orders", b!"BASE TABLE"⟩, some ⟨b!"public", b!"teams", b!"BASE TABLE"⟩], false⟩
    columns := oneOf [
      (b!"public", b!"users", [⟨b!"team_id", b!"bigint", b!"int8", b!"NO", none, 3⟩, ⟨b!"id", b!"bigint", b!"int8", b!"NO", none, 1⟩,
        ⟨b!"boss_id", b!"bigint", b!"int8", b!"YES", none, 2⟩]),
      (b!"public", b!"orders", [⟨b!"id", b!"bigint", b!"int8", b!"NO", none, 1⟩, ⟨b!"user_id", b!"bigint", b!"int8", b!"NO", none, 2⟩]),
      (b!"public", b!"teams", [⟨b!"id", b!"bigint", b!"int8", b!"NO", none, 1⟩, ⟨b!"name", b!"character varying", b!"varchar", b!"NO", some 64, 2⟩]),
      (b!"public", b!"logs", [⟨b!"a", b!"bigint", b!"int8", b!"NO", none, 1⟩, ⟨b!"b", b!"bigint", b!"int8", b!"NO", none, 2⟩])]
    indexes := oneOf [
      (b!"public", b!"users", [⟨b!"users_pkey", true, true, b!"id"⟩, ⟨b!"users_team_boss", false, false, b!"team_id,boss_id"⟩]),
      (b!"public", b!"teams", [⟨b!"teams_pkey", true, true, b!"id"⟩]),
      (b!"public", b!"logs", [⟨b!"logs_pkey", true, true, b!"a,b"⟩])]
    fkeys := some ⟨[some ⟨b!"fk1", b!"public", b!"orders", b!"user_id", b!"public", b!"users", b!"id"⟩,
      some ⟨b!"fk2", b!"public", b!"users", b!"boss_id", b!"public", b!"users", b!"id"⟩,
      some ⟨b!"fk3", b!"public", b!"users", b!"team_id", b!"public", b!"teams", b!"id"⟩], false⟩
    views := none }

/-- Equality of bytes stands for `strings.EqualFold` in the witnesses. -/
def eqB (a b : Bytes) : Bool := a == b

theorem demo_consistent : ∀ r ∈ Spec.selected eqB demo [] [], Spec.Consistent demo r.schema r.name := by
  have h : ∀ r ∈ Spec.selected eqB demo [] [],
      ((Spec.rows (demo.columns r.schema r.name)).map (·.name)).Nodup ∧ (∀ i ∈ Spec.indexes demo r.schema r.name, i.columnNames.Nodup)
        ∧ ∀ i ∈ Spec.indexes demo r.schema r.name, ∀ n ∈ i.columnNames, n ∈ (Spec.rows (demo.columns r.schema r.name)).map (·.name) := by
    decide +kernel
  intro r hr
  exact ⟨oneOf_fine _ _ _, oneOf_fine _ _ _, (h r hr).1, (h r hr).2.1, (h r hr).2.2⟩

theorem demo_tables_fine : Spec.fine demo.tables := ⟨[⟨b!"public", b!"users", b!"BASE TABLE"⟩, ⟨b!"public", b!"logs", b!"BASE TABLE"⟩,
      ⟨b!"public", b!"orders", b!"BASE TABLE"⟩, ⟨b!"public", b!"teams", b!"BASE TABLE"⟩], rfl⟩
example : ∀ r ∈ Spec.selected eqB demo [] [], ((Spec.rows (demo.columns r.schema r.name)).map (fun c => UInt32.ofInt c.ordinal)).Nodup := by decide +kernel
example : ((Spec.selected eqB demo [] []).map (fun r => r.schema ++ b!"." ++ r.name)).Nodup := by decide +kernel
example : Spec.selected eqB demo [b!"public"] [b!"users"] = [⟨b!"public", b!"users", b!"BASE TABLE"⟩] := by decide +kernel
/-- users: columns by position, primary key `id`, the composite index on both its columns. -/
example : (Spec.table eqB demo (fun _ => none) ⟨b!"public", b!"users", b!"BASE TABLE"⟩).primaryKey.map (·.name) = some b!"id" := by decide +kernel
example : ((Spec.table eqB demo (fun _ => none) ⟨b!"public", b!"users", b!"BASE TABLE"⟩).columns.filterMap id).map (fun c => (c.name, c.indexes.map (·.name)))
    = [(b!"id", [b!"users_pkey"]), (b!"boss_id", [b!"users_team_boss"]), (b!"team_id", [b!"users_team_boss"])] := by decide +kernel

/-- **C54 fails** for composite primary keys: the table is reported without a primary key although its primary index has a first column. -/
theorem C54_composite_primary_key_is_not_reported : ∃ ts p', listTables eqB demo [] [b!"logs"] false 0 [] Prov.new = (.ok ts, p') ∧
    ∃ t i, ts = [t] ∧ i ∈ t.indexes ∧ i.isPrimary = true ∧ i.columnNames = [b!"a", b!"b"] ∧ (Spec.view p'.heap t).primaryKey = none := by
  refine ⟨_, _, rfl, _, ⟨b!"logs_pkey", true, true, [b!"a", b!"b"], b!"public.logs.logs_pkey"⟩, rfl, ?_, rfl, rfl, rfl⟩
  decide +kernel

/-- Marking columns does not change what the map knows. -/
theorem applyIndex_unknown (tn : Bytes) (idx : Index) : ∀ (cns : List Bytes) (pk : Option Nat) (p : Prov), (∃ n ∈ cns, p.columns.lookup (dot2 tn n) = none) →
    applyIndex tn idx cns pk p = none := by
  intro cns
  induction cns with
  | nil => rintro pk p ⟨n, hn, -⟩; cases hn
  | cons c cs ih =>
    rintro pk p ⟨n, hn, hl⟩
    unfold applyIndex
    cases hc : p.columns.lookup (dot2 tn c) with
    | none => rfl
    | some i =>
      refine ih _ _ ⟨n, ?_, hl⟩
      rcases List.mem_cons.1 hn with rfl | hn
      · rw [hc] at hl; cases hl
      · exact hn

theorem applyIndex_columns (tn : Bytes) (idx : Index) : ∀ (cns : List Bytes) (pk pk' : Option Nat) (p p' : Prov),
    applyIndex tn idx cns pk p = some (pk', p') → p'.columns = p.columns := by
  intro cns
  induction cns with
  | nil => intro pk pk' p p' h; simp only [applyIndex, Option.some.injEq, Prod.mk.injEq] at h; rw [h.2]
  | cons c cs ih =>
    intro pk pk' p p' h
    unfold applyIndex at h
    cases hc : p.columns.lookup (dot2 tn c) with
    | none => rw [hc] at h; cases h
    | some i =>
      rw [hc] at h
      exact (ih _ _ (modCol p i _) _ h).trans rfl

theorem applyIndexes_unknown (tn : Bytes) : ∀ (ii : List Index) (pk : Option Nat) (p : Prov), (∃ i ∈ ii, ∃ n ∈ i.columnNames, p.columns.lookup (dot2 tn n) = none) →
    applyIndexes tn ii pk p = none := by
  intro ii
  induction ii with
  | nil => rintro pk p ⟨i, hi, -⟩; cases hi
  | cons x xs ih =>
    rintro pk p ⟨i, hi, n, hn, hl⟩
    unfold applyIndexes
    cases hx : applyIndex tn x x.columnNames pk p with
    | none => rfl
    | some q =>
      obtain ⟨pk', p'⟩ := q
      have hcol := applyIndex_columns _ _ _ _ _ _ _ hx
      refine ih _ _ ⟨i, ?_, n, hn, by rw [hcol]; exact hl⟩
      rcases List.mem_cons.1 hi with rfl | hi
      · rw [applyIndex_unknown _ _ _ _ _ ⟨n, hn, hl⟩] at hx; cases hx
      · exact hi

theorem tableLoop_panic (eqFold : Bytes → Bytes → Bool) (cat : Catalogue) (r : TableRow) (p p' : Prov) (h : addTable eqFold cat r p = (.panic, p'))
    (rest : List (Option TableRow)) (e : Bool) (schemas tables : List Bytes) (hp : (passes eqFold schemas r.schema && passes eqFold tables r.name) = true) (acc : List Table) :
    (tableLoop eqFold cat schemas tables e (some r :: rest) acc p).1 = .panic := by
  simp only [tableLoop, if_pos hp, h]

/-- **C54**, the boundary: an index reported with a name that is not a column of its table crashes `ListTables` of a fresh provider, whenever that table is the first one selected. -/
theorem C54_index_on_unknown_column_crashes (eqFold : Bytes → Bytes → Bool) (cat : Catalogue) (schemas tables : List Bytes) (fuel : Nat) (ks : List Bytes) (deps : Bool)
    (r : TableRow) (rest : List (Option TableRow)) (e : Bool) (ht : cat.tables = some ⟨some r :: rest, e⟩)
    (hsel : r ∈ Spec.selected eqFold cat schemas tables)
    (hcol : Spec.fine (cat.columns r.schema r.name)) (hidx : Spec.fine (cat.indexes r.schema r.name))
    (i : Index) (hi : i ∈ Spec.indexes cat r.schema r.name) (n : Bytes) (hn : n ∈ i.columnNames) (hun : n ∉ (Spec.rows (cat.columns r.schema r.name)).map (·.name)) :
    (listTables eqFold cat schemas tables deps fuel ks Prov.new).1 = .panic := by
  obtain ⟨p1, h1, h2, h3, h4, h5, h6, h7⟩ := readColumns_ok eqFold cat r.schema r.name Prov.new hcol
  have hl : p1.columns.lookup (dot2 (dot2 r.schema r.name) n) = none := by
    rw [← dot3_eq, h6]
    · rfl
    · intro x hx e
      exact hun (by rw [dot3_inj_right _ _ _ _ e]; exact List.mem_map_of_mem hx)
  have ha : addTable eqFold cat r Prov.new = (.panic, p1) := by
    simp only [addTable, h1, readIndexes_ok cat _ _ _ hidx, applyIndexes_unknown _ _ _ _ ⟨i, hi, n, hn, hl⟩]
  have := tableLoop_panic eqFold cat r Prov.new p1 ha rest e schemas tables (mem_selected.1 hsel).2 []
  unfold listTables
  rw [ht]
  simp only
  cases hloop : tableLoop eqFold cat schemas tables e (some r :: rest) [] Prov.new with
  | mk o q =>
    rw [hloop] at this
    simp only at this
    subst this
    rfl

/-- What the Postgres query reports for `teams` when another schema has an index of the same name over a column `uid`: postgres.go:80-92 joins `pg_indexes`
by index name only, so both indexes end up in one group. -/
def mixedCat : Catalogue := { demo with
  tables := some ⟨[some ⟨b!"public", b!"teams", b!"BASE TABLE"⟩], false⟩
  indexes := oneOf [(b!"public", b!"teams", [⟨b!"teams_pkey", true, true, b!"id,uid"⟩])] }

example : (listTables eqB mixedCat [] [] false 0 [] Prov.new).1 = .panic :=
  C54_index_on_unknown_column_crashes eqB mixedCat [] [] 0 [] false ⟨b!"public", b!"teams", b!"BASE TABLE"⟩ [] false rfl (by decide +kernel)
    (oneOf_fine _ _ _) (oneOf_fine _ _ _) ⟨b!"teams_pkey", true, true, [b!"id", b!"uid"], b!"public.teams.teams_pkey"⟩ (by decide +kernel) b!"uid" (by decide +kernel)
    (by decide +kernel)

end Schema
