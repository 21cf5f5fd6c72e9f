import Verif.Catalog.PgLemmas
import Verif.Catalog.PgSpec
import Verif.Schema.KeyProps
import Verif.Types.IdArrayProps
set_option linter.unusedVariables false
set_option linter.unusedSimpArgs false
/-! `ListTables` of a Postgres database: C84 and C86. -/
namespace Catalog.Pg
open Schema (Rows TableRow ColRow IdxRow FkRow Catalogue)

variable {db : Db} {cat : Catalogue}

/-! ### Rows of the queries -/

def tableRow (r : Rel) : TableRow := ⟨r.schema, r.name, if r.kind = .foreign then b!"FOREIGN" else b!"BASE TABLE"⟩

def colRow (a : Att) : ColRow := ⟨a.name, a.type, a.udt, if a.nullable then b!"YES" else b!"NO", a.maxLen, a.num⟩

theorem queryTables_eq (db : Db) : queryTables db = (db.filter (fun r => PgSpec.isTable r)).map tableRow := by
  unfold queryTables infoTables
  rw [List.filter_filterMap, ← List.filterMap_eq_map, List.filterMap_filter]
  congr 1
  funext r
  by_cases hs : r.schema ∉ systemSchemas
  · have hs' : r.schema ≠ b!"pg_catalog" ∧ r.schema ≠ b!"information_schema" := by simpa [systemSchemas] using hs
    cases hk : r.kind <;> simp [PgSpec.isTable, hk, tableType, hs, hs'.1, hs'.2, tableRow, Option.filter]
  · have hs' : ¬(r.schema ≠ b!"pg_catalog" ∧ r.schema ≠ b!"information_schema") := by simpa [systemSchemas] using hs
    have : ¬PgSpec.isTable r := fun hh => hs' hh.2
    cases tableType r.kind <;> simp [this, hs, Option.filter]

theorem queryColumns_eq (h : WF db) {r : Rel} (hr : r ∈ db) (hk : r.kind ≠ .matview) : queryColumns db r.schema r.name = r.atts.map colRow := by
  have hx := flatMap_key (fun r : Rel => (r.schema, r.name)) (fun r : Rel => if r.kind = .matview then [] else r.atts.map colRow) r db h.names hr
  rw [if_neg hk] at hx
  rw [← hx]
  clear hx
  unfold queryColumns infoColumns
  clear h hr hk
  induction db with
  | nil => rfl
  | cons x xs ih =>
    rw [List.flatMap_cons, List.filter_append, List.map_append, ih, List.flatMap_cons]
    congr 1
    by_cases hk' : x.kind = .matview
    · simp [hk']
    · rw [if_neg hk', if_neg hk']
      by_cases hn : (x.schema, x.name) = (r.schema, r.name)
      · rw [if_pos hn, List.filter_eq_self.2, List.map_map]
        · rfl
        · intro c hc
          obtain ⟨a, -, rfl⟩ := List.mem_map.1 hc
          simpa using hn
      · rw [if_neg hn, List.filter_eq_nil_iff.2, List.map_nil]
        intro c hc
        obtain ⟨a, -, rfl⟩ := List.mem_map.1 hc
        simpa using hn

theorem mem_pgIndexes (h : WF db) {r : Rel} (hr : r ∈ db) (n : Bytes) :
    (r.schema, r.name, n) ∈ pgIndexes db ↔ relkind r.kind ∈ [c!"r", c!"m", c!"p"] ∧ ∃ j ∈ r.idxs, j.name = n := by
  unfold pgIndexes
  rw [List.mem_flatMap]
  constructor
  · rintro ⟨r', hr', hm⟩
    split at hm
    · rename_i hk
      obtain ⟨j, hj, e⟩ := List.mem_map.1 hm
      simp only [Prod.mk.injEq] at e
      have := h.name_inj hr' hr e.1 e.2.1
      subst this
      exact ⟨hk, j, hj, e.2.2⟩
    · cases hm
  · rintro ⟨hk, j, hj, rfl⟩
    refine ⟨r, hr, ?_⟩
    rw [if_pos hk]
    exact List.mem_map_of_mem (f := fun i : Idx => (r.schema, r.name, i.name)) hj

/-- The names of the columns of an index. -/
def colNames (r : Rel) (i : Idx) : List Bytes := (r.atts.filter (fun a => a.num ∈ i.key)).map (·.name)

theorem mem_colNames {r : Rel} {i : Idx} {n : Bytes} : n ∈ colNames r i ↔ PgSpec.over r i n := by
  simp [colNames, PgSpec.over, and_assoc]

theorem colNames_nodup (h : WF db) {r : Rel} (hr : r ∈ db) (i : Idx) : (colNames r i).Nodup :=
  (h.attNames r hr).sublist (List.Sublist.map _ List.filter_sublist)

theorem indexJoin_own (h : WF db) {r : Rel} (hr : r ∈ db) (ho : PgSpec.ownIndexNames db r) :
    indexJoin db r.schema r.name = if relkind r.kind = c!"r" then r.idxs.flatMap (fun i => (colNames r i).map (fun n => ((i.name, i.primary, i.unique), n))) else [] := by
  rw [indexJoin_eq h]
  have hx := flatMap_key (fun r : Rel => r.oid) (fun r : Rel => if relkind r.kind = c!"r" then r.idxs.flatMap (fun i => (colNames r i).map (fun n => ((i.name, i.primary, i.unique), n))) else [])
    r db h.oid_nodup hr
  rw [← hx]
  apply flatMap_congr
  intro r' hr'
  by_cases e : r'.oid = r.oid
  · have := h.oid_inj hr' hr e
    subst this
    rw [if_pos rfl]
    by_cases hk : relkind r'.kind = c!"r"
    · rw [if_pos hk]
      apply flatMap_congr
      intro i hi
      rw [if_pos ⟨hk, (mem_pgIndexes h hr' _).2 ⟨by simp [hk], i, hi, rfl⟩⟩]
      simp [colNames, Function.comp_def]
    · rw [if_neg hk]
      apply flatMap_none
      intro i hi
      rw [if_neg (fun hh => hk hh.1)]
  · rw [if_neg e]
    apply flatMap_none
    intro i hi
    rw [if_neg]
    rintro ⟨-, hm⟩
    obtain ⟨-, j, hj, e'⟩ := (mem_pgIndexes h hr _).1 hm
    exact e (by rw [ho r' hr' i hi j hj e'.symm])

theorem idx_name_nodup (h : WF db) {r : Rel} (hr : r ∈ db) : (r.idxs.map (·.name)).Nodup := by
  have := h.idxNames
  rw [List.nodup_flatMap] at this
  have := this.1 r hr
  exact List.Pairwise.of_map (S := fun a b : Bytes × Bytes => a ≠ b) (fun n : Bytes => (r.schema, n)) (fun a b h e => h (by rw [e])) (by simpa [Function.comp_def, List.Nodup] using this)

theorem idx_inj (h : WF db) {r : Rel} (hr : r ∈ db) {i j : Idx} (hi : i ∈ r.idxs) (hj : j ∈ r.idxs) (e : i.name = j.name) : i = j :=
  List.inj_on_of_nodup_map (idx_name_nodup h hr) hi hj e

/-- The rows of the index query, for a table with index names of its own. -/
theorem grouped_own (h : WF db) {r : Rel} (hr : r ∈ db) (ho : PgSpec.ownIndexNames db r) {rows : List IdxRow} (hg : Grouped (indexJoin db r.schema r.name) rows) :
    (rows.map (·.name)).Nodup
    ∧ (∀ x ∈ rows, relkind r.kind = c!"r" ∧ ∃ i ∈ r.idxs, x.name = i.name ∧ x.isPrimary = i.primary ∧ x.isUnique = i.unique ∧
        ∃ l, l.Perm (colNames r i) ∧ l ≠ [] ∧ x.columnNames = Types.joinComma l)
    ∧ (relkind r.kind = c!"r" → ∀ i ∈ r.idxs, colNames r i ≠ [] → ∃ x ∈ rows, x.name = i.name ∧ x.isPrimary = i.primary ∧ x.isUnique = i.unique) := by
  have hj := indexJoin_own h hr ho
  have hrow : ∀ x ∈ rows, relkind r.kind = c!"r" ∧ ∃ i ∈ r.idxs, x.name = i.name ∧ x.isPrimary = i.primary ∧ x.isUnique = i.unique ∧ colNames r i ≠ [] := by
    intro x hx
    have := (hg.groups _).1 (List.mem_map_of_mem (f := fun r : IdxRow => (r.name, r.isPrimary, r.isUnique)) hx)
    rw [hj] at this
    by_cases hk : relkind r.kind = c!"r"
    · rw [if_pos hk] at this
      obtain ⟨y, hy, e⟩ := List.mem_map.1 this
      obtain ⟨i, hi, hy⟩ := List.mem_flatMap.1 hy
      obtain ⟨n, hn, rfl⟩ := List.mem_map.1 hy
      simp only [Prod.mk.injEq] at e
      exact ⟨hk, i, hi, e.1.symm, e.2.1.symm, e.2.2.symm, List.ne_nil_of_mem hn⟩
    · rw [if_neg hk] at this; cases this
  have hfil : ∀ i ∈ r.idxs, relkind r.kind = c!"r" → ((indexJoin db r.schema r.name).filter (fun x => x.1 = (i.name, i.primary, i.unique))).map (·.2) = colNames r i := by
    intro i hi hk
    rw [hj, if_pos hk]
    have hx := flatMap_key (fun i : Idx => i.name) (fun i : Idx => colNames r i) i r.idxs (idx_name_nodup h hr) hi
    rw [← hx]
    clear hx hj
    have hin : ∀ j ∈ r.idxs, j.name = i.name → j = i := fun j hj e => idx_inj h hr hj hi e
    revert hin
    generalize r.idxs = is
    intro hin
    induction is with
    | nil => rfl
    | cons j js ih =>
      rw [List.flatMap_cons, List.filter_append, List.map_append, ih (fun k hk => hin k (by simp [hk])), List.flatMap_cons]
      congr 1
      by_cases e : j.name = i.name
      · have := hin j (by simp) e
        subst this
        rw [if_pos rfl, List.filter_eq_self.2]
        · simp [Function.comp_def]
        · intro x hx
          obtain ⟨n, -, rfl⟩ := List.mem_map.1 hx
          simp
      · rw [if_neg e, List.filter_eq_nil_iff.2, List.map_nil]
        intro x hx
        obtain ⟨n, -, rfl⟩ := List.mem_map.1 hx
        simp [e]
  refine ⟨?_, ?_, ?_⟩
  · have := hg.once
    rw [List.Nodup, List.pairwise_map] at this ⊢
    refine List.Pairwise.imp_of_mem ?_ this
    intro x y hx hy hne e
    apply hne
    obtain ⟨-, i, hi, h1, h2, h3, -⟩ := hrow x hx
    obtain ⟨-, j, hj, g1, g2, g3, -⟩ := hrow y hy
    have := idx_inj h hr hi hj (by rw [← h1, ← g1, e])
    subst this
    simp [e, h2, h3, g2, g3]
  · intro x hx
    obtain ⟨hk, i, hi, h1, h2, h3, hne⟩ := hrow x hx
    refine ⟨hk, i, hi, h1, h2, h3, ?_⟩
    obtain ⟨l, hl, hc⟩ := hg.agg x hx
    rw [h1, h2, h3, hfil i hi hk] at hl
    refine ⟨l, hl, ?_, hc⟩
    rintro rfl
    exact hne hl.symm.eq_nil
  · intro hk i hi hne
    have : (i.name, i.primary, i.unique) ∈ (indexJoin db r.schema r.name).map (·.1) := by
      rw [hj, if_pos hk]
      obtain ⟨n, hn⟩ := List.exists_mem_of_ne_nil _ hne
      rw [List.mem_map]
      exact ⟨((i.name, i.primary, i.unique), n), List.mem_flatMap.2 ⟨i, hi, List.mem_map_of_mem (f := fun n => ((i.name, i.primary, i.unique), n)) hn⟩, rfl⟩
    obtain ⟨x, hx, e⟩ := List.mem_map.1 ((hg.groups _).2 this)
    simp only [Prod.mk.injEq] at e
    exact ⟨x, hx, e.1, e.2.1, e.2.2⟩

theorem answer_fine {ρ : Type} {q : Option (Rows ρ)} {l : List ρ} (h : answer q l) : Schema.Spec.fine q ∧ (Schema.Spec.rows q).Perm l := by
  obtain ⟨l', hp, rfl⟩ := h
  refine ⟨⟨l', rfl⟩, ?_⟩
  simpa [Schema.Spec.rows, List.filterMap_map, Function.comp_def] using hp

theorem split_join {l : List Bytes} (hne : l ≠ []) (h : ∀ n ∈ l, c!"," ∉ n) : Types.splitComma (Types.joinComma l) = l :=
  Types.splitComma_join l hne (fun p hp c hc e => h p hp (e ▸ hc))

/-- The database answers consistently about such a table. -/
theorem consistent (h : WF db) (ha : Answers db cat) {r : Rel} (hr : r ∈ db) (hk : r.kind ≠ .matview) (hn : PgSpec.PlainNames r) (ho : PgSpec.ownIndexNames db r) :
    Schema.Spec.Consistent cat r.schema r.name ∧ (Schema.Spec.rows (cat.columns r.schema r.name)).Perm (r.atts.map colRow) := by
  have hc := answer_fine (ha.columns r.schema r.name _ _ ((C85_postgres_text_iff_no_quote_partial _ _).2 ⟨hn.schema, hn.name⟩))
  rw [queryColumns_eq h hr hk] at hc
  obtain ⟨rows, hg, hi⟩ := ha.indexes r.schema r.name
  have hrows : Schema.Spec.rows (cat.indexes r.schema r.name) = rows := by rw [hi]; simp [Schema.Spec.rows, List.filterMap_map, Function.comp_def]
  obtain ⟨g1, g2, g3⟩ := grouped_own h hr ho hg
  have hcolnames : ∀ i : Idx, ∀ l : List Bytes, l.Perm (colNames r i) → ∀ n ∈ l, ∃ a ∈ r.atts, a.name = n := by
    intro i l hl n hn
    obtain ⟨a, ha, -, e⟩ := mem_colNames.1 (hl.mem_iff.1 hn)
    exact ⟨a, ha, e⟩
  have hidx : ∀ x ∈ Schema.Spec.indexes cat r.schema r.name, ∃ i : Idx, x.columnNames.Perm (colNames r i) := by
    intro x hx
    unfold Schema.Spec.indexes at hx
    rw [hrows] at hx
    obtain ⟨y, hy, rfl⟩ := List.mem_map.1 hx
    obtain ⟨-, i, hi', -, -, -, l, hl, hne, e⟩ := g2 y hy
    refine ⟨i, ?_⟩
    simp only [e]
    rw [split_join hne]
    · exact hl
    · intro n hn'
      obtain ⟨a, ha', rfl⟩ := hcolnames i l hl n hn'
      exact hn.cols a ha'
  have hmap : ((Schema.Spec.rows (cat.columns r.schema r.name)).map (·.name)).Perm (r.atts.map (·.name)) := by
    have := hc.2.map (fun c : ColRow => c.name)
    rw [List.map_map] at this
    exact this
  refine ⟨⟨hc.1, ⟨rows, hi⟩, ?_, ?_, ?_⟩, hc.2⟩
  · exact hmap.nodup_iff.2 (h.attNames r hr)
  · intro x hx
    obtain ⟨i, hp⟩ := hidx x hx
    exact hp.nodup_iff.2 (colNames_nodup h hr i)
  · intro x hx n hnx
    obtain ⟨i, hp⟩ := hidx x hx
    rw [hmap.mem_iff]
    obtain ⟨a, ha', -, e⟩ := mem_colNames.1 (hp.mem_iff.1 hnx)
    exact List.mem_map.2 ⟨a, ha', e⟩

end Catalog.Pg
