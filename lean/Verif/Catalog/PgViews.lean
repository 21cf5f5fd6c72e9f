import Verif.Catalog.PgDemo
import Verif.Schema.ViewProps
set_option linter.unusedVariables false
set_option linter.unusedSimpArgs false
/-! `ListViews` of a Postgres database: C87. -/
namespace Catalog.Pg
open Schema (Rows TableRow ColRow IdxRow FkRow Catalogue Table Prov listTables listViews)

variable {db : Db} {cat : Catalogue}

/-- The rows of a view. -/
def viewRowsOf (r : Rel) : List (Bytes × Bytes × ColRow) := r.atts.map (fun a => (r.schema, r.name, colRow a))

theorem infoTables_views (db : Db) : (infoTables db).filter (fun t => t.type = b!"VIEW" ∧ t.schema ∉ systemSchemas)
    = (db.filter (fun r => PgSpec.isView r)).map (fun r => ⟨r.schema, r.name, b!"VIEW"⟩) := by
  unfold infoTables
  rw [List.filter_filterMap, ← List.filterMap_eq_map, List.filterMap_filter]
  congr 1
  funext r
  by_cases hs : r.schema ∉ systemSchemas
  · have hs' : r.schema ≠ b!"pg_catalog" ∧ r.schema ≠ b!"information_schema" := by simpa [systemSchemas] using hs
    cases hk : r.kind <;> simp [PgSpec.isView, hk, tableType, hs, hs'.1, hs'.2, Option.filter]
  · have hs' : ¬(r.schema ≠ b!"pg_catalog" ∧ r.schema ≠ b!"information_schema") := by simpa [systemSchemas] using hs
    have : ¬PgSpec.isView r := fun hh => hs' hh.2
    cases tableType r.kind <;> simp [this, hs, Option.filter]

theorem infoColumns_of (h : WF db) {r : Rel} (hr : r ∈ db) (hk : r.kind ≠ .matview) :
    (infoColumns db).filter (fun c => r.schema = c.1 ∧ r.name = c.2.1) = viewRowsOf r := by
  have hx := flatMap_key (fun r : Rel => (r.schema, r.name)) (fun r : Rel => if r.kind = .matview then [] else viewRowsOf r) r db h.names hr
  rw [if_neg hk] at hx
  rw [← hx]
  unfold infoColumns
  rw [List.filter_flatMap]
  apply flatMap_congr
  intro x _
  by_cases hk' : x.kind = .matview
  · simp [hk']
  · simp only [if_neg hk']
    by_cases hn : (x.schema, x.name) = (r.schema, r.name)
    · rw [if_pos hn, List.filter_eq_self.2]
      · rfl
      · intro c hc
        obtain ⟨a, -, rfl⟩ := List.mem_map.1 hc
        simp only [Prod.mk.injEq] at hn
        simp [hn.1, hn.2]
    · rw [if_neg hn, List.filter_eq_nil_iff.2]
      intro c hc
      obtain ⟨a, -, rfl⟩ := List.mem_map.1 hc
      simp only [Prod.mk.injEq] at hn
      simp only [decide_eq_true_eq]
      rintro ⟨e1, e2⟩
      exact hn ⟨e1.symm, e2.symm⟩

theorem queryViews_eq (h : WF db) : queryViews db = (db.filter (fun r => PgSpec.isView r)).flatMap (fun r => if r.atts = [] then [none] else (viewRowsOf r).map some) := by
  unfold queryViews
  rw [infoTables_views, List.flatMap_map]
  apply flatMap_congr
  intro r hr
  obtain ⟨hr, hv⟩ := List.mem_filter.1 hr
  have hk : r.kind ≠ .matview := by
    have := (of_decide_eq_true hv).1
    rw [this]; decide
  simp only
  rw [infoColumns_of h hr hk]
  unfold viewRowsOf
  cases hat : r.atts with
  | nil => simp
  | cons a as => simp [Function.comp_def]

/-- **C87**: `ListViews` of a Postgres database in which every view has a column returns exactly the user's views that pass the filters, each once, with exactly their columns in order. -/
theorem C87_exactly_the_views_of_the_database_partial (eqFold : Bytes → Bytes → Bool) (hf : Seen.Folds eqFold) (db : Db) (cat : Catalogue) (h : WF db) (ha : Answers db cat)
    (schemas tables : List Bytes) (ord : List Table → List Table) (hord : ∀ l, (ord l).Perm l) (p : Prov)
    (hcol : ∀ r ∈ db, PgSpec.isView r → r.atts ≠ [])
    (hdot : ∀ r ∈ db, PgSpec.isView r → PgSpec.asked eqFold schemas tables r → c!"." ∉ r.schema) :
    ∃ ts p', listViews eqFold cat schemas tables ord p = (.ok ts, p') ∧ p'.leaked = p.leaked
      ∧ (ts.map (fun t => Seen.tab (Schema.Spec.view p'.heap t))).Perm
          ((db.filter (fun r => PgSpec.isView r ∧ PgSpec.asked eqFold schemas tables r)).map PgSpec.viewOf)
      ∧ ts.Pairwise (fun a b => Query.leBytes a.schemaName b.schemaName = true) := by
  obtain ⟨l, hl, hv⟩ := ha.views
  have hq : queryViews db = ((db.filter (fun r => PgSpec.isView r)).flatMap viewRowsOf).map some := by
    rw [queryViews_eq h, List.map_flatMap]
    apply flatMap_congr
    intro r hr
    obtain ⟨hr, hv⟩ := List.mem_filter.1 hr
    rw [if_neg (hcol r hr (of_decide_eq_true hv))]
  rw [hq] at hl
  obtain ⟨l', rfl⟩ : ∃ l' : List (Bytes × Bytes × ColRow), l = l'.map some := by
    refine ⟨l.filterMap id, ?_⟩
    have hall : ∀ x ∈ l, ∃ y, x = some y := by
      intro x hx
      obtain ⟨y, -, e⟩ := List.mem_map.1 (hl.mem_iff.1 hx)
      exact ⟨y, e.symm⟩
    clear hl hv
    induction l with
    | nil => rfl
    | cons x xs ih =>
      obtain ⟨y, rfl⟩ := hall x (by simp)
      have := ih (fun z hz => hall z (by simp [hz]))
      show some y :: xs = some y :: List.map some (List.filterMap id xs)
      rw [← this]
  have hl' : l'.Perm ((db.filter (fun r => PgSpec.isView r)).flatMap viewRowsOf) := by
    have := hl.filterMap id
    simpa [List.filterMap_map, Function.comp_def] using this
  have hrows : Schema.Spec.rows cat.views = l' := by rw [hv]; simp [Schema.Spec.rows, List.filterMap_map, Function.comp_def]
  have hvr : ∀ x : Bytes × Bytes × ColRow, x ∈ Schema.Spec.viewRows eqFold cat schemas tables ↔
      ∃ r ∈ db, PgSpec.isView r ∧ PgSpec.asked eqFold schemas tables r ∧ ∃ a ∈ r.atts, x = (r.schema, r.name, colRow a) := by
    intro x
    unfold Schema.Spec.viewRows
    rw [hrows, List.mem_filter, hl'.mem_iff, List.mem_flatMap]
    constructor
    · rintro ⟨⟨r, hr, hx⟩, hm⟩
      obtain ⟨a, ha', rfl⟩ := List.mem_map.1 hx
      obtain ⟨hr, hv⟩ := List.mem_filter.1 hr
      exact ⟨r, hr, of_decide_eq_true hv, of_decide_eq_true hm, a, ha', rfl⟩
    · rintro ⟨r, hr, hv, hask, a, ha', rfl⟩
      exact ⟨⟨r, List.mem_filter.2 ⟨hr, decide_eq_true hv⟩, List.mem_map_of_mem (f := fun a => (r.schema, r.name, colRow a)) ha'⟩, decide_eq_true hask⟩
  obtain ⟨ts, p', h1, h2, h3, h4, h5, h6⟩ := Schema.C69_exactly_the_matching_views eqFold cat schemas tables ord hord p ⟨l', hv⟩ (by
    intro x hx
    obtain ⟨r, hr, hv, hask, a, -, rfl⟩ := (hvr x).1 hx
    exact hdot r hr hv hask)
  refine ⟨ts, p', h1, h2, ?_, h5⟩
  -- a reported view is its relation
  have hrep : ∀ t ∈ ts, ∀ r ∈ db, PgSpec.isView r → PgSpec.asked eqFold schemas tables r → t.schema = r.schema → t.name = r.name →
      Seen.tab (Schema.Spec.view p'.heap t) = PgSpec.viewOf r := by
    intro t ht r hr hv hask e1 e2
    rw [h6 t ht, e1, e2]
    have hrow : ((Schema.Spec.viewRows eqFold cat schemas tables).filter (fun x => x.1 = r.schema ∧ x.2.1 = r.name)).Perm (viewRowsOf r) := by
      unfold Schema.Spec.viewRows
      rw [hrows, List.filter_filter]
      refine (hl'.filter _).trans (List.Perm.of_eq ?_)
      rw [List.filter_flatMap]
      have hx := flatMap_key (fun r : Rel => (r.schema, r.name)) viewRowsOf r (db.filter (fun r => PgSpec.isView r))
        (h.names.sublist (List.Sublist.map _ List.filter_sublist)) (List.mem_filter.2 ⟨hr, decide_eq_true hv⟩)
      rw [← hx]
      apply flatMap_congr
      intro x hxm
      by_cases hn : (x.schema, x.name) = (r.schema, r.name)
      · rw [if_pos hn, List.filter_eq_self.2]
        intro c hc
        obtain ⟨a, -, rfl⟩ := List.mem_map.1 hc
        simp only [Prod.mk.injEq] at hn
        simp only [hn.1, hn.2, and_self, decide_true, Bool.true_and, decide_eq_true_eq]
        exact hask
      · rw [if_neg hn, List.filter_eq_nil_iff.2]
        intro c hc
        obtain ⟨a, -, rfl⟩ := List.mem_map.1 hc
        simp only [Prod.mk.injEq] at hn
        simp only [Bool.and_eq_true, decide_eq_true_eq]
        exact fun hh => hn hh.1
    have hp : (((Schema.Spec.viewRows eqFold cat schemas tables).filter (fun x => x.1 = r.schema ∧ x.2.1 = r.name)).map (·.2.2)).Perm (r.atts.map colRow) := by
      refine (hrow.map _).trans (List.Perm.of_eq ?_)
      simp [viewRowsOf, Function.comp_def]
    have hc := columns_seen eqFold hf h hr r.schema r.name [] (fun _ => none) _ hp
    simp only [Seen.tab, Schema.Spec.viewTable, PgSpec.viewOf]
    congr 1
    rw [← hc, List.map_map, List.map_map, List.map_map]
    rfl
  rw [List.perm_ext_iff_of_nodup]
  · intro x
    rw [List.mem_map, List.mem_map]
    constructor
    · rintro ⟨t, ht, rfl⟩
      obtain ⟨x, hx, e1, e2⟩ := (h4 t.schema t.name).1 (List.mem_map_of_mem (f := fun t : Table => (t.schema, t.name)) ht)
      obtain ⟨r, hr, hv, hask, a, -, rfl⟩ := (hvr x).1 hx
      exact ⟨r, List.mem_filter.2 ⟨hr, decide_eq_true ⟨hv, hask⟩⟩, (hrep t ht r hr hv hask e1.symm e2.symm).symm⟩
    · rintro ⟨r, hr, rfl⟩
      obtain ⟨hr, hc⟩ := List.mem_filter.1 hr
      obtain ⟨hv, hask⟩ := of_decide_eq_true hc
      obtain ⟨a, ha'⟩ := List.exists_mem_of_ne_nil _ (hcol r hr hv)
      obtain ⟨t, ht, e⟩ := List.mem_map.1 ((h4 r.schema r.name).2 ⟨(r.schema, r.name, colRow a), (hvr _).2 ⟨r, hr, hv, hask, a, ha', rfl⟩, rfl, rfl⟩)
      simp only [Prod.mk.injEq] at e
      exact ⟨t, ht, hrep t ht r hr hv hask e.1 e.2⟩
  · refine List.Pairwise.of_map (S := fun a b : Bytes × Bytes => a ≠ b) (fun x : Seen.Tab => (x.schema, x.name)) (fun a b h e => h (by rw [e])) ?_
    rw [List.map_map]
    exact h3
  · refine List.Pairwise.of_map (S := fun a b : Bytes × Bytes => a ≠ b) (fun x : Seen.Tab => (x.schema, x.name)) (fun a b h e => h (by rw [e])) ?_
    rw [List.map_map]
    exact h.names.sublist (List.Sublist.map _ List.filter_sublist)

theorem viewLoop_bad (eqFold : Bytes → Bytes → Bool) (schemas tables : List Bytes) (e : Bool) : ∀ (items : List (Option (Bytes × Bytes × ColRow))) (m : List (Bytes × Table)) (p : Prov),
    none ∈ items → (Schema.viewLoop eqFold schemas tables e items m p).1 = .err := by
  intro items
  induction items with
  | nil => intro m p h; cases h
  | cons x xs ih =>
    intro m p h
    cases x with
    | none => rfl
    | some r =>
      obtain ⟨s, n, c⟩ := r
      have h : none ∈ xs := by simpa using h
      simp only [Schema.viewLoop]
      split
      · exact ih _ _ h
      · exact ih _ _ h

/-- **C87 fails** when some view has no columns (Postgres allows `CREATE VIEW v AS SELECT`): `ListViews` fails for every filter, even one that leaves that view out. -/
theorem C87_view_without_columns_fails_every_listing (eqFold : Bytes → Bytes → Bool) (db : Db) (cat : Catalogue) (h : WF db) (ha : Answers db cat) (schemas tables : List Bytes)
    (ord : List Table → List Table) (p : Prov) (r : Rel) (hr : r ∈ db) (hv : PgSpec.isView r) (hno : r.atts = []) :
    (listViews eqFold cat schemas tables ord p).1 = .err := by
  obtain ⟨l, hl, hcv⟩ := ha.views
  have hm : none ∈ l := by
    rw [hl.mem_iff, queryViews_eq h, List.mem_flatMap]
    exact ⟨r, List.mem_filter.2 ⟨hr, decide_eq_true hv⟩, by simp [hno]⟩
  unfold listViews
  rw [hcv]
  simp only
  have := viewLoop_bad eqFold schemas tables false l [] p hm
  cases hloop : Schema.viewLoop eqFold schemas tables false l [] p with
  | mk o q =>
    rw [hloop] at this
    simp only at this
    subst this
    rfl

theorem viewLoop_good (eqFold : Bytes → Bytes → Bool) (schemas tables : List Bytes) : ∀ (l : List (Bytes × Bytes × ColRow)) (m : List (Bytes × Table)) (p : Prov),
    ∃ m', (Schema.viewLoop eqFold schemas tables false (l.map some) m p).1 = .ok m' := by
  intro l
  induction l with
  | nil => intro m p; exact ⟨m, rfl⟩
  | cons x l ih =>
    intro m p
    obtain ⟨s, n, c⟩ := x
    simp only [List.map_cons, Schema.viewLoop]
    split
    · exact ih _ _
    · exact ih _ _

/-- **C87, when `ListViews` succeeds, exactly**: if and only if every view of the database has a column, whatever the filters, the names and the history of the provider. -/
theorem C87_succeeds_iff_every_view_has_a_column (eqFold : Bytes → Bytes → Bool) (db : Db) (cat : Catalogue) (h : WF db) (ha : Answers db cat) (schemas tables : List Bytes)
    (ord : List Table → List Table) (p : Prov) :
    (∃ ts, (listViews eqFold cat schemas tables ord p).1 = .ok ts) ↔ ∀ r ∈ db, PgSpec.isView r → r.atts ≠ [] := by
  constructor
  · rintro ⟨ts, hts⟩ r hr hv hno
    rw [C87_view_without_columns_fails_every_listing eqFold db cat h ha schemas tables ord p r hr hv hno] at hts
    cases hts
  · intro hcol
    obtain ⟨l, hl, hv⟩ := ha.views
    have hall : ∀ x ∈ l, x ≠ none := by
      intro x hx
      rw [hl.mem_iff, queryViews_eq h, List.mem_flatMap] at hx
      obtain ⟨r, hr, hx⟩ := hx
      obtain ⟨hr, hrv⟩ := List.mem_filter.1 hr
      rw [if_neg (hcol r hr (of_decide_eq_true hrv))] at hx
      obtain ⟨y, -, rfl⟩ := List.mem_map.1 hx
      exact fun e => nomatch e
    have hsome : l = (l.filterMap id).map some := by
      clear hl hv
      induction l with
      | nil => rfl
      | cons x xs ih =>
        cases x with
        | none => exact absurd rfl (hall none (by simp))
        | some y =>
          have := ih (fun z hz => hall z (by simp [hz]))
          show some y :: xs = some y :: List.map some (List.filterMap id xs)
          rw [← this]
    obtain ⟨m, hm⟩ := viewLoop_good eqFold schemas tables (l.filterMap id) [] p
    unfold listViews
    rw [hv]
    simp only
    rw [hsome]
    cases hloop : Schema.viewLoop eqFold schemas tables false ((l.filterMap id).map some) [] p with
    | mk o q =>
      rw [hloop] at hm
      simp only at hm
      subst hm
      exact ⟨_, rfl⟩

/-! ### Witnesses -/

example : (∀ r ∈ shop, PgSpec.isView r → r.atts ≠ []) ∧ (∀ r ∈ shop, PgSpec.isView r → PgSpec.asked Schema.eqB [] [] r → c!"." ∉ r.schema)
    ∧ (shop.filter (fun r => PgSpec.isView r ∧ PgSpec.asked Schema.eqB [] [] r)).map (·.name) = [b!"names"] := by decide +kernel

/-- The shop with a view without columns. -/
def shopEmptyView : Db := shop ++ [⟨20, b!"tmp", b!"empty", .view, [], [], []⟩]

example : (listViews Schema.eqB (ask shopEmptyView) [b!"public"] [] id Prov.new).1 = .err :=
  C87_view_without_columns_fails_every_listing Schema.eqB shopEmptyView (ask shopEmptyView)
    (WF_of _ (by decide +kernel) (by decide +kernel) (by decide +kernel) (by decide +kernel) (by decide +kernel) (by decide +kernel)) (ask_answers _) _ _ _ _
    ⟨20, b!"tmp", b!"empty", .view, [], [], []⟩ (by simp [shopEmptyView]) (by decide) rfl

example : ∃ ts, (listViews Schema.eqB (ask shop) [b!"a.b"] [] id Prov.new).1 = .ok ts :=
  (C87_succeeds_iff_every_view_has_a_column Schema.eqB shop (ask shop) shop_wf (ask_answers _) _ _ _ _).2 (by decide +kernel)

end Catalog.Pg
