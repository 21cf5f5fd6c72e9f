import Verif.Catalog.MsDemo
set_option linter.unusedVariables false
set_option linter.unusedSimpArgs false
/-! C90, exactly: what `ListViews` reports for every SQL Server database, and when that is right. -/

namespace Catalog.MsSpec
open Ms Seen

/-- How many views of the database have this name, whatever their schemas. -/
def viewsNamed (db : Db) (n : Bytes) : Nat := (db.rels.filter (fun v => isView v ∧ v.name = n)).length

/-- What is said about a table or view with the name of `k` views: every column `k` times. -/
def manyfold (db : Db) (r : Rel) (k : Nat) : Tab := ⟨schemaName db r.schemaId, r.name, [], true, ((cols r).flatMap (fun c => List.replicate k c)).map some⟩

end Catalog.MsSpec

namespace Catalog

/-- `sorted_seen` for rows that come more than once. -/
theorem sorted_seen_le (eqFold : Bytes → Bytes → Bool) (s t : Bytes) (ii : List Schema.Index) (ref : Bytes → Option Schema.ForeignKey) (L rows : List Schema.ColRow) (hp : rows.Perm L)
    (hord : L.Pairwise (fun a b => a.ordinal ≤ b.ordinal)) (hinj : ∀ a ∈ L, ∀ b ∈ L, a.ordinal = b.ordinal → a = b) (hrange : ∀ c ∈ L, 0 < c.ordinal ∧ c.ordinal < 2 ^ 32) :
    (Util.sort (fun a b : Schema.Column => decide (a.position ≤ b.position)) (rows.map (fun c => Schema.Spec.column eqFold s t ii (ref c.name) c))).map Seen.seen = L.map (rowSeen eqFold) := by
  have hpos : ∀ a ∈ L, (UInt32.ofInt a.ordinal).toNat = a.ordinal.toNat := fun a ha => ofInt_toNat (by have := hrange a ha; omega) (hrange a ha).2
  have e : Util.sort (fun a b : Schema.Column => decide (a.position ≤ b.position)) (rows.map (fun c => Schema.Spec.column eqFold s t ii (ref c.name) c))
      = L.map (fun c => Schema.Spec.column eqFold s t ii (ref c.name) c) := by
    refine List.Perm.eq_of_pairwise (le := fun a b : Schema.Column => a.position ≤ b.position) ?_ ?_ ?_ ((Util.sort_perm _ _).trans (hp.map _))
    · intro a b hma hmb h1 h2
      have hma := ((Util.sort_perm _ _).trans (hp.map _)).mem_iff.1 hma
      obtain ⟨x, hx, rfl⟩ := List.mem_map.1 hma
      obtain ⟨y, hy, rfl⟩ := List.mem_map.1 hmb
      have hxy : UInt32.ofInt x.ordinal = UInt32.ofInt y.ordinal := UInt32.le_antisymm h1 h2
      have hh := congrArg UInt32.toNat hxy
      rw [hpos x hx, hpos y hy] at hh
      have r1 := hrange x hx
      have r2 := hrange y hy
      rw [hinj x hx y hy (by omega)]
    · refine (Util.sort_sorted _ ?_ ?_ _).imp (fun h => of_decide_eq_true h)
      · intro a b c h1 h2; simp only [decide_eq_true_eq] at *; exact UInt32.le_trans h1 h2
      · intro a b; simp only [Bool.or_eq_true, decide_eq_true_eq]; exact UInt32.le_total _ _
    · rw [List.pairwise_map]
      refine List.Pairwise.imp_of_mem ?_ hord
      intro a b ha hb hle
      show UInt32.ofInt a.ordinal ≤ UInt32.ofInt b.ordinal
      rw [UInt32.le_iff_toNat_le, hpos a ha, hpos b hb]
      have r1 := hrange a ha
      omega
  rw [e, List.map_map]
  apply List.map_congr_left
  intro a ha
  simp only [Function.comp, Seen.seen, Schema.Spec.column, rowSeen, hpos a ha]

end Catalog

namespace Catalog.Ms
open Schema (Rows TableRow ColRow IdxRow FkRow Catalogue Table Prov listTables listViews)

variable {db : Db} {cat : Catalogue}

/-- The rows of a relation in the query for views. -/
def manyRows (db : Db) (r : Rel) : List (Bytes × Bytes × ColRow) :=
  r.cols.flatMap (fun c => List.replicate (MsSpec.viewsNamed db r.name) (schemaName db r.schemaId, r.name, colRow c))

theorem queryViews_all (db : Db) : queryViews db = db.rels.flatMap (manyRows db) := by
  unfold queryViews infoColumns
  rw [List.flatMap_assoc]
  apply flatMap_congr
  intro r _
  rw [List.flatMap_map]
  unfold manyRows
  apply flatMap_congr
  intro c _
  unfold sysViews MsSpec.viewsNamed
  show List.flatMap (fun v : Rel => if v.name = r.name then [(schemaName db r.schemaId, r.name, colRow c)] else []) _ = _
  generalize (schemaName db r.schemaId, r.name, colRow c) = x
  generalize r.name = n
  generalize db.rels = l
  induction l with
  | nil => rfl
  | cons v vs ih =>
    by_cases hv : v.kind = .view
    · rw [List.filter_cons_of_pos (p := fun r : Rel => decide (r.kind = .view)) (decide_eq_true hv), List.flatMap_cons, ih]
      by_cases hn : v.name = n
      · rw [if_pos hn, List.filter_cons_of_pos (p := fun v : Rel => decide (MsSpec.isView v ∧ v.name = n)) (decide_eq_true ⟨hv, hn⟩), List.length_cons, List.replicate_succ]
        rfl
      · rw [if_neg hn, List.filter_cons_of_neg (p := fun v : Rel => decide (MsSpec.isView v ∧ v.name = n)) (by simpa using fun _ => hn)]
        rfl
    · rw [List.filter_cons_of_neg (p := fun r : Rel => decide (r.kind = .view)) (by simpa using hv), ih,
        List.filter_cons_of_neg (p := fun v : Rel => decide (MsSpec.isView v ∧ v.name = n)) (by simpa using fun hh : MsSpec.isView v => absurd hh hv)]

/-- **C90, exactly**: `ListViews` of any SQL Server database (with schemas without dots) returns the tables and views that have a column, pass the filters and have the name of some view, each once,
with every column as many times as there are views with that name. -/
theorem C90_reported_views_exactly (eqFold : Bytes → Bytes → Bool) (hf : Seen.Folds eqFold) (db : Db) (cat : Catalogue) (h : WF db) (ha : Answers db cat)
    (schemas tables : List Bytes) (ord : List Table → List Table) (hord : ∀ l, (ord l).Perm l) (p : Prov)
    (hdot : ∀ r ∈ db.rels, MsSpec.asked eqFold db schemas tables r → c!"." ∉ schemaName db r.schemaId) :
    ∃ ts p', listViews eqFold cat schemas tables ord p = (.ok ts, p') ∧ p'.leaked = p.leaked
      ∧ (ts.map (fun t => Seen.tab (Schema.Spec.view p'.heap t))).Perm
          ((db.rels.filter (fun r => r.cols ≠ [] ∧ MsSpec.asked eqFold db schemas tables r ∧ MsSpec.viewsNamed db r.name ≠ 0)).map (fun r => MsSpec.manyfold db r (MsSpec.viewsNamed db r.name)))
      ∧ ts.Pairwise (fun a b => Query.leBytes a.schemaName b.schemaName = true) := by
  obtain ⟨hfine, hl'⟩ := answer_fine ha.views
  rw [queryViews_all] at hl'
  have hvr : ∀ x : Bytes × Bytes × ColRow, x ∈ Schema.Spec.viewRows eqFold cat schemas tables ↔
      ∃ r ∈ db.rels, MsSpec.asked eqFold db schemas tables r ∧ MsSpec.viewsNamed db r.name ≠ 0 ∧ ∃ a ∈ r.cols, x = (schemaName db r.schemaId, r.name, colRow a) := by
    intro x
    unfold Schema.Spec.viewRows
    rw [List.mem_filter, hl'.mem_iff, List.mem_flatMap]
    constructor
    · rintro ⟨⟨r, hr, hx⟩, hm⟩
      obtain ⟨a, ha', hx⟩ := List.mem_flatMap.1 hx
      obtain ⟨h0, rfl⟩ := List.mem_replicate.1 hx
      exact ⟨r, hr, of_decide_eq_true hm, h0, a, ha', rfl⟩
    · rintro ⟨r, hr, hask, h0, a, ha', rfl⟩
      exact ⟨⟨r, hr, List.mem_flatMap.2 ⟨a, ha', List.mem_replicate.2 ⟨h0, rfl⟩⟩⟩, decide_eq_true hask⟩
  obtain ⟨ts, p', h1, h2, h3, h4, h5, h6⟩ := Schema.C69_exactly_the_matching_views eqFold cat schemas tables ord hord p hfine (by
    intro x hx
    obtain ⟨r, hr, hask, -, a, -, rfl⟩ := (hvr x).1 hx
    exact hdot r hr hask)
  refine ⟨ts, p', h1, h2, ?_, h5⟩
  have hrep : ∀ t ∈ ts, ∀ r ∈ db.rels, MsSpec.asked eqFold db schemas tables r → t.schema = schemaName db r.schemaId → t.name = r.name →
      Seen.tab (Schema.Spec.view p'.heap t) = MsSpec.manyfold db r (MsSpec.viewsNamed db r.name) := by
    intro t ht r hr hask e1 e2
    rw [h6 t ht, e1, e2]
    have hrow : ((Schema.Spec.viewRows eqFold cat schemas tables).filter (fun x => x.1 = schemaName db r.schemaId ∧ x.2.1 = r.name)).Perm (manyRows db r) := by
      unfold Schema.Spec.viewRows
      rw [List.filter_filter]
      refine (hl'.filter _).trans (List.Perm.of_eq ?_)
      rw [List.filter_flatMap]
      have hx := flatMap_key (fun r : Rel => (schemaName db r.schemaId, r.name)) (manyRows db) r db.rels h.fullnames hr
      rw [← hx]
      apply flatMap_congr
      intro x hxm
      by_cases hn : (schemaName db x.schemaId, x.name) = (schemaName db r.schemaId, r.name)
      · rw [if_pos hn, List.filter_eq_self.2]
        intro c hc
        obtain ⟨a, -, hc⟩ := List.mem_flatMap.1 hc
        obtain ⟨-, rfl⟩ := List.mem_replicate.1 hc
        simp only [Prod.mk.injEq] at hn
        simp only [hn.1, hn.2, and_self, decide_true, Bool.true_and, decide_eq_true_eq]
        exact hask
      · rw [if_neg hn, List.filter_eq_nil_iff.2]
        intro c hc
        obtain ⟨a, -, hc⟩ := List.mem_flatMap.1 hc
        obtain ⟨-, rfl⟩ := List.mem_replicate.1 hc
        simp only [Prod.mk.injEq] at hn
        simp only [Bool.and_eq_true, decide_eq_true_eq]
        exact fun hh => hn hh.1
    have hp : (((Schema.Spec.viewRows eqFold cat schemas tables).filter (fun x => x.1 = schemaName db r.schemaId ∧ x.2.1 = r.name)).map (·.2.2)).Perm
        ((r.cols.map colRow).flatMap (fun c => List.replicate (MsSpec.viewsNamed db r.name) c)) := by
      refine (hrow.map _).trans (List.Perm.of_eq ?_)
      unfold manyRows
      rw [List.map_flatMap, List.flatMap_map]
      apply flatMap_congr
      intro c _
      rw [List.map_replicate]
    have hmem : ∀ k, ∀ x ∈ (r.cols.map colRow).flatMap (fun c => List.replicate k c), x ∈ r.cols.map colRow := by
      intro k x hx
      obtain ⟨c, hc, hx⟩ := List.mem_flatMap.1 hx
      rw [List.eq_of_mem_replicate hx]
      exact hc
    obtain ⟨o1, o2⟩ := rows_ordered h hr
    have hle : ∀ (k : Nat) (l : List ColRow), l.Pairwise (fun a b => a.ordinal < b.ordinal) → (l.flatMap (fun c => List.replicate k c)).Pairwise (fun a b => a.ordinal ≤ b.ordinal) := by
      intro k l
      induction l with
      | nil => intro _; exact .nil
      | cons c cs ih =>
        intro hl
        rw [List.pairwise_cons] at hl
        rw [List.flatMap_cons, List.pairwise_append]
        refine ⟨?_, ih hl.2, ?_⟩
        · exact List.pairwise_replicate.2 (Or.inr (Int.le_refl _))
        · intro a ha' b hb
          rw [List.eq_of_mem_replicate ha']
          obtain ⟨d, hd, hb⟩ := List.mem_flatMap.1 hb
          rw [List.eq_of_mem_replicate hb]
          exact Int.le_of_lt (hl.1 d hd)
    have hinj : ∀ a ∈ r.cols.map colRow, ∀ b ∈ r.cols.map colRow, a.ordinal = b.ordinal → a = b := by
      intro a ha' b hb e
      have hnd : ((r.cols.map colRow).map (fun c : ColRow => c.ordinal)).Nodup := by
        rw [List.Nodup, List.pairwise_map]
        exact o1.imp (fun hh => Int.ne_of_lt hh)
      exact List.inj_on_of_nodup_map hnd ha' hb e
    have hc := sorted_seen_le eqFold (schemaName db r.schemaId) r.name [] (fun _ => none) _ _ hp (hle _ _ o1)
      (fun a ha' b hb => hinj a (hmem _ a ha') b (hmem _ b hb)) (fun c hc => o2 c (hmem _ c hc))
    have hcols : ((r.cols.map colRow).flatMap (fun c => List.replicate (MsSpec.viewsNamed db r.name) c)).map (rowSeen eqFold) = (MsSpec.cols r).flatMap (fun c => List.replicate (MsSpec.viewsNamed db r.name) c) := by
      rw [← cols_seen eqFold hf h hr, List.map_flatMap, List.flatMap_map, List.flatMap_map, List.flatMap_map]
      apply flatMap_congr
      intro c _
      rw [List.map_replicate]
    rw [hcols] at hc
    simp only [Seen.tab, Schema.Spec.viewTable, MsSpec.manyfold]
    congr 1
    rw [← hc, List.map_map, List.map_map, List.map_map]
    rfl
  rw [List.perm_ext_iff_of_nodup]
  · intro x
    rw [List.mem_map, List.mem_map]
    constructor
    · rintro ⟨t, ht, rfl⟩
      obtain ⟨x, hx, e1, e2⟩ := (h4 t.schema t.name).1 (List.mem_map_of_mem (f := fun t : Table => (t.schema, t.name)) ht)
      obtain ⟨r, hr, hask, h0, a, ha', rfl⟩ := (hvr x).1 hx
      exact ⟨r, List.mem_filter.2 ⟨hr, decide_eq_true ⟨List.ne_nil_of_mem ha', hask, h0⟩⟩, (hrep t ht r hr hask e1.symm e2.symm).symm⟩
    · rintro ⟨r, hr, rfl⟩
      obtain ⟨hr, hc⟩ := List.mem_filter.1 hr
      obtain ⟨hne, hask, h0⟩ := of_decide_eq_true hc
      obtain ⟨a, ha'⟩ := List.exists_mem_of_ne_nil _ hne
      obtain ⟨t, ht, e⟩ := List.mem_map.1 ((h4 (schemaName db r.schemaId) r.name).2 ⟨(schemaName db r.schemaId, r.name, colRow a), (hvr _).2 ⟨r, hr, hask, h0, a, ha', rfl⟩, rfl, rfl⟩)
      simp only [Prod.mk.injEq] at e
      exact ⟨t, ht, hrep t ht r hr hask e.1 e.2⟩
  · refine List.Pairwise.of_map (S := fun a b : Bytes × Bytes => a ≠ b) (fun x : Seen.Tab => (x.schema, x.name)) (fun a b h e => h (by rw [e])) ?_
    rw [List.map_map]
    exact h3
  · refine List.Pairwise.of_map (S := fun a b : Bytes × Bytes => a ≠ b) (fun x : Seen.Tab => (x.schema, x.name)) (fun a b h e => h (by rw [e])) ?_
    rw [List.map_map]
    exact h.fullnames.sublist (List.Sublist.map _ List.filter_sublist)

/-- **C90, when it is right, exactly**: `ListViews` reports exactly the views of the database that pass the filters, with exactly their columns, if and only if no table or view that passes the filters
(and has a column) has the name of another view, be it one that does not pass them. -/
theorem C90_exact_iff (eqFold : Bytes → Bytes → Bool) (hf : Seen.Folds eqFold) (db : Db) (cat : Catalogue) (h : WF db) (ha : Answers db cat)
    (schemas tables : List Bytes) (ord : List Table → List Table) (hord : ∀ l, (ord l).Perm l) (p : Prov)
    (hdot : ∀ r ∈ db.rels, MsSpec.asked eqFold db schemas tables r → c!"." ∉ schemaName db r.schemaId) :
    (∃ ts p', listViews eqFold cat schemas tables ord p = (.ok ts, p')
      ∧ (ts.map (fun t => Seen.tab (Schema.Spec.view p'.heap t))).Perm ((db.rels.filter (fun r => MsSpec.isView r ∧ MsSpec.asked eqFold db schemas tables r)).map (MsSpec.viewOf db)))
    ↔ ∀ r ∈ db.rels, r.cols ≠ [] → MsSpec.asked eqFold db schemas tables r → ∀ v ∈ db.rels, MsSpec.isView v → v.name = r.name → v = r := by
  obtain ⟨ts, p', h1, -, h2, -⟩ := C90_reported_views_exactly eqFold hf db cat h ha schemas tables ord hord p hdot
  have hpos : ∀ n, MsSpec.viewsNamed db n ≠ 0 ↔ ∃ v ∈ db.rels, MsSpec.isView v ∧ v.name = n := by
    intro n
    unfold MsSpec.viewsNamed
    rw [Ne, List.length_eq_zero_iff, List.filter_eq_nil_iff]
    constructor
    · intro hno
      apply Classical.byContradiction
      intro hex
      exact hno fun v hv hd => hex ⟨v, hv, of_decide_eq_true hd⟩
    · rintro ⟨v, hv, hc⟩ hall
      exact hall v hv (decide_eq_true hc)
  constructor
  · rintro ⟨ts', q', g1, g2⟩ r hr hc hask v hv hvv hn
    rw [h1] at g1
    cases g1
    have hm : MsSpec.manyfold db r (MsSpec.viewsNamed db r.name) ∈ (db.rels.filter (fun r => MsSpec.isView r ∧ MsSpec.asked eqFold db schemas tables r)).map (MsSpec.viewOf db) :=
      g2.mem_iff.1 (h2.mem_iff.2 (List.mem_map_of_mem (f := fun r => MsSpec.manyfold db r (MsSpec.viewsNamed db r.name))
        (List.mem_filter.2 ⟨hr, decide_eq_true ⟨hc, hask, (hpos _).2 ⟨v, hv, hvv, hn⟩⟩⟩)))
    obtain ⟨r', hr', e⟩ := List.mem_map.1 hm
    obtain ⟨hr', hd⟩ := List.mem_filter.1 hr'
    have hrv := (of_decide_eq_true hd).1
    have e1 : schemaName db r'.schemaId = schemaName db r.schemaId := congrArg Seen.Tab.schema e
    have e2 : r'.name = r.name := congrArg Seen.Tab.name e
    have hrr := h.name_inj hr' hr e1 e2
    subst hrr
    have e3 : (MsSpec.cols r').map some = ((MsSpec.cols r').flatMap (fun c => List.replicate (MsSpec.viewsNamed db r'.name) c)).map some := congrArg Seen.Tab.columns e
    have e4 := congrArg List.length e3
    rw [List.length_map, List.length_map, List.length_flatMap] at e4
    simp only [List.length_replicate] at e4
    have hlen : 0 < (MsSpec.cols r').length := by
      unfold MsSpec.cols
      rw [List.length_map]
      exact List.length_pos_iff.2 hc
    have hone : MsSpec.viewsNamed db r'.name = 1 := by
      rw [List.map_const', List.sum_replicate_nat] at e4
      exact Nat.eq_of_mul_eq_mul_left hlen (by rw [Nat.mul_one]; exact e4.symm)
    unfold MsSpec.viewsNamed at hone
    obtain ⟨w, hw⟩ := List.length_eq_one_iff.1 hone
    have m1 : v ∈ [w] := by rw [← hw]; exact List.mem_filter.2 ⟨hv, decide_eq_true ⟨hvv, hn⟩⟩
    have m2 : r' ∈ [w] := by rw [← hw]; exact List.mem_filter.2 ⟨hr, decide_eq_true ⟨hrv, rfl⟩⟩
    rw [List.mem_singleton.1 m1, List.mem_singleton.1 m2]
  · intro hown
    refine ⟨ts, p', h1, h2.trans (List.Perm.of_eq ?_)⟩
    have hfil : db.rels.filter (fun r => r.cols ≠ [] ∧ MsSpec.asked eqFold db schemas tables r ∧ MsSpec.viewsNamed db r.name ≠ 0)
        = db.rels.filter (fun r => MsSpec.isView r ∧ MsSpec.asked eqFold db schemas tables r) := by
      apply List.filter_congr
      intro r hr
      rw [decide_eq_decide]
      constructor
      · rintro ⟨hc, hask, h0⟩
        obtain ⟨v, hv, hvv, hn⟩ := (hpos _).1 h0
        rw [← hown r hr hc hask v hv hvv hn]
        exact ⟨hvv, by rw [hown r hr hc hask v hv hvv hn]; exact hask⟩
      · rintro ⟨hv, hask⟩
        exact ⟨h.viewCols r hr hv, hask, (hpos _).2 ⟨r, hr, hv, rfl⟩⟩
    rw [hfil]
    apply List.map_congr_left
    intro r hr
    obtain ⟨hr, hd⟩ := List.mem_filter.1 hr
    obtain ⟨hv, hask⟩ := of_decide_eq_true hd
    have hone : MsSpec.viewsNamed db r.name = 1 := by
      unfold MsSpec.viewsNamed
      have : db.rels.filter (fun v => MsSpec.isView v ∧ v.name = r.name) = [r] := by
        apply List.perm_singleton.1
        rw [List.perm_ext_iff_of_nodup (h.nodup.filter _) (by simp)]
        intro v
        rw [List.mem_filter, List.mem_singleton, decide_eq_true_eq]
        constructor
        · rintro ⟨hvm, hvv, hn⟩
          exact hown r hr (h.viewCols r hr hv) hask v hvm hvv hn
        · rintro rfl
          exact ⟨hr, hv, rfl⟩
      rw [this]
      rfl
    unfold MsSpec.manyfold MsSpec.viewOf
    rw [hone]
    congr 2
    exact List.flatMap_singleton' _

/-! ### Witnesses -/

theorem namesake_wf : WF namesake := WF_of _ (by decide +kernel)

/-- One table reported as a view, both with every column once. -/
example : (namesake.rels.filter (fun r => r.cols ≠ [] ∧ MsSpec.asked Schema.eqB namesake [] [] r ∧ MsSpec.viewsNamed namesake r.name ≠ 0)).map (fun r => (r.kind, MsSpec.viewsNamed namesake r.name))
    = [(.table, 1), (.view, 1)] := by decide +kernel

/-- Asked about both schemas or about the wrong one `ListViews` is wrong, asked about the view's schema it is right. -/
example : (∃ ts p', listViews Schema.eqB (ask namesake) [b!"sales"] [] id Prov.new = (.ok ts, p')
    ∧ (ts.map (fun t => Seen.tab (Schema.Spec.view p'.heap t))).Perm ((namesake.rels.filter (fun r => MsSpec.isView r ∧ MsSpec.asked Schema.eqB namesake [b!"sales"] [] r)).map (MsSpec.viewOf namesake))) :=
  (C90_exact_iff Schema.eqB Pg.eqB_folds namesake (ask namesake) namesake_wf (ask_answers _) [b!"sales"] [] id (fun _ => .refl _) Prov.new (by decide +kernel)).2 (by decide +kernel)

example : ¬ (∃ ts p', listViews Schema.eqB (ask namesake) [] [] id Prov.new = (.ok ts, p')
    ∧ (ts.map (fun t => Seen.tab (Schema.Spec.view p'.heap t))).Perm ((namesake.rels.filter (fun r => MsSpec.isView r ∧ MsSpec.asked Schema.eqB namesake [] [] r)).map (MsSpec.viewOf namesake))) := by
  rw [C90_exact_iff Schema.eqB Pg.eqB_folds namesake (ask namesake) namesake_wf (ask_answers _) [] [] id (fun _ => .refl _) Prov.new (by decide +kernel)]
  decide +kernel

end Catalog.Ms
