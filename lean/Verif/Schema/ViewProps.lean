import Verif.Schema.DiscoverMore
set_option linter.unusedVariables false
set_option linter.unusedSimpArgs false
/-! `ListViews` and `ListForeignKeys`: C69 and C70; rows left open: C71. -/
namespace Schema
section
variable (eqFold : Bytes → Bytes → Bool)

/-- A view while its columns are being collected from `rs`. -/
structure ViewOk (rs : List (Bytes × Bytes × ColRow)) (heap : List Column) (t : Table) : Prop where
  cols : t.columns.map (fun i => heap[i]?) = (rs.filter (fun r => r.1 = t.schema ∧ r.2.1 = t.name)).map (fun r => some (Spec.column eqFold t.schema t.name [] none r.2.2))
  shape : t.type = [] ∧ t.isView = true ∧ t.indexes = [] ∧ t.primaryKey = none ∧ t.schemaName = dot2 t.schema t.name

structure VInv (rs : List (Bytes × Bytes × ColRow)) (m : List (Bytes × Table)) (heap : List Column) : Prop where
  nodup : (m.map (·.1)).Nodup
  tabs : ∀ k t, m.lookup k = some t → k = dot2 t.schema t.name ∧ ViewOk eqFold rs heap t ∧ ∃ r ∈ rs, r.1 = t.schema ∧ r.2.1 = t.name
  all : ∀ r ∈ rs, m.lookup (dot2 r.1 r.2.1) ≠ none

theorem map_get_ext {ids : List Nat} {h h' : List Column} {l : List (Option Column)} (hl : ∀ x ∈ l, x ≠ none) (hp : h <+: h')
    (e : ids.map (fun i => h[i]?) = l) : ids.map (fun i => h'[i]?) = l := by
  rw [← e]
  apply List.map_congr_left
  intro i hi
  cases hg : h[i]? with
  | none => exact absurd rfl (hl none (by rw [← e]; exact List.mem_map.2 ⟨i, hi, hg⟩))
  | some c =>
    obtain ⟨more, rfl⟩ := hp
    rw [List.getElem?_append_left (List.getElem?_eq_some_iff.1 hg).1]
    exact hg

theorem mkColumn_spec (s n : Bytes) (r : ColRow) : mkColumn eqFold s n r = Spec.column eqFold s n [] none r := by
  rw [← mkColumn_eq eqFold s n [] r]; simp [mkColumn]

theorem enterView_inv {rs : List (Bytes × Bytes × ColRow)} {m : List (Bytes × Table)} {p : Prov} (h : VInv eqFold rs m p.heap) (s n : Bytes) (r : ColRow)
    (hdot : ∀ x ∈ rs, 46 ∉ x.1) (hs : 46 ∉ s) :
    VInv eqFold (rs ++ [(s, n, r)]) (enterView s n p.heap.length m) (newColumn p (mkColumn eqFold s n r)).heap := by
  have hheap : (newColumn p (mkColumn eqFold s n r)).heap = p.heap ++ [mkColumn eqFold s n r] := rfl
  have hpre : p.heap <+: (newColumn p (mkColumn eqFold s n r)).heap := ⟨_, rfl⟩
  -- the entry for this view, old or new
  have hnew : ∃ t, enterView s n p.heap.length m = put m (dot2 s n) t ∧ t.schema = s ∧ t.name = n
      ∧ ViewOk eqFold (rs ++ [(s, n, r)]) (newColumn p (mkColumn eqFold s n r)).heap t := by
    unfold enterView
    have hlast : (newColumn p (mkColumn eqFold s n r)).heap[p.heap.length]? = some (mkColumn eqFold s n r) := by rw [hheap]; simp
    cases hl : m.lookup (dot2 s n) with
    | some t =>
      obtain ⟨e, ⟨hc, hsh⟩, x, hx, hx1, hx2⟩ := h.tabs _ _ hl
      have hd := hdot x hx
      rw [hx1] at hd
      obtain ⟨e1, e2⟩ := dot2_inj hs hd e
      refine ⟨_, rfl, e1.symm, e2.symm, ?_, hsh⟩
      simp only [List.map_append, List.filter_append, List.map_cons, List.map_nil, hlast]
      rw [map_get_ext (by intro y hy; obtain ⟨z, -, rfl⟩ := List.mem_map.1 hy; simp) hpre hc]
      congr 1
      rw [List.filter_cons_of_pos (by simp [e1, e2])]
      simp [mkColumn_spec, e1, e2]
    | none =>
      refine ⟨_, rfl, rfl, rfl, ?_, rfl, rfl, rfl, rfl, rfl⟩
      simp only [List.map_append, List.filter_append, List.map_cons, List.map_nil, hlast, List.nil_append]
      have : rs.filter (fun r => decide (r.1 = s ∧ r.2.1 = n)) = [] := by
        rw [List.filter_eq_nil_iff]
        intro x hx
        simp only [decide_eq_true_eq]
        rintro ⟨e1, e2⟩
        have := h.all x hx
        rw [e1, e2, hl] at this
        exact this rfl
      rw [this]
      rw [List.filter_cons_of_pos (by simp)]
      simp [mkColumn_spec]
  obtain ⟨t, he, hts, htn, hok⟩ := hnew
  rw [he]
  refine ⟨put_nodup _ _ _ h.nodup, ?_, ?_⟩
  · intro k u hk
    by_cases e : k = dot2 s n
    · subst e
      rw [lookup_put_self] at hk; cases hk
      exact ⟨by rw [hts, htn], hok, (s, n, r), by simp, hts.symm, htn.symm⟩
    · rw [lookup_put_ne _ _ _ _ e] at hk
      obtain ⟨e1, ⟨hc, hsh⟩, x, hx, hx1, hx2⟩ := h.tabs _ _ hk
      refine ⟨e1, ⟨?_, hsh⟩, x, List.mem_append_left _ hx, hx1, hx2⟩
      rw [map_get_ext (by intro y hy; obtain ⟨z, -, rfl⟩ := List.mem_map.1 hy; simp) hpre hc, List.filter_append]
      have : ¬ (s = u.schema ∧ n = u.name) := by rintro ⟨rfl, rfl⟩; exact e e1
      rw [List.filter_cons_of_neg (by simpa using this)]
      simp
  · intro x hx
    by_cases e : dot2 x.1 x.2.1 = dot2 s n
    · rw [e, lookup_put_self]; simp
    · rw [lookup_put_ne _ _ _ _ e]
      rcases List.mem_append.1 hx with hx | hx
      · exact h.all x hx
      · simp only [List.mem_singleton] at hx
        subst hx
        exact absurd rfl e

theorem viewLoop_ok (schemas tables : List Bytes) : ∀ (rs done : List (Bytes × Bytes × ColRow)) (m : List (Bytes × Table)) (p : Prov), VInv eqFold done m p.heap →
    (∀ x ∈ done, 46 ∉ x.1) → (∀ x ∈ rs.filter (fun r => passes eqFold schemas r.1 && passes eqFold tables r.2.1), 46 ∉ x.1) →
    ∃ m' p', viewLoop eqFold schemas tables false (rs.map some) m p = (.ok m', p') ∧ p'.leaked = p.leaked
      ∧ VInv eqFold (done ++ rs.filter (fun r => passes eqFold schemas r.1 && passes eqFold tables r.2.1)) m' p'.heap := by
  intro rs
  induction rs with
  | nil => intro done m p h _ _; exact ⟨m, p, by simp [viewLoop], rfl, by simpa using h⟩
  | cons x rs ih =>
    intro done m p h hd hr
    obtain ⟨s, n, r⟩ := x
    by_cases hpass : (passes eqFold schemas s && passes eqFold tables n) = true
    · have hf : (((s, n, r) :: rs).filter (fun r => passes eqFold schemas r.1 && passes eqFold tables r.2.1))
          = (s, n, r) :: rs.filter (fun r => passes eqFold schemas r.1 && passes eqFold tables r.2.1) := List.filter_cons_of_pos hpass
      rw [hf] at hr ⊢
      have hs := hr _ (List.mem_cons_self ..)
      obtain ⟨m', p', h1, h2, h3⟩ := ih (done ++ [(s, n, r)]) _ _ (enterView_inv eqFold h s n r hd hs)
        (by intro x hx
            rcases List.mem_append.1 hx with hx | hx
            · exact hd x hx
            · simp only [List.mem_singleton] at hx; subst hx; exact hs)
        (fun x hx => hr x (List.mem_cons_of_mem _ hx))
      refine ⟨m', p', ?_, h2, ?_⟩
      · simp only [List.map_cons, viewLoop, if_pos hpass, h1]
      · simpa using h3
    · have hf : (((s, n, r) :: rs).filter (fun r => passes eqFold schemas r.1 && passes eqFold tables r.2.1))
          = rs.filter (fun r => passes eqFold schemas r.1 && passes eqFold tables r.2.1) := List.filter_cons_of_neg hpass
      rw [hf] at hr ⊢
      obtain ⟨m', p', h1, h2, h3⟩ := ih done m p h hd hr
      exact ⟨m', p', by simp only [List.map_cons, viewLoop, if_neg hpass, h1], h2, h3⟩

theorem viewRows_eq (cat : Catalogue) (schemas tables : List Bytes) :
    (Spec.rows cat.views).filter (fun r => passes eqFold schemas r.1 && passes eqFold tables r.2.1) = Spec.viewRows eqFold cat schemas tables := by
  unfold Spec.viewRows
  congr 1
  funext r
  rw [Bool.eq_iff_iff]
  simp [passes_iff]

end

/-- **C69**: `ListViews` returns exactly the views that have a matching row, each once, ordered by name, and each with exactly its own columns in order of position;
whatever order the driver returns rows in and Go iterates over the map in (`ord`), and from any earlier history. -/
theorem C69_exactly_the_matching_views (eqFold : Bytes → Bytes → Bool) (cat : Catalogue) (schemas tables : List Bytes) (ord : List Table → List Table)
    (hord : ∀ l, (ord l).Perm l) (p : Prov) (hv : Spec.fine cat.views) (hdot : ∀ r ∈ Spec.viewRows eqFold cat schemas tables, 46 ∉ r.1) :
    ∃ ts p', listViews eqFold cat schemas tables ord p = (.ok ts, p') ∧ p'.leaked = p.leaked
      ∧ (ts.map (fun t => (t.schema, t.name))).Nodup
      ∧ (∀ s n, (s, n) ∈ ts.map (fun t => (t.schema, t.name)) ↔ ∃ r ∈ Spec.viewRows eqFold cat schemas tables, r.1 = s ∧ r.2.1 = n)
      ∧ ts.Pairwise (fun a b => Query.leBytes a.schemaName b.schemaName = true)
      ∧ ∀ t ∈ ts, Spec.view p'.heap t = Spec.viewTable eqFold (Spec.viewRows eqFold cat schemas tables) t.schema t.name := by
  have hfine := fine_rows hv
  obtain ⟨m, p', h1, h2, h3⟩ := viewLoop_ok eqFold schemas tables (Spec.rows cat.views) [] [] p
    ⟨List.nodup_nil, (fun k t h => by cases h), (fun r hr => by cases hr)⟩ (fun x hx => by cases hx) (by rw [viewRows_eq]; exact hdot)
  rw [viewRows_eq, List.nil_append] at h3
  have hlist : listViews eqFold cat schemas tables ord p
      = (.ok (sortTables ((ord (m.map (·.2))).map (fun t => { t with columns := Util.sort (fun a b => posOf p'.heap a ≤ posOf p'.heap b) t.columns }))), p') := by
    revert hfine h1
    generalize Spec.rows cat.views = rs
    intro hfine h1
    unfold listViews
    rw [hfine]
    simp only [h1]
  have hperm : (sortTables ((ord (m.map (·.2))).map (fun t => { t with columns := Util.sort (fun a b => decide (posOf p'.heap a ≤ posOf p'.heap b)) t.columns }))).Perm
      ((m.map (·.2)).map (fun t => { t with columns := Util.sort (fun a b => decide (posOf p'.heap a ≤ posOf p'.heap b)) t.columns })) :=
    (Util.sort_perm _ _).trans ((hord _).map _)
  refine ⟨_, p', hlist, h2, ?_, ?_, ?_, ?_⟩
  · refine ((hperm.map (fun t : Table => (t.schema, t.name))).nodup_iff).2 ?_
    rw [List.map_map, List.map_map]
    have hn := h3.nodup
    have : m.map (·.1) = (m.map ((fun t : Table => (t.schema, t.name)) ∘ (·.2))).map (fun x => dot2 x.1 x.2) := by
      rw [List.map_map]
      apply List.map_congr_left
      intro e he
      exact (h3.tabs _ _ (mem_lookup _ h3.nodup e he)).1
    rw [this] at hn
    exact List.Pairwise.of_map (S := fun a b : Bytes => a ≠ b) (fun x : Bytes × Bytes => dot2 x.1 x.2) (fun a b h e => h (by rw [e])) hn
  · intro s n
    rw [(hperm.map (fun t : Table => (t.schema, t.name))).mem_iff, List.map_map, List.map_map, List.mem_map]
    constructor
    · rintro ⟨e, he, hx⟩
      obtain ⟨-, -, r, hr, hr1, hr2⟩ := h3.tabs _ _ (mem_lookup _ h3.nodup e he)
      cases hx
      exact ⟨r, hr, hr1, hr2⟩
    · rintro ⟨r, hr, rfl, rfl⟩
      cases hl : m.lookup (dot2 r.1 r.2.1) with
      | none => exact absurd hl (h3.all r hr)
      | some t =>
        obtain ⟨e, -, x, hx, hx1, hx2⟩ := h3.tabs _ _ hl
        have hd := hdot x hx
        rw [hx1] at hd
        obtain ⟨e1, e2⟩ := dot2_inj (hdot r hr) hd e
        exact ⟨_, lookup_mem _ _ _ hl, by simp [e1, e2]⟩
  · exact Util.sort_sorted (fun a b : Table => Query.leBytes a.schemaName b.schemaName) (fun a b c => Query.leBytes_trans _ _ _)
      (fun a b => Query.leBytes_total _ _) _
  · intro t ht
    rw [hperm.mem_iff, List.mem_map] at ht
    obtain ⟨u, hu, rfl⟩ := ht
    obtain ⟨e, he, rfl⟩ := List.mem_map.1 hu
    obtain ⟨-, ⟨hc, hsh⟩, -⟩ := h3.tabs _ _ (mem_lookup _ h3.nodup e he)
    simp only [Spec.view, Spec.viewTable, hsh]
    rw [sort_map (fun i : Nat => p'.heap[i]?) (fun a b => decide (posOf p'.heap a ≤ posOf p'.heap b)) (fun a b : Option Column => decide (posO a ≤ posO b)) _ (fun _ _ _ _ => rfl), hc]
    rw [sort_map some (fun a b : Column => decide (a.position ≤ b.position)) (fun a b : Option Column => decide (posO a ≤ posO b)) _ (fun _ _ _ _ => rfl)]
    rw [List.map_map]
    simp [dot2, Function.comp_def]

/-- **C69**: a listing of views is never partial. -/
theorem C69_never_a_partial_result (eqFold : Bytes → Bytes → Bool) (cat : Catalogue) (schemas tables : List Bytes) (ord : List Table → List Table) (p p' : Prov)
    (ts : List Table) (h : listViews eqFold cat schemas tables ord p = (.ok ts, p')) : Spec.fine cat.views := by
  have key : ∀ (e : Bool) (items : List (Option (Bytes × Bytes × ColRow))) (m : List (Bytes × Table)) (p : Prov) (m' : List (Bytes × Table)) (p' : Prov),
      viewLoop eqFold schemas tables e items m p = (.ok m', p') → e = false ∧ ∃ l : List (Bytes × Bytes × ColRow), items = l.map some := by
    intro e items
    induction items with
    | nil =>
      intro m p m' p' h
      cases e
      · exact ⟨rfl, [], rfl⟩
      · simp [viewLoop] at h
    | cons x xs ih =>
      intro m p m' p' h
      cases x with
      | none => simp [viewLoop] at h
      | some r =>
        obtain ⟨s, n, r⟩ := r
        simp only [viewLoop] at h
        split at h <;>
        · obtain ⟨h1, l, h2⟩ := ih _ _ _ _ h
          exact ⟨h1, (s, n, r) :: l, by rw [h2]; rfl⟩
  unfold listViews at h
  cases hq : cat.views with
  | none => rw [hq] at h; cases h
  | some rows =>
    rw [hq] at h
    simp only at h
    cases hl : viewLoop eqFold schemas tables rows.endErr rows.items [] p with
    | mk o q =>
      rw [hl] at h
      cases o with
      | ok a =>
        obtain ⟨h1, l, h2⟩ := key _ _ _ _ _ _ hl
        obtain ⟨items, e⟩ := rows
        simp only at h1 h2
        exact ⟨l, by rw [h1, h2]⟩
      | err => cases h
      | panic => cases h
      | diverge => cases h

/-- Two views, rows interleaved and out of order. -/
def viewCat : Catalogue := { demo with views := some ⟨[
  some (b!"public", b!"v2", ⟨b!"b", b!"int", b!"", b!"NO", none, 2⟩), some (b!"public", b!"v1", ⟨b!"x", b!"int", b!"", b!"YES", none, 1⟩),
  some (b!"other", b!"v1", ⟨b!"q", b!"int", b!"", b!"YES", none, 1⟩), some (b!"public", b!"v2", ⟨b!"a", b!"int", b!"", b!"NO", some 5, 1⟩)], false⟩ }

example : Spec.fine viewCat.views := ⟨Spec.rows viewCat.views, rfl⟩
example : ∀ r ∈ Spec.viewRows eqB viewCat [b!"public"] [], 46 ∉ r.1 := by decide +kernel
example : ∃ ts p', listViews eqB viewCat [b!"public"] [] id Prov.new = (.ok ts, p') ∧ ts.map (·.schemaName) = [b!"public.v1", b!"public.v2"]
    ∧ ts.map (fun t => t.columns.filterMap (fun i => (p'.heap[i]?).map (·.name))) = [[b!"x"], [b!"a", b!"b"]] := ⟨_, _, rfl, by decide +kernel, by decide +kernel⟩

/-! ### Foreign keys -/

/-- The foreign keys of the catalogue whose source table matches, in catalogue order. -/
def Spec.foreignKeys (eqFold : Bytes → Bytes → Bool) (cat : Catalogue) (schemas tables : List Bytes) : List ForeignKey :=
  ((Spec.rows cat.fkeys).filter (fun k => Spec.matchesFilter eqFold schemas k.schema ∧ Spec.matchesFilter eqFold tables k.table)).map
    (fun k => ⟨k.name, k.schema, k.table, k.column, k.refSchema, k.refTable, k.refColumn, k.schema ++ b!"." ++ k.table ++ b!"." ++ k.name⟩)

theorem fkLoop_exact (eqFold : Bytes → Bytes → Bool) (schemas tables : List Bytes) (e : Bool) : ∀ (items : List (Option FkRow)) (acc : List ForeignKey) (p : Prov),
    (fkLoop eqFold schemas tables e items acc p).1 = .ok (acc ++ ((items.filterMap id).filter (fun k => passes eqFold schemas k.schema && passes eqFold tables k.table)).map mkFk)
        ∧ e = false ∧ (∃ l : List FkRow, items = l.map some) ∧ (fkLoop eqFold schemas tables e items acc p).2.leaked = p.leaked
      ∨ (fkLoop eqFold schemas tables e items acc p).1 = .err ∧ ¬(e = false ∧ ∃ l : List FkRow, items = l.map some) := by
  intro items
  induction items with
  | nil =>
    intro acc p
    cases e
    · exact .inl ⟨by simp [fkLoop], rfl, ⟨[], rfl⟩, rfl⟩
    · exact .inr ⟨by simp [fkLoop], by simp⟩
  | cons x xs ih =>
    intro acc p
    cases x with
    | none =>
      refine .inr ⟨by simp [fkLoop], ?_⟩
      rintro ⟨-, l, hl⟩
      cases l <;> simp at hl
    | some r =>
      simp only [fkLoop]
      by_cases hp : (passes eqFold schemas r.schema && passes eqFold tables r.table) = true
      · rw [if_pos hp]
        rcases ih (acc ++ [mkFk r]) { p with fkeys := put p.fkeys (mkFk r).columnSchemaName (mkFk r) } with ⟨h1, h2, ⟨l, h3⟩, h4⟩ | ⟨h1, h2⟩
        · refine .inl ⟨?_, h2, ⟨r :: l, by rw [h3]; rfl⟩, h4⟩
          rw [h1]
          simp only [List.filterMap_cons, id]
          rw [List.filter_cons_of_pos (p := fun k : FkRow => passes eqFold schemas k.schema && passes eqFold tables k.table) hp]
          simp
        · refine .inr ⟨h1, ?_⟩
          rintro ⟨e1, l, hl⟩
          cases l with
          | nil => cases hl
          | cons y l => rw [List.map_cons, List.cons.injEq] at hl; exact h2 ⟨e1, l, hl.2⟩
      · rw [if_neg hp]
        rcases ih acc p with ⟨h1, h2, ⟨l, h3⟩, h4⟩ | ⟨h1, h2⟩
        · refine .inl ⟨?_, h2, ⟨r :: l, by rw [h3]; rfl⟩, h4⟩
          rw [h1]
          simp only [List.filterMap_cons, id]
          rw [List.filter_cons_of_neg (p := fun k : FkRow => passes eqFold schemas k.schema && passes eqFold tables k.table) hp]
        · refine .inr ⟨h1, ?_⟩
          rintro ⟨e1, l, hl⟩
          cases l with
          | nil => cases hl
          | cons y l => rw [List.map_cons, List.cons.injEq] at hl; exact h2 ⟨e1, l, hl.2⟩

/-- **C70**: `ListForeignKeys` either returns exactly the matching foreign keys in catalogue order, or fails; it fails exactly when the query does or its rows cannot all be read. -/
theorem C70_exactly_the_matching_foreign_keys (eqFold : Bytes → Bytes → Bool) (cat : Catalogue) (schemas tables : List Bytes) (p : Prov) :
    (Spec.fine cat.fkeys → (listForeignKeys eqFold cat schemas tables p).1 = .ok (Spec.foreignKeys eqFold cat schemas tables)
        ∧ (listForeignKeys eqFold cat schemas tables p).2.leaked = p.leaked)
      ∧ (¬Spec.fine cat.fkeys → (listForeignKeys eqFold cat schemas tables p).1 = .err) := by
  have hspec : ((Spec.rows cat.fkeys).filter (fun k => passes eqFold schemas k.schema && passes eqFold tables k.table)).map mkFk = Spec.foreignKeys eqFold cat schemas tables := by
    unfold Spec.foreignKeys
    have : (fun k : FkRow => passes eqFold schemas k.schema && passes eqFold tables k.table)
        = (fun k : FkRow => decide (Spec.matchesFilter eqFold schemas k.schema ∧ Spec.matchesFilter eqFold tables k.table)) := by
      funext k
      rw [Bool.eq_iff_iff]
      simp [passes_iff]
    rw [this]
    apply List.map_congr_left
    intro k _
    simp [mkFk, dot3]
  rw [← hspec]
  unfold listForeignKeys Spec.rows
  cases hq : cat.fkeys with
  | none =>
    refine ⟨?_, fun _ => rfl⟩
    rintro ⟨l, hl⟩
    cases hl
  | some rows =>
    simp only
    rcases fkLoop_exact eqFold schemas tables rows.endErr rows.items [] p with ⟨h1, h2, ⟨l, h3⟩, h4⟩ | ⟨h1, h2⟩
    · refine ⟨fun _ => ⟨by rw [h1]; simp, h4⟩, ?_⟩
      intro hn
      refine absurd ⟨l, ?_⟩ hn
      obtain ⟨items, e⟩ := rows
      simp only at h2 h3
      rw [h2, h3]
    · refine ⟨?_, fun _ => h1⟩
      rintro ⟨l, hl⟩
      cases hl
      exact absurd ⟨rfl, l, rfl⟩ h2

example : Spec.fine demo.fkeys ∧ (Spec.foreignKeys eqB demo [] [b!"users"]).map (·.name) = [b!"fk2", b!"fk3"] := ⟨⟨Spec.rows demo.fkeys, rfl⟩, by decide +kernel⟩
example : ¬Spec.fine ({ demo with fkeys := some ⟨[none], false⟩ } : Catalogue).fkeys := by rintro ⟨l, hl⟩; cases l <;> simp at hl

/-! ### Rows left open -/

theorem colLoop_leak (eqFold : Bytes → Bytes → Bool) (s t : Bytes) (e : Bool) : ∀ (items : List (Option ColRow)) (acc cc : List Nat) (p p' : Prov),
    colLoop eqFold s t e items acc p = (.ok cc, p') → p'.leaked = p.leaked := by
  intro items
  induction items with
  | nil =>
    intro acc cc p p' h
    cases e
    · simp only [colLoop, Bool.false_eq_true, if_false, Prod.mk.injEq] at h; rw [h.2]
    · simp [colLoop] at h
  | cons x xs ih =>
    intro acc cc p p' h
    cases x with
    | none => simp [colLoop] at h
    | some r => exact (ih _ _ _ _ h).trans rfl

theorem readColumns_leak {eqFold : Bytes → Bytes → Bool} {cat : Catalogue} {s t : Bytes} {p p' : Prov} {cc : List Nat}
    (h : readColumns eqFold cat s t p = (.ok cc, p')) : p'.leaked = p.leaked := by
  unfold readColumns at h
  cases hq : cat.columns s t with
  | none => rw [hq] at h; cases h
  | some rows =>
    rw [hq] at h
    simp only at h
    cases hl : colLoop eqFold s t rows.endErr rows.items [] p with
    | mk o q =>
      rw [hl] at h
      cases o with
      | ok a =>
        simp only [Prod.mk.injEq] at h
        rw [← h.2]
        exact colLoop_leak eqFold s t _ _ _ _ _ _ hl
      | err => cases h
      | panic => cases h
      | diverge => cases h

theorem idxLoop_leak (s t : Bytes) (e : Bool) : ∀ (items : List (Option IdxRow)) (acc cc : List Index) (p p' : Prov),
    idxLoop s t e items acc p = (.ok cc, p') → p'.leaked = p.leaked := by
  intro items
  induction items with
  | nil =>
    intro acc cc p p' h
    cases e
    · simp only [idxLoop, Bool.false_eq_true, if_false, Prod.mk.injEq] at h; rw [h.2]
    · simp [idxLoop] at h
  | cons x xs ih =>
    intro acc cc p p' h
    cases x with
    | none => simp [idxLoop] at h
    | some r => exact ih _ _ _ _ h

theorem readIndexes_leak {cat : Catalogue} {s t : Bytes} {p p' : Prov} {cc : List Index} (h : readIndexes cat s t p = (.ok cc, p')) : p'.leaked = p.leaked := by
  unfold readIndexes at h
  cases hq : cat.indexes s t with
  | none => rw [hq] at h; cases h
  | some rows => rw [hq] at h; exact idxLoop_leak s t _ _ _ _ _ _ h

theorem applyIndex_leak (tn : Bytes) (idx : Index) : ∀ (cns : List Bytes) (pk pk' : Option Nat) (p p' : Prov),
    applyIndex tn idx cns pk p = some (pk', p') → p'.leaked = p.leaked := by
  intro cns
  induction cns with
  | nil => intro pk pk' p p' h; simp only [applyIndex, Option.some.injEq, Prod.mk.injEq] at h; rw [h.2]
  | cons c cs ih =>
    intro pk pk' p p' h
    unfold applyIndex at h
    cases hc : p.columns.lookup (dot2 tn c) with
    | none => rw [hc] at h; cases h
    | some i => rw [hc] at h; exact (ih _ _ (modCol p i _) _ h).trans rfl

theorem applyIndexes_leak (tn : Bytes) : ∀ (ii : List Index) (pk pk' : Option Nat) (p p' : Prov),
    applyIndexes tn ii pk p = some (pk', p') → p'.leaked = p.leaked := by
  intro ii
  induction ii with
  | nil => intro pk pk' p p' h; simp only [applyIndexes, Option.some.injEq, Prod.mk.injEq] at h; rw [h.2]
  | cons x xs ih =>
    intro pk pk' p p' h
    unfold applyIndexes at h
    cases hx : applyIndex tn x x.columnNames pk p with
    | none => rw [hx] at h; cases h
    | some q =>
      obtain ⟨pk1, p1⟩ := q
      rw [hx] at h
      exact (ih _ _ _ _ h).trans (applyIndex_leak _ _ _ _ _ _ _ hx)

theorem addTable_leak {eqFold : Bytes → Bytes → Bool} {cat : Catalogue} {r : TableRow} {p p' : Prov} {t : Table} (h : addTable eqFold cat r p = (.ok t, p')) :
    p'.leaked = p.leaked := by
  unfold addTable at h
  cases h1 : readColumns eqFold cat r.schema r.name p with
  | mk o p1 =>
    rw [h1] at h
    cases o with
    | ok cc =>
      simp only at h
      cases h2 : readIndexes cat r.schema r.name p1 with
      | mk o2 p2 =>
        rw [h2] at h
        cases o2 with
        | ok ii =>
          simp only at h
          cases h3 : applyIndexes (dot2 r.schema r.name) ii none p2 with
          | none => rw [h3] at h; cases h
          | some q =>
            obtain ⟨pk, p3⟩ := q
            rw [h3] at h
            simp only [Prod.mk.injEq] at h
            rw [← h.2]
            exact (applyIndexes_leak _ _ _ _ _ _ h3).trans ((readIndexes_leak h2).trans (readColumns_leak h1))
        | err => cases h
        | panic => cases h
        | diverge => cases h
    | err => cases h
    | panic => cases h
    | diverge => cases h

theorem tableLoop_leak (eqFold : Bytes → Bytes → Bool) (cat : Catalogue) (schemas tables : List Bytes) (e : Bool) :
    ∀ (items : List (Option TableRow)) (acc ts : List Table) (p p' : Prov), tableLoop eqFold cat schemas tables e items acc p = (.ok ts, p') → p'.leaked = p.leaked := by
  intro items
  induction items with
  | nil =>
    intro acc ts p p' h
    cases e
    · simp only [tableLoop, Bool.false_eq_true, if_false, Prod.mk.injEq] at h; rw [h.2]
    · simp [tableLoop] at h
  | cons x xs ih =>
    intro acc ts p p' h
    cases x with
    | none => simp [tableLoop] at h
    | some r =>
      simp only [tableLoop] at h
      by_cases hp : (passes eqFold schemas r.schema && passes eqFold tables r.name) = true
      · rw [if_pos hp] at h
        cases ha : addTable eqFold cat r p with
        | mk o q =>
          rw [ha] at h
          cases o with
          | ok t => exact (ih _ _ _ _ h).trans (addTable_leak ha)
          | err => cases h
          | panic => cases h
          | diverge => cases h
      · rw [if_neg hp] at h
        exact ih _ _ _ _ h

theorem followCols_leak (go : Bytes → Bytes → Prov → Out Unit × Prov) (hgo : ∀ s n p p', go s n p = (.ok (), p') → p'.leaked = p.leaked) :
    ∀ (ids : List Nat) (p p' : Prov), followCols go ids p = (.ok (), p') → p'.leaked = p.leaked := by
  intro ids
  induction ids with
  | nil => intro p p' h; simp only [followCols, Prod.mk.injEq] at h; rw [h.2]
  | cons i ids ih =>
    intro p p' h
    simp only [followCols] at h
    cases hc : p.heap[i]? with
    | none => rw [hc] at h; cases h
    | some c =>
      rw [hc] at h
      simp only at h
      cases hf : p.fkeys.lookup c.schemaName with
      | none => rw [hf] at h; exact ih _ _ h
      | some fk =>
        rw [hf] at h
        simp only at h
        cases hg : go fk.refSchema fk.refTable (modCol p i (fun c => { c with ref := some fk })) with
        | mk o q =>
          rw [hg] at h
          cases o with
          | ok u => exact (ih _ _ h).trans ((hgo _ _ _ _ hg).trans rfl)
          | err => cases h
          | panic => cases h
          | diverge => cases h

theorem discoverTable_leak (eqFold : Bytes → Bytes → Bool) (cat : Catalogue) : ∀ fuel s n p p', discoverTable eqFold cat fuel s n p = (.ok (), p') → p'.leaked = p.leaked := by
  intro fuel
  induction fuel with
  | zero => intro s n p p' h; cases h
  | succ fuel ih =>
    intro s n p p' h
    simp only [discoverTable] at h
    cases ht : p.tables.lookup (dot2 s n) with
    | some t => rw [ht] at h; simp only [Prod.mk.injEq] at h; rw [h.2]
    | none =>
      rw [ht] at h
      simp only at h
      cases h1 : readColumns eqFold cat s n p with
      | mk o p1 =>
        rw [h1] at h
        cases o with
        | ok cc => exact (followCols_leak _ ih _ _ _ h).trans ((rfl : _ = p1.leaked).trans (readColumns_leak h1))
        | err => cases h
        | panic => cases h
        | diverge => cases h

theorem discoverLoop_leak (eqFold : Bytes → Bytes → Bool) (cat : Catalogue) (fuel : Nat) : ∀ ks p p', discoverLoop eqFold cat fuel ks p = (.ok (), p') → p'.leaked = p.leaked := by
  intro ks
  induction ks with
  | nil => intro p p' h; simp only [discoverLoop, Prod.mk.injEq] at h; rw [h.2]
  | cons k ks ih =>
    intro p p' h
    simp only [discoverLoop] at h
    cases hk : p.columns.lookup k with
    | none => rw [hk] at h; exact ih _ _ h
    | some i =>
      rw [hk] at h
      simp only at h
      cases hf : p.fkeys.lookup k with
      | none => rw [hf] at h; exact ih _ _ h
      | some fk =>
        rw [hf] at h
        simp only at h
        cases hg : discoverTable eqFold cat fuel fk.refSchema fk.refTable (modCol p i (fun c => { c with ref := some fk })) with
        | mk o q =>
          rw [hg] at h
          cases o with
          | ok u => exact (ih _ _ h).trans ((discoverTable_leak _ _ _ _ _ _ _ hg).trans rfl)
          | err => cases h
          | panic => cases h
          | diverge => cases h

theorem listForeignKeys_leak {eqFold : Bytes → Bytes → Bool} {cat : Catalogue} {schemas tables : List Bytes} {p p' : Prov} {l : List ForeignKey}
    (h : listForeignKeys eqFold cat schemas tables p = (.ok l, p')) : p'.leaked = p.leaked ∧ Spec.fine cat.fkeys := by
  obtain ⟨h1, h2⟩ := C70_exactly_the_matching_foreign_keys eqFold cat schemas tables p
  by_cases hf : Spec.fine cat.fkeys
  · have := (h1 hf).2
    rw [h] at this
    exact ⟨this, hf⟩
  · have := h2 hf
    rw [h] at this
    cases this

/-- **C71**, for successful calls: no result set is left open, from any state of the provider, with or without dependencies.
Missing: failing calls (`C71_scan_failure_leaves_rows_open`). -/
theorem C71_success_closes_every_result_set_partial (eqFold : Bytes → Bytes → Bool) (cat : Catalogue) (schemas tables : List Bytes) (p : Prov) :
    (∀ deps fuel ks ts p', listTables eqFold cat schemas tables deps fuel ks p = (.ok ts, p') → p'.leaked = p.leaked)
      ∧ (∀ ord ts p', listViews eqFold cat schemas tables ord p = (.ok ts, p') → p'.leaked = p.leaked)
      ∧ ∀ l p', listForeignKeys eqFold cat schemas tables p = (.ok l, p') → p'.leaked = p.leaked := by
  refine ⟨?_, ?_, fun l p' h => (listForeignKeys_leak h).1⟩
  · intro deps fuel ks ts p' h
    unfold listTables at h
    cases hq : cat.tables with
    | none => rw [hq] at h; cases h
    | some rows =>
      rw [hq] at h
      simp only at h
      cases hl : tableLoop eqFold cat schemas tables rows.endErr rows.items [] p with
      | mk o q =>
        rw [hl] at h
        have hq1 : ∀ a, o = .ok a → q.leaked = p.leaked := by rintro a rfl; exact tableLoop_leak _ _ _ _ _ _ _ _ _ _ hl
        cases o with
        | ok a =>
          have hq1 := hq1 a rfl
          cases deps with
          | false => simp only [Bool.false_eq_true, if_false, Prod.mk.injEq] at h; rw [← h.2]; exact hq1
          | true =>
            simp only [if_true] at h
            cases hdis : discover eqFold cat fuel ks q with
            | mk o2 q2 =>
              rw [hdis] at h
              cases o2 with
              | ok b =>
                simp only [Prod.mk.injEq] at h
                rw [← h.2]
                refine Eq.trans ?_ hq1
                unfold discover at hdis
                cases hf : listForeignKeys eqFold cat [] [] q with
                | mk o3 q3 =>
                  rw [hf] at hdis
                  cases o3 with
                  | ok l =>
                    simp only at hdis
                    cases hloop : discoverLoop eqFold cat fuel ks q3 with
                    | mk o4 q4 =>
                      rw [hloop] at hdis
                      cases o4 with
                      | ok u =>
                        simp only [Prod.mk.injEq] at hdis
                        rw [← hdis.2]
                        exact (discoverLoop_leak _ _ _ _ _ _ hloop).trans (listForeignKeys_leak hf).1
                      | err => cases hdis
                      | panic => cases hdis
                      | diverge => cases hdis
                  | err => cases hdis
                  | panic => cases hdis
                  | diverge => cases hdis
              | err => cases h
              | panic => cases h
              | diverge => cases h
        | err => cases h
        | panic => cases h
        | diverge => cases h
  · intro ord ts p' h
    have key : ∀ (e : Bool) (items : List (Option (Bytes × Bytes × ColRow))) (m m' : List (Bytes × Table)) (p p' : Prov),
        viewLoop eqFold schemas tables e items m p = (.ok m', p') → p'.leaked = p.leaked := by
      intro e items
      induction items with
      | nil =>
        intro m m' p p' h
        cases e
        · simp only [viewLoop, Bool.false_eq_true, if_false, Prod.mk.injEq] at h; rw [h.2]
        · simp [viewLoop] at h
      | cons x xs ih =>
        intro m m' p p' h
        cases x with
        | none => simp [viewLoop] at h
        | some r =>
          obtain ⟨s, n, r⟩ := r
          simp only [viewLoop] at h
          split at h
          · exact (ih _ _ _ _ h).trans rfl
          · exact ih _ _ _ _ h
    unfold listViews at h
    cases hq : cat.views with
    | none => rw [hq] at h; cases h
    | some rows =>
      rw [hq] at h
      simp only at h
      cases hl : viewLoop eqFold schemas tables rows.endErr rows.items [] p with
      | mk o q =>
        rw [hl] at h
        cases o with
        | ok a =>
          simp only [Prod.mk.injEq] at h
          rw [← h.2]
          exact key _ _ _ _ _ _ hl
        | err => cases h
        | panic => cases h
        | diverge => cases h

/-- **C71 fails** for failing calls: when a row cannot be scanned, or a query about a table fails while the list of tables is being read,
the result set being read stays open (nothing closes it, so its connection does not return to the pool). -/
theorem C71_scan_failure_leaves_rows_open :
    (listForeignKeys eqB { demo with fkeys := some ⟨[none], false⟩ } [] [] Prov.new).1 = .err
    ∧ (listForeignKeys eqB { demo with fkeys := some ⟨[none], false⟩ } [] [] Prov.new).2.leaked = 1
    ∧ (listTables eqB { demo with columns := fun _ _ => none } [] [] false 0 [] Prov.new).1 = .err
    ∧ (listTables eqB { demo with columns := fun _ _ => none } [] [] false 0 [] Prov.new).2.leaked = 1 := by
  exact ⟨rfl, rfl, rfl, rfl⟩

end Schema
