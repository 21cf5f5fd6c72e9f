import Verif.Schema.TableLemmas
set_option linter.unusedVariables false
set_option linter.unusedSimpArgs false
/-! `ListTables` without dependencies: C52 and C54. -/
namespace Schema

theorem passes_iff (eqFold : Bytes → Bytes → Bool) (l : List Bytes) (s : Bytes) : passes eqFold l s = true ↔ Spec.matchesFilter eqFold l s := by
  unfold passes Spec.matchesFilter
  cases l <;> simp

theorem selected_eq (eqFold : Bytes → Bytes → Bool) (cat : Catalogue) (schemas tables : List Bytes) :
    (Spec.rows cat.tables).filter (fun r => passes eqFold schemas r.schema && passes eqFold tables r.name) = Spec.selected eqFold cat schemas tables := by
  unfold Spec.selected
  congr 1
  funext r
  rw [Bool.eq_iff_iff]
  simp [passes_iff]

theorem mem_selected {eqFold : Bytes → Bytes → Bool} {cat : Catalogue} {schemas tables : List Bytes} {r : TableRow} :
    r ∈ Spec.selected eqFold cat schemas tables
      ↔ r ∈ Spec.rows cat.tables ∧ (passes eqFold schemas r.schema && passes eqFold tables r.name) = true := by
  rw [← selected_eq, List.mem_filter]

/-- **C52**: with a consistent catalogue `ListTables` returns exactly the selected tables, each once per catalogue row and each with exactly the
catalogue's columns and indexes, ordered by name; from any earlier history of the provider. -/
theorem C52_exactly_the_matching_tables (eqFold : Bytes → Bytes → Bool) (cat : Catalogue) (schemas tables : List Bytes) (fuel : Nat) (ks : List Bytes) (p : Prov)
    (ht : Spec.fine cat.tables) (hc : ∀ r ∈ Spec.selected eqFold cat schemas tables, Spec.Consistent cat r.schema r.name) :
    ∃ ts p', listTables eqFold cat schemas tables false fuel ks p = (.ok ts, p')
      ∧ (ts.map (Spec.view p'.heap)).Perm ((Spec.selected eqFold cat schemas tables).map (Spec.table eqFold cat (fun _ => none)))
      ∧ ts.Pairwise (fun a b => Query.leBytes a.schemaName b.schemaName = true)
      ∧ p'.leaked = p.leaked := by
  have hr := fine_rows ht
  obtain ⟨ts, p', h1, h2, h3, h4, h5⟩ := tableLoop_ok eqFold cat schemas tables (Spec.rows cat.tables) [] p
    (fun r hm hp => hc r (mem_selected.2 ⟨hm, hp⟩))
  refine ⟨sortTables ts, p', ?_, ?_, ?_, h3⟩
  · rw [List.nil_append] at h1
    unfold listTables
    rw [hr]
    simp only [h1]
    rfl
  · rw [← selected_eq, ← h5 p'.heap (List.prefix_refl _)]
    exact (Util.sort_perm _ _).map _
  · exact Util.sort_sorted (fun a b : Table => Query.leBytes a.schemaName b.schemaName) (fun a b c => Query.leBytes_trans _ _ _)
      (fun a b => Query.leBytes_total _ _) ts

/-- **C52**: the columns of a reported table are the catalogue's, each once, in order of position. -/
theorem C52_columns_in_order (eqFold : Bytes → Bytes → Bool) (cat : Catalogue) (ref : Bytes → Option ForeignKey) (r : TableRow) :
    ∃ cc : List Column, (Spec.table eqFold cat ref r).columns = cc.map some
      ∧ cc.Perm ((Spec.rows (cat.columns r.schema r.name)).map (fun c => Spec.column eqFold r.schema r.name (Spec.indexes cat r.schema r.name) (ref c.name) c))
      ∧ cc.Pairwise (fun a b => a.position ≤ b.position) := by
  refine ⟨Spec.columns eqFold cat r.schema r.name (Spec.indexes cat r.schema r.name) ref, rfl, Util.sort_perm _ _, ?_⟩
  have := Util.sort_sorted (fun a b : Column => decide (a.position ≤ b.position))
    (fun a b c h1 h2 => by simp only [decide_eq_true_eq] at *; exact UInt32.le_trans h1 h2)
    (fun a b => by simp only [Bool.or_eq_true, decide_eq_true_eq]; exact UInt32.le_total _ _)
    ((Spec.rows (cat.columns r.schema r.name)).map (fun c => Spec.column eqFold r.schema r.name (Spec.indexes cat r.schema r.name) (ref c.name) c))
  exact this.imp (fun h => by simpa using h)

/-- Equal keys mean equal elements when the keys are distinct. -/
theorem eq_of_key {β κ : Type} (key : β → κ) {a b : β} (hk : key a = key b) : ∀ l : List β, (l.map key).Nodup → a ∈ l → b ∈ l → a = b := by
  intro l
  induction l with
  | nil => intro _ h; cases h
  | cons x xs ih =>
    intro hnd hma hmb
    rw [List.map_cons, List.nodup_cons] at hnd
    rcases List.mem_cons.1 hma with ea | hma <;> rcases List.mem_cons.1 hmb with eb | hmb
    · rw [ea, eb]
    · exact absurd (by rw [← ea, hk]; exact List.mem_map_of_mem hmb) hnd.1
    · exact absurd (by rw [← eb, ← hk]; exact List.mem_map_of_mem hma) hnd.1
    · exact ih hnd.2 hma hmb

/-- Sorting does not depend on the order when the keys are distinct. -/
theorem sort_perm_eq {β κ : Type} (key : β → κ) (le : κ → κ → Bool) (ht : ∀ a b c, le a b = true → le b c = true → le a c = true)
    (htot : ∀ a b, (le a b || le b a) = true) (ha : ∀ a b, le a b = true → le b a = true → a = b) (l l' : List β) (hp : l.Perm l')
    (hnd : (l.map key).Nodup) : Util.sort (fun a b => le (key a) (key b)) l = Util.sort (fun a b => le (key a) (key b)) l' := by
  have hs := fun l : List β => Util.sort_sorted (fun a b => le (key a) (key b)) (fun a b c => ht _ _ _) (fun a b => htot _ _) l
  apply List.Perm.eq_of_pairwise (le := fun a b => le (key a) (key b) = true) _ (hs l) (hs l')
  · exact (Util.sort_perm _ _).trans (hp.trans (Util.sort_perm _ _).symm)
  · intro a b hma hmb h1 h2
    have hk := ha _ _ h1 h2
    have hma : a ∈ l := (Util.sort_perm _ _).mem_iff.1 hma
    have hmb : b ∈ l := hp.mem_iff.2 ((Util.sort_perm _ _).mem_iff.1 hmb)
    exact eq_of_key key hk l hnd hma hmb

theorem spec_columns_congr (eqFold : Bytes → Bytes → Bool) (cat cat' : Catalogue) (s t : Bytes) (ii : List Index) (ref : Bytes → Option ForeignKey)
    (hp : (Spec.rows (cat.columns s t)).Perm (Spec.rows (cat'.columns s t)))
    (hd : ((Spec.rows (cat.columns s t)).map (fun c => UInt32.ofInt c.ordinal)).Nodup) :
    Spec.columns eqFold cat s t ii ref = Spec.columns eqFold cat' s t ii ref := by
  unfold Spec.columns
  apply sort_perm_eq (fun c : Column => c.position) (fun a b : UInt32 => decide (a ≤ b))
  · intro a b c h1 h2; simp only [decide_eq_true_eq] at *; exact UInt32.le_trans h1 h2
  · intro a b; simp only [Bool.or_eq_true, decide_eq_true_eq]; exact UInt32.le_total _ _
  · intro a b h1 h2; simp only [decide_eq_true_eq] at *; exact UInt32.le_antisymm h1 h2
  · exact hp.map _
  · rw [List.map_map]; exact hd

/-- Two catalogues with the same contents, whose rows come in different orders. -/
structure SameContents (cat cat' : Catalogue) : Prop where
  tables : (Spec.rows cat.tables).Perm (Spec.rows cat'.tables)
  columns : ∀ s t, (Spec.rows (cat.columns s t)).Perm (Spec.rows (cat'.columns s t))
  indexes : ∀ s t, Spec.rows (cat.indexes s t) = Spec.rows (cat'.indexes s t)

theorem spec_table_schemaName (eqFold : Bytes → Bytes → Bool) (cat : Catalogue) (ref : Bytes → Option ForeignKey) (r : TableRow) :
    (Spec.table eqFold cat ref r).schemaName = r.schema ++ b!"." ++ r.name := rfl

/-- **C52**: the order in which the driver returns tables and columns does not matter, nor does what the provider was used for before. -/
theorem C52_row_order_is_irrelevant (eqFold : Bytes → Bytes → Bool) (cat cat' : Catalogue) (schemas tables : List Bytes) (fuel fuel' : Nat) (ks ks' : List Bytes)
    (p p' : Prov) (ht : Spec.fine cat.tables) (ht' : Spec.fine cat'.tables)
    (hc : ∀ r ∈ Spec.selected eqFold cat schemas tables, Spec.Consistent cat r.schema r.name)
    (hc' : ∀ r ∈ Spec.selected eqFold cat' schemas tables, Spec.Consistent cat' r.schema r.name)
    (hsame : SameContents cat cat')
    (hord : ∀ r ∈ Spec.selected eqFold cat schemas tables, ((Spec.rows (cat.columns r.schema r.name)).map (fun c => UInt32.ofInt c.ordinal)).Nodup)
    (hnames : ((Spec.selected eqFold cat schemas tables).map (fun r => r.schema ++ b!"." ++ r.name)).Nodup) :
    ∃ ts q ts' q', listTables eqFold cat schemas tables false fuel ks p = (.ok ts, q) ∧ listTables eqFold cat' schemas tables false fuel' ks' p' = (.ok ts', q')
      ∧ ts.map (Spec.view q.heap) = ts'.map (Spec.view q'.heap) := by
  obtain ⟨ts, q, h1, h2, h3, -⟩ := C52_exactly_the_matching_tables eqFold cat schemas tables fuel ks p ht hc
  obtain ⟨ts', q', g1, g2, g3, -⟩ := C52_exactly_the_matching_tables eqFold cat' schemas tables fuel' ks' p' ht' hc'
  refine ⟨ts, q, ts', q', h1, g1, ?_⟩
  have hsel : (Spec.selected eqFold cat schemas tables).Perm (Spec.selected eqFold cat' schemas tables) := hsame.tables.filter _
  have htab : (Spec.selected eqFold cat schemas tables).map (Spec.table eqFold cat (fun _ => none))
      = (Spec.selected eqFold cat schemas tables).map (Spec.table eqFold cat' (fun _ => none)) := by
    apply List.map_congr_left
    intro r hr
    have hidx : Spec.indexes cat r.schema r.name = Spec.indexes cat' r.schema r.name := by unfold Spec.indexes; rw [hsame.indexes]
    simp only [Spec.table]
    rw [hidx, spec_columns_congr eqFold cat cat' r.schema r.name _ _ (hsame.columns _ _) (hord r hr)]
  have hperm : (ts.map (Spec.view q.heap)).Perm (ts'.map (Spec.view q'.heap)) := by
    refine h2.trans (List.Perm.trans ?_ g2.symm)
    rw [htab]
    exact hsel.map _
  have hs : (ts.map (Spec.view q.heap)).Pairwise (fun a b => Query.leBytes a.schemaName b.schemaName = true) := List.pairwise_map.2 h3
  have hs' : (ts'.map (Spec.view q'.heap)).Pairwise (fun a b => Query.leBytes a.schemaName b.schemaName = true) := List.pairwise_map.2 g3
  have hnd : ((ts.map (Spec.view q.heap)).map (·.schemaName)).Nodup := by
    refine ((h2.map (fun v : Spec.TableView => v.schemaName)).nodup_iff).2 ?_
    rw [List.map_map]
    exact hnames
  refine List.Perm.eq_of_pairwise (le := fun a b : Spec.TableView => Query.leBytes a.schemaName b.schemaName = true) ?_ hs hs' hperm
  intro a b ha hb hab hba
  have hk := Query.leBytes_antisymm _ _ hab hba
  have hb : b ∈ ts.map (Spec.view q.heap) := hperm.mem_iff.2 hb
  exact eq_of_key (fun v : Spec.TableView => v.schemaName) hk _ hnd ha hb

/-! ### A listing is never partial -/

theorem colLoop_fine (eqFold : Bytes → Bytes → Bool) (s t : Bytes) (e : Bool) : ∀ (items : List (Option ColRow)) (acc : List Nat) (p : Prov) (cc : List Nat) (p' : Prov),
    colLoop eqFold s t e items acc p = (.ok cc, p') → e = false ∧ ∃ l : List ColRow, items = l.map some := by
  intro items
  induction items with
  | nil =>
    intro acc p cc p' h
    cases e
    · exact ⟨rfl, [], rfl⟩
    · simp [colLoop] at h
  | cons x xs ih =>
    intro acc p cc p' h
    cases x with
    | none => simp [colLoop] at h
    | some r =>
      obtain ⟨h1, l, h2⟩ := ih _ _ _ _ h
      exact ⟨h1, r :: l, by rw [h2]; rfl⟩

theorem readColumns_fine {eqFold : Bytes → Bytes → Bool} {cat : Catalogue} {s t : Bytes} {p : Prov} {cc : List Nat} {p' : Prov}
    (h : readColumns eqFold cat s t p = (.ok cc, p')) : Spec.fine (cat.columns s t) := by
  unfold readColumns at h
  cases hq : cat.columns s t with
  | none => rw [hq] at h; cases h
  | some rows =>
    rw [hq] at h
    simp only at h
    cases hl : colLoop eqFold s t rows.endErr rows.items [] p with
    | mk o q =>
      rw [hl] at h
      cases o with
      | ok a =>
        obtain ⟨h1, l, h2⟩ := colLoop_fine eqFold s t _ _ _ _ _ _ hl
        obtain ⟨items, e⟩ := rows
        simp only at h1 h2
        exact ⟨l, by rw [h1, h2]⟩
      | err => cases h
      | panic => cases h
      | diverge => cases h

theorem idxLoop_fine (s t : Bytes) (e : Bool) : ∀ (items : List (Option IdxRow)) (acc : List Index) (p : Prov) (cc : List Index) (p' : Prov),
    idxLoop s t e items acc p = (.ok cc, p') → e = false ∧ ∃ l : List IdxRow, items = l.map some := by
  intro items
  induction items with
  | nil =>
    intro acc p cc p' h
    cases e
    · exact ⟨rfl, [], rfl⟩
    · simp [idxLoop] at h
  | cons x xs ih =>
    intro acc p cc p' h
    cases x with
    | none => simp [idxLoop] at h
    | some r =>
      obtain ⟨h1, l, h2⟩ := ih _ _ _ _ h
      exact ⟨h1, r :: l, by rw [h2]; rfl⟩

theorem readIndexes_fine {cat : Catalogue} {s t : Bytes} {p : Prov} {cc : List Index} {p' : Prov}
    (h : readIndexes cat s t p = (.ok cc, p')) : Spec.fine (cat.indexes s t) := by
  unfold readIndexes at h
  cases hq : cat.indexes s t with
  | none => rw [hq] at h; cases h
  | some rows =>
    rw [hq] at h
    obtain ⟨h1, l, h2⟩ := idxLoop_fine s t _ _ _ _ _ _ h
    obtain ⟨items, e⟩ := rows
    simp only at h1 h2
    exact ⟨l, by rw [h1, h2]⟩

theorem addTable_fine {eqFold : Bytes → Bytes → Bool} {cat : Catalogue} {r : TableRow} {p : Prov} {t : Table} {p' : Prov}
    (h : addTable eqFold cat r p = (.ok t, p')) : Spec.fine (cat.columns r.schema r.name) ∧ Spec.fine (cat.indexes r.schema r.name) := by
  unfold addTable at h
  cases h1 : readColumns eqFold cat r.schema r.name p with
  | mk o p1 =>
    rw [h1] at h
    cases o with
    | ok cc =>
      simp only at h
      cases h2 : readIndexes cat r.schema r.name p1 with
      | mk o2 p2 =>
        rw [h2] at h
        cases o2 with
        | ok ii => exact ⟨readColumns_fine h1, readIndexes_fine h2⟩
        | err => cases h
        | panic => cases h
        | diverge => cases h
    | err => cases h
    | panic => cases h
    | diverge => cases h

theorem tableLoop_fine (eqFold : Bytes → Bytes → Bool) (cat : Catalogue) (schemas tables : List Bytes) (e : Bool) :
    ∀ (items : List (Option TableRow)) (acc : List Table) (p : Prov) (ts : List Table) (p' : Prov),
    tableLoop eqFold cat schemas tables e items acc p = (.ok ts, p') →
    e = false ∧ (∃ l : List TableRow, items = l.map some) ∧
      ∀ r, some r ∈ items → (passes eqFold schemas r.schema && passes eqFold tables r.name) = true →
        Spec.fine (cat.columns r.schema r.name) ∧ Spec.fine (cat.indexes r.schema r.name) := by
  intro items
  induction items with
  | nil =>
    intro acc p ts p' h
    cases e
    · exact ⟨rfl, ⟨[], rfl⟩, by intro r hr; cases hr⟩
    · simp [tableLoop] at h
  | cons x xs ih =>
    intro acc p ts p' h
    cases x with
    | none => simp [tableLoop] at h
    | some r =>
      simp only [tableLoop] at h
      by_cases hp : (passes eqFold schemas r.schema && passes eqFold tables r.name) = true
      · rw [if_pos hp] at h
        cases ha : addTable eqFold cat r p with
        | mk o q =>
          rw [ha] at h
          cases o with
          | ok t =>
            obtain ⟨h1, ⟨l, h2⟩, h3⟩ := ih _ _ _ _ h
            refine ⟨h1, ⟨r :: l, by rw [h2]; rfl⟩, ?_⟩
            intro x hx hpx
            rcases List.mem_cons.1 hx with hx | hx
            · cases hx; exact addTable_fine ha
            · exact h3 x hx hpx
          | err => cases h
          | panic => cases h
          | diverge => cases h
      · rw [if_neg hp] at h
        obtain ⟨h1, ⟨l, h2⟩, h3⟩ := ih _ _ _ _ h
        refine ⟨h1, ⟨r :: l, by rw [h2]; rfl⟩, ?_⟩
        intro x hx hpx
        rcases List.mem_cons.1 hx with hx | hx
        · cases hx; exact absurd hpx hp
        · exact h3 x hx hpx

/-- **C52**: a listing is never partial: whenever `ListTables` reports success, every query it needed has succeeded and been read to its end. -/
theorem C52_never_a_partial_result (eqFold : Bytes → Bytes → Bool) (cat : Catalogue) (schemas tables : List Bytes) (deps : Bool) (fuel : Nat) (ks : List Bytes)
    (p p' : Prov) (ts : List Table) (h : listTables eqFold cat schemas tables deps fuel ks p = (.ok ts, p')) :
    Spec.fine cat.tables ∧ ∀ r ∈ Spec.selected eqFold cat schemas tables,
      Spec.fine (cat.columns r.schema r.name) ∧ Spec.fine (cat.indexes r.schema r.name) := by
  unfold listTables at h
  cases hq : cat.tables with
  | none => rw [hq] at h; cases h
  | some rows =>
    rw [hq] at h
    simp only at h
    cases hl : tableLoop eqFold cat schemas tables rows.endErr rows.items [] p with
    | mk o q =>
      rw [hl] at h
      cases o with
      | ok a =>
        obtain ⟨h1, ⟨l, h2⟩, h3⟩ := tableLoop_fine eqFold cat schemas tables _ _ _ _ _ _ hl
        obtain ⟨items, e⟩ := rows
        simp only at h1 h2 h3
        refine ⟨⟨l, by rw [h1, h2]⟩, ?_⟩
        intro r hr
        obtain ⟨hm, hp⟩ := mem_selected.1 hr
        refine h3 r ?_ hp
        rw [hq] at hm
        simp only [Spec.rows, List.mem_filterMap, id] at hm
        obtain ⟨a, ha, rfl⟩ := hm
        exact ha
      | err => cases h
      | panic => cases h
      | diverge => cases h

end Schema
