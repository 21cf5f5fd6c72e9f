import Verif.Schema.DiscoverMore
set_option linter.unusedVariables false
set_option linter.unusedSimpArgs false
/-! `ListTables` terminates, whatever the catalogue and the history of the provider: C53. -/
namespace Schema

/-- Foreign keys whose target is not in the cache. -/
def unvF (p : Prov) : Nat := (p.fkeys.filter (fun e => (p.tables.lookup (dot2 e.2.refSchema e.2.refTable)).isNone)).length

/-- Tables stay in the cache, foreign keys do not change. -/
def Mono (p p' : Prov) : Prop := p'.fkeys = p.fkeys ∧ ∀ k, p.tables.lookup k ≠ none → p'.tables.lookup k ≠ none

theorem Mono.refl (p : Prov) : Mono p p := ⟨rfl, fun _ h => h⟩
theorem Mono.trans {p q r : Prov} (h : Mono p q) (g : Mono q r) : Mono p r := ⟨g.1.trans h.1, fun k hk => g.2 k (h.2 k hk)⟩

theorem unvF_mono {p p' : Prov} (h : Mono p p') : unvF p' ≤ unvF p := by
  unfold unvF
  rw [h.1]
  apply filter_len_le
  intro e _ he
  cases hl : p.tables.lookup (dot2 e.2.refSchema e.2.refTable) with
  | none => rfl
  | some t =>
    have := h.2 _ (by rw [hl]; simp : p.tables.lookup (dot2 e.2.refSchema e.2.refTable) ≠ none)
    rw [Option.isNone_iff_eq_none] at he
    exact absurd he this

theorem unvF_lt {p p' : Prov} (h : Mono p p') (k : Bytes) (hk : ∃ e ∈ p.fkeys, dot2 e.2.refSchema e.2.refTable = k) (h1 : p.tables.lookup k = none) (h2 : p'.tables.lookup k ≠ none) :
    unvF p' < unvF p := by
  unfold unvF
  rw [h.1]
  apply filter_len_lt
  · intro e _ he
    cases hl : p.tables.lookup (dot2 e.2.refSchema e.2.refTable) with
    | none => rfl
    | some t =>
      have := h.2 _ (by rw [hl]; simp : p.tables.lookup (dot2 e.2.refSchema e.2.refTable) ≠ none)
      rw [Option.isNone_iff_eq_none] at he
      exact absurd he this
  · obtain ⟨e, he, rfl⟩ := hk
    refine ⟨e, he, by rw [h1]; rfl, ?_⟩
    cases hl : p'.tables.lookup (dot2 e.2.refSchema e.2.refTable) with
    | none => exact absurd hl h2
    | some t => rfl

theorem colLoop_same (eqFold : Bytes → Bytes → Bool) (s t : Bytes) (e : Bool) : ∀ (items : List (Option ColRow)) (acc : List Nat) (p : Prov),
    (colLoop eqFold s t e items acc p).1 ≠ .diverge ∧ (colLoop eqFold s t e items acc p).2.fkeys = p.fkeys ∧ (colLoop eqFold s t e items acc p).2.tables = p.tables := by
  intro items
  induction items with
  | nil => intro acc p; cases e <;> simp [colLoop]
  | cons x xs ih =>
    intro acc p
    cases x with
    | none => simp [colLoop, leak]
    | some r => exact ih _ (newColumn p (mkColumn eqFold s t r))

theorem readColumns_same (eqFold : Bytes → Bytes → Bool) (cat : Catalogue) (s t : Bytes) (p : Prov) :
    (readColumns eqFold cat s t p).1 ≠ .diverge ∧ (readColumns eqFold cat s t p).2.fkeys = p.fkeys ∧ (readColumns eqFold cat s t p).2.tables = p.tables := by
  unfold readColumns
  cases cat.columns s t with
  | none => simp
  | some rows =>
    simp only
    have := colLoop_same eqFold s t rows.endErr rows.items [] p
    cases hl : colLoop eqFold s t rows.endErr rows.items [] p with
    | mk o q =>
      rw [hl] at this
      cases o with
      | ok a => exact ⟨by simp, this.2⟩
      | err => exact ⟨by simp, this.2⟩
      | panic => exact ⟨by simp, this.2⟩
      | diverge => exact absurd rfl this.1

/-- A visit ends. -/
def TermOk (go : Bytes → Bytes → Prov → Out Unit × Prov) (fuel : Nat) : Prop :=
  ∀ s n p, (∃ e ∈ p.fkeys, dot2 e.2.refSchema e.2.refTable = dot2 s n) → unvF p < fuel → (go s n p).1 ≠ .diverge ∧ Mono p (go s n p).2

theorem followCols_term (go : Bytes → Bytes → Prov → Out Unit × Prov) (fuel : Nat) (hgo : TermOk go fuel) : ∀ (ids : List Nat) (p : Prov), unvF p < fuel →
    (followCols go ids p).1 ≠ .diverge ∧ Mono p (followCols go ids p).2 := by
  intro ids
  induction ids with
  | nil => intro p _; exact ⟨by simp [followCols], .refl p⟩
  | cons i ids ih =>
    intro p hu
    unfold followCols
    cases hc : p.heap[i]? with
    | none => exact ⟨by simp, .refl p⟩
    | some c =>
      simp only
      cases hf : p.fkeys.lookup c.schemaName with
      | none => exact ih p hu
      | some fk =>
        simp only
        have hm : Mono p (modCol p i (fun c => { c with ref := some fk })) := ⟨rfl, fun _ h => h⟩
        have hg := hgo fk.refSchema fk.refTable (modCol p i (fun c => { c with ref := some fk })) ⟨(_, fk), lookup_mem _ _ _ hf, rfl⟩ hu
        cases hr : go fk.refSchema fk.refTable (modCol p i (fun c => { c with ref := some fk })) with
        | mk o q =>
          rw [hr] at hg
          have hm2 := hm.trans hg.2
          cases o with
          | ok u =>
            obtain ⟨a, b⟩ := ih q (Nat.lt_of_le_of_lt (unvF_mono hm2) hu)
            exact ⟨a, hm2.trans b⟩
          | err => exact ⟨by simp, hm2⟩
          | panic => exact ⟨by simp, hm2⟩
          | diverge => exact absurd rfl hg.1

theorem discoverTable_term (eqFold : Bytes → Bytes → Bool) (cat : Catalogue) : ∀ fuel, TermOk (discoverTable eqFold cat fuel) fuel := by
  intro fuel
  induction fuel with
  | zero => intro s n p _ hu; omega
  | succ fuel ih =>
    intro s n p he hu
    unfold discoverTable
    cases ht : p.tables.lookup (dot2 s n) with
    | some t => exact ⟨by simp, .refl p⟩
    | none =>
      simp only
      obtain ⟨h1, h2, h3⟩ := readColumns_same eqFold cat s n p
      cases hr : readColumns eqFold cat s n p with
      | mk o q =>
        rw [hr] at h1 h2 h3
        simp only at h1 h2 h3
        have hm : Mono p q := ⟨h2, by rw [h3]; exact fun _ h => h⟩
        cases o with
        | ok cc =>
          simp only
          have hput : ∀ t : Table, Mono p { q with tables := put q.tables (dot2 s n) t } := by
            intro t
            refine ⟨h2, ?_⟩
            intro k hk
            by_cases e : k = dot2 s n
            · rw [e, ht] at hk; exact absurd rfl hk
            · simp only [lookup_put_ne _ _ _ _ e, h3]; exact hk
          have hlt : ∀ t : Table, unvF { q with tables := put q.tables (dot2 s n) t } < fuel := by
            intro t
            have := unvF_lt (hput t) (dot2 s n) he ht (by simp only [lookup_put_self]; simp)
            omega
          obtain ⟨a, b⟩ := followCols_term _ fuel ih cc _ (hlt _)
          exact ⟨a, (hput _).trans b⟩
        | err => exact ⟨by simp, hm⟩
        | panic => exact ⟨by simp, hm⟩
        | diverge => exact absurd rfl h1

theorem discoverLoop_term (eqFold : Bytes → Bytes → Bool) (cat : Catalogue) (fuel : Nat) : ∀ (ks : List Bytes) (p : Prov), unvF p < fuel →
    (discoverLoop eqFold cat fuel ks p).1 ≠ .diverge := by
  intro ks
  induction ks with
  | nil => intro p _; simp [discoverLoop]
  | cons k ks ih =>
    intro p hu
    unfold discoverLoop
    cases hk : p.columns.lookup k with
    | none => exact ih p hu
    | some i =>
      simp only
      cases hf : p.fkeys.lookup k with
      | none => exact ih p hu
      | some fk =>
        simp only
        have hm : Mono p (modCol p i (fun c => { c with ref := some fk })) := ⟨rfl, fun _ h => h⟩
        have hg := discoverTable_term eqFold cat fuel fk.refSchema fk.refTable (modCol p i (fun c => { c with ref := some fk })) ⟨(_, fk), lookup_mem _ _ _ hf, rfl⟩ hu
        cases hr : discoverTable eqFold cat fuel fk.refSchema fk.refTable (modCol p i (fun c => { c with ref := some fk })) with
        | mk o q =>
          rw [hr] at hg
          cases o with
          | ok u => exact ih q (Nat.lt_of_le_of_lt (unvF_mono (hm.trans hg.2)) hu)
          | err => simp
          | panic => simp
          | diverge => exact absurd rfl hg.1

theorem idxLoop_same (s t : Bytes) (e : Bool) : ∀ (items : List (Option IdxRow)) (acc : List Index) (p : Prov),
    (idxLoop s t e items acc p).1 ≠ .diverge ∧ (idxLoop s t e items acc p).2.fkeys = p.fkeys := by
  intro items
  induction items with
  | nil => intro acc p; cases e <;> simp [idxLoop]
  | cons x xs ih =>
    intro acc p
    cases x with
    | none => simp [idxLoop, leak]
    | some r => exact ih _ p

theorem readIndexes_same (cat : Catalogue) (s t : Bytes) (p : Prov) : (readIndexes cat s t p).1 ≠ .diverge ∧ (readIndexes cat s t p).2.fkeys = p.fkeys := by
  unfold readIndexes
  cases cat.indexes s t with
  | none => simp
  | some rows => exact idxLoop_same s t _ _ _ _

theorem applyIndex_fkeys (tn : Bytes) (idx : Index) : ∀ (cns : List Bytes) (pk pk' : Option Nat) (p p' : Prov),
    applyIndex tn idx cns pk p = some (pk', p') → p'.fkeys = p.fkeys := by
  intro cns
  induction cns with
  | nil => intro pk pk' p p' h; simp only [applyIndex, Option.some.injEq, Prod.mk.injEq] at h; rw [h.2]
  | cons c cs ih =>
    intro pk pk' p p' h
    unfold applyIndex at h
    cases hc : p.columns.lookup (dot2 tn c) with
    | none => rw [hc] at h; cases h
    | some i => rw [hc] at h; exact (ih _ _ (modCol p i _) _ h).trans rfl

theorem applyIndexes_fkeys (tn : Bytes) : ∀ (ii : List Index) (pk pk' : Option Nat) (p p' : Prov),
    applyIndexes tn ii pk p = some (pk', p') → p'.fkeys = p.fkeys := by
  intro ii
  induction ii with
  | nil => intro pk pk' p p' h; simp only [applyIndexes, Option.some.injEq, Prod.mk.injEq] at h; rw [h.2]
  | cons x xs ih =>
    intro pk pk' p p' h
    unfold applyIndexes at h
    cases hx : applyIndex tn x x.columnNames pk p with
    | none => rw [hx] at h; cases h
    | some q =>
      obtain ⟨pk1, p1⟩ := q
      rw [hx] at h
      exact (ih _ _ _ _ h).trans (applyIndex_fkeys _ _ _ _ _ _ _ hx)

theorem addTable_same (eqFold : Bytes → Bytes → Bool) (cat : Catalogue) (r : TableRow) (p : Prov) :
    (addTable eqFold cat r p).1 ≠ .diverge ∧ (addTable eqFold cat r p).2.fkeys = p.fkeys := by
  unfold addTable
  obtain ⟨h1, h2, -⟩ := readColumns_same eqFold cat r.schema r.name p
  cases hr : readColumns eqFold cat r.schema r.name p with
  | mk o q =>
    rw [hr] at h1 h2
    simp only at h1 h2
    cases o with
    | ok cc =>
      simp only
      obtain ⟨g1, g2⟩ := readIndexes_same cat r.schema r.name q
      cases hi : readIndexes cat r.schema r.name q with
      | mk o2 q2 =>
        rw [hi] at g1 g2
        simp only at g1 g2
        cases o2 with
        | ok ii =>
          simp only
          cases ha : applyIndexes (dot2 r.schema r.name) ii none q2 with
          | none => exact ⟨by simp, g2.trans h2⟩
          | some x =>
            obtain ⟨pk, q3⟩ := x
            exact ⟨by simp, (applyIndexes_fkeys _ _ _ _ _ _ ha).trans (g2.trans h2)⟩
        | err => exact ⟨by simp, g2.trans h2⟩
        | panic => exact ⟨by simp, g2.trans h2⟩
        | diverge => exact absurd rfl g1
    | err => exact ⟨by simp, h2⟩
    | panic => exact ⟨by simp, h2⟩
    | diverge => exact absurd rfl h1

theorem tableLoop_same (eqFold : Bytes → Bytes → Bool) (cat : Catalogue) (schemas tables : List Bytes) (e : Bool) : ∀ (items : List (Option TableRow)) (acc : List Table) (p : Prov),
    (tableLoop eqFold cat schemas tables e items acc p).1 ≠ .diverge ∧ (tableLoop eqFold cat schemas tables e items acc p).2.fkeys = p.fkeys := by
  intro items
  induction items with
  | nil => intro acc p; cases e <;> simp [tableLoop]
  | cons x xs ih =>
    intro acc p
    cases x with
    | none => simp [tableLoop, leak]
    | some r =>
      unfold tableLoop
      split
      · obtain ⟨h1, h2⟩ := addTable_same eqFold cat r p
        cases ha : addTable eqFold cat r p with
        | mk o q =>
          rw [ha] at h1 h2
          simp only at h1 h2
          cases o with
          | ok t =>
            obtain ⟨a, b⟩ := ih (acc ++ [t]) q
            exact ⟨a, b.trans h2⟩
          | err => exact ⟨by simp, h2⟩
          | panic => exact ⟨by simp, h2⟩
          | diverge => exact absurd rfl h1
      · exact ih acc p

theorem put_length {β : Type} (m : List (Bytes × β)) (k : Bytes) (v : β) : (put m k v).length ≤ m.length + 1 := by
  simp only [put, List.length_cons]
  have := List.length_filter_le (fun e : Bytes × β => e.1 != k) m
  omega

theorem fkLoop_len (eqFold : Bytes → Bytes → Bool) (schemas tables : List Bytes) (e : Bool) : ∀ (items : List (Option FkRow)) (acc : List ForeignKey) (p : Prov),
    (fkLoop eqFold schemas tables e items acc p).1 ≠ .diverge ∧ (fkLoop eqFold schemas tables e items acc p).2.fkeys.length ≤ p.fkeys.length + (items.filterMap id).length := by
  intro items
  induction items with
  | nil => intro acc p; cases e <;> simp [fkLoop]
  | cons x xs ih =>
    intro acc p
    cases x with
    | none => simp [fkLoop, leak]
    | some r =>
      unfold fkLoop
      split
      · obtain ⟨a, b⟩ := ih (acc ++ [mkFk r]) { p with fkeys := put p.fkeys (mkFk r).columnSchemaName (mkFk r) }
        refine ⟨a, Nat.le_trans b ?_⟩
        have := put_length p.fkeys (mkFk r).columnSchemaName (mkFk r)
        simp only [List.filterMap_cons, id, List.length_cons]
        omega
      · obtain ⟨a, b⟩ := ih acc p
        refine ⟨a, Nat.le_trans b ?_⟩
        simp only [List.filterMap_cons, id, List.length_cons]
        omega

/-- **C53**: `ListTables` always terminates, whatever the catalogue (cyclic, self-referencing, inconsistent, failing), the filters, the iteration order and
the history of the provider: the recursion is never deeper than the number of foreign keys known, plus one. -/
theorem C53_always_terminates (eqFold : Bytes → Bytes → Bool) (cat : Catalogue) (schemas tables : List Bytes) (deps : Bool) (fuel : Nat) (ks : List Bytes) (p : Prov)
    (hfuel : p.fkeys.length + (Spec.rows cat.fkeys).length < fuel) : (listTables eqFold cat schemas tables deps fuel ks p).1 ≠ .diverge := by
  unfold listTables
  cases hq : cat.tables with
  | none => simp
  | some rows =>
    simp only
    obtain ⟨h1, h2⟩ := tableLoop_same eqFold cat schemas tables rows.endErr rows.items [] p
    cases hl : tableLoop eqFold cat schemas tables rows.endErr rows.items [] p with
    | mk o q =>
      rw [hl] at h1 h2
      simp only at h1 h2
      cases o with
      | ok a =>
        simp only
        cases deps with
        | false => simp
        | true =>
          simp only [if_true]
          have hdis : (discover eqFold cat fuel ks q).1 ≠ .diverge := by
            unfold discover
            have hfk : (listForeignKeys eqFold cat [] [] q).1 ≠ .diverge
                ∧ (listForeignKeys eqFold cat [] [] q).2.fkeys.length ≤ q.fkeys.length + (Spec.rows cat.fkeys).length := by
              unfold listForeignKeys Spec.rows
              cases cat.fkeys with
              | none => simp
              | some r => exact fkLoop_len eqFold [] [] _ _ _ _
            cases hf : listForeignKeys eqFold cat [] [] q with
            | mk o2 q2 =>
              rw [hf] at hfk
              simp only at hfk
              cases o2 with
              | ok l =>
                simp only
                have hu : unvF q2 < fuel := by
                  have : unvF q2 ≤ q2.fkeys.length := List.length_filter_le _ _
                  rw [h2] at hfk
                  omega
                have := discoverLoop_term eqFold cat fuel ks q2 hu
                cases hd : discoverLoop eqFold cat fuel ks q2 with
                | mk o3 q3 =>
                  rw [hd] at this
                  cases o3 with
                  | ok u => simp
                  | err => simp
                  | panic => simp
                  | diverge => exact absurd rfl this
              | err => simp
              | panic => simp
              | diverge => exact absurd rfl hfk.1
          cases hd : discover eqFold cat fuel ks q with
          | mk o2 q2 =>
            rw [hd] at hdis
            cases o2 with
            | ok b => simp
            | err => simp
            | panic => simp
            | diverge => exact absurd rfl hdis
      | err => simp
      | panic => simp
      | diverge => exact absurd rfl h1

example : Prov.new.fkeys.length + (Spec.rows demo.fkeys).length < 4 := by decide +kernel

end Schema
