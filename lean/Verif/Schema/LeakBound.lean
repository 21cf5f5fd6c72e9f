import Verif.Schema.ViewProps

/-!
# How many result sets a failing listing leaves open (C71)
-/
set_option linter.unusedSimpArgs false
set_option linter.unusedVariables false

namespace Schema
open Util

/-- A result set with a row that cannot be read. -/
def Spec.unreadable {α : Type} (r : Option (Rows α)) : Bool := match r with | none => false | some rows => rows.items.any (·.isNone)

theorem fkLoop_leaks (eqFold : Bytes → Bytes → Bool) (schemas tables : List Bytes) (e : Bool) :
    ∀ (items : List (Option FkRow)) (acc : List ForeignKey) (p : Prov),
      (fkLoop eqFold schemas tables e items acc p).2.leaked = p.leaked + (if items.any (·.isNone) then 1 else 0) := by
  intro items
  induction items with
  | nil => intro acc p; cases e <;> simp [fkLoop]
  | cons x xs ih =>
    intro acc p
    cases x with
    | none => simp [fkLoop, leak]
    | some r =>
      simp only [fkLoop, List.any_cons, Option.isNone_some, Bool.false_or]
      split
      · rw [ih]
      · rw [ih]

theorem viewLoop_leaks (eqFold : Bytes → Bytes → Bool) (schemas tables : List Bytes) (e : Bool) :
    ∀ (items : List (Option (Bytes × Bytes × ColRow))) (m : List (Bytes × Table)) (p : Prov),
      (viewLoop eqFold schemas tables e items m p).2.leaked = p.leaked + (if items.any (·.isNone) then 1 else 0) := by
  intro items
  induction items with
  | nil => intro m p; cases e <;> simp [viewLoop]
  | cons x xs ih =>
    intro m p
    cases x with
    | none => simp [viewLoop, leak]
    | some r =>
      obtain ⟨s, n, r⟩ := r
      simp only [viewLoop, List.any_cons, Option.isNone_some, Bool.false_or]
      split
      · rw [ih]; rfl
      · rw [ih]

theorem colLoop_leaks (eqFold : Bytes → Bytes → Bool) (s n : Bytes) (e : Bool) :
    ∀ (items : List (Option ColRow)) (acc : List Nat) (p : Prov),
      (colLoop eqFold s n e items acc p).2.leaked = p.leaked + (if items.any (·.isNone) then 1 else 0) := by
  intro items
  induction items with
  | nil => intro m p; cases e <;> simp [colLoop]
  | cons x xs ih =>
    intro m p
    cases x with
    | none => simp [colLoop, leak]
    | some r => simp only [colLoop, List.any_cons, Option.isNone_some, Bool.false_or]; rw [ih]; rfl

theorem idxLoop_leaks (s n : Bytes) (e : Bool) :
    ∀ (items : List (Option IdxRow)) (acc : List Index) (p : Prov),
      (idxLoop s n e items acc p).2.leaked = p.leaked + (if items.any (·.isNone) then 1 else 0) := by
  intro items
  induction items with
  | nil => intro m p; cases e <;> simp [idxLoop]
  | cons x xs ih =>
    intro m p
    cases x with
    | none => simp [idxLoop, leak]
    | some r => simp only [idxLoop, List.any_cons, Option.isNone_some, Bool.false_or]; rw [ih]

theorem readColumns_leaks (eqFold : Bytes → Bytes → Bool) (cat : Catalogue) (s n : Bytes) (p : Prov) :
    (readColumns eqFold cat s n p).2.leaked = p.leaked + (if Spec.unreadable (cat.columns s n) then 1 else 0) := by
  unfold readColumns Spec.unreadable
  cases cat.columns s n with
  | none => simp
  | some rows =>
    simp only
    have := colLoop_leaks eqFold s n rows.endErr rows.items [] p
    cases h : colLoop eqFold s n rows.endErr rows.items [] p with
    | mk o q => rw [h] at this; cases o <;> exact this

theorem readIndexes_leaks (cat : Catalogue) (s n : Bytes) (p : Prov) :
    (readIndexes cat s n p).2.leaked = p.leaked + (if Spec.unreadable (cat.indexes s n) then 1 else 0) := by
  unfold readIndexes Spec.unreadable
  cases cat.indexes s n with
  | none => simp
  | some rows => exact idxLoop_leaks s n rows.endErr rows.items [] p

theorem listForeignKeys_leaks (eqFold : Bytes → Bytes → Bool) (cat : Catalogue) (schemas tables : List Bytes) (p : Prov) :
    (listForeignKeys eqFold cat schemas tables p).2.leaked = p.leaked + (if Spec.unreadable cat.fkeys then 1 else 0) := by
  unfold listForeignKeys Spec.unreadable
  cases cat.fkeys with
  | none => simp
  | some rows => exact fkLoop_leaks eqFold schemas tables rows.endErr rows.items [] p

theorem applyIndex_leaks (tn : Bytes) (idx : Index) : ∀ (cns : List Bytes) (pk : Option Nat) (p : Prov) r, applyIndex tn idx cns pk p = some r → r.2.leaked = p.leaked := by
  intro cns
  induction cns with
  | nil => intro pk p r h; simp only [applyIndex, Option.some.injEq] at h; rw [← h]
  | cons cn cns ih =>
    intro pk p r h
    simp only [applyIndex] at h
    cases hl : p.columns.lookup (dot2 tn cn) with
    | none => rw [hl] at h; cases h
    | some i => rw [hl] at h; exact (ih _ _ _ h).trans rfl

theorem applyIndexes_leaks (tn : Bytes) : ∀ (ii : List Index) (pk : Option Nat) (p : Prov) r, applyIndexes tn ii pk p = some r → r.2.leaked = p.leaked := by
  intro ii
  induction ii with
  | nil => intro pk p r h; simp only [applyIndexes, Option.some.injEq] at h; rw [← h]
  | cons i ii ih =>
    intro pk p r h
    simp only [applyIndexes] at h
    cases hl : applyIndex tn i i.columnNames pk p with
    | none => rw [hl] at h; cases h
    | some x => rw [hl] at h; obtain ⟨pk', p'⟩ := x; exact (ih _ _ _ h).trans (applyIndex_leaks _ _ _ _ _ _ hl)

/-- One table: at most one, and none on success. -/
theorem addTable_leaks (eqFold : Bytes → Bytes → Bool) (cat : Catalogue) (r : TableRow) (p : Prov) :
    (addTable eqFold cat r p).2.leaked ≤ p.leaked + 1 ∧ (∀ t, (addTable eqFold cat r p).1 = .ok t → (addTable eqFold cat r p).2.leaked = p.leaked) := by
  unfold addTable
  have h1 := readColumns_leaks eqFold cat r.schema r.name p
  have h1s : ∀ cc q, readColumns eqFold cat r.schema r.name p = (.ok cc, q) → q.leaked = p.leaked := fun cc q h => readColumns_leak h
  cases hc : readColumns eqFold cat r.schema r.name p with
  | mk o q =>
    rw [hc] at h1
    simp only at h1
    have hle : q.leaked ≤ p.leaked + 1 := by rw [h1]; split <;> omega
    cases o with
    | ok cc =>
      have e1 := h1s cc q hc
      simp only
      have h2 := readIndexes_leaks cat r.schema r.name q
      cases hi : readIndexes cat r.schema r.name q with
      | mk o2 q2 =>
        rw [hi] at h2
        simp only at h2
        have hle2 : q2.leaked ≤ p.leaked + 1 := by rw [h2, e1]; split <;> omega
        cases o2 with
        | ok ii =>
          have e2 : q2.leaked = q.leaked := by
            unfold readIndexes at hi
            cases hx : cat.indexes r.schema r.name with
            | none => rw [hx] at hi; cases hi
            | some rows =>
              rw [hx] at hi
              rw [h2]
              have : ∀ (items : List (Option IdxRow)) acc p a, idxLoop r.schema r.name rows.endErr items acc p = (.ok ii, a) → items.any (·.isNone) = false := by
                intro items
                induction items with
                | nil => intro _ _ _ _; rfl
                | cons x xs ih =>
                  intro acc p a h
                  cases x with
                  | none => simp [idxLoop] at h
                  | some y => simp only [idxLoop] at h; simpa using ih _ _ _ h
              simp [Spec.unreadable, hx, this _ _ _ _ hi]
          simp only
          cases ha : applyIndexes (dot2 r.schema r.name) ii none q2 with
          | none => exact ⟨hle2, fun t h => by cases h⟩
          | some x =>
            obtain ⟨pk, q3⟩ := x
            have e3 : q3.leaked = q2.leaked := applyIndexes_leaks _ _ _ _ _ ha
            simp only
            refine ⟨by omega, fun t h => by omega⟩
        | err => exact ⟨hle2, fun t h => by cases h⟩
        | panic => exact ⟨hle2, fun t h => by cases h⟩
        | diverge => exact ⟨hle2, fun t h => by cases h⟩
    | err => exact ⟨hle, fun t h => by cases h⟩
    | panic => exact ⟨hle, fun t h => by cases h⟩
    | diverge => exact ⟨hle, fun t h => by cases h⟩

theorem tableLoop_leaks (eqFold : Bytes → Bytes → Bool) (cat : Catalogue) (schemas tables : List Bytes) (e : Bool) :
    ∀ (items : List (Option TableRow)) (acc : List Table) (p : Prov), (tableLoop eqFold cat schemas tables e items acc p).2.leaked ≤ p.leaked + 2 := by
  intro items
  induction items with
  | nil => intro acc p; cases e <;> simp [tableLoop]
  | cons x xs ih =>
    intro acc p
    cases x with
    | none => simp [tableLoop, leak]
    | some r =>
      simp only [tableLoop]
      split
      · obtain ⟨h1, h2⟩ := addTable_leaks eqFold cat r p
        cases ha : addTable eqFold cat r p with
        | mk o q =>
          rw [ha] at h1 h2
          cases o with
          | ok t => have := ih (acc ++ [t]) q; have := h2 t rfl; simp only at *; omega
          | err => simp only [leak]; simp only at h1; omega
          | panic => simp only [leak]; simp only at h1; omega
          | diverge => simp only [leak]; simp only at h1; omega
      · exact ih acc p

theorem followCols_leaks (go : Bytes → Bytes → Prov → Out Unit × Prov)
    (hgo : ∀ s n p, (go s n p).2.leaked ≤ p.leaked + 1 ∧ ((go s n p).1 = .ok () → (go s n p).2.leaked = p.leaked)) :
    ∀ (ids : List Nat) (p : Prov), (followCols go ids p).2.leaked ≤ p.leaked + 1 := by
  intro ids
  induction ids with
  | nil => intro p; simp [followCols]
  | cons i ids ih =>
    intro p
    simp only [followCols]
    cases hc : p.heap[i]? with
    | none => simp
    | some c =>
      simp only
      cases hf : p.fkeys.lookup c.schemaName with
      | none => exact ih p
      | some fk =>
        simp only
        obtain ⟨h1, h2⟩ := hgo fk.refSchema fk.refTable (modCol p i (fun c => { c with ref := some fk }))
        cases hg : go fk.refSchema fk.refTable (modCol p i (fun c => { c with ref := some fk })) with
        | mk o q =>
          rw [hg] at h1 h2
          have em : (modCol p i (fun c => { c with ref := some fk })).leaked = p.leaked := rfl
          cases o with
          | ok u => have := ih q; have := h2 rfl; simp only at *; omega
          | err => simp only at *; omega
          | panic => simp only at *; omega
          | diverge => simp only at *; omega

theorem discoverTable_leaks (eqFold : Bytes → Bytes → Bool) (cat : Catalogue) : ∀ fuel s n p,
    (discoverTable eqFold cat fuel s n p).2.leaked ≤ p.leaked + 1
      ∧ ((discoverTable eqFold cat fuel s n p).1 = .ok () → (discoverTable eqFold cat fuel s n p).2.leaked = p.leaked) := by
  intro fuel
  induction fuel with
  | zero => intro s n p; simp [discoverTable]
  | succ fuel ih =>
    intro s n p
    refine ⟨?_, fun h => discoverTable_leak eqFold cat (fuel + 1) s n p _ (Prod.ext h rfl)⟩
    simp only [discoverTable]
    cases ht : p.tables.lookup (dot2 s n) with
    | some t => simp
    | none =>
      simp only
      have h1 := readColumns_leaks eqFold cat s n p
      cases hc : readColumns eqFold cat s n p with
      | mk o q =>
        rw [hc] at h1
        simp only at h1
        have hle : q.leaked ≤ p.leaked + 1 := by rw [h1]; split <;> omega
        cases o with
        | ok cc =>
          have e := readColumns_leak hc
          rw [← e]
          exact followCols_leaks _ ih cc _
        | err => exact hle
        | panic => exact hle
        | diverge => exact hle

theorem discoverLoop_leaks (eqFold : Bytes → Bytes → Bool) (cat : Catalogue) (fuel : Nat) : ∀ ks p,
    (discoverLoop eqFold cat fuel ks p).2.leaked ≤ p.leaked + 1 := by
  intro ks
  induction ks with
  | nil => intro p; simp [discoverLoop]
  | cons k ks ih =>
    intro p
    simp only [discoverLoop]
    cases hk : p.columns.lookup k with
    | none => exact ih p
    | some i =>
      simp only
      cases hf : p.fkeys.lookup k with
      | none => exact ih p
      | some fk =>
        simp only
        obtain ⟨h1, h2⟩ := discoverTable_leaks eqFold cat fuel fk.refSchema fk.refTable (modCol p i (fun c => { c with ref := some fk }))
        have em : (modCol p i (fun c => { c with ref := some fk })).leaked = p.leaked := rfl
        cases hg : discoverTable eqFold cat fuel fk.refSchema fk.refTable (modCol p i (fun c => { c with ref := some fk })) with
        | mk o q =>
          rw [hg] at h1 h2
          cases o with
          | ok u => have := ih q; have := h2 rfl; simp only at *; omega
          | err => simp only at *; omega
          | panic => simp only at *; omega
          | diverge => simp only at *; omega

theorem discover_leaks (eqFold : Bytes → Bytes → Bool) (cat : Catalogue) (fuel : Nat) (ks : List Bytes) (p : Prov) :
    (discover eqFold cat fuel ks p).2.leaked ≤ p.leaked + 1 := by
  unfold discover
  have h1 := listForeignKeys_leaks eqFold cat [] [] p
  cases hf : listForeignKeys eqFold cat [] [] p with
  | mk o q =>
    rw [hf] at h1
    simp only at h1
    have hle : q.leaked ≤ p.leaked + 1 := by rw [h1]; split <;> omega
    cases o with
    | ok l =>
      have e := (listForeignKeys_leak hf).1
      have h2 := discoverLoop_leaks eqFold cat fuel ks q
      cases hd : discoverLoop eqFold cat fuel ks q with
      | mk o2 q2 => rw [hd] at h2; simp only [hd] at *; cases o2 <;> (simp only; omega)
    | err => exact hle
    | panic => exact hle
    | diverge => exact hle

/-- **C71**, for every call, failing or not: `ListViews` and `ListForeignKeys` leave a result set open exactly when a row cannot be read, and then one;
`ListTables` leaves at most two open (the list of tables, and the columns or indexes of the table it was at), whatever the state of the provider. -/
theorem C71_how_many_are_left_open (eqFold : Bytes → Bytes → Bool) (cat : Catalogue) (schemas tables : List Bytes) (p : Prov) :
    (∀ ord, (listViews eqFold cat schemas tables ord p).2.leaked = p.leaked + (if Spec.unreadable cat.views then 1 else 0))
      ∧ (listForeignKeys eqFold cat schemas tables p).2.leaked = p.leaked + (if Spec.unreadable cat.fkeys then 1 else 0)
      ∧ ∀ deps fuel ks, (listTables eqFold cat schemas tables deps fuel ks p).2.leaked ≤ p.leaked + 2 := by
  refine ⟨?_, listForeignKeys_leaks eqFold cat schemas tables p, ?_⟩
  · intro ord
    unfold listViews Spec.unreadable
    cases cat.views with
    | none => simp
    | some rows =>
      simp only
      have := viewLoop_leaks eqFold schemas tables rows.endErr rows.items [] p
      cases h : viewLoop eqFold schemas tables rows.endErr rows.items [] p with
      | mk o q => rw [h] at this; cases o <;> exact this
  · intro deps fuel ks
    unfold listTables
    cases cat.tables with
    | none => simp
    | some rows =>
      simp only
      have h1 := tableLoop_leaks eqFold cat schemas tables rows.endErr rows.items [] p
      cases h : tableLoop eqFold cat schemas tables rows.endErr rows.items [] p with
      | mk o q =>
        rw [h] at h1
        simp only at h1
        cases o with
        | ok tt =>
          have e : q.leaked = p.leaked := tableLoop_leak _ _ _ _ _ _ _ _ _ _ h
          cases deps with
          | false => simp only [Bool.false_eq_true, if_false]; omega
          | true =>
            simp only [if_true]
            have h2 := discover_leaks eqFold cat fuel ks q
            cases hd : discover eqFold cat fuel ks q with
            | mk o2 q2 => rw [hd] at h2; simp only at h2; cases o2 <;> (simp only; omega)
        | err => exact h1
        | panic => exact h1
        | diverge => exact h1

/-- Two are left open when the columns of a table cannot be read; so the bound is sharp. -/
example : (listTables eqB { demo with columns := fun _ _ => some ⟨[none], false⟩ } [] [] false 0 [] Prov.new).2.leaked = 2 := rfl

end Schema
