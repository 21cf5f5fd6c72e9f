import Verif.Xsql.Props3
set_option linter.unusedVariables false
set_option linter.unusedSimpArgs false
/-! `Set` with plain values: bulk inserts, single inserts and updates. -/
namespace Xsql
variable {α : Type}

/-- `row := q.NewRow(); row = row.Set(name, value); ...` (xsql/stmt.go:1174-1230), the handle threaded through. -/
def Stmt.insertValues (q : Stmt α) (row : List (Bytes × α)) : Stmt α := (row.foldl (fun (p : Stmt α × RowH) c => p.1.rowSet p.2 c.1 c.2) q.newRow).1

/-- `q := InsertInto(t); for each row { q.NewRow().Set(...).Set(...) }` (xsql/stmt.go:134-150, the documented loop). -/
def bulkValues (d : Dia) (nl : Bool) (st : Nat) (t : Bytes) (rows : List (List (Bytes × α))) : Stmt α := rows.foldl Stmt.insertValues ((newStmt d nl st).insertInto t)

/-- `InsertInto(t).Set(...).Set(...)` (xsql/stmt.go:619-688). -/
def insertValues (d : Dia) (nl : Bool) (st : Nat) (t : Bytes) (row : List (Bytes × α)) : Stmt α := row.foldl (fun q c => q.set c.1 c.2) ((newStmt d nl st).insertInto t)

/-- `Update(t).Set(...).Set(...)` (xsql/stmt.go:605-608,661-688). -/
def updateValues (d : Dia) (nl : Bool) (st : Nat) (t : Bytes) (row : List (Bytes × α)) : Stmt α := row.foldl (fun q c => q.set c.1 c.2) ((newStmt d nl st).update t)

theorem bulkValues_eq (d : Dia) (nl : Bool) (st : Nat) (t : Bytes) (rows : List (List (Bytes × α))) :
    bulkValues d nl st t rows = bulkInsert d nl st t (rows.map fun r => r.map fun c => Col.val c.1 c.2) := by
  have h1 : ∀ (row : List (Bytes × α)) (p : Stmt α × RowH), row.foldl (fun (p : Stmt α × RowH) c => p.1.rowSet p.2 c.1 c.2) p
      = (row.map fun c => Col.val c.1 c.2).foldl (fun (p : Stmt α × RowH) c => p.1.rowSetExpr p.2 c.field c.expr c.args) p := by
    intro row
    induction row with
    | nil => intro p; rfl
    | cons c row ih => intro p; simp only [List.foldl_cons, List.map_cons, ih]; rfl
  have h2 : ∀ (rows : List (List (Bytes × α))) (q : Stmt α), rows.foldl Stmt.insertValues q = (rows.map fun r => r.map fun c => Col.val c.1 c.2).foldl Stmt.insertRow q := by
    intro rows
    induction rows with
    | nil => intro q; rfl
    | cons r rows ih => intro q; simp only [List.foldl_cons, List.map_cons, ih, Stmt.insertValues, Stmt.insertRow, h1]
  exact h2 rows _

theorem setFold (row : List (Bytes × α)) (q : Stmt α) :
    row.foldl (fun q c => q.set c.1 c.2) q = ((row.map fun c => Col.val c.1 c.2).map fun c => Call.setExpr c.field c.expr c.args).foldl Stmt.call q := by
  induction row generalizing q with
  | nil => rfl
  | cons c row ih => simp only [List.foldl_cons, List.map_cons, ih]; rfl

theorem insertValues_eq (d : Dia) (nl : Bool) (st : Nat) (t : Bytes) (row : List (Bytes × α)) :
    insertValues d nl st t row = build d nl st (insertSetCalls t (row.map fun c => Col.val c.1 c.2)) := by
  rw [insertValues, setFold]; rfl

theorem updateValues_eq (d : Dia) (nl : Bool) (st : Nat) (t : Bytes) (row : List (Bytes × α)) :
    updateValues d nl st t row = build d nl st (updateSetCalls t (row.map fun c => Col.val c.1 c.2)) := by
  rw [updateValues, setFold]; rfl

theorem val_ok {f : Bytes} (h : FragOK (α := α) f []) (h0 : f ≠ []) (v : α) : ColOK (Col.val f v) := by
  refine ⟨h, h0, ⟨by simp [Col.val]; rfl, (show List.getLast? b!"?" ≠ some 92 by decide), by simp [Col.val]⟩, (show b!"?" ≠ [] by decide)⟩

/-- **C30 (plain values).** `NewRow().Set(name, value)` for any rows of any values, `InsertInto(t).Set(...)` and `Update(t).Set(...)`: one placeholder per value, `Args()` are the values in call order. -/
theorem C30_set_values (d : Dia) (hd : d ≠ .postgres) (nl : Bool) (st : Nat) {t : Bytes} (ht : FragOK (α := α) t []) (ht0 : t ≠ [])
    {r1 : List (Bytes × α)} {rows : List (List (Bytes × α))} (h1 : r1 ≠ []) (hok : ∀ r ∈ r1 :: rows, ∀ c ∈ r, FragOK (α := α) c.1 [] ∧ c.1 ≠ []) :
    ((bulkValues d nl st t (r1 :: rows)).render =
        insertSQL nl t (joinBytes b!", " (r1.map (·.1))) (joinBytes b!" ), ( " ((r1 :: rows).map fun r => joinBytes b!", " (r.map fun _ => b!"?")))
      ∧ (bulkValues d nl st t (r1 :: rows)).args = ((r1 :: rows).flatMap fun r => r.map (·.2)))
    ∧ ((insertValues d nl st t r1).render = insertSQL nl t (joinBytes b!", " (r1.map (·.1))) (joinBytes b!", " (r1.map fun _ => b!"?"))
      ∧ (insertValues d nl st t r1).args = r1.map (·.2))
    ∧ ((updateValues d nl st t r1).render =
        trim (b!"UPDATE " ++ t ++ b!" " ++ (if nl then b!"\n" else []) ++ b!"SET " ++ joinBytes b!", " (r1.map fun c => c.1 ++ b!"=?"))
      ∧ (updateValues d nl st t r1).args = r1.map (·.2)) := by
  have hcol : ∀ r ∈ r1 :: rows, ∀ c ∈ r.map (fun c => Col.val c.1 c.2), ColOK c := by
    intro r hr c hc
    obtain ⟨x, hx, rfl⟩ := List.mem_map.1 hc
    have := hok r hr x hx
    exact val_ok this.1 this.2 x.2
  have hne : (r1.map fun c => Col.val c.1 c.2) ≠ [] := by simpa using h1
  have hargs : ∀ r : List (Bytes × α), (r.map fun c => Col.val c.1 c.2).flatMap Col.args = r.map (·.2) := by
    intro r; induction r with
    | nil => rfl
    | cons c r ih => simp only [List.map_cons, List.flatMap_cons, ih]; rfl
  refine ⟨?_, ?_, ?_⟩
  · have := C30_bulk_insert d hd nl st ht ht0 (r1 := r1.map fun c => Col.val c.1 c.2) (rows := rows.map fun r => r.map fun c => Col.val c.1 c.2) hne (by
      intro r hr c hc
      rw [← List.map_cons (f := fun r : List (Bytes × α) => r.map fun c => Col.val c.1 c.2)] at hr
      obtain ⟨r', hr', rfl⟩ := List.mem_map.1 hr
      exact hcol r' hr' c hc)
    rw [bulkValues_eq, List.map_cons]
    refine ⟨this.1.trans ?_, this.2.trans ?_⟩
    · simp only [List.map_cons, List.map_map, Function.comp_def, Col.val]
    · simp only [List.flatMap_cons, hargs, List.flatMap_map]
  · have := C30_insert_set d hd nl st ht ht0 hne (hcol r1 (by simp))
    rw [insertValues_eq]
    refine ⟨this.1.trans ?_, this.2.trans (hargs r1)⟩
    simp only [List.map_map, Function.comp_def, Col.val]
  · have := C30_update_set d hd nl st ht ht0 hne (hcol r1 (by simp))
    rw [updateValues_eq]
    refine ⟨this.1.trans ?_, this.2.trans (hargs r1)⟩
    simp only [List.map_map, Function.comp_def, Col.val, List.append_assoc]
    rfl

/-- The hypotheses can be met. -/
example : ∀ r ∈ ([[(b!"id", 1), (b!"name", 2)], [(b!"id", 3), (b!"name", 4)]] : List (List (Bytes × Nat))), ∀ c ∈ r, FragOK (α := Nat) c.1 [] ∧ c.1 ≠ [] := by
  intro r hr c hc
  simp only [List.mem_cons, List.not_mem_nil, or_false] at hr
  rcases hr with rfl | rfl <;> (simp only [List.mem_cons, List.not_mem_nil, or_false] at hc; rcases hc with rfl | rfl) <;> (simp only [FragOK]; decide +kernel)

end Xsql
