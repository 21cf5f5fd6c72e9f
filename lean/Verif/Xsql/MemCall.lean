import Verif.Xsql.MemBuf
import Verif.Xsql.MemSpec
set_option linter.unusedSimpArgs false
set_option linter.unusedVariables false
set_option linter.unusedSectionVars false
/- Every builder method does to a statement in memory what it does to the value. -/
namespace Xsql
open Heap
variable {α : Type} [Inhabited α]
namespace Mem

theorem src_nil (h : Heap α) (d s : Slice) (hs : s.len = 0) : h.Src d s [] := ⟨hs, fun h => absurd rfl h⟩

theorem add_ok {m : Mem α} {o b : Nat} {q : Stmt α} (h : Rep m o b q) (pos : Nat) (clause e : Bytes) {s : Slice} {xs : List α} (hs : m.args.Src (m.obj o).args s xs) (sep : Bytes) :
    Rep (m.add o pos clause e s sep) o b (q.add pos clause e xs sep) ∧ Frame m (m.add o pos clause e s sep) o b (xs ≠ []) := by
  obtain ⟨a, f, _⟩ := addChunk_ok h pos clause (e := .lit e) trivial hs sep
  exact ⟨a, f⟩

theorem add_none {m : Mem α} {o b : Nat} {q : Stmt α} (h : Rep m o b q) (pos : Nat) (clause e sep : Bytes) :
    Rep (m.add o pos clause e noArgs sep) o b (q.add pos clause e [] sep) ∧ Frame m (m.add o pos clause e noArgs sep) o b False := by
  obtain ⟨a, f⟩ := add_ok h pos clause e (src_nil m.args (m.obj o).args noArgs rfl) sep
  exact ⟨a, f.weaken fun h => h rfl⟩

theorem to_ok {m : Mem α} {o b : Nat} {q : Stmt α} (h : Rep m o b q) (ds : List Nat) : Rep (m.to o ds) o b (q.to ds) ∧ Frame m (m.to o ds) o b False := by
  simp only [Mem.to, Stmt.to]
  by_cases hd : ds.length > 0
  · rw [if_pos hd, if_pos hd]
    have st := alloc_step m.dest ds (m.obj o).dest.arr
    have hne : (m.obj o).dest.arr < m.dest.next := h.dest.2.2.1
    have h1 : (m.dest.alloc ds).Shows (m.obj o).dest q.dest := by
      have st' := alloc_step m.dest ds m.dest.next
      exact st'.shows h.dest (by omega)
    have hsrc : (m.dest.alloc ds).Src (m.obj o).dest { arr := (m.dest.alloc ds).next - 1, len := ds.length } ds :=
      ⟨rfl, fun _ => ⟨by simp [alloc], ⟨[], [], by simp [alloc], rfl⟩, fun e => by simp [alloc] at e; omega⟩⟩
    obtain ⟨a1, a2, _⟩ := insertAt_spec (m.dest.alloc ds) (m.obj o).dest _ q.dest ds (m.obj o).dest.len h1 hsrc
    have hl : (m.obj o).dest.len = q.dest.length := h.dest.2.1
    simp only [hl] at a1 a2 ⊢
    have a2 := st.trans a2
    generalize (m.dest.alloc ds).insertAt (m.obj o).dest { arr := (m.dest.alloc ds).next - 1, len := ds.length } q.dest.length = r at *
    constructor
    · constructor
      all_goals (try rw [setObj_self])
      all_goals first | exact a1 | exact h.name | exact h.dialect | exact h.pos | exact h.sql | exact h.nl | exact h.args | exact h.chunks | exact h.buf | exact h.bytes
    · constructor
      · rw [setObj_self]; exact Step.refl ..
      · intro _; rw [setObj_self]; exact ⟨rfl, fun _ _ => rfl⟩
      · rw [setObj_self]; exact a2
      · rw [setObj_self]; exact Step.refl ..
      · exact Step.refl ..
      · intro i hi; rw [setObj_other _ _ _ _ hi]
      · intro _ _; rfl
      · rfl
  · rw [if_neg hd, if_neg hd]; exact ⟨h, Frame.refl ..⟩

theorem insertInto_ok {m : Mem α} {o b : Nat} {q : Stmt α} (h : Rep m o b q) (t : Bytes) : Rep (m.insertInto o t) o b (q.insertInto t) ∧ Frame m (m.insertInto o t) o b False := by
  simp only [insertInto, Stmt.insertInto]
  obtain ⟨a1, f1⟩ := add_none h posInsert b!"INSERT INTO" t b!", "
  obtain ⟨a2, f2⟩ := add_none a1 (posInsertFields - 1) b!"(" [] []
  obtain ⟨a3, f3⟩ := add_none a2 (posValues - 1) b!") VALUES (" [] []
  obtain ⟨a4, f4⟩ := add_none a3 (posValues + 1) b!")" [] []
  obtain ⟨a5, f5⟩ := setPos_ok a4 posInsertFields False
  exact ⟨a5, f1.trans (f2.trans (f3.trans (f4.trans f5)))⟩

theorem two_ok {m : Mem α} {o b : Nat} {q : Stmt α} (h : Rep m o b q) (field expr : Bytes) {s : Slice} {xs : List α} (hs : m.args.Src (m.obj o).args s xs) :
    Rep ((m.add o posInsertFields [] field noArgs b!", ").add o posValues [] expr s b!", ") o b ((q.add posInsertFields [] field [] b!", ").add posValues [] expr xs b!", ") ∧
      Frame m ((m.add o posInsertFields [] field noArgs b!", ").add o posValues [] expr s b!", ") o b (xs ≠ []) := by
  obtain ⟨a1, f1⟩ := add_none h posInsertFields [] field b!", "
  obtain ⟨a2, f2⟩ := add_ok a1 posValues [] expr (f1.src hs) b!", "
  exact ⟨a2, (f1.weaken False.elim).trans f2⟩

theorem setExpr_ok {m : Mem α} {o b : Nat} {q : Stmt α} (h : Rep m o b q) (field expr : Bytes) {s : Slice} {xs : List α} (hs : m.args.Src (m.obj o).args s xs) :
    Rep (m.setExpr o field expr s) o b (q.setExpr field expr xs) ∧ Frame m (m.setExpr o field expr s) o b (xs ≠ []) := by
  simp only [setExpr, Stmt.setExpr, chunkList_eq h]
  by_cases h1 : setMode q.chunks = posInsert
  · rw [if_pos h1, if_pos h1]; exact two_ok h field expr hs
  · rw [if_neg h1, if_neg h1]
    by_cases h2 : setMode q.chunks = posUpdate
    · rw [if_pos h2, if_pos h2]; exact add_ok h _ _ _ hs _
    · rw [if_neg h2, if_neg h2]; exact ⟨h, Frame.refl ..⟩

theorem newRow_ok {m : Mem α} {o b : Nat} {q : Stmt α} (h : Rep m o b q) : Rep (m.newRow o) o b q.newRow.1 ∧ Frame m (m.newRow o) o b False := by
  simp only [newRow, Stmt.newRow, chunkList_eq h]
  by_cases h1 : rowFirst q.chunks = true
  · simp only [h1, if_true]; exact ⟨h, Frame.refl ..⟩
  · simp only [h1, if_false]; exact add_none h _ _ _ _

theorem rowSetExpr_ok {m : Mem α} {o b : Nat} {q : Stmt α} (h : Rep m o b q) (r : RowH) (field expr : Bytes) {s : Slice} {xs : List α} (hs : m.args.Src (m.obj o).args s xs) :
    Rep (m.rowSetExpr o r field expr s) o b (q.rowSetExpr r field expr xs).1 ∧ Frame m (m.rowSetExpr o r field expr s) o b (xs ≠ []) := by
  simp only [rowSetExpr, Stmt.rowSetExpr]
  by_cases h1 : r.first = true
  · simp only [h1, if_true]; exact two_ok h field expr hs
  · simp only [h1, if_false]; exact add_ok h _ _ _ hs _

/-- The memory after the compiler made an array for listed values. -/
theorem listed_ok {m : Mem α} {o b : Nat} {q : Stmt α} (h : Rep m o b q) (xs : List α) :
    Rep (m.listed xs).1 o b q ∧ (m.listed xs).1.args.Src ((m.listed xs).1.obj o).args (m.listed xs).2 xs := by
  have hlt : (m.obj o).args.arr < m.args.next := h.args.2.2.1
  constructor
  · have st := alloc_step m.args xs m.args.next
    exact { h with args := st.shows h.args (ne_of_lt hlt) }
  · exact ⟨rfl, fun _ => ⟨by simp [listed, alloc], ⟨[], [], by simp [listed, alloc], rfl⟩, fun e => by have e' : m.args.next = (m.obj o).args.arr := e; omega⟩⟩

/-- A call after that. -/
theorem CallFrame.listed {m m' : Mem α} {o b : Nat} {ch : Prop} {xs : List α} (h : CallFrame (m.listed xs).1 m' o b ch) : CallFrame m m' o b ch := by
  have st := alloc_step m.args xs (m.obj o).args.arr
  refine ⟨st.trans h.args, ?_, h.dest, h.chunks, h.obj, ⟨h.bufs.nextBuf, h.bufs.next, h.bufs.same, h.bufs.used⟩, h.ok, h.own, h.nextObj, h.pool, h.cache, h.newLines, h.vars, h.slices⟩
  intro hc
  obtain ⟨a1, a2⟩ := h.keep hc
  refine ⟨a1, fun a ha => ?_⟩
  rw [a2 a (by simp [Mem.listed, alloc]; omega)]
  simp only [Mem.listed, alloc_cell]; rw [if_neg (by omega)]

/-- A builder method with its arguments in a slice. -/
theorem callWith_ok {m : Mem α} {o b : Nat} {q : Stmt α} (h : Rep m o b q) (hm : Bufs m) (hb : b < m.nextBuf) (hp : b ∉ m.bufPool) (c : Call α) (hc : c.isMethod = true)
    {s : Slice} {xs : List α} (hs : m.args.Src (m.obj o).args s xs) :
    Rep (m.callWith o s c) o b (q.call (c.withArgs xs)) ∧ CallFrame m (m.callWith o s c) o b ((c.withArgs xs).brings = true) := by
  have fin : ∀ {m' : Mem α} {q' : Stmt α} {ch ch' : Prop}, Rep m' o b q' ∧ Frame m m' o b ch → (ch → ch') → Rep m' o b q' ∧ CallFrame m m' o b ch' := by
    intro m' q' ch ch' k hcc
    exact ⟨k.1, (k.2.weaken hcc).call hm hb hp k.1⟩
  have bri : xs ≠ [] → (!xs.isEmpty) = true := by cases xs <;> simp
  cases c with
  | verb v as => exact fin (add_ok h _ _ _ hs _) bri
  | select e as => exact fin (add_ok h _ _ _ hs _) bri
  | returning e => exact fin (add_none h _ _ _ _) False.elim
  | toDest ds => exact fin (to_ok h ds) False.elim
  | update t => exact fin (add_none h _ _ _ _) False.elim
  | insertInto t => exact fin (insertInto_ok h t) False.elim
  | deleteFrom t => exact fin (add_none h _ _ _ _) False.elim
  | setExpr f e as => exact fin (setExpr_ok h f e hs) bri
  | from_ e as => exact fin (add_ok h _ _ _ hs _) bri
  | where_ e as => exact fin (add_ok h _ _ _ hs _) bri
  | in_ as =>
    have := addBuffered_ok h hm hb hp posWhere (inPieces s.len) hs b!" "
    rw [inPieces_eq, hs.1] at this
    simp only [callWith, in_, hs.1]
    exact ⟨this.1, { this.2 with keep := fun k => this.2.keep fun hx => k (bri hx) }⟩
  | join k t on =>
    have := addBuffered_ok h hm hb hp posFrom [k.text, t, b!" ON (", on, b!")"] (src_nil m.args (m.obj o).args noArgs rfl) b!" "
    have e : [k.text, t, b!" ON (", on, b!")"].flatten = joinText k t on := by simp [joinText]
    rw [e] at this
    exact ⟨this.1, { this.2 with keep := fun _ => this.2.keep fun hx => hx rfl }⟩
  | orderBy es => exact fin (add_none h _ _ _ _) False.elim
  | groupBy e => exact fin (add_none h _ _ _ _) False.elim
  | having e as => exact fin (add_ok h _ _ _ hs _) bri
  | limit x =>
    obtain ⟨h1, s1⟩ := listed_ok h [x]
    have k := add_ok h1 posLimit b!"LIMIT ?" [] s1 []
    exact ⟨k.1, ((k.2.weaken (ch' := (Call.brings (.limit x : Call α)) = true) (fun _ => rfl)).call ⟨hm.wf, hm.sep, hm.nodup, hm.pool⟩ hb hp k.1).listed⟩
  | offset x =>
    obtain ⟨h1, s1⟩ := listed_ok h [x]
    have k := add_ok h1 posOffset b!"OFFSET ?" [] s1 []
    exact ⟨k.1, ((k.2.weaken (ch' := (Call.brings (.offset x : Call α)) = true) (fun _ => rfl)).call ⟨hm.wf, hm.sep, hm.nodup, hm.pool⟩ hb hp k.1).listed⟩
  | expr e as =>
    have k := add_ok h (m.obj o).pos [] e hs b!", "
    simp only [callWith, Call.withArgs, Stmt.call, Stmt.expr]
    rw [← h.pos]; exact fin k bri
  | clause e as =>
    have k := add_ok h (clausePos (m.chunkList o)) e [] hs b!", "
    simp only [callWith, Call.withArgs, Stmt.call, Stmt.clause]
    rw [← chunkList_eq h]; exact fin k bri
  | newRow => exact fin (newRow_ok h) False.elim
  | rowSetExpr r f e as => exact fin (rowSetExpr_ok h r f e hs) bri
  | subQuery _ _ _ _ => simp [Call.isMethod] at hc
  | with_ _ _ _ => simp [Call.isMethod] at hc
  | union _ _ _ => simp [Call.isMethod] at hc

theorem withArgs_listed (c : Call α) : c.withArgs c.listed = c := by cases c <;> rfl

/-- A builder method with its arguments listed. -/
theorem call_ok {m : Mem α} {o b : Nat} {q : Stmt α} (h : Rep m o b q) (hm : Bufs m) (hb : b < m.nextBuf) (hp : b ∉ m.bufPool) (c : Call α) (hc : c.isMethod = true) :
    Rep (m.call o c) o b (q.call c) ∧ CallFrame m (m.call o c) o b (c.brings = true) := by
  obtain ⟨h1, s1⟩ := listed_ok h c.listed
  obtain ⟨a, f⟩ := callWith_ok h1 ⟨hm.wf, hm.sep, hm.nodup, hm.pool⟩ hb hp c hc s1
  rw [withArgs_listed] at a f
  exact ⟨a, f.listed⟩

end Mem
end Xsql
