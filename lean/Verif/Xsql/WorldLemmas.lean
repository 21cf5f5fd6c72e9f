import Verif.Xsql.WorldSpec
import Verif.Xsql.Props
set_option linter.unusedSimpArgs false
set_option linter.unusedVariables false
namespace Xsql
variable {α : Type}

/-! ### Memoised text -/

/-- The memo of a statement is absent or right. -/
def SqlOK (q : Stmt α) : Prop := q.sql = [] ∨ q.sql = q.render

/-- Either the memo was dropped or neither memo nor text changed. -/
def Keeps (q q' : Stmt α) : Prop := q'.sql = [] ∨ (q'.sql = q.sql ∧ q'.render = q.render)

theorem Keeps.refl (q : Stmt α) : Keeps q q := .inr ⟨rfl, rfl⟩

theorem Keeps.trans {a b c : Stmt α} (h : Keeps a b) (k : Keeps b c) : Keeps a c := by
  rcases k with k | ⟨k1, k2⟩
  · exact .inl k
  · rcases h with h | ⟨h1, h2⟩
    · exact .inl (by rw [k1, h])
    · exact .inr ⟨by rw [k1, h1], by rw [k2, h2]⟩

theorem Keeps.ok {a b : Stmt α} (h : Keeps a b) (k : SqlOK a) : SqlOK b := by
  rcases h with h | ⟨h1, h2⟩
  · exact .inl h
  · rcases k with k | k
    · exact .inl (by rw [h1, k])
    · exact .inr (by rw [h1, h2, k])

theorem addChunk_keeps (q : Stmt α) (p : Nat) (kw e : Bytes) (as : List α) (sep : Bytes) : Keeps q (q.addChunk p kw e as sep).1 := by
  unfold Stmt.addChunk Stmt.invalidate
  cases h : (headUpTo p q.chunks).getLast? with
  | none => simp only [h]; exact .inl rfl
  | some c =>
    simp only [h]
    split
    · split
      · exact .inr ⟨rfl, rfl⟩
      · split <;> exact .inl rfl
    · exact .inl rfl

theorem add_keeps (q : Stmt α) (p : Nat) (kw e : Bytes) (as : List α) (sep : Bytes) : Keeps q (q.add p kw e as sep) := addChunk_keeps q p kw e as sep

theorem addChunk_drops (q : Stmt α) (p : Nat) (kw e : Bytes) (as : List α) (sep : Bytes) (he : e ≠ []) :
    (q.addChunk p kw e as sep).1.sql = [] := by
  unfold Stmt.addChunk Stmt.invalidate
  cases h : (headUpTo p q.chunks).getLast? with
  | none => simp only [h]
  | some c =>
    simp only [h, he, if_false]
    split
    · split <;> rfl
    · rfl

theorem headUpTo_last (cs : List Chunk) (c : Chunk) (p : Nat) (h : c.pos ≤ p) : headUpTo p (cs ++ [c]) = cs ++ [c] := by
  unfold headUpTo
  have : ¬ p < c.pos := by omega
  simp [this]

theorem union_drops (q : Stmt α) (kw : Bytes) (as : List α) : (q.addChunk (unionPos q.chunks) kw [] as []).1.sql = [] := by
  unfold Stmt.addChunk Stmt.invalidate
  rcases List.eq_nil_or_concat q.chunks with h | ⟨A, d, h⟩
  · simp [h, headUpTo]
  · rw [List.concat_eq_append] at h
    have hlt : d.pos < unionPos (A ++ [d]) := by
      unfold unionPos; simp only [List.getLast?_append, List.getLast?_singleton, Option.some_or]; split <;> omega
    simp only [h]
    rw [headUpTo_last _ _ _ (Nat.le_of_lt hlt)]
    simp only [List.getLast?_append, List.getLast?_singleton, Option.some_or]
    rw [if_neg (by omega)]

theorem to_keeps (q : Stmt α) (ds : List Nat) : Keeps q (q.to ds) := by
  unfold Stmt.to; split <;> exact .inr ⟨rfl, rfl⟩

theorem subQuery_drops (q : Stmt α) (pre suf sub : Bytes) (as : List α) (hp : pre ≠ []) : (q.subQuery pre suf sub as).sql = [] := by
  unfold Stmt.subQuery
  exact addChunk_drops q q.pos [] pre as _ hp

theorem keeps_pos {a b : Stmt α} (p : Nat) (h : Keeps a b) : Keeps a { b with pos := p } := h

theorem call_keeps (q : Stmt α) (c : Call α) {x : Nat} (hc : (Op.call x c).sound = true) : Keeps q (q.call c) := by
  cases c with
  | toDest ds => exact to_keeps q ds
  | insertInto t =>
    simp only [Stmt.call, Stmt.insertInto]
    have h := (((add_keeps q posInsert b!"INSERT INTO" t [] b!", ").trans (add_keeps _ (posInsertFields - 1) b!"(" [] [] [])).trans
      (add_keeps _ (posValues - 1) b!") VALUES (" [] [] [])).trans (add_keeps _ (posValues + 1) b!")" [] [] [])
    exact keeps_pos _ h
  | setExpr f e as =>
    simp only [Stmt.call, Stmt.setExpr]
    split
    · exact (add_keeps q _ _ _ _ _).trans (add_keeps _ _ _ _ _ _)
    · split
      · exact add_keeps q _ _ _ _ _
      · exact Keeps.refl q
  | subQuery pre suf s as => exact .inl (subQuery_drops q pre suf s as (by simpa [Op.sound] using hc))
  | with_ n s as => exact .inl (subQuery_drops _ _ _ _ _ (by simp))
  | union all s as => exact .inl (union_drops q _ as)
  | newRow =>
    simp only [Stmt.call, Stmt.newRow]
    split
    · exact Keeps.refl q
    · exact add_keeps q _ _ _ _ _
  | rowSetExpr r f e as =>
    simp only [Stmt.call, Stmt.rowSetExpr]
    split
    · exact (add_keeps q _ _ _ _ _).trans (add_keeps _ _ _ _ _ _)
    · exact add_keeps q _ _ _ _ _
  | _ => exact add_keeps q _ _ _ _ _

theorem render_congr {q q' : Stmt α} (h1 : q.dialect = q'.dialect) (h2 : q.buf = q'.buf) (h3 : q.chunks = q'.chunks) : q.render = q'.render := by
  unfold Stmt.render; rw [h1, h2, h3]

theorem noDialect_ok {q : Stmt α} (h : SqlOK q) : SqlOK q.noDialect := by
  unfold Stmt.noDialect; split
  · exact h
  · exact .inl rfl

/-! ### The invariant of the process -/

/-- An emptied object. -/
def Emptied (q : Stmt α) : Prop := q.chunks = [] ∧ q.args = [] ∧ q.dest = []

/-- Pooled objects are empty, memos are right. -/
structure WorldOK (w : World α) : Prop where
  pool : ∀ p ∈ w.pool, Emptied p
  live : ∀ h q, w.live h = some q → SqlOK q

theorem set_live (w : World α) (h : Nat) (q : Option (Stmt α)) (i : Nat) : (w.set h q).live i = if i = h then q else w.live i := rfl

theorem WorldOK.set {w : World α} (h : WorldOK w) {x : Nat} {q : Option (Stmt α)} (hq : ∀ p, q = some p → SqlOK p) : WorldOK (w.set x q) where
  pool := h.pool
  live := fun i p hp => by
    rw [set_live] at hp
    split at hp
    · exact hq p hp
    · exact h.live i p hp

theorem WorldOK.reuse {w : World α} (h : WorldOK w) (q : Stmt α) : WorldOK (w.reuse q) where
  pool := fun p hp => by
    rcases List.mem_cons.1 hp with rfl | hp
    · exact ⟨rfl, rfl, rfl⟩
    · exact h.pool p hp
  live := h.live

theorem getStmt_emptied {w : World α} (h : ∀ p ∈ w.pool, Emptied p) (d : Dia) (pick : Option Nat) :
    Emptied (w.getStmt d pick).2 := by
  unfold World.getStmt
  cases pick with
  | none => exact ⟨rfl, rfl, rfl⟩
  | some i =>
    simp only
    cases hi : w.pool[i]? with
    | none => exact ⟨rfl, rfl, rfl⟩
    | some p => exact h p (List.mem_of_getElem? hi)

theorem getStmt_new {w : World α} (h : ∀ p ∈ w.pool, Emptied p) (d : Dia) (pick : Option Nat) :
    ∃ st, (w.getStmt d pick).2 = newStmt d (w.newLines d) st := by
  obtain ⟨h1, h2, h3⟩ := getStmt_emptied h d pick
  refine ⟨(w.getStmt d pick).2.pos, ?_⟩
  generalize hq : (w.getStmt d pick).2 = q at *
  have e : q.dialect = d ∧ q.buf = [] ∧ q.name = [] ∧ q.sql = [] ∧ q.useNewLines = w.newLines d := by subst hq; exact ⟨rfl, rfl, rfl, rfl, rfl⟩
  cases q
  simp_all [newStmt]

theorem getStmt_world {w : World α} (d : Dia) (pick : Option Nat) :
    (w.getStmt d pick).1.live = w.live ∧ (w.getStmt d pick).1.cache = w.cache ∧ (w.getStmt d pick).1.newLines = w.newLines ∧
    ∀ p ∈ (w.getStmt d pick).1.pool, p ∈ w.pool := by
  refine ⟨rfl, rfl, rfl, ?_⟩
  intro p hp
  unfold World.getStmt at hp
  cases pick with
  | none => exact hp
  | some i => exact List.mem_of_mem_eraseIdx hp

theorem WorldOK.getStmt {w : World α} (h : WorldOK w) (d : Dia) (pick : Option Nat) : WorldOK (w.getStmt d pick).1 where
  pool := fun p hp => h.pool p ((getStmt_world d pick).2.2.2 p hp)
  live := h.live

theorem clone_eq {w : World α} (h : ∀ p ∈ w.pool, Emptied p) (q : Stmt α) (pick : Option Nat) :
    ∃ st, (w.clone q pick).2 = { q with name := [], useNewLines := w.newLines q.dialect, pos := st } := by
  obtain ⟨st, hst⟩ := getStmt_new h q.dialect pick
  refine ⟨st, ?_⟩
  unfold World.clone
  simp only [hst, newStmt]
  have e1 : ∀ l : List α, insertAt [] l 0 = l := fun l => by simpa using insertAt_eq [] [] l
  have e2 : ∀ l : List Nat, insertAt [] l 0 = l := fun l => by simpa using insertAt_eq [] [] l
  simp [e1, e2]

theorem clone_ok {w : World α} (h : WorldOK w) {q : Stmt α} (hq : SqlOK q) (pick : Option Nat) : SqlOK (w.clone q pick).2 := by
  obtain ⟨st, hst⟩ := clone_eq h.pool q pick
  rw [hst]; exact hq

/-- Evaluations that return the statement with a memo. -/
structure EvalOK (ev : World α → Stmt α → World α × Stmt α) : Prop where
  pool : ∀ w q, (ev w q).1.pool = w.pool
  live : ∀ w q, (ev w q).1.live = w.live
  newLines : ∀ w q, (ev w q).1.newLines = w.newLines

theorem ownText_ok : EvalOK (World.ownText (α := α)) := ⟨fun _ _ => rfl, fun _ _ => rfl, fun _ _ => rfl⟩

theorem str_ok : EvalOK (World.str (α := α)) := by
  constructor <;> intro w q <;> unfold World.str <;> split <;> (try split) <;> rfl

/-- The invariant, for evaluations that keep memos right. -/
theorem step_ok {ev : World α → Stmt α → World α × Stmt α} (hev : EvalOK ev) (hm : ∀ w q, SqlOK q → SqlOK (ev w q).2) {w : World α} (h : WorldOK w) (o : Op α)
    (ho : o.sound = true) : WorldOK (w.stepBy ev o).1 := by
  have hw : ∀ q, WorldOK (ev w q).1 := fun q => ⟨by rw [hev.pool]; exact h.pool, by rw [hev.live]; exact h.live⟩
  cases o with
  | «open» x d pick =>
    refine (h.getStmt d pick).set fun p hp => ?_
    cases hp
    exact .inl rfl
  | call x c =>
    simp only [World.stepBy]
    split
    · rename_i q hq
      refine h.set fun p hp => ?_
      cases hp
      exact (call_keeps q c ho).ok (h.live x q hq)
    · exact h
  | embed x g e =>
    simp only [World.stepBy]
    split
    · rename_i q p hq hp
      split
      · exact h
      · refine WorldOK.reuse (WorldOK.set (WorldOK.set (hw _) ?_) (by simp)) _
        intro p' hp'
        cases hp'
        refine (call_keeps (x := x) q _ ?_).ok (h.live x q hq)
        cases e <;> exact ho
    · exact h
  | str x =>
    simp only [World.stepBy]
    split
    · rename_i q hq
      refine (hw q).set fun p hp => ?_
      cases hp
      exact hm w q (h.live x q hq)
    · exact h
  | setName x n =>
    simp only [World.stepBy]
    split
    · rename_i q hq; refine h.set fun p hp => ?_; cases hp; exact h.live x q hq
    · exact h
  | invalidate x =>
    simp only [World.stepBy]
    split
    · rename_i q hq; refine h.set fun p hp => ?_; cases hp; exact .inl rfl
    · exact h
  | stmtNewLines x b =>
    simp only [World.stepBy]
    split
    · rename_i q hq; refine h.set fun p hp => ?_; cases hp; exact h.live x q hq
    · exact h
  | newLines d b => exact ⟨h.pool, h.live⟩
  | close x =>
    simp only [World.stepBy]
    split
    · rename_i q hq; exact (h.set (by simp)).reuse q
    · exact h
  | clone x g pick =>
    simp only [World.stepBy]
    split
    · rename_i q hq
      refine WorldOK.set (h.getStmt q.dialect pick) fun p hp => ?_
      cases hp
      exact clone_ok h (h.live x q hq) pick
    · exact h
  | put d k s => exact ⟨h.pool, h.live⟩

theorem init_ok : WorldOK (World.init : World α) := ⟨by simp [World.init], by simp [World.init]⟩

/-- Pools only hold emptied objects, whatever the evaluation. -/
theorem step_pool {ev : World α → Stmt α → World α × Stmt α} (hev : EvalOK ev) {w : World α} (h : ∀ p ∈ w.pool, Emptied p) (o : Op α) :
    ∀ p ∈ (w.stepBy ev o).1.pool, Emptied p := by
  have hg : ∀ d pick, ∀ p ∈ (w.getStmt d pick).1.pool, Emptied p := fun d pick p hp => h p ((getStmt_world d pick).2.2.2 p hp)
  have hr : ∀ (w' : World α) q, (∀ p ∈ w'.pool, Emptied p) → ∀ p ∈ (w'.reuse q).pool, Emptied p := fun w' q h' p hp => by
    rcases List.mem_cons.1 hp with rfl | hp
    · exact ⟨rfl, rfl, rfl⟩
    · exact h' p hp
  cases o with
  | «open» x d pick => exact hg d pick
  | call x c => simp only [World.stepBy]; split <;> exact h
  | embed x g e =>
    simp only [World.stepBy]
    split
    · split
      · exact h
      · refine hr _ _ ?_
        show ∀ p ∈ (ev w _).1.pool, Emptied p
        rw [hev.pool]; exact h
    · exact h
  | str x =>
    simp only [World.stepBy]
    split
    · show ∀ p ∈ (ev w _).1.pool, Emptied p
      rw [hev.pool]; exact h
    · exact h
  | setName x n => simp only [World.stepBy]; split <;> exact h
  | invalidate x => simp only [World.stepBy]; split <;> exact h
  | stmtNewLines x b => simp only [World.stepBy]; split <;> exact h
  | newLines d b => exact h
  | close x =>
    simp only [World.stepBy]
    split
    · exact hr _ _ h
    · exact h
  | clone x g pick =>
    simp only [World.stepBy]
    split
    · rename_i q hq; exact hg q.dialect pick
    · exact h
  | put d k s => exact h

theorem run_pool {w : World α} (h : ∀ p ∈ w.pool, Emptied p) (os : List (Op α)) : ∀ p ∈ (w.run os).1.pool, Emptied p := by
  unfold World.run
  induction os generalizing w with
  | nil => exact h
  | cons o os ih => exact ih (step_pool str_ok h o)

theorem init_pool : ∀ p ∈ (World.init : World α).pool, Emptied p := by simp [World.init]

/-- Operations leave the variables alone that they do not touch. -/
theorem step_frame {ev : World α → Stmt α → World α × Stmt α} (hev : EvalOK ev) (w : World α) (o : Op α) (x : Nat) (h : ¬ o.touches x) :
    (w.stepBy ev o).1.live x = w.live x := by
  cases o with
  | «open» y d pick => simp only [Op.touches] at h; simp [World.stepBy, set_live, h, getStmt_world]
  | call y c => simp only [Op.touches] at h; simp only [World.stepBy]; split <;> simp [set_live, h]
  | embed y g e =>
    simp only [Op.touches, not_or] at h
    simp only [World.stepBy]
    split
    · split
      · rfl
      · simp [World.reuse, set_live, h, hev.live]
    · rfl
  | str y => simp only [Op.touches] at h; simp only [World.stepBy]; split <;> simp [set_live, h, hev.live]
  | setName y n => simp only [Op.touches] at h; simp only [World.stepBy]; split <;> simp [set_live, h]
  | invalidate y => simp only [Op.touches] at h; simp only [World.stepBy]; split <;> simp [set_live, h]
  | stmtNewLines y b => simp only [Op.touches] at h; simp only [World.stepBy]; split <;> simp [set_live, h]
  | newLines d b => rfl
  | close y => simp only [Op.touches] at h; simp only [World.stepBy]; split <;> simp [World.reuse, set_live, h]
  | clone y g pick => simp only [Op.touches] at h; simp only [World.stepBy]; split <;> simp [set_live, h, World.clone, getStmt_world]
  | put d k s => rfl

end Xsql
