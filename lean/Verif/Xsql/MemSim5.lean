import Verif.Xsql.MemSim4
set_option linter.unusedSimpArgs false
set_option linter.unusedVariables false
set_option linter.unusedSectionVars false
/- String and the methods that change one field; Clone; embedding. -/
namespace Xsql
open Heap
variable {α : Type} [Inhabited α]
namespace Mem

/-- One statement in a variable changes, its arguments do not. -/
theorem Sim.upd {m m' : Mem α} {s : View α} (S : Sim m s none) {h o b : Nat} {q q' : Stmt α} (hq : s.world.live h = some q) (hv : m.vars h = some o) (L : Live m o b q)
    (F : CallFrame m m' o b False) (R : Rep m' o b q') : Sim m' { s with world := s.world.set h (some q') } none := by
  refine S.update (i := some h) hq hv L F R ?_ ?_ ?_ rfl rfl rfl ?_
  · funext i; cases i with
    | none => rfl
    | some k => simp only [ptr, F.vars]
  · simp [hold, World.set]
  · intro j hj
    cases j with
    | none => rfl
    | some k => simp only [hold, World.set]; rw [if_neg (fun e => hj (by rw [e]))]
  · intro v l hl; exact ⟨hl, False.elim⟩

/-- One statement in a variable changes, perhaps with its arguments. -/
theorem Sim.updArgs {m m' : Mem α} {s : View α} (S : Sim m s none) {h o b : Nat} {q q' : Stmt α} (hq : s.world.live h = some q) (hv : m.vars h = some o) (L : Live m o b q)
    {ch : Prop} (F : CallFrame m m' o b ch) (R : Rep m' o b q') : Sim m' { s.expire h with world := s.world.set h (some q') } none := by
  refine S.update (i := some h) hq hv L F R ?_ ?_ ?_ rfl rfl rfl ?_
  · funext i; cases i with
    | none => rfl
    | some k => simp only [ptr, F.vars]
  · simp [hold, World.set]
  · intro j hj
    cases j with
    | none => rfl
    | some k => simp only [hold, World.set]; rw [if_neg (fun e => hj (by rw [e]))]
  · intro v l hl
    obtain ⟨k1, k2⟩ := (expire_lists s h v l).1 hl
    refine ⟨k1, fun _ e => k2 ?_⟩
    cases hf : l.from_ with
    | none => rw [hf] at e; cases e
    | some p => rw [hf] at e; simpa using e

/-- Fields other than the slices and the buffer. -/
theorem rep_field {m : Mem α} {o b : Nat} {q q' : Stmt α} (r : Rep m o b q) (x : Obj) (h1 : x.args = (m.obj o).args) (h2 : x.dest = (m.obj o).dest)
    (h3 : x.chunks = (m.obj o).chunks) (h4 : x.buf = (m.obj o).buf) (k1 : q'.args = q.args) (k2 : q'.dest = q.dest) (k3 : q'.chunks = q.chunks) (k4 : q'.buf = q.buf)
    (l1 : x.name = q'.name) (l2 : x.dialect = q'.dialect) (l3 : x.pos = q'.pos) (l4 : x.sql = q'.sql) (l5 : x.useNewLines = q'.useNewLines) :
    Rep (m.setObj o x) o b q' ∧ Frame m (m.setObj o x) o b False := by
  refine ⟨?_, setObj_frame _ _ _ _ _ h1 h2 h3⟩
  constructor
  all_goals (try rw [setObj_self])
  case args => rw [h1, k1]; exact r.args
  case dest => rw [h2, k2]; exact r.dest
  case chunks => rw [h3, k3]; exact r.chunks
  case buf => rw [h4]; exact r.buf
  case bytes => rw [k4]; exact r.bytes
  all_goals assumption

theorem Sim.field {m : Mem α} {s : View α} (S : Sim m s none) {h o b : Nat} {q q' : Stmt α} (hq : s.world.live h = some q) (hv : m.vars h = some o) (L : Live m o b q) (x : Obj)
    (R : Rep (m.setObj o x) o b q' ∧ Frame m (m.setObj o x) o b False) :
    Sim (m.setObj o x) { s with world := s.world.set h (some q') } none := S.upd hq hv L (R.2.call S.bufs L.lt L.out R.1) R.1

/-- The statement in a variable. -/
theorem Sim.get {m : Mem α} {s : View α} (S : Sim m s none) {h : Nat} {q : Stmt α} (hq : s.world.live h = some q) : ∃ o b, m.vars h = some o ∧ Live m o b q :=
  S.live (some h) q hq

theorem set_self (w : World α) (h : Nat) (q : Stmt α) (hq : w.live h = some q) : w.set h (some q) = w := by
  simp only [World.set]
  have : (fun i => if i = h then some q else w.live i) = w.live := by
    funext i; by_cases e : i = h
    · rw [if_pos e, e, hq]
    · rw [if_neg e]
  rw [this]

theorem render_eq {m : Mem α} {o b : Nat} {q : Stmt α} (r : Rep m o b q) : m.render o = q.render := by
  simp only [render, Stmt.render, bufBytes_eq r, chunkList_eq r, r.dialect]

theorem key_eq {m : Mem α} {o b : Nat} {q : Stmt α} (r : Rep m o b q) : m.key o = q.key := by
  simp only [key, Stmt.key, bufBytes_eq r, r.name]

theorem Sim.str {m : Mem α} {s : View α} (S : Sim m s none) {h o : Nat} {q : Stmt α} (hq : s.world.live h = some q) (hv : m.vars h = some o) :
    Sim (m.str o) { s with world := (s.world.str q).1.set h (some (s.world.str q).2) } none ∧ ((m.str o).obj o).sql = (s.world.str q).2.sql ∧ (m.str o).vars = m.vars := by
  obtain ⟨o', b, e, L⟩ := S.get hq
  rw [hv] at e; obtain rfl := Option.some.inj e
  have r := L.rep
  simp only [Mem.str, World.str, r.sql]
  by_cases h1 : q.sql ≠ []
  · rw [if_pos h1, if_pos h1]
    exact ⟨by rw [set_self _ _ _ hq]; exact S, r.sql, rfl⟩
  · rw [if_neg h1, if_neg h1]
    rw [key_eq r, S.cache, r.dialect, World.getCached]
    cases hc : s.world.cache q.dialect q.key with
    | some t =>
      dsimp only
      exact ⟨S.field hq hv L _ (rep_field r _ rfl rfl rfl rfl rfl rfl rfl rfl r.name rfl r.pos rfl r.nl), by rw [setObj_self], rfl⟩
    | none =>
      dsimp only
      rw [render_eq r]
      have S1 := S.setCache (fun d k => if d = q.dialect ∧ k = q.key then some q.render else s.world.cache d k)
      generalize hm1 : ({ m with cache := fun d k => if d = q.dialect ∧ k = q.key then some q.render else s.world.cache d k } : Mem α) = m1 at *
      have hv1 : m1.vars h = some o := by subst hm1; exact hv
      obtain ⟨o', b1, e, L1⟩ := S1.get hq
      rw [hv1] at e; obtain rfl := Option.some.inj e
      have ho : m.obj o = m1.obj o := by subst hm1; rfl
      have r1 := L1.rep
      refine ⟨?_, by rw [setObj_self], by subst hm1; rfl⟩
      rw [ho]
      exact S1.field hq hv1 L1 _ (rep_field (q' := { q with sql := q.render }) r1 _ rfl rfl rfl rfl rfl rfl rfl rfl r1.name rfl r1.pos rfl r1.nl)

theorem Sim.noDialect {m : Mem α} {s : View α} (S : Sim m s none) {h o : Nat} {q : Stmt α} (hq : s.world.live h = some q) (hv : m.vars h = some o) :
    Sim (m.noDialect o) { s with world := s.world.set h (some q.noDialect) } none ∧ (m.noDialect o).vars = m.vars := by
  obtain ⟨o', b, e, L⟩ := S.get hq
  rw [hv] at e; obtain rfl := Option.some.inj e
  have r := L.rep
  simp only [Mem.noDialect, Stmt.noDialect, r.dialect]
  by_cases h1 : q.dialect = .default
  · rw [if_pos h1, if_pos h1]
    exact ⟨by rw [set_self _ _ _ hq]; exact S, rfl⟩
  · rw [if_neg h1, if_neg h1]
    exact ⟨S.field hq hv L _ (rep_field (q' := { q with dialect := .default, sql := [] }) r _ rfl rfl rfl rfl rfl rfl rfl rfl r.name rfl r.pos rfl r.nl), rfl⟩

end Mem
end Xsql
