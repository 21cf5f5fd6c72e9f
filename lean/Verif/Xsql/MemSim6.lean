import Verif.Xsql.MemSim5
set_option linter.unusedSimpArgs false
set_option linter.unusedVariables false
set_option linter.unusedSectionVars false
/- Clone. -/
namespace Xsql
open Heap
variable {α : Type} [Inhabited α]
namespace Mem

theorem Shows.src {β : Type} {h : Heap β} {d s : Slice} {xs : List β} (k : h.Shows s xs) (hne : s.arr ≠ d.arr) : h.Src d s xs := by
  obtain ⟨h1, h2, h3, rst, h4⟩ := k
  exact ⟨h2, fun _ => ⟨h3, ⟨[], rst, by simp [h4], h1.symm⟩, fun e => absurd e hne⟩⟩

/-- A statement from the pool is empty. -/
theorem Sim.takenEmpty {m : Mem α} {s : View α} (S : Sim m s none) (d : Dia) (pick : Option Nat) :
    (s.world.getStmt d pick).2.chunks = [] ∧ (s.world.getStmt d pick).2.args = [] ∧ (s.world.getStmt d pick).2.dest = [] ∧ (s.world.getStmt d pick).2.buf = [] := by
  cases pick with
  | none => exact ⟨rfl, rfl, rfl, rfl⟩
  | some i =>
    simp only [World.getStmt]
    cases hi : s.world.pool[i]? with
    | none => exact ⟨rfl, rfl, rfl, trivial⟩
    | some p =>
      have hm : p ∈ s.world.pool := List.mem_of_getElem? hi
      have : ∀ {l : List Nat} {l' : List (Stmt α)}, List.Forall₂ (Pooled m) l l' → ∀ p ∈ l', p.args = [] ∧ p.dest = [] ∧ p.chunks = [] := by
        intro l l' k
        induction k with
        | nil => simp
        | cons h _ ih =>
          intro p hp
          rcases List.mem_cons.1 hp with e | e
          · subst e; exact h.empty
          · exact ih p e
      obtain ⟨k1, k2, k3⟩ := this S.pool p hm
      simp only [Option.getD_some]
      exact ⟨k3, k1, k2, trivial⟩

theorem Sim.clone {m : Mem α} {s : View α} (S : Sim m s none) {h o : Nat} {q : Stmt α} (hq : s.world.live h = some q) (hv : m.vars h = some o) (g : Nat) (pick : Option Nat) :
    Sim ((m.clone o pick).1.setVar g (m.clone o pick).2) { s.expire g with world := (s.world.clone q pick).1.set g (some (s.world.clone q pick).2) } none := by
  have hd0 : (m.obj o).dialect = q.dialect := by
    obtain ⟨o', b, e, L⟩ := S.get hq
    rw [hv] at e; obtain rfl := Option.some.inj e
    exact L.rep.dialect
  simp only [Mem.clone, World.clone]
  rw [hd0]
  obtain ⟨S1, hvars⟩ := getStmt_ok S q.dialect pick
  obtain ⟨pe, pa, pd, pb⟩ := S.takenEmpty q.dialect pick
  have hlive : (s.world.getStmt q.dialect pick).1.live = s.world.live := by cases pick <;> rfl
  generalize m.getStmt q.dialect pick = r1 at *
  obtain ⟨m1, n⟩ := r1
  generalize s.world.getStmt q.dialect pick = r2 at *
  obtain ⟨w1, p⟩ := r2
  dsimp only at *
  generalize hs1 : ({ s with world := w1 } : View α) = s1 at S1
  have hq1 : hold s1 (some (n, p)) (some h) = some q := by subst hs1; simp only [hold]; rw [hlive]; exact hq
  have hp1 : hold s1 (some (n, p)) none = some p := rfl
  obtain ⟨o', b, e, L⟩ := S1.live (some h) q hq1
  have e' : m1.vars h = some o' := e
  rw [hvars, hv] at e'; obtain rfl := Option.some.inj e'
  obtain ⟨n', bn, e'', Ln⟩ := S1.live none p hp1
  have : n = n' := by simpa [ptr] using e''
  subst this
  have hno : n ≠ o := by
    intro e3; subst e3
    have := S1.inj (some h) none n (by rw [hq1]; rfl) (by rw [hp1]; rfl) e e''
    cases this
  have uo : Used m1 s1 (some (n, p)) o := .inr ⟨some h, by rw [hq1]; rfl, e⟩
  have un : Used m1 s1 (some (n, p)) n := .inr ⟨none, by rw [hp1]; rfl, e''⟩
  have r := L.rep
  have rn := Ln.rep
  have hA : (m1.obj o).args.arr ≠ (m1.obj n).args.arr := fun e => hno (S1.sepA o n uo un e).symm
  have hD : (m1.obj o).dest.arr ≠ (m1.obj n).dest.arr := fun e => hno (S1.sepD o n uo un e).symm
  obtain ⟨a1, a2, _⟩ := insertAt_spec m1.args (m1.obj n).args (m1.obj o).args p.args q.args 0 rn.args (Shows.src r.args hA)
  obtain ⟨d1, d2, _⟩ := insertAt_spec m1.dest (m1.obj n).dest (m1.obj o).dest p.dest q.dest 0 rn.dest (Shows.src r.dest hD)
  have c12 : let rc := if m1.chunks.cap (m1.obj n).chunks < (m1.obj o).chunks.len then m1.chunks.makeCopy (m1.obj o).chunks ((m1.obj o).chunks.len + 2)
        else m1.chunks.append (m1.obj n).chunks (m1.chunks.read (m1.obj o).chunks)
      rc.1.Shows rc.2 (p.chunks ++ q.chunks) ∧ Step m1.chunks rc.1 (m1.obj n).chunks.arr rc.2.arr := by
    dsimp only
    split
    · rw [pe]; exact makeCopy_spec _ _ _ _ r.chunks _
    · obtain ⟨k1, k2, _⟩ := append_spec m1.chunks (m1.obj n).chunks p.chunks (m1.chunks.read (m1.obj o).chunks) rn.chunks
      rw [r.chunks.read] at k1 k2 ⊢
      exact ⟨k1, k2⟩
  obtain ⟨c1, c2⟩ := c12
  generalize (if m1.chunks.cap (m1.obj n).chunks < (m1.obj o).chunks.len then m1.chunks.makeCopy (m1.obj o).chunks ((m1.obj o).chunks.len + 2)
        else m1.chunks.append (m1.obj n).chunks (m1.chunks.read (m1.obj o).chunks)) = rc at *
  generalize m1.args.insertAt (m1.obj n).args (m1.obj o).args 0 = ra at *
  generalize m1.dest.insertAt (m1.obj n).dest (m1.obj o).dest 0 = rd at *
  let x2 : Obj := { m1.obj n with chunks := rc.2, args := ra.2, dest := rd.2 }
  let m2 : Mem α := ({ m1 with chunks := rc.1, args := ra.1, dest := rd.1 } : Mem α).setObj n x2
  let q2 : Stmt α := { p with chunks := p.chunks ++ q.chunks, args := Xsql.insertAt p.args q.args 0, dest := Xsql.insertAt p.dest q.dest 0 }
  have R2 : Rep m2 n bn q2 := by
    constructor
    all_goals (try (dsimp only [m2]; rw [setObj_self]))
    case args => exact a1
    case dest => exact d1
    case chunks => exact c1
    case bytes => exact rn.bytes
    all_goals first | exact rn.name | exact rn.dialect | exact rn.pos | exact rn.sql | exact rn.nl | exact rn.buf
  have F2 : Frame m1 m2 n bn True := by
    constructor
    · dsimp only [m2]; rw [setObj_self]; exact a2
    · intro k; exact absurd trivial k
    · dsimp only [m2]; rw [setObj_self]; exact d2
    · dsimp only [m2]; rw [setObj_self]; exact c2
    · exact Step.refl ..
    · intro i hi; exact setObj_other _ _ _ _ hi
    · intro _ _; rfl
    · rfl
  have ebuf : m2.bufBytes o = q.buf := by
    rw [← bufBytes_eq r]
    have : m2.obj o = m1.obj o := setObj_other _ _ _ _ (Ne.symm hno)
    simp only [bufBytes, this]
    rfl
  obtain ⟨R3, F3⟩ := write_ok R2 (.lit (m2.bufBytes o)) True
  have esql : (m1.obj o).sql = q.sql := r.sql
  obtain ⟨R4, F4⟩ := rep_field (q' := { q2.write (m2.text (.lit (m2.bufBytes o))) with sql := q.sql }) R3 { (m2.write n (.lit (m2.bufBytes o))).obj n with sql := (m1.obj o).sql }
    rfl rfl rfl rfl rfl rfl rfl rfl R3.name R3.dialect R3.pos esql R3.nl
  have FF := F2.trans (F3.trans (F4.weaken False.elim))
  have FC := FF.call S1.bufs Ln.lt Ln.out R4
  change Sim ((((m2.write n (.lit (m2.bufBytes o))).setObj n { (m2.write n (.lit (m2.bufBytes o))).obj n with sql := (m1.obj o).sql })).setVar g n) _ none
  generalize (m2.write n (.lit (m2.bufBytes o))).setObj n { (m2.write n (.lit (m2.bufBytes o))).obj n with sql := (m1.obj o).sql } = m4 at *
  have eq4 : ({ q2.write (m2.text (.lit (m2.bufBytes o))) with sql := q.sql } : Stmt α) =
      { p with chunks := p.chunks ++ q.chunks, args := Xsql.insertAt p.args q.args 0, dest := Xsql.insertAt p.dest q.dest 0, buf := p.buf ++ q.buf, sql := q.sql } := by
    simp only [Stmt.write, q2, text, ebuf]
  rw [eq4] at R4
  generalize ({ p with chunks := p.chunks ++ q.chunks, args := Xsql.insertAt p.args q.args 0, dest := Xsql.insertAt p.dest q.dest 0, buf := p.buf ++ q.buf, sql := q.sql } : Stmt α) = q4 at *
  have S4 : Sim m4 s1 (some (n, q4)) := by
    refine S1.update (i := none) hp1 e'' Ln FC R4 ?_ rfl ?_ rfl rfl rfl ?_
    · funext i; cases i with
      | none => rfl
      | some k => simp only [ptr, FC.vars]
    · intro j hj; cases j with
      | none => exact absurd rfl hj
      | some k => rfl
    · intro v l hl
      refine ⟨hl, fun _ e => ?_⟩
      cases hf : l.from_ with
      | none => rw [hf] at e; cases e
      | some y => rw [hf] at e; simp at e
  have S5 := S4.assign g
  subst hs1
  exact S5

end Mem
end Xsql
