import Verif.Xsql.MemSim8
set_option linter.unusedSimpArgs false
set_option linter.unusedVariables false
set_option linter.unusedSectionVars false
/- C93: programs that follow the documentation see the same with shared memory, pools and recycled buffers as with values. -/
namespace Xsql
open Heap
variable {α : Type} [Inhabited α]
namespace Mem

theorem sim_init (roomA roomD roomC roomB : Nat → Nat) (pick : Nat → Option Nat) : Sim (Mem.init roomA roomD roomC roomB pick : Mem α) {} none := by
  have hh : ∀ i, hold ({} : View α) none i = none := by intro i; cases i <;> rfl
  have hu : ∀ o, ¬ Used (Mem.init roomA roomD roomC roomB pick : Mem α) {} none o := by
    rintro o (h | ⟨i, h, _⟩)
    · cases h
    · rw [hh] at h; cases h
  constructor
  · intro i q h; rw [hh] at h; cases h
  · intro i j o h; rw [hh] at h; cases h
  · intro a b c h; exact (hu a h).elim
  · exact .nil
  · exact .nil
  · intro o h; cases h
  · intro a b h; exact (hu a h).elim
  · intro a b h; exact (hu a h).elim
  · intro a b h; exact (hu a h).elim
  · exact ⟨fun b h => absurd h (Nat.not_lt_zero b), fun b h => absurd h (Nat.not_lt_zero b), .nil, fun b h => by cases h⟩
  · rfl
  · rfl
  · intro v l h; cases h

theorem withArgs_isMethod (c : Call α) (as : List α) : (c.withArgs as).isMethod = c.isMethod := by cases c <;> rfl

/-- A builder method. -/
theorem Sim.callWith {m m' : Mem α} {s : View α} (S : Sim m s none) {h o b : Nat} {q : Stmt α} (hq : s.world.live h = some q) (hv : m.vars h = some o) (L : Live m o b q) (c : Call α)
    (R : Rep m' o b (q.call c) ∧ CallFrame m m' o b (c.brings = true)) : Sim m' (s.base (.call h c)).1 none := by
  simp only [View.base, View.altered, World.step, World.stepBy, hq]
  by_cases hb : c.brings = true
  · simp only [hb, if_true, List.foldl_cons, List.foldl_nil]
    exact S.updArgs hq hv L R.2 R.1
  · simp only [hb, if_false, List.foldl_nil]
    exact S.upd hq hv L { R.2 with keep := fun _ => R.2.keep hb } R.1

theorem base_ok {m : Mem α} {s : View α} (S : Sim m s none) (o : Op α) (ha : s.allowsBase o = true) : Sim (m.baseStep o).1 (s.base o).1 none ∧ (m.baseStep o).2 = (s.base o).2 := by
  cases o with
  | «open» h d pick =>
    obtain ⟨S1, _⟩ := getStmt_ok S d pick
    exact ⟨S1.assign h, rfl⟩
  | call h c =>
    simp only [View.allowsBase, Bool.and_eq_true] at ha
    obtain ⟨ha1, ha2⟩ := ha
    obtain ⟨q, hq⟩ := Option.isSome_iff_exists.1 ha1
    obtain ⟨o, b, hv, L⟩ := S.get hq
    refine ⟨?_, rfl⟩
    simp only [baseStep, onVar, hv]
    exact S.callWith hq hv L c (call_ok L.rep S.bufs L.lt L.out c ha2)
  | embed h g e =>
    simp only [View.allowsBase, Bool.and_eq_true, decide_eq_true_eq] at ha
    obtain ⟨⟨ha1, ha2⟩, hne⟩ := ha
    obtain ⟨q, hq⟩ := Option.isSome_iff_exists.1 ha1
    obtain ⟨p, hp⟩ := Option.isSome_iff_exists.1 ha2
    obtain ⟨o, b, hv, L⟩ := S.get hq
    obtain ⟨po, bp, hvp, Lp⟩ := S.get hp
    refine ⟨?_, ?_⟩
    · simp only [baseStep, onVar, hv, hvp]
      have S1 := S.embed hq hp hne hv hvp e
      simp only [View.base, View.altered, World.step, World.stepBy, hq, hp, hne, if_false]
      have earg : (p.noDialect).args = p.args := by simp only [Stmt.noDialect]; split <;> rfl
      rw [earg]
      simp only [embedded] at S1
      by_cases hpa : p.args = []
      · have : p.args.isEmpty = true := by rw [hpa]; rfl
        simp only [this, if_true, List.nil_append, List.foldl_cons, List.foldl_nil]
        rw [if_pos hpa] at S1
        exact S1
      · have : p.args.isEmpty = false := by cases hh : p.args with
          | nil => exact absurd hh hpa
          | cons _ _ => rfl
        simp only [this, if_false, List.cons_append, List.nil_append, List.foldl_cons, List.foldl_nil, Bool.false_eq_true]
        rw [if_neg hpa] at S1
        exact S1
    · simp only [baseStep, View.base, World.step, World.stepBy]
  | str h =>
    obtain ⟨q, hq⟩ := Option.isSome_iff_exists.1 ha
    obtain ⟨o, b, hv, L⟩ := S.get hq
    obtain ⟨S1, e, _⟩ := S.str hq hv
    simp only [baseStep, hv, View.base, View.altered, World.step, World.stepBy, hq, List.foldl_nil]
    exact ⟨S1, by rw [e]⟩
  | setName h n =>
    obtain ⟨q, hq⟩ := Option.isSome_iff_exists.1 ha
    obtain ⟨o, b, hv, L⟩ := S.get hq
    simp only [baseStep, onVar, hv, View.base, View.altered, World.step, World.stepBy, hq, List.foldl_nil]
    exact ⟨S.field hq hv L _ (rep_field (q' := { q with name := n }) L.rep _ rfl rfl rfl rfl rfl rfl rfl rfl rfl L.rep.dialect L.rep.pos L.rep.sql L.rep.nl), trivial⟩
  | invalidate h =>
    obtain ⟨q, hq⟩ := Option.isSome_iff_exists.1 ha
    obtain ⟨o, b, hv, L⟩ := S.get hq
    simp only [baseStep, onVar, hv, View.base, View.altered, World.step, World.stepBy, hq, List.foldl_nil]
    exact ⟨S.field hq hv L _ (invalidate_ok L.rep False), trivial⟩
  | stmtNewLines h n =>
    obtain ⟨q, hq⟩ := Option.isSome_iff_exists.1 ha
    obtain ⟨o, b, hv, L⟩ := S.get hq
    simp only [baseStep, onVar, hv, View.base, View.altered, World.step, World.stepBy, hq, List.foldl_nil]
    exact ⟨S.field hq hv L _ (rep_field (q' := { q with useNewLines := n }) L.rep _ rfl rfl rfl rfl rfl rfl rfl rfl L.rep.name L.rep.dialect L.rep.pos L.rep.sql rfl), trivial⟩
  | newLines d n =>
    refine ⟨?_, rfl⟩
    have S1 := S.setModes (fun d' => if d' = d then n else m.newLines d')
    simp only [baseStep, View.base, View.altered, World.step, World.stepBy, List.foldl_nil]
    rw [S.newLines] at S1 ⊢
    exact S1
  | close h =>
    obtain ⟨q, hq⟩ := Option.isSome_iff_exists.1 ha
    obtain ⟨o, b, hv, L⟩ := S.get hq
    refine ⟨?_, rfl⟩
    simp only [baseStep, onVar, hv, View.base, View.altered, World.step, World.stepBy, hq, List.foldl_nil, List.foldl_cons]
    exact S.close hq hv L
  | clone h g pick =>
    obtain ⟨q, hq⟩ := Option.isSome_iff_exists.1 ha
    obtain ⟨o, b, hv, L⟩ := S.get hq
    refine ⟨?_, rfl⟩
    simp only [baseStep, onVar, hv, View.base, View.altered, World.step, World.stepBy, hq, List.foldl_nil, List.foldl_cons]
    exact S.clone hq hv g pick
  | put d k t =>
    refine ⟨?_, rfl⟩
    have S1 := S.setCache (fun d' k' => if d' = d ∧ k' = k then some t else m.cache d' k')
    simp only [baseStep, View.base, View.altered, World.step, World.stepBy, World.putCached, List.foldl_nil]
    rw [S.cache] at S1 ⊢
    exact S1

theorem step_ok {m : Mem α} {s : View α} (S : Sim m s none) (o : MOp α) (ha : s.allows o = true) : Sim (m.step o).1 (s.step o).1 none ∧ (m.step o).2 = (s.step o).2 := by
  cases o with
  | base o => exact base_ok S o ha
  | callFrom h c v =>
    simp only [View.allows, Bool.and_eq_true] at ha
    obtain ⟨⟨ha1, ha2⟩, ha3⟩ := ha
    obtain ⟨q, hq⟩ := Option.isSome_iff_exists.1 ha1
    obtain ⟨o, b, hv, L⟩ := S.get hq
    cases hl : s.lists v with
    | none => rw [hl] at ha3; cases ha3
    | some l =>
      rw [hl] at ha3
      simp only [Mem.step, View.step, onVar, hv, hl]
      have src := S.src hq hv L hl (by
        intro lo hf
        dsimp only at ha3
        rw [hf] at ha3
        simpa using ha3)
      refine ⟨S.callWith hq hv L _ (callWith_ok L.rep S.bufs L.lt L.out c ha2 src), rfl⟩
  | mkSlice v xs => exact ⟨S.mkSlice v xs, rfl⟩
  | setElem v i x =>
    simp only [View.allows] at ha
    cases hl : s.lists v with
    | none => rw [hl] at ha; cases ha
    | some l =>
      rw [hl] at ha
      simp only [Bool.and_eq_true, decide_eq_true_eq, Option.isNone_iff_eq_none] at ha
      simp only [Mem.step, View.step, hl]
      exact ⟨S.setElem hl ha.1 ha.2 x, trivial⟩
  | args h v lo hi =>
    simp only [View.allows] at ha
    cases hq : s.world.live h with
    | none => rw [hq] at ha; cases ha
    | some q =>
      rw [hq] at ha
      simp only [decide_eq_true_eq] at ha
      obtain ⟨o, b, hv, L⟩ := S.get hq
      simp only [Mem.step, View.step, onVar, hv, hq]
      exact ⟨S.takeArgs hq hv v lo hi ha.1 ha.2, trivial⟩
  | look v =>
    obtain ⟨l, hl⟩ := Option.isSome_iff_exists.1 ha
    simp only [Mem.step, View.step, hl]
    exact ⟨S, by rw [S.look hl]⟩
  | dest h =>
    obtain ⟨q, hq⟩ := Option.isSome_iff_exists.1 ha
    obtain ⟨o, b, hv, L⟩ := S.get hq
    simp only [Mem.step, View.step, hq, hv]
    exact ⟨S, by rw [L.rep.dest.read]⟩

theorem run_ok (os : List (MOp α)) : ∀ {m : Mem α} {s : View α}, Sim m s none → s.legal os = true → Sim (m.run os).1 (s.run os).1 none ∧ (m.run os).2 = (s.run os).2 := by
  induction os with
  | nil => intro m s S _; exact ⟨S, rfl⟩
  | cons o os ih =>
    intro m s S hl
    simp only [View.legal, Bool.and_eq_true] at hl
    obtain ⟨S1, e1⟩ := step_ok S o hl.1
    obtain ⟨S2, e2⟩ := ih S1 hl.2
    exact ⟨S2, by simp only [Mem.run, View.run, e1, e2]⟩

end Mem

/-- C93: a program that does what the documentation allows sees exactly what it would see if statements and argument lists were values:
every `String()`, every look at an `Args()` list, at one of its own slices and at `Dest()`.  For every program, every growth of arrays, every
choice of the two pools. -/
theorem C93_memory_invisible (roomA roomD roomC roomB : Nat → Nat) (pick : Nat → Option Nat) (os : List (MOp α)) (hl : View.legal {} os = true) :
    ((Mem.init roomA roomD roomC roomB pick).run os).2 = (View.run {} os).2 :=
  (Mem.run_ok os (Mem.sim_init ..) hl).2

/-- C93: at the end of such a program no two statements in use have anything in common: not the object, not an array, not the buffer's
array; and none of their arrays belongs to a slice of the program. -/
theorem C93_statements_apart (roomA roomD roomC roomB : Nat → Nat) (pick : Nat → Option Nat) (os : List (MOp α)) (hl : View.legal {} os = true) (h g : Nat) (q p : Stmt α)
    (hq : (View.run {} os).1.world.live h = some q) (hp : (View.run {} os).1.world.live g = some p) (hne : h ≠ g) :
    let m := ((Mem.init roomA roomD roomC roomB pick).run os).1
    ∃ o o' b b', m.vars h = some o ∧ m.vars g = some o' ∧ o ≠ o' ∧ (m.obj o).buf = some b ∧ (m.obj o').buf = some b' ∧ (m.bufs b).arr ≠ (m.bufs b').arr ∧
      (m.obj o).args.arr ≠ (m.obj o').args.arr ∧ (m.obj o).dest.arr ≠ (m.obj o').dest.arr ∧ (m.obj o).chunks.arr ≠ (m.obj o').chunks.arr ∧
      ∀ v l, (View.run {} os).1.lists v = some l → l.from_ = none → (m.slices v).arr ≠ (m.obj o).args.arr := by
  have S := (Mem.run_ok os (Mem.sim_init roomA roomD roomC roomB pick) hl).1
  dsimp only
  generalize ((Mem.init roomA roomD roomC roomB pick).run os).1 = m at *
  generalize (View.run {} os).1 = s at *
  obtain ⟨o, b, hv, L⟩ := S.get hq
  obtain ⟨o', b', hv', L'⟩ := S.get hp
  have g1 : Mem.hold s none (some h) = some q := hq
  have g2 : Mem.hold s none (some g) = some p := hp
  have hoo : o ≠ o' := by
    intro e; subst e
    exact hne (Option.some.inj (S.inj (some h) (some g) o (by rw [g1]; rfl) (by rw [g2]; rfl) hv hv'))
  have uo : Mem.Used m s none o := .inr ⟨some h, by rw [g1]; rfl, hv⟩
  have up : Mem.Used m s none o' := .inr ⟨some g, by rw [g2]; rfl, hv'⟩
  refine ⟨o, o', b, b', hv, hv', hoo, L.rep.buf, L'.rep.buf, ?_, fun e => hoo (S.sepA _ _ uo up e), fun e => hoo (S.sepD _ _ uo up e), fun e => hoo (S.sepC _ _ uo up e), ?_⟩
  · intro e
    have := S.bufs.sep b L.lt b' L'.lt e
    subst this
    exact hoo (S.injB o o' b uo up L.rep.buf L'.rep.buf)
  · intro v l hlv hf
    have ok := S.lists v l hlv
    unfold Mem.ListOK at ok
    rw [hf] at ok
    exact fun e => ok.2.1 o uo e.symm

end Xsql
