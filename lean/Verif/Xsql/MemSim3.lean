import Verif.Xsql.MemSim2
set_option linter.unusedSimpArgs false
set_option linter.unusedVariables false
set_option linter.unusedSectionVars false
/- A new statement, its assignment to a variable, and Close. -/
namespace Xsql
open Heap
variable {α : Type} [Inhabited α]
namespace Mem

/-- The buffers of used objects are in use. -/
theorem Sim.usedBuf {m : Mem α} {s : View α} {x : Option (Nat × Stmt α)} (S : Sim m s x) {o b : Nat} (h : Used m s x o) (hb : (m.obj o).buf = some b) : b < m.nextBuf ∧ b ∉ m.bufPool := by
  rcases h with h | ⟨i, h1, h2⟩
  · obtain ⟨q, _, p⟩ := forall2_left S.pool o h
    rw [p.buf] at hb; cases hb
  · obtain ⟨q, hq⟩ := Option.isSome_iff_exists.1 h1
    obtain ⟨o', b', e, l⟩ := S.live i q hq
    rw [h2] at e; obtain rfl := Option.some.inj e
    rw [l.rep.buf] at hb; obtain rfl := Option.some.inj hb
    exact ⟨l.lt, l.out⟩

/-- The program's view when an object has been taken from the pool. -/
theorem getStmt_ok {m : Mem α} {s : View α} (S : Sim m s none) (d : Dia) (pick : Option Nat) :
    Sim (m.getStmt d pick).1 { s with world := (s.world.getStmt d pick).1 } (some ((m.getStmt d pick).2, (s.world.getStmt d pick).2)) ∧
      (m.getStmt d pick).1.vars = m.vars := by
  obtain ⟨S1, F, hnl, hvars⟩ := takeStmt_ok S pick
  have ew : (s.world.getStmt d pick).1 = { s.world with pool := leftPool s.world pick } := by cases pick <;> rfl
  have eq : (s.world.getStmt d pick).2 = { taken s.world pick with dialect := d, buf := [], name := [], sql := [], useNewLines := s.world.newLines d } := by cases pick <;> rfl
  rw [ew, eq]
  have hwl : ({ s.world with pool := leftPool s.world pick } : World α).newLines = s.world.newLines := rfl
  simp only [getStmt]
  generalize m.takeStmt pick = r1 at *
  obtain ⟨m1, o⟩ := r1
  dsimp only at *
  generalize hs1 : ({ s with world := { s.world with pool := leftPool s.world pick } } : View α) = s1 at *
  obtain ⟨a1, a2, a3, a4, a5, a6, a7⟩ := getBuffer_ok S1.bufs
  have hnl2 : m1.getBuffer.1.newLines d = s.world.newLines d := by rw [a3.newLines, hnl, S.newLines]
  generalize m1.getBuffer = r2 at *
  obtain ⟨m2, b⟩ := r2
  dsimp only at *
  have hobj : ∀ a, a ≠ o → (m2.setObj o { m2.obj o with dialect := d, buf := some b, name := [], sql := [], useNewLines := m2.newLines d }).obj a = m1.obj a :=
    fun a ha => by rw [setObj_other _ _ _ _ ha, a3.obj]
  have hself : (m2.setObj o { m2.obj o with dialect := d, buf := some b, name := [], sql := [], useNewLines := m2.newLines d }).obj o =
      { m1.obj o with dialect := d, buf := some b, name := [], sql := [], useNewLines := m2.newLines d } := by rw [setObj_self, a3.obj]
  have eA : (m2.setObj o { m2.obj o with dialect := d, buf := some b, name := [], sql := [], useNewLines := m2.newLines d }).args = m1.args := a3.args
  have eD : (m2.setObj o { m2.obj o with dialect := d, buf := some b, name := [], sql := [], useNewLines := m2.newLines d }).dest = m1.dest := a3.dest
  have eC : (m2.setObj o { m2.obj o with dialect := d, buf := some b, name := [], sql := [], useNewLines := m2.newLines d }).chunks = m1.chunks := a3.chunks
  have eP : (m2.setObj o { m2.obj o with dialect := d, buf := some b, name := [], sql := [], useNewLines := m2.newLines d }).pool = m1.pool := a3.pool
  have eV : (m2.setObj o { m2.obj o with dialect := d, buf := some b, name := [], sql := [], useNewLines := m2.newLines d }).vars = m1.vars := a3.vars
  have eS : (m2.setObj o { m2.obj o with dialect := d, buf := some b, name := [], sql := [], useNewLines := m2.newLines d }).slices = m1.slices := a3.slices
  have eN : (m2.setObj o { m2.obj o with dialect := d, buf := some b, name := [], sql := [], useNewLines := m2.newLines d }).nextObj = m1.nextObj := a3.nextObj
  have eCa : (m2.setObj o { m2.obj o with dialect := d, buf := some b, name := [], sql := [], useNewLines := m2.newLines d }).cache = m1.cache := a3.cache
  have eL : (m2.setObj o { m2.obj o with dialect := d, buf := some b, name := [], sql := [], useNewLines := m2.newLines d }).newLines = m1.newLines := a3.newLines
  have eB : (m2.setObj o { m2.obj o with dialect := d, buf := some b, name := [], sql := [], useNewLines := m2.newLines d }).bytes = m2.bytes := rfl
  have eF : (m2.setObj o { m2.obj o with dialect := d, buf := some b, name := [], sql := [], useNewLines := m2.newLines d }).bufs = m2.bufs := rfl
  have eG : (m2.setObj o { m2.obj o with dialect := d, buf := some b, name := [], sql := [], useNewLines := m2.newLines d }).nextBuf = m2.nextBuf := rfl
  have eH : (m2.setObj o { m2.obj o with dialect := d, buf := some b, name := [], sql := [], useNewLines := m2.newLines d }).bufPool = m2.bufPool := rfl
  refine ⟨?_, by rw [eV, hvars]⟩
  generalize m2.setObj o { m2.obj o with dialect := d, buf := some b, name := [], sql := [], useNewLines := m2.newLines d } = m3 at *
  generalize hqv : ({ taken s.world pick with dialect := d, buf := [], name := [], sql := [], useNewLines := s.world.newLines d } : Stmt α) = q
  have hu : ∀ a, Used m3 s1 (some (o, q)) a → a = o ∨ (Used m1 s1 none a ∧ a ≠ o) := by
    rintro a (h | ⟨i, h, h'⟩)
    · rw [eP] at h
      have : Used m1 s1 none a := .inl h
      exact .inr ⟨this, fun e => F.unused (e ▸ this)⟩
    · cases i with
      | none => left; simp only [ptr, Option.map_some, Option.some.injEq] at h'; exact h'.symm
      | some j =>
        right
        have : Used m1 s1 none a := .inr ⟨some j, h, by simp only [ptr] at h' ⊢; rw [← eV]; exact h'⟩
        exact ⟨this, fun e => F.unused (e ▸ this)⟩
  have carry : ∀ a c p, a ≠ o → Live m1 a c p → Live m3 a c p := by
    intro a c p ha l
    have r := l.rep
    have e := hobj a ha
    refine ⟨?_, by rw [eG]; exact lt_of_lt_of_le l.lt a2.nextBuf, by rw [eH]; exact a2.used c l.lt l.out id, by rw [eP]; exact l.free, by rw [eN]; exact l.obj⟩
    constructor
    all_goals (try rw [e])
    all_goals first
      | exact r.name | exact r.dialect | exact r.pos | exact r.sql | exact r.nl | exact r.buf
      | (rw [eA]; exact r.args) | (rw [eD]; exact r.dest) | (rw [eC]; exact r.chunks)
      | (rw [eB, eF]; exact a2.shows l.lt l.out id r.bytes)
  constructor
  · intro i p hp
    cases i with
    | none =>
      simp only [hold, Option.map_some, Option.some.injEq] at hp
      subst hp
      refine ⟨o, b, rfl, ?_, by rw [eG]; exact a4, by rw [eH]; exact a5, by rw [eP]; exact F.free, by rw [eN]; exact F.lt⟩
      subst hqv
      constructor
      all_goals (try rw [hself])
      case pos => exact F.pos
      case nl => exact hnl2
      case args => rw [eA]; dsimp only; rw [F.empty.1]; exact F.args
      case dest => rw [eD]; dsimp only; rw [F.empty.2.1]; exact F.dest
      case chunks => rw [eC]; dsimp only; rw [F.empty.2.2]; exact F.chunks
      case bytes => rw [eB, eF]; exact a6
    | some h =>
      have h1 : hold s1 none (some h) = some p := hp
      obtain ⟨o', b', k1, k2⟩ := S1.live (some h) p h1
      have hne : o' ≠ o := fun e => F.unused (.inr ⟨some h, by rw [h1]; rfl, by rw [← e]; exact k1⟩)
      exact ⟨o', b', by simp only [ptr] at k1 ⊢; rw [eV]; exact k1, carry o' b' p hne k2⟩
  · intro i j a h1 h2 h3 h4
    have nou : ∀ k, (hold s1 (some (o, q)) (some k)).isSome = true → ptr m3 (some (o, q)) (some k) = some a → a ≠ o := by
      intro k g1 g2 e
      simp only [ptr] at g2; rw [eV] at g2
      exact F.unused (.inr ⟨some k, g1, by rw [← e]; exact g2⟩)
    cases i with
    | none => cases j with
      | none => rfl
      | some k => simp only [ptr, Option.map_some, Option.some.injEq] at h3; exact absurd h3.symm (nou k h2 h4)
    | some k => cases j with
      | none => simp only [ptr, Option.map_some, Option.some.injEq] at h4; exact absurd h4.symm (nou k h1 h3)
      | some l =>
        simp only [ptr] at h3 h4; rw [eV] at h3 h4
        exact S1.inj (some k) (some l) a h1 h2 h3 h4
  · intro a c b' h1 h2 h3 h4
    have key : ∀ a, Used m1 s1 none a → a ≠ o → (m3.obj a).buf = some b → False := by
      intro a ha hne hb
      rw [hobj a hne] at hb
      obtain ⟨k1, k2⟩ := S1.usedBuf ha hb
      exact a7 b k1 k2 rfl
    have hob : (m3.obj o).buf = some b := by rw [hself]
    rcases hu a h1 with e | ⟨e, ne⟩
    · rcases hu c h2 with e' | ⟨e', ne'⟩
      · omega
      · subst e; rw [hob] at h3; obtain rfl := Option.some.inj h3
        exact (key c e' ne' h4).elim
    · rcases hu c h2 with e' | ⟨e', ne'⟩
      · subst e'; rw [hob] at h4; obtain rfl := Option.some.inj h4
        exact (key a e ne h3).elim
      · rw [hobj a ne] at h3; rw [hobj c ne'] at h4
        exact S1.injB a c b' e e' h3 h4
  · rw [eP]
    refine forall2_imp S1.pool fun a c ha r => ?_
    have hne : a ≠ o := fun e => F.free (e ▸ ha)
    have e := hobj a hne
    constructor
    all_goals (try rw [e])
    all_goals first
      | exact r.dialect | exact r.pos | exact r.nl | exact r.buf | exact r.empty
      | (rw [eA]; exact r.args) | (rw [eD]; exact r.dest) | (rw [eC]; exact r.chunks)
  · rw [eP]; exact S1.nodup
  · rw [eP, eN]; exact S1.poolLt
  · intro a c h1 h2 h3
    have hob : (m3.obj o).args = (m1.obj o).args := by rw [hself]
    rcases hu a h1 with e | ⟨e, ne⟩
    · rcases hu c h2 with e' | ⟨e', ne'⟩
      · omega
      · subst e; rw [hob, hobj c ne'] at h3; exact (F.sepA c e' h3.symm).elim
    · rcases hu c h2 with e' | ⟨e', ne'⟩
      · subst e'; rw [hob, hobj a ne] at h3; exact (F.sepA a e h3).elim
      · rw [hobj a ne, hobj c ne'] at h3; exact S1.sepA a c e e' h3
  · intro a c h1 h2 h3
    have hob : (m3.obj o).dest = (m1.obj o).dest := by rw [hself]
    rcases hu a h1 with e | ⟨e, ne⟩
    · rcases hu c h2 with e' | ⟨e', ne'⟩
      · omega
      · subst e; rw [hob, hobj c ne'] at h3; exact (F.sepD c e' h3.symm).elim
    · rcases hu c h2 with e' | ⟨e', ne'⟩
      · subst e'; rw [hob, hobj a ne] at h3; exact (F.sepD a e h3).elim
      · rw [hobj a ne, hobj c ne'] at h3; exact S1.sepD a c e e' h3
  · intro a c h1 h2 h3
    have hob : (m3.obj o).chunks = (m1.obj o).chunks := by rw [hself]
    rcases hu a h1 with e | ⟨e, ne⟩
    · rcases hu c h2 with e' | ⟨e', ne'⟩
      · omega
      · subst e; rw [hob, hobj c ne'] at h3; exact (F.sepC c e' h3.symm).elim
    · rcases hu c h2 with e' | ⟨e', ne'⟩
      · subst e'; rw [hob, hobj a ne] at h3; exact (F.sepC a e h3).elim
      · rw [hobj a ne, hobj c ne'] at h3; exact S1.sepC a c e e' h3
  · exact a1.congr eB eF eG eH
  · rw [eCa]; exact S1.cache
  · rw [eL]; exact S1.newLines
  · intro v l hl
    have ok := S1.lists v l hl
    unfold ListOK at ok ⊢
    cases hf : l.from_ with
    | none =>
      rw [hf] at ok
      obtain ⟨k1, k2, k3⟩ := ok
      refine ⟨by rw [eA, eS]; exact k1, fun a ha => ?_, by rw [eS]; exact k3⟩
      rw [eS]
      rcases hu a ha with e | ⟨e, ne⟩
      · subst e; rw [hself]; exact fun e => F.lists v l hl hf e.symm
      · rw [hobj a ne]; exact k2 a e
    | some p =>
      obtain ⟨h, lo⟩ := p
      rw [hf] at ok
      obtain ⟨q', o', hi, k1, k2, k3, k4, k5, k6⟩ := ok
      have h1 : hold s1 none (some h) = some q' := k1
      have hne : o' ≠ o := fun e => F.unused (.inr ⟨some h, by rw [h1]; rfl, by rw [← e]; exact k2⟩)
      exact ⟨q', o', hi, k1, by rw [eV]; exact k2, k3, k4, by rw [eS, hobj o' hne]; exact k5, k6⟩

/-- The new statement is assigned to a variable. -/
theorem Sim.assign {m : Mem α} {s : View α} {n : Nat} {q : Stmt α} (S : Sim m s (some (n, q))) (g : Nat) :
    Sim (m.setVar g n) { s.expire g with world := s.world.set g (some q) } none := by
  let f : Option Nat → Option Nat := fun i => if i = some g then none else i
  have hfg : f (some g) = none := by simp [f]
  have hfo : ∀ h, h ≠ g → f (some h) = some h := fun h hh => by simp [f, hh]
  have hhold : ∀ i p, hold { s.expire g with world := s.world.set g (some q) } none i = some p → hold s (some (n, q)) (f i) = some p ∧ ptr (m.setVar g n) none i = ptr m (some (n, q)) (f i) := by
    intro i p h
    cases i with
    | none => simp [hold] at h
    | some k =>
      by_cases e : k = g
      · subst e
        rw [hfg]
        simp only [hold, World.set, if_true] at h ⊢
        exact ⟨by simpa using h, by simp [ptr, setVar]⟩
      · rw [hfo k e]
        simp only [hold, World.set, e, if_false] at h ⊢
        exact ⟨h, by simp [ptr, setVar, e]⟩
  refine S.carry f (.refl _) (.refl _) (.refl _) (.congr rfl rfl rfl rfl) (S.bufs.congr rfl rfl rfl rfl) (le_refl _) hhold ?_ (fun _ h => h) S.nodup S.pool (fun _ _ => rfl) S.cache S.newLines ?_
  · intro i j h1 h2 e
    cases i with
    | none => simp [hold] at h1
    | some a => cases j with
      | none => simp [hold] at h2
      | some b =>
        by_cases ha : a = g
        · by_cases hb : b = g
          · rw [ha, hb]
          · rw [ha, hfg, hfo b hb] at e; cases e
        · by_cases hb : b = g
          · rw [hb, hfg, hfo a ha] at e; cases e
          · rw [hfo a ha, hfo b hb] at e; exact e
  · intro v l hl
    obtain ⟨k1, k2⟩ := (expire_lists s g v l).1 hl
    refine ⟨k1, rfl, fun h lo e => ?_⟩
    have hne : h ≠ g := fun e' => k2 (by rw [e, ← e']; rfl)
    refine ⟨by simp [World.set, hne], by simp [setVar, hne], ?_⟩
    have ok := S.lists v l k1
    unfold ListOK at ok; rw [e] at ok
    obtain ⟨q', o, hi, a1, a2, _⟩ := ok
    rw [a2]
    have h1 : hold { s.expire g with world := s.world.set g (some q) } none (some h) = some q' := by simp only [hold, World.set, hne, if_false]; exact a1
    exact .inr ⟨some h, by rw [h1]; rfl, by simp only [ptr, setVar, hne, if_false]; exact a2⟩

end Mem
end Xsql
