import Verif.Xsql.MemSim3
set_option linter.unusedSimpArgs false
set_option linter.unusedVariables false
set_option linter.unusedSectionVars false
/- Close, String and the methods that change one field. -/
namespace Xsql
open Heap
variable {α : Type} [Inhabited α]
namespace Mem

/-- An empty statement goes to the pool, its buffer to the other one. -/
theorem Sim.retire {m : Mem α} {s : View α} (S : Sim m s none) {h o b : Nat} {q : Stmt α} (hq : s.world.live h = some q) (hv : m.vars h = some o) (L : Live m o b q)
    (ha : q.args = []) (hd : q.dest = []) (hc : q.chunks = []) :
    Sim { (m.putBuffer b).setObj o { m.obj o with buf := none } with pool := o :: m.pool } { s.expire h with world := (s.world.set h none).reuse q } none := by
  obtain ⟨b1, b2, b3⟩ := putBuffer_ok S.bufs L.lt L.out
  have hh : hold s none (some h) = some q := hq
  have huo : Used m s none o := .inr ⟨some h, by rw [hh]; rfl, hv⟩
  generalize hs' : ({ s.expire h with world := (s.world.set h none).reuse q } : View α) = s'
  have hlive : s'.world.live = fun i => if i = h then none else s.world.live i := by subst hs'; rfl
  have hl' : ∀ v l, s'.lists v = some l ↔ s.lists v = some l ∧ l.from_.map Prod.fst ≠ some h := by subst hs'; exact expire_lists s h
  have hpool' : s'.world.pool = { q with chunks := [], args := [], dest := [], buf := [], sql := [], name := [] } :: s.world.pool := by subst hs'; rfl
  have hca : s'.world.cache = s.world.cache := by subst hs'; rfl
  have hnl : s'.world.newLines = s.world.newLines := by subst hs'; rfl
  generalize hm' : ({ (m.putBuffer b).setObj o { m.obj o with buf := none } with pool := o :: m.pool } : Mem α) = m'
  have eA : m'.args = m.args := by subst hm'; rfl
  have eD : m'.dest = m.dest := by subst hm'; rfl
  have eC : m'.chunks = m.chunks := by subst hm'; rfl
  have eB : m'.bytes = (m.putBuffer b).bytes := by subst hm'; rfl
  have eF : m'.bufs = (m.putBuffer b).bufs := by subst hm'; rfl
  have eG : m'.nextBuf = (m.putBuffer b).nextBuf := by subst hm'; rfl
  have eH : m'.bufPool = (m.putBuffer b).bufPool := by subst hm'; rfl
  have eV : m'.vars = m.vars := by subst hm'; rfl
  have eS : m'.slices = m.slices := by subst hm'; rfl
  have eN : m'.nextObj = m.nextObj := by subst hm'; rfl
  have eP : m'.pool = o :: m.pool := by subst hm'; rfl
  have eCa : m'.cache = m.cache := by subst hm'; rfl
  have eL : m'.newLines = m.newLines := by subst hm'; rfl
  have hobj : ∀ a, a ≠ o → m'.obj a = m.obj a := by subst hm'; intro a ha; exact setObj_other _ _ _ _ ha
  have hself : m'.obj o = { m.obj o with buf := none } := by subst hm'; exact setObj_self _ _ _
  have hargs : ∀ a, (m'.obj a).args = (m.obj a).args := by
    intro a; by_cases e : a = o
    · subst e; rw [hself]
    · rw [hobj a e]
  have hdest : ∀ a, (m'.obj a).dest = (m.obj a).dest := by
    intro a; by_cases e : a = o
    · subst e; rw [hself]
    · rw [hobj a e]
  have hchunks : ∀ a, (m'.obj a).chunks = (m.obj a).chunks := by
    intro a; by_cases e : a = o
    · subst e; rw [hself]
    · rw [hobj a e]
  have live' : ∀ i p, hold s' none i = some p → ∃ k, i = some k ∧ k ≠ h ∧ s.world.live k = some p := by
    intro i p hp
    cases i with
    | none => simp [hold] at hp
    | some k =>
      simp only [hold, hlive] at hp
      by_cases e : k = h
      · rw [if_pos e] at hp; cases hp
      · rw [if_neg e] at hp; exact ⟨k, rfl, e, hp⟩
  have other : ∀ k p a, k ≠ h → s.world.live k = some p → m.vars k = some a → a ≠ o := by
    intro k p a hk hp ha e
    have h1 : hold s none (some k) = some p := hp
    exact hk (Option.some.inj (S.inj (some k) (some h) o (by rw [h1]; rfl) (by rw [hh]; rfl) (by rw [← e]; exact ha) hv))
  have hu : ∀ a, Used m' s' none a → Used m s none a := by
    rintro a (k | ⟨i, k, k'⟩)
    · rw [eP] at k
      rcases List.mem_cons.1 k with e | e
      · rw [e]; exact huo
      · exact .inl e
    · obtain ⟨p, hp⟩ := Option.isSome_iff_exists.1 k
      obtain ⟨j, rfl, hj, hjp⟩ := live' i p hp
      have h1 : hold s none (some j) = some p := hjp
      simp only [ptr] at k'; rw [eV] at k'
      exact .inr ⟨some j, by rw [h1]; rfl, k'⟩
  constructor
  · intro i p hp
    obtain ⟨k, rfl, hk, hkp⟩ := live' i p hp
    obtain ⟨a, c, k1, l⟩ := S.live (some k) p hkp
    have hne := other k p a hk hkp k1
    have hcb : c ≠ b := fun e => hne (S.injB a o b (.inr ⟨some k, by rw [show hold s none (some k) = some p from hkp]; rfl, k1⟩) huo (e ▸ l.rep.buf) L.rep.buf)
    have r := l.rep
    refine ⟨a, c, by simp only [ptr] at k1 ⊢; rw [eV]; exact k1, ?_, by rw [eG]; exact lt_of_lt_of_le l.lt b2.nextBuf, by rw [eH]; exact b2.used c l.lt l.out hcb,
      by rw [eP]; simp [hne, l.free], by rw [eN]; exact l.obj⟩
    have e := hobj a hne
    constructor
    all_goals (try rw [e])
    all_goals first
      | exact r.name | exact r.dialect | exact r.pos | exact r.sql | exact r.nl | exact r.buf
      | (rw [eA]; exact r.args) | (rw [eD]; exact r.dest) | (rw [eC]; exact r.chunks)
      | (rw [eB, eF]; exact b2.shows l.lt l.out hcb r.bytes)
  · intro i j a h1 h2 h3 h4
    obtain ⟨p, hp⟩ := Option.isSome_iff_exists.1 h1
    obtain ⟨p', hp'⟩ := Option.isSome_iff_exists.1 h2
    obtain ⟨k, rfl, hk, hkp⟩ := live' i p hp
    obtain ⟨k', rfl, hk', hkp'⟩ := live' j p' hp'
    simp only [ptr] at h3 h4; rw [eV] at h3 h4
    have g1 : hold s none (some k) = some p := hkp
    have g2 : hold s none (some k') = some p' := hkp'
    exact S.inj (some k) (some k') a (by rw [g1]; rfl) (by rw [g2]; rfl) h3 h4
  · intro a c b' h1 h2 h3 h4
    have na : a ≠ o := by rintro rfl; rw [hself] at h3; cases h3
    have nc : c ≠ o := by rintro rfl; rw [hself] at h4; cases h4
    rw [hobj a na] at h3; rw [hobj c nc] at h4
    exact S.injB a c b' (hu a h1) (hu c h2) h3 h4
  · rw [eP, hpool']
    refine .cons ?_ (forall2_imp S.pool fun a c ham r => ?_)
    · have r := L.rep
      constructor
      all_goals (try rw [hself])
      case args => rw [eA]; rw [← ha]; exact r.args
      case dest => rw [eD]; rw [← hd]; exact r.dest
      case chunks => rw [eC]; rw [← hc]; exact r.chunks
      case empty => exact ⟨rfl, rfl, rfl⟩
      all_goals first | exact r.dialect | exact r.pos | exact r.nl
    · have hne : a ≠ o := fun e => L.free (e ▸ ham)
      have e := hobj a hne
      constructor
      all_goals (try rw [e])
      all_goals first
        | exact r.dialect | exact r.pos | exact r.nl | exact r.buf | exact r.empty
        | (rw [eA]; exact r.args) | (rw [eD]; exact r.dest) | (rw [eC]; exact r.chunks)
  · rw [eP]; exact List.nodup_cons.2 ⟨L.free, S.nodup⟩
  · rw [eP, eN]
    intro a ham
    rcases List.mem_cons.1 ham with e | e
    · rw [e]; exact L.obj
    · exact S.poolLt a e
  · intro a c h1 h2; rw [hargs, hargs]; exact S.sepA a c (hu a h1) (hu c h2)
  · intro a c h1 h2; rw [hdest, hdest]; exact S.sepD a c (hu a h1) (hu c h2)
  · intro a c h1 h2; rw [hchunks, hchunks]; exact S.sepC a c (hu a h1) (hu c h2)
  · exact b1.congr eB eF eG eH
  · rw [eCa, hca]; exact S.cache
  · rw [eL, hnl]; exact S.newLines
  · intro v l hl
    obtain ⟨hl1, hl2⟩ := (hl' v l).1 hl
    have ok := S.lists v l hl1
    unfold ListOK at ok ⊢
    cases hf : l.from_ with
    | none =>
      rw [hf] at ok
      obtain ⟨k1, k2, k3⟩ := ok
      refine ⟨by rw [eA, eS]; exact k1, fun a ham => by rw [hargs, eS]; exact k2 a (hu a ham), fun v' l' h1 h2 => by rw [eS]; exact k3 v' l' ((hl' v' l').1 h1).1 h2⟩
    | some p =>
      obtain ⟨k, lo⟩ := p
      rw [hf] at ok
      obtain ⟨q', a, hi, k1, k2, k3, k4, k5, k6⟩ := ok
      have hk : k ≠ h := fun e => hl2 (by rw [hf, ← e]; rfl)
      exact ⟨q', a, hi, by rw [hlive]; simp only [hk, if_false]; exact k1, by rw [eV]; exact k2, k3, k4, by rw [eS, hargs]; exact k5, k6⟩

theorem replicate_shows {β : Type} [Inhabited β] {h : Heap β} {s : Slice} {xs : List β} (k : h.Shows s xs) :
    (if s.len > 0 then h.store s.arr s.off (List.replicate s.len default) else h).Shows { s with len := 0 } [] ∧
    Step h (if s.len > 0 then h.store s.arr s.off (List.replicate s.len default) else h) s.arr s.arr := by
  obtain ⟨h1, h2, h3, rst, h4⟩ := k
  split
  · exact ⟨⟨h1, rfl, h3, _, rfl⟩, store_step ..⟩
  · exact ⟨⟨h1, rfl, h3, _, rfl⟩, Step.refl ..⟩

/-- Close. -/
theorem Sim.close {m : Mem α} {s : View α} (S : Sim m s none) {h o b : Nat} {q : Stmt α} (hq : s.world.live h = some q) (hv : m.vars h = some o) (L : Live m o b q) :
    Sim (m.reuse o) { s.expire h with world := (s.world.set h none).reuse q } none := by
  have r := L.rep
  obtain ⟨a1, a2⟩ := replicate_shows r.args
  obtain ⟨d1, d2⟩ := replicate_shows r.dest
  have cs : m.chunks.Shows { (m.obj o).chunks with len := 0 } [] := ⟨r.chunks.1, rfl, r.chunks.2.2.1, _, rfl⟩
  let x := m.obj o
  let m1 : Mem α := ({ m with
    args := if x.args.len > 0 then m.args.store x.args.arr x.args.off (List.replicate x.args.len default) else m.args,
    dest := if x.dest.len > 0 then m.dest.store x.dest.arr x.dest.off (List.replicate x.dest.len default) else m.dest } : Mem α).setObj o
      { x with chunks := { x.chunks with len := 0 }, args := { x.args with len := 0 }, dest := { x.dest with len := 0 }, sql := [], name := [] }
  let q1 : Stmt α := { q with chunks := [], args := [], dest := [], sql := [], name := [] }
  have R1 : Rep m1 o b q1 := by
    constructor
    all_goals (try (dsimp only [m1]; rw [setObj_self]))
    case args => exact a1
    case dest => exact d1
    case chunks => exact cs
    case bytes => exact r.bytes
    all_goals first | exact r.dialect | exact r.pos | exact r.nl | exact r.buf
  have F1 : Frame m m1 o b True := by
    constructor
    · dsimp only [m1]; rw [setObj_self]; exact a2
    · intro k; exact absurd trivial k
    · dsimp only [m1]; rw [setObj_self]; exact d2
    · dsimp only [m1]; rw [setObj_self]; exact Step.refl ..
    · exact Step.refl ..
    · intro i hi; exact setObj_other _ _ _ _ hi
    · intro _ _; rfl
    · rfl
  have F2 := F1.call S.bufs L.lt L.out R1
  have S1 : Sim m1 { s.expire h with world := s.world.set h (some q1) } none := by
    refine S.update (i := some h) hq hv L F2 R1 ?_ ?_ ?_ rfl rfl rfl ?_
    · funext i; cases i <;> rfl
    · simp [hold, World.set]
    · intro j hj
      cases j with
      | none => rfl
      | some k => simp only [hold, World.set]; rw [if_neg (fun e => hj (by rw [e]))]
    · intro v l hl
      obtain ⟨k1, k2⟩ := (expire_lists s h v l).1 hl
      refine ⟨k1, fun _ e => k2 ?_⟩
      cases hf : l.from_ with
      | none => rw [hf] at e; cases e
      | some p => rw [hf] at e; simpa using e
  have L1 : Live m1 o b q1 := ⟨R1, L.lt, L.out, L.free, L.obj⟩
  have S2 := S1.retire (h := h) (q := q1) (by simp [World.set]) hv L1 rfl rfl rfl
  have em : m.reuse o = { (m1.putBuffer b).setObj o { m1.obj o with buf := none } with pool := o :: m1.pool } := by
    have hb : (m.obj o).buf = some b := r.buf
    simp only [reuse, hb, m1, x, putBuffer, setObj, if_true]
    congr 1
    funext i
    by_cases e : i = o <;> simp [e]
  rw [em]
  have es : ({ s.expire h with world := (s.world.set h none).reuse q } : View α) =
      { ({ s.expire h with world := s.world.set h (some q1) } : View α).expire h with world := (({ s.expire h with world := s.world.set h (some q1) } : View α).world.set h none).reuse q1 } := by
    have e1 : ∀ v, (s.expire h).lists v = ((s.expire h).expire h).lists v := by
      intro v
      cases e : (s.expire h).lists v with
      | none => simp only [View.expire] at e ⊢; rw [e]
      | some l =>
        symm
        rw [expire_lists]
        exact ⟨e, ((expire_lists s h v l).1 e).2⟩
    have e2 : (s.world.set h none).reuse q = ((s.world.set h (some q1)).set h none).reuse q1 := by
      simp only [World.reuse, World.set, q1]
      congr 1
      funext i
      by_cases e : i = h <;> simp [e]
    have e3 : (s.expire h).lists = ((s.expire h).expire h).lists := funext e1
    rw [e2]
    simp only [View.mk.injEq, true_and]
    exact e3
  rw [es]
  exact S2

end Mem
end Xsql
