import Verif.Flake.Lemmas
import Verif.Flake.Spec
/-! Invariants of the concurrent machine. -/
namespace Flake

/-- (time, sequence) of an ID, as numbers. -/
def pairOf (id : BitVec 64) : Nat × Nat := (id.toNat / 2 ^ 22, id.toNat / 2 ^ 16 % 64)

/-- (time, sequence) of a generator. -/
def pairGen (g : Gen) : Nat × Nat := (g.elapsed.toNat, g.sequence.toNat)

/-- Consecutive IDs: next sequence number in the same unit, or a later unit from 0. -/
def Step (p q : Nat × Nat) : Prop :=
  (q.1 = p.1 ∧ q.2 = p.2 + 1) ∨ (p.1 < q.1 ∧ q.2 = 0)

theorem toID_pair (g : Gen) (hg : Inv g) (id : BitVec 64) (h : toID g = some id) :
    pairOf id = pairGen g ∧ id.toNat % 2 ^ 16 = g.machineID.toNat ∧ id.toNat < 2 ^ 63 := by
  have h1 := toID_toNat g hg id h
  have h2 := hg.elapsed_nonneg
  have h3 := hg.seq_lt
  have h4 := g.machineID.isLt
  simp only [pairOf, pairGen, key] at *
  refine ⟨?_, by omega, by omega⟩
  ext <;> simp <;> omega

theorem advance_step (g : Gen) (hg : Inv g) (cur : Int) :
    Step (pairGen g) (pairGen (advance g cur).1) := by
  have h := advance_cases g hg cur
  have h2 := hg.elapsed_nonneg
  simp only [Step, pairGen] at *
  omega

/-- Is this position inside the critical section? -/
def Pc.crit : Pc → Bool
  | .idle => false
  | .waiting => false
  | _ => true

/-- Is this position after the update of the shared state and before the return? -/
def Pc.mid : Pc → Bool
  | .sleeping _ => true
  | .ready => true
  | _ => false

theorem Pc.mid_crit {p : Pc} (h : p.mid = true) : p.crit = true := by cases p <;> simp_all [Pc.mid, Pc.crit]

/-- Chain of `Step`s. -/
inductive Chain : Nat × Nat → List (Nat × Nat) → Prop
  | nil (p) : Chain p []
  | cons {p q l} : Step p q → Chain q l → Chain p (q :: l)

/-- The last element. -/
def lastOf (p : Nat × Nat) (l : List (Nat × Nat)) : Nat × Nat := l.getLastD p

theorem Chain.snoc {p l} (h : Chain p l) {q} (hq : Step (lastOf p l) q) : Chain p (l ++ [q]) := by
  induction h with
  | nil p => exact .cons (by simpa [lastOf] using hq) (.nil _)
  | @cons p q' l hs _ ih =>
    refine .cons hs (ih ?_)
    simpa only [lastOf, List.getLastD_cons] using hq

theorem Chain.lt_all {p l} (h : Chain p l) (hp : p.2 < 64) (hl : ∀ q ∈ l, q.2 < 64) :
    ∀ q ∈ l, p.1 * 64 + p.2 < q.1 * 64 + q.2 := by
  induction h with
  | nil => simp
  | @cons p q l hs _ ih =>
    intro r hr
    have hq := hl q (by simp)
    have hpq : p.1 * 64 + p.2 < q.1 * 64 + q.2 := by
      rcases hs with h | h <;> omega
    rcases List.mem_cons.1 hr with rfl | hr
    · exact hpq
    · have := ih hq (fun x hx => hl x (by simp [hx])) r hr
      omega

/-- The pairs logged so far. -/
def logPairs (c : Conc) : List (Nat × Nat) := c.log.map fun x => pairOf x.2

/-- Invariant of the machine; `g0` is the generator at the start. -/
structure CInv (g0 : Gen) (c : Conc) : Prop where
  inv : Inv c.gen
  machine : c.gen.machineID = g0.machineID
  start : c.gen.startTime = g0.startTime
  first : c.gen.firstID = g0.firstID
  ge : g0.elapsed ≤ c.gen.elapsed
  mutex : ∀ t, (c.pc t).crit = true ↔ c.holder = some t
  logMachine : ∀ x ∈ c.log, x.2.toNat % 2 ^ 16 = g0.machineID.toNat
  logBound : ∀ x ∈ c.log, x.2.toNat < 2 ^ 63
  chain : Chain (pairGen g0) (logPairs c)
  lastIdle : (∀ t, (c.pc t).mid = false) → c.gen.elapsed < 2199023255552 →
      lastOf (pairGen g0) (logPairs c) = pairGen c.gen
  lastMid : ∀ t, (c.pc t).mid = true → c.gen.elapsed < 2199023255552 →
      Step (lastOf (pairGen g0) (logPairs c)) (pairGen c.gen)

theorem cinit_inv (g : Gen) (hg : Inv g) : CInv g (cinit g) := by
  refine ⟨hg, rfl, rfl, rfl, Int.le_refl _, ?_, ?_, ?_, .nil _, ?_, ?_⟩ <;>
    simp [cinit, Pc.crit, Pc.mid, lastOf, logPairs]

theorem setPc_same (f : Nat → Pc) (t p) : setPc f t p t = p := by simp [setPc]
theorem setPc_other (f : Nat → Pc) (t p u) (h : u ≠ t) : setPc f t p u = f u := by simp [setPc, h]

/-- Changing one goroutine's position without entering or leaving the critical section. -/
theorem mutex_keep {c : Conc} {t : Nat} {p : Pc} (hm : ∀ t, (c.pc t).crit = true ↔ c.holder = some t)
    (hp : p.crit = (c.pc t).crit) : ∀ u, (setPc c.pc t p u).crit = true ↔ c.holder = some u := by
  intro u
  by_cases hu : u = t
  · subst hu; rw [setPc_same, hp]; exact hm u
  · rw [setPc_other _ _ _ _ hu]; exact hm u

/-- Outside the critical section of `t`, nobody else is in it. -/
theorem others_not_crit {c : Conc} {t : Nat} (hm : ∀ t, (c.pc t).crit = true ↔ c.holder = some t)
    (ht : (c.pc t).crit = true) : ∀ u, u ≠ t → (c.pc u).crit = false := by
  intro u hu
  have h1 := (hm t).1 ht
  cases h : (c.pc u).crit
  · rfl
  · have := (hm u).1 h; rw [h1] at this; injection this with this; exact absurd this.symm hu

theorem not_mid_of_not_crit {p : Pc} (h : p.crit = false) : p.mid = false := by
  cases hm : p.mid
  · rfl
  · rw [Pc.mid_crit hm] at h; cases h

/-- Changing the position of `t` between two non-mid positions changes nothing else. -/
theorem cinv_pc {g0 : Gen} {c : Conc} (h : CInv g0 c) {t : Nat} {p : Pc} {ho : Option Nat}
    (hmx : ∀ u, (setPc c.pc t p u).crit = true ↔ ho = some u)
    (hmid : p.mid = (c.pc t).mid) :
    CInv g0 { c with pc := setPc c.pc t p, holder := ho } := by
  have hall : ∀ u, (setPc c.pc t p u).mid = (c.pc u).mid := by
    intro u; by_cases hu : u = t
    · subst hu; rw [setPc_same, hmid]
    · rw [setPc_other _ _ _ _ hu]
  refine ⟨h.inv, h.machine, h.start, h.first, h.ge, hmx, h.logMachine, h.logBound, h.chain, ?_, ?_⟩
  · intro hm; exact h.lastIdle (fun u => by rw [← hall u]; exact hm u)
  · intro u hu; exact h.lastMid u (by rw [← hall u]; exact hu)

theorem cstep_inv {g0 : Gen} {c : Conc} (h : CInv g0 c) {t : Nat} {a : Act} {c' : Conc}
    (hs : cstep c t a = some c') : CInv g0 c' := by
  unfold cstep at hs
  split at hs
  · rename_i hpc
    injection hs with hs; subst hs
    exact cinv_pc h (mutex_keep h.mutex (by simp [hpc, Pc.crit])) (by simp [hpc, Pc.mid])
  · rename_i hpc
    split at hs
    · rename_i hho
      injection hs with hs; subst hs
      refine cinv_pc h ?_ (by simp [hpc, Pc.mid])
      intro u
      by_cases hu : u = t
      · subst hu; rw [setPc_same]; simp [Pc.crit]
      · rw [setPc_other _ _ _ _ hu, h.mutex u, hho]; simp; exact fun h => hu h.symm
    · cases hs
  · rename_i hpc
    injection hs with hs; subst hs
    exact cinv_pc h (mutex_keep h.mutex (by simp [hpc, Pc.crit])) (by simp [hpc, Pc.mid])
  · -- update
    rename_i now2 current hpc
    injection hs with hs; subst hs
    have hcrit : (c.pc t).crit = true := by simp [hpc, Pc.crit]
    have hnomid : ∀ u, (c.pc u).mid = false := by
      intro u
      by_cases hu : u = t
      · subst hu; simp [hpc, Pc.mid]
      · exact not_mid_of_not_crit (others_not_crit h.mutex hcrit u hu)
    have hst := advance_static c.gen current
    have hel := advance_elapsed c.gen h.inv current
    have hnew : (if (advance c.gen current).2 = true then
        Pc.sleeping (sleepTime ((advance c.gen current).1.elapsed - current) now2) else Pc.ready).mid = true := by
      split <;> rfl
    refine ⟨advance_inv _ h.inv _, hst.2.1.trans h.machine, hst.1.trans h.start, hst.2.2.1.trans h.first,
      Int.le_trans h.ge hel.1, ?_, h.logMachine, h.logBound, h.chain, ?_, ?_⟩
    · refine mutex_keep h.mutex ?_
      rw [hcrit]; exact Pc.mid_crit hnew
    · intro hm
      have := hm t
      simp only [setPc_same] at this
      rw [hnew] at this; cases this
    · intro u _ hlt
      have hlt' : c.gen.elapsed < 2199023255552 := Int.lt_of_le_of_lt hel.1 hlt
      show Step (lastOf (pairGen g0) (logPairs c)) _
      rw [h.lastIdle hnomid hlt']
      exact advance_step _ h.inv _
  · rename_i hpc
    injection hs with hs; subst hs
    exact cinv_pc h (mutex_keep h.mutex (by simp [hpc, Pc.crit])) (by simp [hpc, Pc.mid])
  · -- return
    rename_i hpc
    injection hs with hs; subst hs
    have hcrit : (c.pc t).crit = true := by simp [hpc, Pc.crit]
    have hmid : (c.pc t).mid = true := by simp [hpc, Pc.mid]
    have hf := finish_same c.gen
    have hmx : ∀ u, (setPc c.pc t .idle u).crit = true ↔ (none : Option Nat) = some u := by
      intro u
      by_cases hu : u = t
      · subst hu; rw [setPc_same]; simp [Pc.crit]
      · rw [setPc_other _ _ _ _ hu, others_not_crit h.mutex hcrit u hu]; simp
    have hnomid : ∀ u, (setPc c.pc t .idle u).mid = false := by
      intro u
      refine not_mid_of_not_crit ?_
      cases hc : (setPc c.pc t .idle u).crit
      · rfl
      · have := (hmx u).1 hc; cases this
    have hpg : pairGen (finish c.gen).1 = pairGen c.gen := by simp [pairGen, hf.1, hf.2.1]
    cases hid : toID c.gen with
    | none =>
      have hge := (toID_none_iff c.gen).1 hid
      have hfin : (finish c.gen).2 = none := by rw [hf.2.2.2.2.2, hid]
      simp only [hfin, List.append_nil]
      refine ⟨finish_inv _ h.inv, hf.2.2.1.trans h.machine, hf.2.2.2.1.trans h.start,
        hf.2.2.2.2.1.trans h.first, by simpa [hf.1] using h.ge, hmx, h.logMachine, h.logBound, h.chain, ?_, ?_⟩
      · intro _ hlt; simp only [hf.1] at hlt; omega
      · intro u hu; rw [hnomid u] at hu; cases hu
    | some id =>
      have hfin : (finish c.gen).2 = some id := by rw [hf.2.2.2.2.2, hid]
      have hp := toID_pair c.gen h.inv id hid
      have hlt := (toID_toNat c.gen h.inv id hid).1
      simp only [hfin]
      have hlp : logPairs { c with log := c.log ++ [(t, id)] } = logPairs c ++ [pairGen c.gen] := by
        simp [logPairs, hp.1]
      refine ⟨finish_inv _ h.inv, hf.2.2.1.trans h.machine, hf.2.2.2.1.trans h.start,
        hf.2.2.2.2.1.trans h.first, by simpa [hf.1] using h.ge, hmx, ?_, ?_, ?_, ?_, ?_⟩
      · intro x hx
        rcases List.mem_append.1 hx with hx | hx
        · exact h.logMachine x hx
        · simp at hx; subst hx; rw [hp.2.1, h.machine]
      · intro x hx
        rcases List.mem_append.1 hx with hx | hx
        · exact h.logBound x hx
        · simp at hx; subst hx; exact hp.2.2
      · show Chain _ (logPairs { c with log := c.log ++ [(t, id)] })
        rw [hlp]; exact h.chain.snoc (h.lastMid t hmid hlt)
      · intro _ _
        show lastOf _ (logPairs { c with log := c.log ++ [(t, id)] }) = pairGen (finish c.gen).1
        rw [hlp, hpg]; simp [lastOf, List.getLastD_eq_getLast?]
      · intro u hu; rw [hnomid u] at hu; cases hu
  · cases hs

theorem crun_inv {g0 : Gen} : ∀ (s : List (Nat × Act)) {c : Conc}, CInv g0 c → CInv g0 (crun c s)
  | [], _, h => h
  | (t, a) :: s, c, h => by
    rw [crun]
    refine crun_inv s ?_
    cases hc : cstep c t a with
    | none => exact h
    | some c' => exact cstep_inv h hc

/-- The log only grows. -/
theorem cstep_log {c : Conc} {t a c'} (h : cstep c t a = some c') : ∃ l, c'.log = c.log ++ l := by
  unfold cstep at h
  split at h <;> try split at h
  all_goals first
    | (injection h with h; subst h; exact ⟨_, rfl⟩)
    | (injection h with h; subst h; exact ⟨[], by simp⟩)
    | cases h

theorem crun_log : ∀ (s : List (Nat × Act)) (c : Conc), ∃ l, (crun c s).log = c.log ++ l
  | [], c => ⟨[], by simp [crun]⟩
  | (t, a) :: s, c => by
    rw [crun]
    obtain ⟨l, hl⟩ := crun_log s ((cstep c t a).getD c)
    cases hc : cstep c t a with
    | none => rw [hc] at hl; exact ⟨l, hl⟩
    | some c' =>
      rw [hc] at hl
      obtain ⟨l', hl'⟩ := cstep_log hc
      exact ⟨l' ++ l, by rw [hl]; simp [hl']⟩

theorem crun_append (c : Conc) (s₁ s₂ : List (Nat × Act)) : crun c (s₁ ++ s₂) = crun (crun c s₁) s₂ := by
  induction s₁ generalizing c with
  | nil => rfl
  | cons x s ih => obtain ⟨t, a⟩ := x; simp only [List.cons_append, crun]; exact ih _

/-- Elapsed time only grows. -/
theorem cstep_elapsed {g0 c} (hi : CInv g0 c) {t a c'} (h : cstep c t a = some c') :
    c.gen.elapsed ≤ c'.gen.elapsed := by
  have hf := finish_same c.gen
  unfold cstep at h
  split at h <;> try split at h
  all_goals first
    | (injection h with h; subst h; exact Int.le_refl _)
    | (injection h with h; subst h; exact (advance_elapsed _ hi.inv _).1)
    | (injection h with h; subst h; exact Int.le_of_eq hf.1.symm)
    | cases h

/-! ### Construction -/

theorem newGen_ok {st d n0 n1 n2 g sl} (h : newGen st d n0 n1 n2 = .ok (g, sl)) :
    ∃ m, st.resolveMachine d = .ok m ∧
      (st.startTime.getD defaultStartTime) ≤ n0 ∧ st.rejects m = false ∧
      ∃ g' id, nextID (blank (st.startTime.getD defaultStartTime) m) n1 n2
            = (g', sl, some id) ∧ g = { g' with firstID := id } := by
  unfold newGen at h
  simp only at h
  split at h
  · cases h
  · rename_i hst
    split at h
    · cases h
    · rename_i m hm
      split at h
      · cases h
      · rename_i hck
        split at h
        · cases h
        · rename_i g' sl' id hn
          injection h with h
          injection h with h1 h2
          subst h2
          exact ⟨m, hm, by omega, by simpa using hck, g', id, hn, h1.symm⟩

theorem inv_blank (start : Int) (m : BitVec 16) : Inv (blank start m) :=
  ⟨Int.le_refl _, by show maskSequence16.toNat < 64; decide⟩

/-- Facts about a generator returned by the constructor. -/
theorem fresh_facts {g : Gen} (h : Fresh g) :
    Inv g ∧ toID g = some g.firstID ∧ g.lastID = g.firstID ∧ 0 < g.elapsed ∧ g.elapsed < 2199023255552
      ∧ g.sequence = 0 := by
  obtain ⟨st, d, n0, n1, n2, sl, h⟩ := h
  obtain ⟨m, -, -, -, g', id, hn, rfl⟩ := newGen_ok h
  generalize hG : blank (st.startTime.getD defaultStartTime) m = G at hn
  have hG0 : Inv G := by rw [← hG]; exact inv_blank _ _
  have he : G.elapsed = 0 := by rw [← hG]; rfl
  have hs : G.sequence.toNat = 63 := by rw [← hG]; rfl
  have hx := nextID_eq G n1 n2
  rw [hn] at hx
  simp only at hx
  have hf := finish_same (advance G (currentElapsed G.startTime n1)).1
  have hai := advance_inv G hG0 (currentElapsed G.startTime n1)
  have hc := advance_cases G hG0 (currentElapsed G.startTime n1)
  have hfi := finish_inv _ hai
  rw [← hx.1] at hf hfi
  rw [← hx.2] at hf
  have hid : toID g' = some id := by
    rw [hf.2.2.2.2.2, toID, toID, hf.1, hf.2.1, hf.2.2.1]
  have hlt := (toID_toNat g' hfi id hid).1
  have hlast : g'.lastID = id := by
    rw [hx.1, finish, ← hf.2.2.2.2.2]
  simp only at hc
  refine ⟨⟨hfi.1, hfi.2⟩, hid, hlast, ?_, hlt, ?_⟩
  · show 0 < g'.elapsed
    rw [hf.1]; omega
  · show g'.sequence = 0
    apply BitVec.eq_of_toNat_eq
    rw [hf.2.1]
    show _ = 0
    omega

end Flake
