import Verif.Flake.TimeLemmas
/-!
Property theorems for pkg/flake (C01-C09).

`Fresh g` : `g` was returned by some successful `NewIDGenerator`.
`idsOf g s` : every ID handed out by `g` under schedule `s` (arbitrary interleaving of the atomic
steps of any number of goroutines, arbitrary clock readings), oldest first, first ID included.
-/
namespace Flake

/-! A concrete generator and schedule used to show that the hypotheses are met. -/

/-- Start time 0, machine 7, created at 5.3 ms. -/
def exGen : Gen := { startTime := 0, elapsed := 5, sequence := 0, maxSequence := 0, machineID := 7,
                     firstID := 20971527, lastID := 20971527 }

theorem exGen_fresh : Fresh exGen :=
  ⟨{ startTime := some 0, machineID := some (.ok 7) }, 0, 5300000, 5300000, 5300000, 0, by rfl⟩

/-- Two goroutines interleaving, the clock going backwards in between. -/
def exSched : List (Nat × Act) :=
  [(0, .call), (1, .call), (0, .acquire), (1, .acquire), (0, .readClock 5400000), (0, .update 0),
   (0, .ret), (1, .acquire), (1, .readClock 1000000), (0, .call), (1, .update 0), (1, .ret),
   (0, .acquire), (0, .readClock 9000000), (0, .update 0), (0, .ret)]

example : idsOf exGen exSched =
    [5 * 4194304 + 7, 5 * 4194304 + 1 * 65536 + 7, 5 * 4194304 + 2 * 65536 + 7, 9 * 4194304 + 7] := by decide +kernel

/-! ## C01 -/

/-- IDs are strictly increasing in the order they are handed out, for every schedule of any number
of goroutines and any clock. -/
theorem C01_ids_strictly_increasing {g : Gen} (h : Fresh g) (s : List (Nat × Act)) :
    (idsOf g s).Pairwise fun x y => x.toNat < y.toNat := by
  have hf := ids_facts h s
  refine chain_pairwise _ _ ?_ (hf.1 _ (by simp [idsOf])).1 ?_
  · rw [List.map_map]; exact hf.2
  · intro x hx; exact (hf.1 x (by simp only [idsOf, List.mem_cons]; exact .inr hx)).1

/-- No ID is handed out twice. -/
theorem C01_ids_unique {g : Gen} (h : Fresh g) (s : List (Nat × Act)) : (idsOf g s).Nodup :=
  (C01_ids_strictly_increasing h s).imp (fun {a b} hlt (he : a = b) => by rw [he] at hlt; omega)

/-- A call that returned before another started (anything logged by prefix `s₁` of the schedule
against anything logged afterwards) got the smaller ID. -/
theorem C01_real_time_order {g : Gen} (h : Fresh g) (s₁ s₂ : List (Nat × Act)) :
    ∃ later, idsOf g (s₁ ++ s₂) = idsOf g s₁ ++ later ∧
      ∀ x ∈ idsOf g s₁, ∀ y ∈ later, x.toNat < y.toNat := by
  obtain ⟨l, hl⟩ := crun_log s₂ (crun (cinit g) s₁)
  have he : idsOf g (s₁ ++ s₂) = idsOf g s₁ ++ l.map Prod.snd := by
    simp [idsOf, crun_append, hl]
  refine ⟨_, he, ?_⟩
  have := C01_ids_strictly_increasing h (s₁ ++ s₂)
  rw [he, List.pairwise_append] at this
  exact this.2.2

/-- The lock works: in every reachable state at most one goroutine is between `Lock` and `Unlock`. -/
theorem C01_mutual_exclusion {g : Gen} (h : Fresh g) (s : List (Nat × Act)) (t u : Nat)
    (ht : ((crun (cinit g) s).pc t).crit = true) (hu : ((crun (cinit g) s).pc u).crit = true) : t = u := by
  have hm := (fresh_cinv h s).mutex
  have h1 := (hm t).1 ht
  have h2 := (hm u).1 hu
  rw [h1] at h2; injection h2

/-- ... and the generator never blocks: whoever holds the lock has an enabled step, and when nobody
does a waiting goroutine can take it (also after a panic). -/
theorem C01_no_deadlock {g : Gen} (h : Fresh g) (s : List (Nat × Act)) (t : Nat)
    (ht : (crun (cinit g) s).pc t = .waiting) :
    ∃ u a, (cstep (crun (cinit g) s) u a).isSome = true ∧
      ((crun (cinit g) s).holder = none → u = t ∧ a = .acquire) := by
  have hm := (fresh_cinv h s).mutex
  generalize crun (cinit g) s = c at *
  cases hh : c.holder with
  | none => exact ⟨t, .acquire, by simp [cstep, ht, hh], fun _ => ⟨rfl, rfl⟩⟩
  | some u =>
    have hc := (hm u).2 hh
    refine ⟨u, match c.pc u with
      | .locked => .readClock 0 | .gotClock _ => .update 0 | .sleeping _ => .wake | _ => .ret, ?_, nofun⟩
    cases hp : c.pc u <;> simp_all [Pc.crit, cstep]

example : Fresh exGen := exGen_fresh
example : (crun (cinit exGen) (exSched.take 4)).pc 1 = .waiting := by decide +kernel

/-! ## C02 -/

/-- Generators with different machine ids have disjoint histories. -/
theorem C02_machines_disjoint {g g' : Gen} (h : Fresh g) (h' : Fresh g') (hm : g.machineID ≠ g'.machineID)
    (s s' : List (Nat × Act)) : ∀ x ∈ idsOf g s, x ∉ idsOf g' s' := by
  intro x hx hx'
  have h1 := ((ids_facts h s).1 x hx).1
  have h2 := ((ids_facts h' s').1 x hx').1
  exact hm (BitVec.eq_of_toNat_eq (h1.symm.trans h2))

/-- Same clock, same start, machine 8. -/
def exGen8 : Gen := { exGen with machineID := 8, firstID := 20971528, lastID := 20971528 }
example : Fresh exGen8 ∧ exGen.machineID ≠ exGen8.machineID :=
  ⟨⟨{ startTime := some 0, machineID := some (.ok 8) }, 0, 5300000, 5300000, 5300000, 0, by rfl⟩, by decide⟩

/-! ## C03 -/

/-- `Decompose` for every 64-bit value: each part is the corresponding bit field. -/
theorem C03_decompose_fields (id : BitVec 64) :
    (decompose id).id = id ∧
    (decompose id).msb.toNat = id.toNat / 2 ^ 63 ∧
    (decompose id).time.toNat = id.toNat / 2 ^ 22 ∧
    (decompose id).sequence.toNat = id.toNat / 2 ^ 16 % 2 ^ 6 ∧
    (decompose id).machineID.toNat = id.toNat % 2 ^ 16 := decompose_spec id

/-- The parts recombine to the id. -/
theorem C03_recombine (id : BitVec 64) :
    (decompose id).time.toNat * 2 ^ 22 + (decompose id).sequence.toNat * 2 ^ 16
      + (decompose id).machineID.toNat = id.toNat := by
  have h := decompose_spec id
  omega

/-- `Decompose` without its "id" entry is still injective. -/
theorem C03_decompose_injective (a b : BitVec 64)
    (ht : (decompose a).time = (decompose b).time) (hs : (decompose a).sequence = (decompose b).sequence)
    (hm : (decompose a).machineID = (decompose b).machineID) : a = b := by
  apply BitVec.eq_of_toNat_eq
  rw [← C03_recombine a, ← C03_recombine b, ht, hs, hm]

/-- Every ID handed out is positive also as an int64, carries the generator's machine id and a
time of at least one unit and below 2^41. -/
theorem C03_ids_valid {g : Gen} (h : Fresh g) (s : List (Nat × Act)) :
    ∀ id ∈ idsOf g s, id ≠ 0 ∧ 0 < id.toInt ∧ id.toInt = id.toNat ∧ (decompose id).msb = 0 ∧
      (decompose id).machineID = g.machineID.setWidth 64 ∧
      1 ≤ (decompose id).time.toNat ∧ (decompose id).time.toNat < 2 ^ 41 ∧
      (decompose id).sequence.toNat < 64 := by
  intro id hid
  have hf := (ids_facts h s).1 id hid
  have hd := decompose_spec id
  have hi : id.toInt = id.toNat := BitVec.toInt_eq_toNat_of_lt (by omega)
  refine ⟨?_, by omega, hi, ?_, ?_, by omega, by omega, by omega⟩
  · rintro rfl; simp at hf
  · apply BitVec.eq_of_toNat_eq; rw [hd.2.1]; simp; omega
  · apply BitVec.eq_of_toNat_eq
    rw [hd.2.2.2.2, hf.1]
    have := g.machineID.isLt
    simp [BitVec.toNat_setWidth]; omega

/-- An ID decomposes into the generator's time and sequence at the moment of generation. -/
theorem C03_decompose_nextID {g : Gen} (h : Fresh g) (cs : List (Int × Int)) (now now2 : Int) (id : BitVec 64)
    (hid : (nextID (seqRun g cs) now now2).2.2 = some id) :
    ((decompose id).time.toNat : Int) = (nextID (seqRun g cs) now now2).1.elapsed ∧
    (decompose id).sequence.toNat = (nextID (seqRun g cs) now now2).1.sequence.toNat ∧
    (decompose id).machineID.toNat = g.machineID.toNat := by
  have hr := seqRun_inv g (fresh_facts h).1 cs
  have hf := nextID_facts _ hr.1 now now2
  rw [hf.2.2.2] at hid
  have hp := toID_pair _ hf.1 _ hid
  have hd := decompose_spec id
  have h0 := hf.1.elapsed_nonneg
  have h1 : id.toNat / 2 ^ 22 = _ := congrArg Prod.fst hp.1
  have h2 : id.toNat / 2 ^ 16 % 64 = _ := congrArg Prod.snd hp.1
  refine ⟨?_, by rw [hd.2.2.2.1]; exact h2, ?_⟩
  · rw [hd.2.2.1, h1]; simp only [pairGen]; omega
  · rw [hd.2.2.2.2, hp.2.1, (nextID_static _ now now2).2.1, hr.2.2.1]

example : (nextID (seqRun exGen [(5400000, 0)]) 7100000 0).2.2 = some (7 * 4194304 + 7) := by decide +kernel

/-! ## C04 -/

/-- For any clock: the ID's time is never before the millisecond of the clock reading, and never
before the time of any earlier ID. -/
theorem C04_idTime_lower_bound {g : Gen} (h : Fresh g) (cs : List (Int × Int)) (now now2 : Int) (id : BitVec 64)
    (hid : (nextID (seqRun g cs) now now2).2.2 = some id) :
    msOf now ≤ idTime (some g) id ∧
    idTime (some g) g.firstID ≤ idTime (some g) id ∧
    (∀ pre now' now2' id' post, cs = pre ++ (now', now2') :: post →
      (nextID (seqRun g pre) now' now2').2.2 = some id' → idTime (some g) id' ≤ idTime (some g) id) := by
  have hff := fresh_facts h
  have hr := seqRun_inv g hff.1 cs
  have hst : (seqRun g cs).startTime = g.startTime := hr.2.1
  have ht := nextID_idTime hr.1 hid
  have hnf := nextID_facts _ hr.1 now now2
  have hae := advance_elapsed _ hr.1 (currentElapsed (seqRun g cs).startTime now)
  have hsame : idTime (some (seqRun g cs)) id = idTime (some g) id := by
    rw [idTime_eq, idTime_eq, hst]
  rw [hsame, hst] at ht
  rw [← hnf.2.1, hst] at hae
  refine ⟨?_, ?_, ?_⟩
  · have := hae.2
    simp only [currentElapsed, toFlakeTime, timeUnit] at this
    rw [ht, msOf]; omega
  · have hp := (toID_pair g hff.1 _ hff.2.1).1
    have h1 : g.firstID.toNat / 2 ^ 22 = g.elapsed.toNat := congrArg Prod.fst hp
    rw [ht, idTime_eq, h1]
    have := hff.1.elapsed_nonneg
    have := hr.2.2.2.2.2
    omega
  · intro pre now' now2' id' post hcs hid'
    have hrp := seqRun_inv g hff.1 pre
    have ht' := nextID_idTime hrp.1 hid'
    have hsame' : idTime (some (seqRun g pre)) id' = idTime (some g) id' := by
      rw [idTime_eq, idTime_eq, hrp.2.1]
    rw [hsame', hrp.2.1] at ht'
    have hnp := nextID_facts _ hrp.1 now' now2'
    have := (seqRun_inv _ hnp.1 post).2.2.2.2.2
    have heq : seqRun (nextID (seqRun g pre) now' now2').1 post = seqRun g cs := by
      rw [hcs, seqRun_append]; rfl
    rw [heq] at this
    rw [ht, ht']; omega

/-- One step on a monotone clock: nothing in the future at return, and the ID's millisecond is
exactly the one read, plus one if the sequence overflowed. -/
theorem timed_step {g : Gen} (hg : Inv g) {t : Int} (hfut : (g.startTime + g.elapsed) * 1000000 ≤ t ∨ g.elapsed = 0 ∧ g.startTime * 1000000 ≤ t)
    (now now2 ret : Int) (h1 : t ≤ now) (h2 : now ≤ now2) (h3 : now2 + (nextID g now now2).2.1 ≤ ret)
    (h4 : now2 ≤ ret) (hnn : 0 ≤ now) :
    ((nextID g now now2).1.startTime + (nextID g now now2).1.elapsed) * 1000000 ≤ ret ∧
    ((nextID g now now2).2.1 = 0 → (g.startTime + (nextID g now now2).1.elapsed) * 1000000 = msOf now) ∧
    ((nextID g now now2).2.1 ≠ 0 → (g.startTime + (nextID g now now2).1.elapsed) * 1000000 = msOf now + 1000000) := by
  have hs := nextID_static g now now2
  have hf := nextID_facts g hg now now2
  have hc := advance_cases g hg (currentElapsed g.startTime now)
  have hb := tdiv_bounds now
  have hb2 := tdiv_bounds now2
  have hmono := tdiv_mono h2
  have hb0 := hb.2.2.2 hnn
  have hb20 := hb2.2.2.2 (by omega)
  have hsl : (nextID g now now2).2.1 = if (advance g (currentElapsed g.startTime now)).2 then
      sleepTime ((advance g (currentElapsed g.startTime now)).1.elapsed - currentElapsed g.startTime now) now2 else 0 := rfl
  rw [hs.1, hf.2.1]
  rw [hsl] at h3 ⊢
  simp only [msOf, currentElapsed, toFlakeTime, timeUnit, sleepTime] at *
  rcases hc with ⟨a, b, c, d⟩ | ⟨a, b, c, d, e⟩ | ⟨a, b, c, d, e⟩
  · simp only [d, b, if_false, Bool.false_eq_true] at h3 ⊢
    refine ⟨by omega, fun _ => by omega, fun h => absurd rfl h⟩
  · simp only [e, c, if_false, Bool.false_eq_true] at h3 ⊢
    refine ⟨by omega, fun _ => by omega, fun h => absurd rfl h⟩
  · simp only [e, c, if_true] at h3 ⊢
    refine ⟨by omega, fun h => by omega, fun _ => by omega⟩

/-- On a monotone clock (not before 1970) with `Sleep` keeping its contract: when `NextID` returns,
the time of the ID is not in the future; it is the millisecond of the call's clock reading, or the
next millisecond if the call had to sleep because the sequence overflowed. -/
theorem C04_idTime_exact_on_monotone_clock {g : Gen} {st d n0 n1 n2 sl}
    (h : newGen st d n0 n1 n2 = .ok (g, sl)) (hpos : 0 ≤ st.startTime.getD defaultStartTime)
    (h01 : n0 ≤ n1) (h12 : n1 ≤ n2) (r0 : Int) (hr0 : n2 + sl ≤ r0) (hr1 : n2 ≤ r0)
    (pre : List Timed) (c : Timed) (hw : WellTimed g r0 (pre ++ [c])) (id : BitVec 64)
    (hid : (nextID (seqRun g (pre.map fun c => (c.now, c.now2))) c.now c.now2).2.2 = some id) :
    idTime (some g) id ≤ c.ret ∧
    idTime (some g) id = msOf c.now +
      (if (nextID (seqRun g (pre.map fun c => (c.now, c.now2))) c.now c.now2).2.1 = 0 then 0 else 1000000) := by
  have hfresh : Fresh g := ⟨st, d, n0, n1, n2, sl, h⟩
  have hff := fresh_facts hfresh
  -- state after construction
  have h0 : (g.startTime + g.elapsed) * 1000000 ≤ r0 := by
    obtain ⟨m, -, hst, -, g', id', hn, rfl⟩ := newGen_ok h
    have hstep := timed_step (inv_blank (st.startTime.getD defaultStartTime) m) (t := n0)
      (.inr ⟨rfl, ?_⟩) n1 n2 r0 h01 h12 (by rw [hn]; exact hr0) hr1 (by omega)
    · rw [hn] at hstep; exact hstep.1
    · have hb := tdiv_bounds (st.startTime.getD defaultStartTime)
      have := hb.2.2.2 hpos
      simp only [blank, toFlakeTime, timeUnit]; omega
  have hr0' : 0 ≤ r0 := by
    obtain ⟨m, -, hst, -⟩ := newGen_ok h
    omega
  -- run the prefix
  have key : ∀ (pre : List Timed) (g : Gen) (t : Int), Inv g → 0 ≤ t →
      (g.startTime + g.elapsed) * 1000000 ≤ t → WellTimed g t (pre ++ [c]) →
      ∃ t', 0 ≤ t' ∧ ((seqRun g (pre.map fun c => (c.now, c.now2))).startTime +
        (seqRun g (pre.map fun c => (c.now, c.now2))).elapsed) * 1000000 ≤ t' ∧ t' ≤ c.now ∧ c.now ≤ c.now2 ∧
        c.now2 + (nextID (seqRun g (pre.map fun c => (c.now, c.now2))) c.now c.now2).2.1 ≤ c.ret ∧ c.now2 ≤ c.ret := by
    intro pre
    induction pre with
    | nil =>
      intro g t _ ht hg hw
      exact ⟨t, ht, hg, hw.1, hw.2.1, hw.2.2.1, hw.2.2.2.1⟩
    | cons x pre ih =>
      intro g t hi ht hg hw
      have hw' : t ≤ x.now ∧ x.now ≤ x.now2 ∧ _ ∧ x.now2 ≤ x.ret ∧ _ := hw
      obtain ⟨w1, w2, w3, w4, w5⟩ := hw'
      have hstep := timed_step hi (.inl hg) x.now x.now2 x.ret w1 w2 w3 w4 (by omega)
      have hnf := nextID_facts g hi x.now x.now2
      exact ih (nextID g x.now x.now2).1 x.ret hnf.1 (by omega) hstep.1 w5
  obtain ⟨t', ht', hlt, w1, w2, w3, w4⟩ := key pre g r0 hff.1 hr0' h0 hw
  have hr := seqRun_inv g hff.1 (pre.map fun c => (c.now, c.now2))
  have hstep := timed_step hr.1 (.inl hlt) c.now c.now2 c.ret w1 w2 w3 w4 (by omega)
  have ht := nextID_idTime hr.1 hid
  have hsame : idTime (some (seqRun g (pre.map fun c => (c.now, c.now2)))) id = idTime (some g) id := by
    rw [idTime_eq, idTime_eq, hr.2.1]
  have hns := (nextID_static (seqRun g (pre.map fun c => (c.now, c.now2))) c.now c.now2).1
  rw [hsame] at ht
  rw [hns] at hstep
  rw [ht]
  refine ⟨hstep.1, ?_⟩
  split
  · rename_i hz; rw [hstep.2.1 hz]; omega
  · rename_i hz; exact hstep.2.2 hz

/-- The hypotheses are met by an ordinary history. -/
example : newGen { startTime := some 0, machineID := some (.ok 7) } 0 5300000 5300000 5300000 = .ok (exGen, 0) ∧
    WellTimed exGen 5300000 ([⟨5400000, 5400000, 5500000⟩] ++ [⟨8100000, 8200000, 8200000⟩]) ∧
    (nextID (seqRun exGen [(5400000, 5400000)]) 8100000 8200000).2.2 = some (8 * 4194304 + 7) := by
  refine ⟨by rfl, ?_, by decide⟩
  simp only [WellTimed, List.cons_append, List.nil_append]
  decide +kernel

/-- The provider reads IDs of a foreign generator type against epoch zero (flake.go:253-257):
`IDTime` then depends on the ID alone. -/
theorem C04_foreign_generator_epoch (id : BitVec 64) :
    idTime none id = (id.toNat / 2 ^ 22 : Nat) * 1000000 := by
  simp only [idTime, shr22_toInt, fromFlakeTime, timeUnit, Int.zero_add]

/-! ## C05 -/

/-- `NextID` panics exactly when the time it would use has reached 2^41 units: the clock reading is
past the limit, the last used time already was, or the sequence overflows in the last unit. -/
theorem C05_panic_iff {g : Gen} (h : Fresh g) (cs : List (Int × Int)) (now now2 : Int) :
    (nextID (seqRun g cs) now now2).2.2 = none ↔
      2 ^ 41 ≤ now.tdiv 1000000 - g.startTime ∨ 2 ^ 41 ≤ (seqRun g cs).elapsed ∨
      (now.tdiv 1000000 - g.startTime ≤ (seqRun g cs).elapsed ∧ (seqRun g cs).elapsed = 2 ^ 41 - 1 ∧
        (seqRun g cs).sequence.toNat = 63) := by
  have hr := seqRun_inv g (fresh_facts h).1 cs
  have hf := nextID_facts _ hr.1 now now2
  have hc := advance_cases _ hr.1 (currentElapsed (seqRun g cs).startTime now)
  rw [hf.2.2.2, toID_none_iff, hf.2.1]
  rw [hr.2.1] at *
  simp only [currentElapsed, toFlakeTime, timeUnit] at *
  have : (2 : Int) ^ 41 = 2199023255552 := by rfl
  rw [this]
  omega

/-- Once the limit is reached no ID is ever handed out again, whatever the clock says, and the last
ID reported stays the last one handed out. -/
theorem C05_panic_is_sticky {g : Gen} (h : Fresh g) (s s' : List (Nat × Act))
    (hlim : 2 ^ 41 ≤ (crun (cinit g) s).gen.elapsed) : idsOf g (s ++ s') = idsOf g s := by
  have hlim' : (2199023255552 : Int) ≤ (crun (cinit g) s).gen.elapsed := by
    have : (2 : Int) ^ 41 = 2199023255552 := by rfl
    omega
  have hi := fresh_cinv h s
  suffices hh : ∀ (s' : List (Nat × Act)) (c : Conc), CInv g c → (2199023255552 : Int) ≤ c.gen.elapsed →
      (crun c s').log = c.log by
    simp [idsOf, crun_append, hh s' _ hi hlim']
  intro s'
  induction s' with
  | nil => intro c _ _; rfl
  | cons x s' ih =>
    intro c hc hl
    obtain ⟨t, a⟩ := x
    rw [crun]
    cases hs : cstep c t a with
    | none => exact ih c hc hl
    | some c' =>
      rw [Option.getD_some, ih c' (cstep_inv hc hs) (Int.le_trans hl (cstep_elapsed hc hs))]
      have hn := (toID_none_iff c.gen).2 hl
      have hfn : (finish c.gen).2 = none := by rw [(finish_same c.gen).2.2.2.2.2, hn]
      unfold cstep at hs
      split at hs <;> try split at hs
      all_goals first
        | (injection hs with hs; subst hs; rfl)
        | (injection hs with hs; subst hs; simp [hfn]; done)
        | cases hs

/-- Sequential form, with `LastID`: after a panicking call every later call panics and `LastID` is
what it was. -/
theorem C05_panic_is_sticky_seq {g : Gen} (h : Fresh g) (cs cs' : List (Int × Int)) (n n2 m m2 : Int)
    (hp : (nextID (seqRun g cs) n n2).2.2 = none) :
    (nextID (seqRun (nextID (seqRun g cs) n n2).1 cs') m m2).2.2 = none ∧
    (seqRun (nextID (seqRun g cs) n n2).1 cs').lastID = (seqRun g cs).lastID := by
  have hr := seqRun_inv g (fresh_facts h).1 cs
  have hf := nextID_facts _ hr.1 n n2
  rw [hf.2.2.2, toID_none_iff] at hp
  have hl0 : (nextID (seqRun g cs) n n2).1.lastID = (seqRun g cs).lastID := by
    have h1 := nextID_eq (seqRun g cs) n n2
    have hn : toID (advance (seqRun g cs) (currentElapsed (seqRun g cs).startTime n)).1 = none := by
      rw [toID_none_iff, ← hf.2.1]; exact hp
    rw [h1.1, finish, hn]
    exact (advance_static _ _).2.2.2
  suffices hh : ∀ (cs' : List (Int × Int)) (k : Gen), Inv k → 2199023255552 ≤ k.elapsed →
      (nextID (seqRun k cs') m m2).2.2 = none ∧ (seqRun k cs').lastID = k.lastID by
    have := hh cs' _ hf.1 hp
    exact ⟨this.1, this.2.trans hl0⟩
  intro cs'
  induction cs' with
  | nil =>
    intro k hk hl
    have hkf := nextID_facts k hk m m2
    refine ⟨?_, rfl⟩
    show (nextID k m m2).2.2 = none
    rw [hkf.2.2.2, toID_none_iff, hkf.2.1]
    exact Int.le_trans hl (advance_elapsed k hk _).1
  | cons x cs' ih =>
    intro k hk hl
    obtain ⟨a, b⟩ := x
    have hkf := nextID_facts k hk a b
    have hle : 2199023255552 ≤ (nextID k a b).1.elapsed := by
      rw [hkf.2.1]; exact Int.le_trans hl (advance_elapsed k hk _).1
    have := ih (nextID k a b).1 hkf.1 hle
    refine ⟨this.1, this.2.trans ?_⟩
    have hn : toID (advance k (currentElapsed k.startTime a)).1 = none := by
      rw [toID_none_iff, ← hkf.2.1]; exact hle
    rw [(nextID_eq k a b).1, finish, hn]
    exact (advance_static _ _).2.2.2

/-- The last ID of a returning call is that ID. -/
theorem C05_lastID (g : Gen) (now now2 : Int) (id : BitVec 64) (hid : (nextID g now now2).2.2 = some id) :
    lastIDOf (some (nextID g now now2).1) = id := by
  have h := nextID_eq g now now2
  rw [h.2] at hid
  simp only [lastIDOf, h.1]
  simp only [finish] at hid ⊢
  split at hid
  · cases hid
  · rename_i id' hx
    simp only at hid ⊢
    injection hid

/-- The limit is reachable: a clock 2^41 ms after the start. -/
example : (nextID (seqRun exGen [(6000000, 0)]) (2 ^ 41 * 1000000) 0).2.2 = none := by decide +kernel

/-! ## C06 -/

/-- Re-creating a generator with the same start time and machine id when the clock has moved past
the time of the last ID: all new IDs are greater than all old ones. -/
theorem C06_restart_unique {g g' : Gen} {st st' d d' n0 n1 n2 n0' n1' n2' sl sl'}
    (h : newGen st d n0 n1 n2 = .ok (g, sl)) (h' : newGen st' d' n0' n1' n2' = .ok (g', sl'))
    (hstart : st'.startTime = st.startTime) (hm : g'.machineID = g.machineID)
    (s s' : List (Nat × Act))
    (hclock : ∀ x ∈ idsOf g s, idTime (some g) x + 1000000 ≤ msOf n1') :
    ∀ x ∈ idsOf g s, ∀ y ∈ idsOf g' s', x.toNat < y.toNat := by
  have hfr : Fresh g := ⟨_, _, _, _, _, _, h⟩
  have hfr' : Fresh g' := ⟨_, _, _, _, _, _, h'⟩
  have hff' := fresh_facts hfr'
  -- start times agree
  have hst : g'.startTime = g.startTime := by
    obtain ⟨m, -, -, -, k, id, hn, rfl⟩ := newGen_ok h
    obtain ⟨m', -, -, -, k', id', hn', rfl⟩ := newGen_ok h'
    have h1 := (nextID_static (blank (st.startTime.getD defaultStartTime) m) n1 n2).1
    have h2 := (nextID_static (blank (st'.startTime.getD defaultStartTime) m') n1' n2').1
    rw [hn] at h1; rw [hn'] at h2
    show k'.startTime = k.startTime
    rw [h1, h2, hstart]; rfl
  -- first elapsed of the new one is at least the reading
  have hge : n1'.tdiv 1000000 - g'.startTime ≤ g'.elapsed := by
    obtain ⟨m', -, -, -, k', id', hn', rfl⟩ := newGen_ok h'
    have hx := nextID_facts (blank (st'.startTime.getD defaultStartTime) m') (inv_blank _ _) n1' n2'
    have h2 := (nextID_static (blank (st'.startTime.getD defaultStartTime) m') n1' n2').1
    have hae := advance_elapsed _ (inv_blank (st'.startTime.getD defaultStartTime) m')
      (currentElapsed (blank (st'.startTime.getD defaultStartTime) m').startTime n1')
    rw [← hx.2.1] at hae
    rw [hn'] at hae h2
    simp only [currentElapsed, toFlakeTime, timeUnit] at hae
    show _ - k'.startTime ≤ k'.elapsed
    rw [h2]; exact hae.2
  intro x hx y hy
  have hclk := hclock x hx
  rw [idTime_eq, msOf] at hclk
  -- y is at least the first ID
  have hy1 : g'.firstID.toNat ≤ y.toNat := by
    have := C01_ids_strictly_increasing hfr' s'
    rcases List.mem_cons.1 hy with rfl | hy
    · exact Nat.le_refl _
    · exact Nat.le_of_lt ((List.pairwise_cons.1 this).1 y hy)
  have hp := (toID_pair g' hff'.1 _ hff'.2.1).1
  have h1 : g'.firstID.toNat / 2 ^ 22 = g'.elapsed.toNat := congrArg Prod.fst hp
  have := hff'.2.2.2.1
  omega

/-- Without the clock condition it fails: two incarnations started in the same millisecond after
the start time hand out the same first ID. -/
theorem C06_same_millisecond_repeats {g g' : Gen} {st d n0 n1 n2 n0' n1' n2' sl sl'}
    (h : newGen st d n0 n1 n2 = .ok (g, sl)) (h' : newGen st d n0' n1' n2' = .ok (g', sl'))
    (hsame : msOf n1 = msOf n1') : g.firstID = g'.firstID := by
  obtain ⟨m, hm, -, -, k, id, hn, rfl⟩ := newGen_ok h
  obtain ⟨m', hm', -, -, k', id', hn', rfl⟩ := newGen_ok h'
  rw [hm] at hm'; injection hm' with hm'; subst hm'
  have hcur : toFlakeTime n1 = toFlakeTime n1' := by
    simp only [msOf, toFlakeTime, timeUnit] at *; omega
  have e : (nextID (blank (st.startTime.getD defaultStartTime) m) n1 n2).2.2 =
      (nextID (blank (st.startTime.getD defaultStartTime) m) n1' n2').2.2 := by
    rw [(nextID_eq _ _ _).2, (nextID_eq _ _ _).2]
    simp only [currentElapsed, hcur]
  rw [hn, hn'] at e
  simpa using e

example : newGen { startTime := some 0, machineID := some (.ok 7) } 0 6100000 6100000 6100000 =
    Except.ok ({ exGen with elapsed := 6, firstID := 25165831, lastID := 25165831 }, 0) := by rfl
example : ∀ x ∈ idsOf exGen (exSched.take 7), idTime (some exGen) x + 1000000 ≤ msOf 6100000 :=
  forall_mem_of_all (by decide +kernel)

/-! ## C07 -/

/-- The constructor panics exactly in the documented cases (plus the time limit). -/
theorem C07_constructor_panics_iff (st : Settings) (d : BitVec 16) (n0 n1 n2 : Int) :
    (newGen st d n0 n1 n2 = .error .startAhead ↔ n0 < st.startTime.getD defaultStartTime) ∧
    (newGen st d n0 n1 n2 = .error .machineFailed ↔
      st.startTime.getD defaultStartTime ≤ n0 ∧ ∃ e, st.machineID = some (.error e)) ∧
    (newGen st d n0 n1 n2 = .error .checkFailed ↔
      st.startTime.getD defaultStartTime ≤ n0 ∧ ∃ m f, st.resolveMachine d = .ok m ∧
        st.checkMachineID = some f ∧ f m = false) ∧
    (newGen st d n0 n1 n2 = .error .overLimit ↔
      st.startTime.getD defaultStartTime ≤ n0 ∧ ∃ m, st.resolveMachine d = .ok m ∧ st.rejects m = false ∧
        2 ^ 41 ≤ n1.tdiv 1000000 - (st.startTime.getD defaultStartTime).tdiv 1000000) := by
  have hover : ∀ m, (nextID (blank (st.startTime.getD defaultStartTime) m) n1 n2).2.2 = none ↔
      (2:Int) ^ 41 ≤ n1.tdiv 1000000 - (st.startTime.getD defaultStartTime).tdiv 1000000 := by
    intro m
    have hb := inv_blank (st.startTime.getD defaultStartTime) m
    have hf := nextID_facts _ hb n1 n2
    have hc := advance_cases _ hb (currentElapsed (blank (st.startTime.getD defaultStartTime) m).startTime n1)
    rw [hf.2.2.2, toID_none_iff, hf.2.1]
    have h0 : (blank (st.startTime.getD defaultStartTime) m).elapsed = 0 := rfl
    have h1 : (blank (st.startTime.getD defaultStartTime) m).startTime = (st.startTime.getD defaultStartTime).tdiv 1000000 := rfl
    rw [h0, h1] at hc
    rw [h1]
    simp only [currentElapsed, toFlakeTime, timeUnit] at *
    have : (2 : Int) ^ 41 = 2199023255552 := by rfl
    rw [this]; omega
  have hmf : ∀ e, st.resolveMachine d = .error e ↔ st.machineID = some (.error e) := by
    intro e; unfold Settings.resolveMachine
    split
    · rename_i hh; rw [hh]; simp
    · rename_i r hh; rw [hh]; simp
  have hrej : ∀ m, st.rejects m = true ↔ ∃ f, st.checkMachineID = some f ∧ f m = false := by
    intro m; unfold Settings.rejects
    split
    · rename_i hh; rw [hh]; simp
    · rename_i f hh; rw [hh]; simp
  unfold newGen
  simp only
  by_cases hs : st.startTime.getD defaultStartTime > n0
  · rw [if_pos hs]
    simp only [reduceCtorEq, Except.error.injEq, true_iff, false_iff]
    refine ⟨hs, fun ⟨h, _⟩ => by omega, fun ⟨h, _⟩ => by omega, fun ⟨h, _⟩ => by omega⟩
  · rw [if_neg hs]
    have hs' : st.startTime.getD defaultStartTime ≤ n0 := by omega
    have hs'' : ¬ n0 < st.startTime.getD defaultStartTime := by omega
    cases hm : st.resolveMachine d with
    | error e =>
      have := (hmf e).1 hm
      simp [hs', hs'', this]
    | ok m =>
      have hne : ¬ ∃ e, st.machineID = some (Except.error e) := by
        rintro ⟨e, he⟩; rw [(hmf e).2 he] at hm; cases hm
      cases hr : st.rejects m with
      | true =>
        have := (hrej m).1 hr
        simp only [hs', hs'', true_and, hr, if_true]
        refine ⟨by simp, by simp [hne], ?_, ?_⟩
        · refine ⟨fun _ => ⟨m, this.choose, rfl, this.choose_spec.1, this.choose_spec.2⟩, fun _ => trivial⟩
        · refine ⟨nofun, ?_⟩
          rintro ⟨m', h1, h2, -⟩; injection h1 with h1; subst h1; rw [hr] at h2; cases h2
      | false =>
        have hnf : ¬ ∃ m' f, (Except.ok m : Except Unit (BitVec 16)) = Except.ok m' ∧ st.checkMachineID = some f ∧ f m' = false := by
          rintro ⟨m', f, h1, h2, h3⟩; injection h1 with h1; subst h1
          rw [(hrej m).2 ⟨f, h2, h3⟩] at hr; cases hr
        have ho := hover m
        simp only [hr, Bool.false_eq_true, if_false, hs', hs'', true_and, hne, hnf, iff_false]
        cases hnx : nextID (blank (st.startTime.getD defaultStartTime) m) n1 n2 with
        | mk g rest =>
          obtain ⟨sl, r⟩ := rest
          rw [hnx] at ho
          cases r with
          | none =>
            refine ⟨nofun, nofun, nofun, fun _ => ⟨m, rfl, hr, ho.1 rfl⟩, fun _ => rfl⟩
          | some id =>
            refine ⟨nofun, nofun, nofun, nofun, ?_⟩
            rintro ⟨m', -, -, hh⟩
            have := ho.2 hh; cases this

/-- On success the machine id is the one supplied, the start time the one supplied or 2021-01-01
(in flake units), and the first ID is remembered and smaller than every later one
(of a generator of another type `FirstID` knows nothing: 0). -/
theorem C07_constructor_result {st d n0 n1 n2 g sl} (h : newGen st d n0 n1 n2 = .ok (g, sl)) :
    st.resolveMachine d = .ok g.machineID ∧
    g.startTime = (st.startTime.getD (1609459200 * 1000000000)).tdiv 1000000 ∧
    (∀ s, ∀ x ∈ (idsOf g s).tail, (firstIDOf (some g)).toNat < x.toNat) ∧
    (∀ s, firstIDOf (some (crun (cinit g) s).gen) = firstIDOf (some g)) ∧
    firstIDOf none = 0 := by
  have hfr : Fresh g := ⟨_, _, _, _, _, _, h⟩
  refine ⟨?_, ?_, ?_, ?_, rfl⟩
  · obtain ⟨m, hm, -, -, k, id, hn, rfl⟩ := newGen_ok h
    have := (nextID_static (blank (st.startTime.getD defaultStartTime) m) n1 n2).2.1
    rw [hn] at this
    show _ = Except.ok k.machineID
    rw [this, hm]; rfl
  · obtain ⟨m, hm, -, -, k, id, hn, rfl⟩ := newGen_ok h
    have := (nextID_static (blank (st.startTime.getD defaultStartTime) m) n1 n2).1
    rw [hn] at this
    show k.startTime = _
    rw [this]; rfl
  · intro s x hx
    exact (List.pairwise_cons.1 (C01_ids_strictly_increasing hfr s)).1 x hx
  · intro s
    exact (fresh_cinv hfr s).first

example : newGen {} 3 0 0 0 = .error .startAhead := by rfl
example : newGen { startTime := some 0, machineID := some (.error ()) } 3 0 0 0 = .error .machineFailed := by rfl
example : newGen { startTime := some 0, checkMachineID := some (· != 3) } 3 0 0 0 = .error .checkFailed := by rfl

/-! ## C08 -/

/-- For every time value, the IDs carrying it have the sequence numbers 0, 1, 2, ... in order, and
there are at most 64 of them. -/
theorem C08_at_most_64_per_unit {g : Gen} (h : Fresh g) (s : List (Nat × Act)) (τ : Nat) :
    ∃ k ≤ 64, ((idsOf g s).filter fun id => (decompose id).time.toNat = τ).map
      (fun id => (decompose id).sequence.toNat) = List.range k := by
  have hff := fresh_facts h
  have hch := (ids_facts h s).2
  have hfp : pairOf g.firstID = (g.elapsed.toNat, 0) := by
    rw [fresh_first_pair h]; simp [pairGen, hff.2.2.2.2.2]
  -- prepend a virtual predecessor so that the first ID is a step from it
  have hpos := hff.2.2.2.1
  have hch' : Chain (0, 0) ((idsOf g s).map pairOf) := by
    refine .cons (.inr ⟨?_, ?_⟩) ?_
    · rw [hfp]; simp; omega
    · rw [hfp]
    · rw [List.map_map]; exact hch
  have hfilter : ((idsOf g s).filter fun id => (decompose id).time.toNat = τ).map
      (fun id => (decompose id).sequence.toNat) =
      (((idsOf g s).map pairOf).filter fun q => q.1 = τ).map Prod.snd := by
    rw [List.filter_map, List.map_map]
    have h1 : ∀ id : BitVec 64, (decompose id).time.toNat = (pairOf id).1 := fun id => (decompose_spec id).2.2.1
    have h2 : ∀ id : BitVec 64, (decompose id).sequence.toNat = (pairOf id).2 := fun id => (decompose_spec id).2.2.2.1
    simp only [Function.comp_def, h1, h2]
  rw [hfilter]
  have hbound : ∀ k, (((idsOf g s).map pairOf).filter fun q => q.1 = τ).map Prod.snd = List.range k → k ≤ 64 := by
    intro k hk
    rcases Nat.lt_or_ge 64 k with hlt | hle
    · exfalso
      have hm : 64 ∈ List.range k := List.mem_range.2 hlt
      rw [← hk] at hm
      obtain ⟨q, hq, he⟩ := List.mem_map.1 hm
      obtain ⟨id, -, rfl⟩ := List.mem_map.1 (List.mem_filter.1 hq).1
      have := pairOf_seq_lt id
      omega
    · exact hle
  by_cases hτ : τ = 0
  · -- no ID has time 0
    refine ⟨0, by omega, ?_⟩
    have : (((idsOf g s).map pairOf).filter fun q => q.1 = τ) = [] := by
      rw [List.filter_eq_nil_iff]
      intro q hq
      obtain ⟨id, hid, rfl⟩ := List.mem_map.1 hq
      have := ((ids_facts h s).1 id hid).2.2
      have hne : ¬ (pairOf id).1 = τ := by simp only [pairOf]; omega
      simp [hne]
    rw [this]; rfl
  · obtain ⟨k, hk, -⟩ := chain_filter hch' τ
    have hne : ¬ (0 : Nat) = τ := by omega
    simp only [hne, if_false] at hk
    rw [← List.range_eq_range'] at hk
    exact ⟨k, hbound k hk, hk⟩

/-- A call sleeps exactly when the 64 sequence numbers of the unit are used up and the clock has not
moved on; the sleep is positive and, after 1970, at most the lead over the clock. -/
theorem C08_sleep {g : Gen} (h : Fresh g) (cs : List (Int × Int)) (now now2 : Int) :
    let k := seqRun g cs
    let r := nextID k now now2
    (r.2.1 ≠ 0 ↔ now.tdiv 1000000 - g.startTime ≤ k.elapsed ∧ k.sequence.toNat = 63) ∧ 0 ≤ r.2.1 ∧
    (r.2.1 ≠ 0 → 0 ≤ now2 → r.2.1 ≤ (r.1.elapsed - (now.tdiv 1000000 - g.startTime)) * 1000000) := by
  have hr := seqRun_inv g (fresh_facts h).1 cs
  intro k r
  have hki : Inv k := hr.1
  have hst : k.startTime = g.startTime := hr.2.1
  have hf := nextID_facts k hki now now2
  have hc := advance_cases k hki (currentElapsed k.startTime now)
  have hb2 := tdiv_bounds now2
  have hsl : r.2.1 = if (advance k (currentElapsed k.startTime now)).2 then
      sleepTime ((advance k (currentElapsed k.startTime now)).1.elapsed - currentElapsed k.startTime now) now2 else 0 := rfl
  have hel : r.1.elapsed = _ := hf.2.1
  rw [hsl, hel]
  rw [hst] at *
  simp only [currentElapsed, toFlakeTime, timeUnit, sleepTime] at *
  rcases hc with ⟨a, b, c, d⟩ | ⟨a, b, c, d, e⟩ | ⟨a, b, c, d, e⟩
  · simp only [d, b, if_false, Bool.false_eq_true]
    refine ⟨⟨fun h => absurd rfl h, fun h => by omega⟩, by omega, fun h => absurd rfl h⟩
  · simp only [e, c, if_false, Bool.false_eq_true]
    refine ⟨⟨fun h => absurd rfl h, fun h => by omega⟩, by omega, fun h => absurd rfl h⟩
  · simp only [e, c, if_true]
    refine ⟨⟨fun _ => ⟨by omega, by omega⟩, fun _ => by omega⟩, by omega, fun _ hn => ?_⟩
    have := hb2.2.2.2 hn
    omega

/-- 64 calls within one millisecond use it up, and the next one sleeps into the next unit. -/
example : (nextID (seqRun exGen (List.replicate 63 (5400000, 5400000))) 5400000 5400000).2 =
    (600000, some (6 * 4194304 + 7)) := by decide +kernel

/-- A call that sleeps returns at the start of the unit its ID is dated: if both clock readings of the call fall into the
same millisecond, the second reading plus the requested sleep is exactly the time of the ID. -/
theorem C08_sleep_until_unit {g : Gen} (h : Fresh g) (cs : List (Int × Int)) (now now2 : Int) (hms : msOf now = msOf now2)
    (id : BitVec 64) (hid : (nextID (seqRun g cs) now now2).2.2 = some id)
    (hsl : (nextID (seqRun g cs) now now2).2.1 ≠ 0) :
    now2 + (nextID (seqRun g cs) now now2).2.1 = idTime (some g) id := by
  have hr := seqRun_inv g (fresh_facts h).1 cs
  have ht := nextID_idTime hr.1 hid
  have ht2 : idTime (some g) id = idTime (some (seqRun g cs)) id := by rw [idTime_eq, idTime_eq, hr.2.1]
  rw [ht2]; clear ht2
  have hff := nextID_facts (seqRun g cs) hr.1 now now2
  have hc := advance_cases (seqRun g cs) hr.1 (currentElapsed (seqRun g cs).startTime now)
  have hb := tdiv_bounds now
  have hb2 := tdiv_bounds now2
  have htm : now2.tmod 1000000 = now2 - 1000000 * now2.tdiv 1000000 := by
    have := Int.mul_tdiv_add_tmod now2 1000000; omega
  have e : (nextID (seqRun g cs) now now2).2.1 = if (advance (seqRun g cs) (currentElapsed (seqRun g cs).startTime now)).2 then
      sleepTime ((advance (seqRun g cs) (currentElapsed (seqRun g cs).startTime now)).1.elapsed - currentElapsed (seqRun g cs).startTime now) now2 else 0 := rfl
  rw [ht, hff.2.1]
  rw [e] at hsl ⊢
  rcases hc with ⟨a, b, c, d⟩ | ⟨a, b, c, d, f⟩ | ⟨a, b, c, d, f⟩
  · rw [d] at hsl; exact absurd rfl hsl
  · rw [f] at hsl; exact absurd rfl hsl
  · rw [f, if_pos rfl, c]
    simp only [msOf, currentElapsed, toFlakeTime, timeUnit, sleepTime] at *
    omega

/-- The hypotheses of `C08_sleep_until_unit` on the run of the example above. -/
example : (nextID (seqRun exGen (List.replicate 63 (5400000, 5400000))) 5400000 5400001).2.1 = 599999 := by decide +kernel

/-! ## C09 -/

theorem isLoopback_iff (ip : List (BitVec 8)) : isLoopback ip = true ↔ Loopback ip := by
  unfold isLoopback to4 Loopback
  constructor
  · intro h
    by_cases h4 : ip.length = 4
    · rw [if_pos h4] at h
      match ip, h4 with
      | [a, b, c, d], _ =>
        simp only [beq_iff_eq] at h
        subst h
        exact .inl ⟨b, c, d, rfl⟩
    · rw [if_neg h4] at h
      split at h
      · rename_i b bs heq
        split at heq
        · rename_i hc
          injection heq with heq
          simp only [beq_iff_eq] at h
          subst h
          match ip, hc.1 with
          | [a0, a1, a2, a3, a4, a5, a6, a7, a8, a9, b0, b1, c, x, y, z], _ =>
            have h1 := hc.2.1
            have h2 := hc.2.2
            simp [List.replicate] at h1 h2 heq
            obtain ⟨e0, e1, e2, e3, e4, e5, e6, e7, e8, e9⟩ := h1
            obtain ⟨f0, f1⟩ := h2
            subst e0 e1 e2 e3 e4 e5 e6 e7 e8 e9 f0 f1
            rw [heq.1]
            exact .inr (.inl ⟨x, y, z, rfl⟩)
        · cases heq
      · cases h
      · simp only [beq_iff_eq] at h
        exact .inr (.inr h)
  · rintro (⟨x, y, z, rfl⟩ | ⟨x, y, z, rfl⟩ | rfl)
    · simp
    · simp [List.replicate]
    · simp [List.replicate]

/-- Outside test runs: the low 16 bits of the first non-loopback address. -/
theorem C09_default_machine_id (pre post : List Addr) (front : List (BitVec 8)) (hi lo : BitVec 8)
    (hpre : ∀ a ∈ pre, a = .other ∨ ∃ ip, a = .ipnet ip ∧ Loopback ip)
    (hlen : (front ++ [hi, lo]).length = 4 ∨ (front ++ [hi, lo]).length = 16)
    (hnl : ¬ Loopback (front ++ [hi, lo])) :
    defaultMachineID none (some (pre ++ .ipnet (front ++ [hi, lo]) :: post)) = some (hi ++ lo) := by
  replace hnl : isLoopback (front ++ [hi, lo]) = false := by
    cases e : isLoopback (front ++ [hi, lo]) with
    | false => rfl
    | true => exact absurd ((isLoopback_iff _).1 e) hnl
  have hlow : lowBits hi lo = hi ++ lo := by
    have hm : maskMachineID.setWidth 16 = BitVec.allOnes 16 := by decide +kernel
    simp only [lowBits, hm, BitVec.and_allOnes]
    apply BitVec.eq_of_toNat_eq
    have h1 := hi.isLt
    have h2 := lo.isLt
    have h3 := Nat.shiftLeft_add_eq_or_of_lt h2 hi.toNat
    simp only [BitVec.toNat_add, BitVec.toNat_shiftLeft, BitVec.toNat_setWidth, BitVec.toNat_append]
    rw [← h3]
    simp only [Nat.shiftLeft_eq]
    omega
  simp only [defaultMachineID]
  induction pre with
  | nil =>
    simp only [List.nil_append, machineIDFromAddrs, hnl, to16]
    rcases hlen with h4 | h16
    · rw [if_pos h4]; simp [hlow]
    · have h4 : ¬ (front ++ [hi, lo]).length = 4 := by omega
      rw [if_neg h4, if_pos h16]; simp [hlow]
  | cons a pre ih =>
    have hih := ih (fun x hx => hpre x (by simp [hx]))
    rcases hpre a (by simp) with rfl | ⟨ip, rfl, hl⟩
    · simpa [machineIDFromAddrs] using hih
    · simpa [machineIDFromAddrs, (isLoopback_iff _).2 hl] using hih

/-- No usable address, or failed lookup: machine id 0. -/
theorem C09_no_address (as : List Addr) (h : ∀ a ∈ as, a = .other ∨ ∃ ip, a = .ipnet ip ∧ Loopback ip) :
    defaultMachineID none (some as) = some 0 ∧ defaultMachineID none none = some 0 := by
  refine ⟨?_, rfl⟩
  simp only [defaultMachineID]
  induction as with
  | nil => rfl
  | cons a as ih =>
    have hih := ih (fun x hx => h x (by simp [hx]))
    rcases h a (by simp) with rfl | ⟨ip, rfl, hl⟩
    · simpa [machineIDFromAddrs] using hih
    · simpa [machineIDFromAddrs, (isLoopback_iff _).2 hl] using hih

/-- IPv4 hosts: same machine id iff the last two bytes of the first address agree; so within one /16
different addresses give different ids, and across /16s they may collide. -/
theorem C09_collision_iff (a b c d a' b' c' d' : BitVec 8) (h : a ≠ 127) (h' : a' ≠ 127) :
    defaultMachineID none (some [.ipnet [a, b, c, d]]) = defaultMachineID none (some [.ipnet [a', b', c', d']])
      ↔ c = c' ∧ d = d' := by
  have hl : ∀ a b c d : BitVec 8, a ≠ 127 → ¬ Loopback [a, b, c, d] := by
    intro a b c d h; simpa [Loopback] using h
  rw [show [Addr.ipnet [a, b, c, d]] = [] ++ Addr.ipnet ([a, b] ++ [c, d]) :: [] from rfl,
    show [Addr.ipnet [a', b', c', d']] = [] ++ Addr.ipnet ([a', b'] ++ [c', d']) :: [] from rfl,
    C09_default_machine_id [] [] [a, b] c d (by simp) (by simp) (hl _ _ _ _ h),
    C09_default_machine_id [] [] [a', b'] c' d' (by simp) (by simp) (hl _ _ _ _ h')]
  constructor
  · intro he
    injection he with he
    have hn := congrArg BitVec.toNat he
    simp only [BitVec.toNat_append] at hn
    have h1 := d.isLt
    have h2 := d'.isLt
    rw [← Nat.shiftLeft_add_eq_or_of_lt h1, ← Nat.shiftLeft_add_eq_or_of_lt h2, Nat.shiftLeft_eq, Nat.shiftLeft_eq] at hn
    exact ⟨BitVec.eq_of_toNat_eq (by omega), BitVec.eq_of_toNat_eq (by omega)⟩
  · rintro ⟨rfl, rfl⟩; rfl

example : defaultMachineID none (some [.ipnet [127, 0, 0, 1], .other, .ipnet [10, 1, 2, 3]]) = some 0x0203 := by decide +kernel

end Flake
