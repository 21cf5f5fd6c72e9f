import Verif.Flake.ConcLemmas
/-! Lemmas for sequential runs, IDTime, overflow and per-unit counting. -/
namespace Flake

theorem fresh_cinv {g : Gen} (h : Fresh g) (s) : CInv g (crun (cinit g) s) :=
  crun_inv s (cinit_inv g (fresh_facts h).1)

theorem fresh_first_pair {g : Gen} (h : Fresh g) : pairOf g.firstID = pairGen g :=
  (toID_pair g (fresh_facts h).1 _ (fresh_facts h).2.1).1

theorem pairOf_seq_lt (id : BitVec 64) : (pairOf id).2 < 64 := by
  simp only [pairOf]; omega

theorem lt_of_pair {a b : BitVec 64} {m : Nat} (ha : a.toNat % 2 ^ 16 = m) (hb : b.toNat % 2 ^ 16 = m)
    (h : (pairOf a).1 * 64 + (pairOf a).2 < (pairOf b).1 * 64 + (pairOf b).2) : a.toNat < b.toNat := by
  simp only [pairOf] at h; omega

theorem chain_pairwise {m : Nat} : ∀ (l : List (BitVec 64)) (a : BitVec 64),
    Chain (pairOf a) (l.map pairOf) → a.toNat % 2 ^ 16 = m → (∀ x ∈ l, x.toNat % 2 ^ 16 = m) →
    (a :: l).Pairwise fun x y => x.toNat < y.toNat := by
  intro l
  induction l with
  | nil => intro a _ _ _; simp
  | cons b l ih =>
    intro a hc ha hl
    have hlt := hc.lt_all (pairOf_seq_lt a) (by
      intro q hq
      obtain ⟨x, -, rfl⟩ := List.mem_map.1 hq
      exact pairOf_seq_lt x)
    refine List.Pairwise.cons ?_ ?_
    · intro y hy
      exact lt_of_pair ha (hl y hy) (hlt _ (List.mem_map.2 ⟨y, hy, rfl⟩))
    · cases hc with
      | cons _ hc => exact ih b hc (hl b (by simp)) (fun x hx => hl x (by simp [hx]))

/-- All IDs of a history: machine, bound, chain. -/
theorem ids_facts {g : Gen} (h : Fresh g) (s) :
    (∀ id ∈ idsOf g s, id.toNat % 2 ^ 16 = g.machineID.toNat ∧ id.toNat < 2 ^ 63 ∧ 0 < id.toNat / 2 ^ 22) ∧
    Chain (pairOf g.firstID) ((crun (cinit g) s).log.map fun x => pairOf x.2) := by
  have hf := fresh_facts h
  have hp := toID_pair g hf.1 _ hf.2.1
  have hi := fresh_cinv h s
  have hch : Chain (pairOf g.firstID) ((crun (cinit g) s).log.map fun x => pairOf x.2) := by
    rw [hp.1]; exact hi.chain
  refine ⟨?_, hch⟩
  have hpos : 0 < g.firstID.toNat / 2 ^ 22 := by
    have : (pairOf g.firstID).1 = (pairGen g).1 := by rw [hp.1]
    simp only [pairOf, pairGen] at this
    have := hf.2.2.2.1
    omega
  intro id hid
  rcases List.mem_cons.1 hid with rfl | hid
  · exact ⟨hp.2.1, hp.2.2, hpos⟩
  · obtain ⟨x, hx, rfl⟩ := List.mem_map.1 hid
    refine ⟨hi.logMachine x hx, hi.logBound x hx, ?_⟩
    have := hch.lt_all (pairOf_seq_lt _) (by
      intro q hq
      obtain ⟨x, -, rfl⟩ := List.mem_map.1 hq
      exact pairOf_seq_lt _) (pairOf x.2) (List.mem_map.2 ⟨x, hx, rfl⟩)
    simp only [pairOf] at this
    omega

theorem shr22_toInt (id : BitVec 64) : (id >>> (bitLenSequence + bitLenMachineID)).toInt = (id.toNat / 2 ^ 22 : Nat) := by
  have : (id >>> (bitLenSequence + bitLenMachineID)).toNat = id.toNat / 2 ^ 22 := by
    simp [BitVec.toNat_ushiftRight, Nat.shiftRight_eq_div_pow, bitLenSequence, bitLenMachineID]
  have hlt := id.isLt
  rw [BitVec.toInt_eq_toNat_of_lt (by omega), this]

theorem idTime_eq (g : Gen) (id : BitVec 64) :
    idTime (some g) id = (g.startTime + (id.toNat / 2 ^ 22 : Nat)) * 1000000 := by
  simp only [idTime, shr22_toInt, fromFlakeTime, timeUnit]

theorem nextID_static (g : Gen) (n n2 : Int) :
    (nextID g n n2).1.startTime = g.startTime ∧ (nextID g n n2).1.machineID = g.machineID ∧
    (nextID g n n2).1.firstID = g.firstID := by
  have h := nextID_eq g n n2
  have hf := finish_same (advance g (currentElapsed g.startTime n)).1
  have ha := advance_static g (currentElapsed g.startTime n)
  rw [h.1, hf.2.2.2.1, hf.2.2.1, hf.2.2.2.2.1]
  exact ⟨ha.1, ha.2.1, ha.2.2.1⟩

theorem nextID_facts (g : Gen) (hg : Inv g) (n n2 : Int) :
    Inv (nextID g n n2).1 ∧ (nextID g n n2).1.elapsed = (advance g (currentElapsed g.startTime n)).1.elapsed ∧
    (nextID g n n2).1.sequence = (advance g (currentElapsed g.startTime n)).1.sequence ∧
    (nextID g n n2).2.2 = toID (nextID g n n2).1 := by
  have h := nextID_eq g n n2
  have hf := finish_same (advance g (currentElapsed g.startTime n)).1
  have hai := advance_inv g hg (currentElapsed g.startTime n)
  rw [h.1, h.2]
  refine ⟨finish_inv _ hai, hf.1, hf.2.1, ?_⟩
  rw [hf.2.2.2.2.2, toID, toID, hf.1, hf.2.1, hf.2.2.1]

theorem nextID_idTime {g : Gen} (hg : Inv g) {n n2 : Int} {id} (h : (nextID g n n2).2.2 = some id) :
    idTime (some g) id = (g.startTime + (nextID g n n2).1.elapsed) * 1000000 := by
  have hf := nextID_facts g hg n n2
  rw [hf.2.2.2] at h
  have hp := (toID_pair _ hf.1 _ h).1
  have h0 := hf.1.elapsed_nonneg
  have : id.toNat / 2 ^ 22 = (nextID g n n2).1.elapsed.toNat := congrArg Prod.fst hp
  rw [idTime_eq, this]
  congr 1
  omega

theorem seqRun_append (g : Gen) (a b : List (Int × Int)) : seqRun g (a ++ b) = seqRun (seqRun g a) b := by
  induction a generalizing g with
  | nil => rfl
  | cons x a ih => obtain ⟨n, n2⟩ := x; simp only [List.cons_append, seqRun]; exact ih _

theorem seqRun_inv (g : Gen) (hg : Inv g) (cs : List (Int × Int)) :
    Inv (seqRun g cs) ∧ (seqRun g cs).startTime = g.startTime ∧ (seqRun g cs).machineID = g.machineID ∧
    (seqRun g cs).firstID = g.firstID ∧ key g ≤ key (seqRun g cs) ∧ g.elapsed ≤ (seqRun g cs).elapsed := by
  induction cs generalizing g with
  | nil => exact ⟨hg, rfl, rfl, rfl, Int.le_refl _, Int.le_refl _⟩
  | cons x cs ih =>
    obtain ⟨n, n2⟩ := x
    have hf := nextID_facts g hg n n2
    have hs := nextID_static g n n2
    have hk := advance_key g hg (currentElapsed g.startTime n)
    have he := advance_elapsed g hg (currentElapsed g.startTime n)
    have := ih (nextID g n n2).1 hf.1
    simp only [seqRun]
    have hkk : key (nextID g n n2).1 = key (advance g (currentElapsed g.startTime n)).1 := by
      simp [key, hf.2.1, hf.2.2.1]
    refine ⟨this.1, this.2.1.trans hs.1, this.2.2.1.trans hs.2.1, this.2.2.2.1.trans hs.2.2, ?_, ?_⟩
    · omega
    · omega

/-- Truncating division by the unit, as bounds (for instants on either side of the epoch). -/
theorem tdiv_bounds (t : Int) : t - t.tmod 1000000 = t.tdiv 1000000 * 1000000 ∧
    -1000000 < t.tmod 1000000 ∧ t.tmod 1000000 < 1000000 ∧ (0 ≤ t → 0 ≤ t.tmod 1000000) := by
  have h1 := Int.tmod_add_mul_tdiv t 1000000
  refine ⟨by omega, ?_, ?_, ?_⟩
  · rcases Int.le_total 0 t with h | h
    · have := Int.tmod_nonneg 1000000 h; omega
    · have h2 := Int.tmod_nonneg 1000000 (Int.neg_nonneg_of_nonpos h)
      have h3 := Int.tmod_lt_of_pos (-t) (by omega : (0:Int) < 1000000)
      rw [Int.neg_tmod] at h3; omega
  · exact Int.tmod_lt_of_pos t (by omega)
  · intro h; exact Int.tmod_nonneg 1000000 h

theorem tdiv_mono {a b : Int} (h : a ≤ b) : a.tdiv 1000000 ≤ b.tdiv 1000000 := by
  have ha := tdiv_bounds a
  have hb := tdiv_bounds b
  rcases Int.le_total 0 a with h0 | h0
  · have := ha.2.2.2 h0; have := hb.2.2.2 (by omega); omega
  · rcases Int.le_total 0 b with h1 | h1
    · have := hb.2.2.2 h1
      have : a.tmod 1000000 ≤ 0 := by
        have h2 := Int.tmod_nonneg 1000000 (Int.neg_nonneg_of_nonpos h0)
        rw [Int.neg_tmod] at h2; omega
      omega
    · have h2 : a.tmod 1000000 ≤ 0 := by
        have h2 := Int.tmod_nonneg 1000000 (Int.neg_nonneg_of_nonpos h0)
        rw [Int.neg_tmod] at h2; omega
      have h3 : b.tmod 1000000 ≤ 0 := by
        have h2 := Int.tmod_nonneg 1000000 (Int.neg_nonneg_of_nonpos h1)
        rw [Int.neg_tmod] at h2; omega
      omega

/-- The filter of a chain on one time value lists consecutive sequence numbers. -/
theorem chain_filter {p : Nat × Nat} {l : List (Nat × Nat)} (h : Chain p l) (τ : Nat) :
    ∃ k, ((l.filter fun q => q.1 = τ).map Prod.snd = List.range' (if p.1 = τ then p.2 + 1 else 0) k) ∧
      (τ < p.1 → k = 0) := by
  induction h with
  | nil p => exact ⟨0, by simp, fun _ => rfl⟩
  | @cons p q l hs hc ih =>
    obtain ⟨k, hk, hk0⟩ := ih
    by_cases hq : q.1 = τ
    · refine ⟨k + 1, ?_, ?_⟩
      · rcases hs with h | h
        · have hp : p.1 = τ := by omega
          simp only [hq, hp, if_true] at hk ⊢
          rw [List.filter_cons_of_pos (by simpa using hq), List.map_cons, hk, List.range'_succ, h.2]
        · have hp : p.1 ≠ τ := by omega
          simp only [hq, hp, if_true, if_false] at hk ⊢
          rw [List.filter_cons_of_pos (by simpa using hq), List.map_cons, hk, List.range'_succ, h.2]
      · intro hlt; rcases hs with h | h <;> omega
    · rw [List.filter_cons_of_neg (by simpa using hq)]
      rw [if_neg hq] at hk
      by_cases hp : p.1 = τ
      · rcases hs with h | h
        · omega
        · have := hk0 (by omega)
          subst this
          exact ⟨0, by simpa using hk, fun _ => rfl⟩
      · refine ⟨k, by rw [if_neg hp]; exact hk, ?_⟩
        intro hlt
        exact hk0 (by rcases hs with h | h <;> omega)

theorem decompose_spec (id : BitVec 64) :
    (decompose id).id = id ∧
    (decompose id).msb.toNat = id.toNat / 2 ^ 63 ∧
    (decompose id).time.toNat = id.toNat / 2 ^ 22 ∧
    (decompose id).sequence.toNat = id.toNat / 2 ^ 16 % 64 ∧
    (decompose id).machineID.toNat = id.toNat % 2 ^ 16 := by
  refine ⟨rfl, ?_, ?_, ?_, ?_⟩
  · simp [decompose, BitVec.toNat_ushiftRight, Nat.shiftRight_eq_div_pow]
  · simp [decompose, BitVec.toNat_ushiftRight, Nat.shiftRight_eq_div_pow, bitLenSequence, bitLenMachineID]
  · have : (id &&& maskSequence) >>> bitLenMachineID = (id >>> 16) &&& 63#64 := by
      rw [BitVec.ushiftRight_and_distrib, bitLenMachineID]
      congr 1
    rw [decompose, this, BitVec.toNat_and]
    have h63 : (63#64).toNat = 2 ^ 6 - 1 := by decide
    rw [h63, Nat.and_two_pow_sub_one_eq_mod, BitVec.toNat_ushiftRight, Nat.shiftRight_eq_div_pow]
  · have h : maskMachineID.toNat = 2 ^ 16 - 1 := by decide
    show (id &&& maskMachineID).toNat = _
    rw [BitVec.toNat_and, h, Nat.and_two_pow_sub_one_eq_mod]

end Flake
