import Verif.Flake.Model
/-! Helper lemmas about the flake model. -/
namespace Flake

/-- Generator well-formedness: what every reachable generator satisfies. -/
structure Inv (g : Gen) : Prop where
  elapsed_nonneg : 0 ≤ g.elapsed
  seq_lt : g.sequence.toNat < 64

/-- Position of a generator state in the lexicographic order (time, sequence). -/
def key (g : Gen) : Int := g.elapsed * 64 + g.sequence.toNat

theorem seq_next_toNat (s : BitVec 16) :
    ((s + 1) &&& maskSequence16).toNat = (s.toNat + 1) % 64 := by
  have : maskSequence16.toNat = 2 ^ 6 - 1 := by decide
  rw [BitVec.toNat_and, this, Nat.and_two_pow_sub_one_eq_mod, BitVec.toNat_add]
  simp

theorem seq_eq_zero_iff (s : BitVec 16) :
    ((s + 1) &&& maskSequence16) = 0 ↔ (s.toNat + 1) % 64 = 0 := by
  rw [← seq_next_toNat]
  constructor
  · intro h; rw [h]; rfl
  · intro h; exact BitVec.eq_of_toNat_eq (by simpa using h)

/-- What `advance` does to the time and sequence, in plain arithmetic. -/
theorem advance_cases (g : Gen) (hg : Inv g) (cur : Int) :
    let r := advance g cur
    (g.elapsed < cur ∧ r.1.elapsed = cur ∧ r.1.sequence.toNat = 0 ∧ r.2 = false) ∨
    (cur ≤ g.elapsed ∧ g.sequence.toNat < 63 ∧ r.1.elapsed = g.elapsed ∧
      r.1.sequence.toNat = g.sequence.toNat + 1 ∧ r.2 = false) ∨
    (cur ≤ g.elapsed ∧ g.sequence.toNat = 63 ∧ r.1.elapsed = g.elapsed + 1 ∧
      r.1.sequence.toNat = 0 ∧ r.2 = true) := by
  have h64 := hg.seq_lt
  simp only [advance]
  split
  · left; refine ⟨by assumption, rfl, by simp, rfl⟩
  · rename_i h
    split
    · rename_i h0
      right; right
      have := (seq_eq_zero_iff _).1 h0
      refine ⟨by omega, by omega, rfl, ?_, rfl⟩
      show ((g.sequence + 1) &&& maskSequence16).toNat = _
      rw [h0]; rfl
    · rename_i h0
      right; left
      have h1 : ¬ (g.sequence.toNat + 1) % 64 = 0 := fun h => h0 ((seq_eq_zero_iff _).2 h)
      refine ⟨by omega, by omega, rfl, ?_, rfl⟩
      show ((g.sequence + 1) &&& maskSequence16).toNat = _
      rw [seq_next_toNat]; omega

theorem advance_static (g : Gen) (cur : Int) :
    (advance g cur).1.startTime = g.startTime ∧ (advance g cur).1.machineID = g.machineID ∧
    (advance g cur).1.firstID = g.firstID ∧ (advance g cur).1.lastID = g.lastID := by
  simp only [advance]; split
  · simp
  · split <;> simp

theorem advance_inv (g : Gen) (hg : Inv g) (cur : Int) : Inv (advance g cur).1 := by
  have h := advance_cases g hg cur
  have := hg.elapsed_nonneg
  constructor <;> simp only at h <;> omega

theorem advance_key (g : Gen) (hg : Inv g) (cur : Int) : key g < key (advance g cur).1 := by
  have h := advance_cases g hg cur
  have := hg.seq_lt
  simp only [key] at *; omega

theorem advance_elapsed (g : Gen) (hg : Inv g) (cur : Int) :
    g.elapsed ≤ (advance g cur).1.elapsed ∧ cur ≤ (advance g cur).1.elapsed := by
  have h := advance_cases g hg cur
  simp only at h; omega

/-- The numeric value of a packed ID. -/
theorem pack_toNat (e : Nat) (s m : BitVec 16) (he : e < 2 ^ 41) (hs : s.toNat < 64) :
    ((BitVec.ofInt 64 (e : Int)) <<< (bitLenSequence + bitLenMachineID)
        ||| (s.setWidth 64) <<< bitLenMachineID ||| m.setWidth 64).toNat
      = e * 2 ^ 22 + s.toNat * 2 ^ 16 + m.toNat := by
  have hm := m.isLt
  have h1 : (BitVec.ofInt 64 (e : Int)).toNat = e := by
    rw [BitVec.toNat_ofInt]; omega
  simp only [BitVec.toNat_or, BitVec.toNat_shiftLeft, h1, bitLenSequence, bitLenMachineID,
    BitVec.toNat_setWidth, Nat.shiftLeft_eq]
  have a1 : e * 2 ^ (6 + 16) % 2 ^ 64 = e * 2 ^ 22 := Nat.mod_eq_of_lt (by omega)
  have a2 : s.toNat % 2 ^ 64 * 2 ^ 16 % 2 ^ 64 = s.toNat * 2 ^ 16 := by
    rw [Nat.mod_eq_of_lt (a := s.toNat) (by omega)]; exact Nat.mod_eq_of_lt (by omega)
  have a3 : m.toNat % 2 ^ 64 = m.toNat := Nat.mod_eq_of_lt (by omega)
  rw [a1, a2, a3, Nat.mul_comm e, ← Nat.two_pow_add_eq_or_of_lt (by omega : s.toNat * 2 ^ 16 < 2 ^ 22)]
  have : 2 ^ 22 * e + s.toNat * 2 ^ 16 = 2 ^ 16 * (e * 64 + s.toNat) := by omega
  rw [this, ← Nat.two_pow_add_eq_or_of_lt (by omega : m.toNat < 2 ^ 16)]

/-- 2^41. -/
theorem limit_eq : (2 : Int) ^ bitLenTime = 2199023255552 := by rfl

theorem toID_none_iff (g : Gen) : toID g = none ↔ 2199023255552 ≤ g.elapsed := by
  rw [toID, limit_eq]
  by_cases h : g.elapsed ≥ 2199023255552
  · rw [if_pos h]; exact ⟨fun _ => h, fun _ => rfl⟩
  · rw [if_neg h]; exact ⟨nofun, fun h' => absurd h' h⟩

theorem toID_toNat (g : Gen) (hg : Inv g) (id : BitVec 64) (h : toID g = some id) :
    g.elapsed < 2199023255552 ∧ (id.toNat : Int) = key g * 65536 + g.machineID.toNat := by
  have hne : ¬ 2199023255552 ≤ g.elapsed := by
    intro hc; rw [(toID_none_iff g).2 hc] at h; cases h
  have hlt : g.elapsed < 2199023255552 := by omega
  refine ⟨hlt, ?_⟩
  obtain ⟨e, he⟩ := Int.eq_ofNat_of_zero_le hg.elapsed_nonneg
  rw [toID, limit_eq, if_neg hne] at h
  injection h with h
  subst h
  rw [he, pack_toNat e g.sequence g.machineID (by omega) hg.seq_lt, key, he]
  omega

/-! ### sequential runs -/

/-- One call, as state and result. -/
theorem nextID_eq (g : Gen) (now now2 : Int) :
    (nextID g now now2).1 = (finish (advance g (currentElapsed g.startTime now)).1).1 ∧
    (nextID g now now2).2.2 = (finish (advance g (currentElapsed g.startTime now)).1).2 := by
  simp [nextID]

theorem finish_same (g : Gen) : (finish g).1.elapsed = g.elapsed ∧ (finish g).1.sequence = g.sequence ∧
    (finish g).1.machineID = g.machineID ∧ (finish g).1.startTime = g.startTime ∧
    (finish g).1.firstID = g.firstID ∧ (finish g).2 = toID g := by
  simp only [finish]; split <;> simp_all

theorem finish_inv (g : Gen) (h : Inv g) : Inv (finish g).1 := by
  have := finish_same g
  exact ⟨by rw [this.1]; exact h.1, by rw [this.2.1]; exact h.2⟩

theorem finish_key (g : Gen) : key (finish g).1 = key g := by
  have := finish_same g
  simp [key, this.1, this.2.1]

end Flake
