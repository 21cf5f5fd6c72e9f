import Verif.Types.FloatSpec
import Mathlib.Tactic.Linarith
import Mathlib.Tactic.Ring
import Mathlib.Tactic.Positivity
import Mathlib.Tactic.FieldSimp
/-! Lemmas about rounding. -/
set_option linter.unusedVariables false
set_option exponentiation.threshold 3000
namespace Types

theorem pow_congr {a b : Nat} (h : a = b) : (2 : Nat) ^ a = 2 ^ b := by rw [h]

theorem one_eq : one = 2 ^ 1074 := rfl

theorem one_pos : 0 < one := Nat.two_pow_pos _

theorem rne_bounds (a b : Nat) (hb : 0 < b) : 2 * (rne a b * b) ≤ 2 * a + b ∧ 2 * a ≤ 2 * (rne a b * b) + b := by
  have h := Nat.div_add_mod a b
  have hm := Nat.mod_lt a hb
  have e1 : (a / b) * b = b * (a / b) := Nat.mul_comm _ _
  have e2 : (a / b + 1) * b = b * (a / b) + b := by rw [Nat.add_mul, Nat.mul_comm]; omega
  unfold rne
  split
  · omega
  · split
    · omega
    · split <;> omega

theorem rne_unique (a b k : Nat) (h1 : 2 * (k * b) < 2 * a + b) (h2 : 2 * a < 2 * (k * b) + b) : rne a b = k := by
  have hb : 0 < b := by omega
  obtain ⟨g1, g2⟩ := rne_bounds a b hb
  rcases Nat.lt_trichotomy (rne a b) k with h | h | h
  · have := Nat.mul_le_mul_right b h
    rw [Nat.succ_mul] at this; omega
  · exact h
  · have := Nat.mul_le_mul_right b h
    rw [Nat.succ_mul] at this; omega

theorem rne_exact (k b : Nat) (hb : 0 < b) : rne (k * b) b = k := rne_unique _ _ _ (by omega) (by omega)

/-- The rounded quotient is at least as close as any other integer. -/
theorem rne_closest (a b k : Nat) (hb : 0 < b) : |((rne a b * b : Nat) : ℤ) - a| ≤ |((k * b : Nat) : ℤ) - a| := by
  obtain ⟨g1, g2⟩ := rne_bounds a b hb
  rcases Nat.lt_trichotomy (rne a b) k with h | h | h
  · have := Nat.mul_le_mul_right b h
    rw [Nat.succ_mul] at this
    generalize rne a b * b = x at *; generalize k * b = y at *
    rw [abs_le, le_abs']
    constructor <;> (rcases Nat.le_total a x with h | h) <;> first | omega | skip
    all_goals (rw [abs_of_nonneg (by omega)]; omega)
  · rw [h]
  · have := Nat.mul_le_mul_right b h
    rw [Nat.succ_mul] at this
    generalize rne a b * b = x at *; generalize k * b = y at *
    rw [abs_le]
    constructor
    · have := le_abs_self ((y : ℤ) - a); have := neg_abs_le ((y : ℤ) - a); omega
    · have := le_abs_self ((y : ℤ) - a); have := neg_abs_le ((y : ℤ) - a); omega

theorem lastPlace_upper (q : Nat) : q < 2 ^ (53 + lastPlace q) := by
  unfold lastPlace
  have h : q < 2 ^ (q.log2 + 1) := Nat.lt_log2_self
  exact Nat.lt_of_lt_of_le h (Nat.pow_le_pow_right (by omega) (by omega))

theorem lastPlace_lower (q : Nat) (h : 0 < lastPlace q) : 2 ^ (52 + lastPlace q) ≤ q := by
  unfold lastPlace at *
  have e : 52 + (q.log2 - 52) = q.log2 := by omega
  rw [e]
  have hq : q ≠ 0 := by rintro rfl; simp at h
  exact Nat.log2_self_le hq

theorem lastPlace_unique (q e : Nat) (h1 : q < 2 ^ (53 + e)) (h2 : 0 < e → 2 ^ (52 + e) ≤ q) : lastPlace q = e := by
  have u := lastPlace_upper q
  have l := lastPlace_lower q
  rcases Nat.lt_trichotomy (lastPlace q) e with h | h | h
  · have := h2 (by omega)
    have h3 : (2 : Nat) ^ (53 + lastPlace q) ≤ 2 ^ (52 + e) := Nat.pow_le_pow_right (by omega) (by omega)
    omega
  · exact h
  · have := l (by omega)
    have h3 : (2 : Nat) ^ (53 + e) ≤ 2 ^ (52 + lastPlace q) := Nat.pow_le_pow_right (by omega) (by omega)
    omega

/-- The rounding keeps multiples of the last place. -/
theorem roundUnits_rep (n d : Nat) (hd : 0 < d) :
    ∃ t, t ≤ 2 ^ 53 ∧ roundUnits n d = t * 2 ^ lastPlace (n / d) := by
  refine ⟨rne n (d * 2 ^ lastPlace (n / d)), ?_, rfl⟩
  have hu := lastPlace_upper (n / d)
  generalize lastPlace (n / d) = e at *
  have hp : 0 < 2 ^ e := Nat.two_pow_pos e
  have hb : 0 < d * 2 ^ e := Nat.mul_pos hd hp
  obtain ⟨g1, g2⟩ := rne_bounds n (d * 2 ^ e) hb
  have hn : n < 2 ^ (53 + e) * d := (Nat.div_lt_iff_lt_mul hd).1 hu
  have e1 : 2 ^ (53 + e) * d = 2 ^ 53 * (d * 2 ^ e) := by rw [Nat.pow_add]; ac_rfl
  rw [e1] at hn
  generalize d * 2 ^ e = b at *
  generalize rne n b = t at *
  by_contra hc
  have : (2 ^ 53 + 1) * b ≤ t * b := Nat.mul_le_mul_right _ (by omega)
  rw [Nat.add_mul] at this
  omega

theorem isDouble_of (neg : Bool) (t e : Nat) (ht : t ≤ 2 ^ 53) (h : t * 2 ^ e < tooBig) : IsDouble (.fin neg (t * 2 ^ e)) := by
  rcases Nat.lt_or_ge t (2 ^ 53) with h1 | h1
  · by_cases he : e ≤ 2045
    · exact ⟨t, e, h1, he, rfl⟩
    · -- shift the excess into the significand
      refine ⟨t * 2 ^ (e - 2045), 2045, ?_, by omega, ?_⟩
      · have e1 : t * 2 ^ e = t * 2 ^ (e - 2045) * 2 ^ 2045 := by
          rw [Nat.mul_assoc, ← Nat.pow_add]; congr 2; omega
        rw [e1] at h
        have e2 : tooBig = 2 ^ 53 * 2 ^ 2045 := by unfold tooBig; rw [← Nat.pow_add]
        rw [e2] at h
        exact Nat.lt_of_mul_lt_mul_right h
      · rw [Nat.mul_assoc, ← Nat.pow_add]; congr 2; omega
  · have ht : t = 2 ^ 53 := by omega
    subst ht
    rw [← Nat.pow_add] at h ⊢
    unfold tooBig at h
    have := (Nat.pow_lt_pow_iff_right (by omega : 1 < 2)).1 h
    by_cases he : e + 53 ≤ 2045
    · exact ⟨1, 53 + e, by decide, by omega, (Nat.one_mul _).symm⟩
    · refine ⟨2 ^ (53 + e - 2045), 2045, ?_, by omega, ?_⟩
      · exact Nat.pow_lt_pow_right (by omega) (by omega)
      · rw [← Nat.pow_add]; exact pow_congr (by omega)

/-- A double as an integral multiple of the last place of a binade it lies in or above. -/
theorem rep_multiple (t e E : Nat) (ht : t < 2 ^ 53) (h : 2 ^ (52 + E) ≤ t * 2 ^ e ∨ E = 0) : ∃ k, t * 2 ^ e = k * 2 ^ E := by
  rcases Nat.le_total E e with h1 | h1
  · exact ⟨t * 2 ^ (e - E), by rw [Nat.mul_assoc, ← Nat.pow_add]; congr 2; omega⟩
  · rcases h with h | h
    · by_cases he : E = e
      · exact ⟨t, by rw [he]⟩
      · exfalso
        have h2 : t * 2 ^ e < 2 ^ 53 * 2 ^ e := Nat.mul_lt_mul_of_pos_right ht (Nat.two_pow_pos e)
        rw [← Nat.pow_add] at h2
        have h3 : (2 : Nat) ^ (53 + e) ≤ 2 ^ (52 + E) := Nat.pow_le_pow_right (by omega) (by omega)
        omega
    · subst h; have : e = 0 := by omega
      subst this; exact ⟨t, rfl⟩

/-- No double (even beyond the largest) is closer to `n/d` than the rounded one. -/
theorem roundUnits_closest (n d t e : Nat) (hd : 0 < d) (ht : t < 2 ^ 53) :
    |((roundUnits n d * d : Nat) : ℤ) - n| ≤ |((t * 2 ^ e * d : Nat) : ℤ) - n| := by
  unfold roundUnits
  have hl := lastPlace_lower (n / d)
  generalize lastPlace (n / d) = E at *
  have hp : 0 < 2 ^ E := Nat.two_pow_pos E
  have hb : 0 < d * 2 ^ E := Nat.mul_pos hd hp
  have e0 : rne n (d * 2 ^ E) * 2 ^ E * d = rne n (d * 2 ^ E) * (d * 2 ^ E) := by ac_rfl
  rw [e0]
  by_cases hm : 2 ^ (52 + E) ≤ t * 2 ^ e ∨ E = 0
  · obtain ⟨k, hk⟩ := rep_multiple t e E ht hm
    have e1 : t * 2 ^ e * d = k * (d * 2 ^ E) := by rw [hk]; ac_rfl
    rw [e1]
    exact rne_closest _ _ _ hb
  · have hE : 0 < E := by omega
    have hlt : t * 2 ^ e < 2 ^ (52 + E) := by omega
    have c := rne_closest n (d * 2 ^ E) (2 ^ 52) hb
    have e1 : 2 ^ 52 * (d * 2 ^ E) = 2 ^ (52 + E) * d := by rw [Nat.pow_add]; ac_rfl
    rw [e1] at c
    have hn : 2 ^ (52 + E) * d ≤ n := (Nat.le_div_iff_mul_le hd).1 (hl hE)
    have hlt2 : t * 2 ^ e * d ≤ 2 ^ (52 + E) * d := Nat.mul_le_mul_right _ (by omega)
    refine le_trans c ?_
    generalize 2 ^ (52 + E) * d = x at *; generalize t * 2 ^ e * d = y at *
    rw [abs_of_nonpos (by omega), abs_of_nonpos (by omega)]; omega

/-- Rounding within less than half the last place of a double gives that double. -/
theorem roundUnits_unique (n d k e : Nat) (hd : 0 < d) (hk : k < 2 ^ 53) (hn : n / d < 2 ^ (53 + e)) (hl : 0 < e → 2 ^ (52 + e) ≤ n / d)
    (h1 : 2 * (k * (d * 2 ^ e)) < 2 * n + d * 2 ^ e) (h2 : 2 * n < 2 * (k * (d * 2 ^ e)) + d * 2 ^ e) :
    roundUnits n d = k * 2 ^ e := by
  unfold roundUnits
  rw [lastPlace_unique _ e hn hl, rne_unique _ _ _ h1 h2]

/-- Doubles round to themselves. -/
theorem roundUnits_exact (t e d : Nat) (hd : 0 < d) (ht : t < 2 ^ 53) : roundUnits (t * 2 ^ e * d) d = t * 2 ^ e := by
  have hl := lastPlace_lower (t * 2 ^ e)
  have hm : ∃ k, t * 2 ^ e = k * 2 ^ lastPlace (t * 2 ^ e) := by
    apply rep_multiple t e _ ht
    rcases Nat.eq_zero_or_pos (lastPlace (t * 2 ^ e)) with h | h
    · exact Or.inr h
    · exact Or.inl (hl h)
  obtain ⟨k, hk⟩ := hm
  unfold roundUnits
  rw [Nat.mul_div_cancel _ hd]
  generalize lastPlace (t * 2 ^ e) = E at *
  have e1 : t * 2 ^ e * d = k * (d * 2 ^ E) := by rw [hk]; ac_rfl
  rw [e1, rne_exact _ _ (Nat.mul_pos hd (Nat.two_pow_pos E)), hk]

/-! #### Six decimals and back -/

theorem pow_split (a b : Nat) : (2 : Nat) ^ (a + b) = 2 ^ a * 2 ^ b := Nat.pow_add _ _ _

/-- The numerator and denominator `ParseFloat` sees for `k` millionths. -/
def back (k : Nat) : Nat := roundUnits (k * one) 1000000

theorem millionths_bounds (u : Nat) :
    2 * (millionths u * one) ≤ 2 * (u * 1000000) + one ∧ 2 * (u * 1000000) ≤ 2 * (millionths u * one) + one :=
  rne_bounds _ _ one_pos

/-- From 2^33 on six decimals determine the double. -/
theorem back_large (t e : Nat) (ht : t < 2 ^ 53) (h : 2 ^ 33 * one ≤ t * 2 ^ e) : back (millionths (t * 2 ^ e)) = t * 2 ^ e := by
  have hu := lastPlace_upper (t * 2 ^ e)
  have hl := lastPlace_lower (t * 2 ^ e)
  have hb := millionths_bounds (t * 2 ^ e)
  have hE : 1055 ≤ lastPlace (t * 2 ^ e) := by
    by_contra hc
    have h1 : (2 : Nat) ^ (53 + lastPlace (t * 2 ^ e)) ≤ 2 ^ 1107 := Nat.pow_le_pow_right (by omega) (by omega)
    have h2 : 2 ^ 33 * one = 2 ^ 1107 := by unfold one; rw [← Nat.pow_add]
    omega
  obtain ⟨k, hk⟩ := rep_multiple t e (lastPlace (t * 2 ^ e)) ht (Or.inl (hl (by omega)))
  have hl := hl (by omega)
  generalize hEE : lastPlace (t * 2 ^ e) = E at *
  unfold back
  generalize hK : millionths (t * 2 ^ e) = K at *
  generalize hU : t * 2 ^ e = u at *
  -- one in terms of the last place
  have hone : one < 1000000 * 2 ^ E := by
    have h1 : (2 : Nat) ^ 1055 ≤ 2 ^ E := Nat.pow_le_pow_right (by omega) hE
    have h2 : one = 2 ^ 19 * 2 ^ 1055 := by unfold one; rw [← Nat.pow_add]
    rw [h2]; omega
  have hp : 0 < 2 ^ E := Nat.two_pow_pos E
  have hkl : 2 ^ 52 ≤ k := by
    rw [hk, pow_split] at hl; exact Nat.le_of_mul_le_mul_right hl hp
  have hku : k < 2 ^ 53 := by
    rw [hk, pow_split] at hu; exact Nat.lt_of_mul_lt_mul_right hu
  have e1 : k * (1000000 * 2 ^ E) = u * 1000000 := by rw [hk]; ac_rfl
  rw [hk]
  have hKone : K * one = K * one := rfl
  apply roundUnits_unique _ _ k E (by omega) hku
  · rw [Nat.div_lt_iff_lt_mul (by omega)]
    have : u + 2 ^ E ≤ 2 ^ (53 + E) := by
      rw [pow_split, hk]
      have := Nat.mul_le_mul_right (2 ^ E) hku
      rw [Nat.succ_mul] at this; exact this
    generalize K * one = n at *
    generalize (2 : Nat) ^ (53 + E) = X at *
    generalize (2 : Nat) ^ E = Y at *
    omega
  · intro _
    rw [Nat.le_div_iff_mul_le (by omega)]
    by_cases h52 : k = 2 ^ 52
    · -- a power of two: the six decimals are exact
      have : u * 1000000 = (2 ^ (E - 1022) * 1000000) * one := by
        rw [hk, h52, ← Nat.pow_add]; unfold one
        rw [Nat.mul_right_comm, ← Nat.pow_add, pow_congr (show E - 1022 + 1074 = 52 + E by omega)]
      have hKe : K = 2 ^ (E - 1022) * 1000000 := by
        rw [← hK]; unfold millionths; rw [this, rne_exact _ _ one_pos]
      rw [hKe, ← this, hk, h52, ← Nat.pow_add]
    · have : 2 ^ (52 + E) + 2 ^ E ≤ u := by
        rw [pow_split, hk]
        have := Nat.mul_le_mul_right (2 ^ E) (show 2 ^ 52 + 1 ≤ k by omega)
        rw [Nat.succ_mul] at this; exact this
      generalize K * one = n at *
      generalize (2 : Nat) ^ (52 + E) = X at *
      generalize (2 : Nat) ^ E = Y at *
      omega
  · rw [e1]; omega
  · rw [e1]; omega

theorem back_place (k : Nat) (hk : k < 2 ^ 33 * 1000000) : lastPlace (k * one / 1000000) ≤ 1054 := by
  by_contra hc
  have h1 := lastPlace_lower (k * one / 1000000) (by omega)
  have h2 : (2 : Nat) ^ 1107 ≤ 2 ^ (52 + lastPlace (k * one / 1000000)) := Nat.pow_le_pow_right (by omega) (by omega)
  have h3 : k * one / 1000000 < 2 ^ 1107 := by
    rw [Nat.div_lt_iff_lt_mul (by omega)]
    have h4 : (2 : Nat) ^ 1107 * 1000000 = 2 ^ 33 * 1000000 * one := by
      unfold one; rw [show 1107 = 33 + 1074 from rfl, pow_split]; ac_rfl
    rw [h4]
    exact Nat.mul_lt_mul_of_pos_right hk one_pos
  omega

/-- Below 2^33 reading back stays within half a millionth. -/
theorem back_close (k : Nat) (hk : k < 2 ^ 33 * 1000000) :
    2 * (k * one) < 2 * (back k * 1000000) + one ∧ 2 * (back k * 1000000) < 2 * (k * one) + one := by
  have hp := back_place k hk
  unfold back roundUnits
  generalize lastPlace (k * one / 1000000) = E at *
  obtain ⟨g1, g2⟩ := rne_bounds (k * one) (1000000 * 2 ^ E) (by have := Nat.two_pow_pos E; omega)
  have e1 : rne (k * one) (1000000 * 2 ^ E) * 2 ^ E * 1000000 = rne (k * one) (1000000 * 2 ^ E) * (1000000 * 2 ^ E) := by ac_rfl
  rw [e1]
  have hone : 1000000 * 2 ^ E < one := by
    have h1 : (2 : Nat) ^ E ≤ 2 ^ 1054 := Nat.pow_le_pow_right (by omega) hp
    have h2 : one = 2 ^ 20 * 2 ^ 1054 := by unfold one; rw [← Nat.pow_add]
    have h3 : 0 < (2 : Nat) ^ 1054 := Nat.two_pow_pos _
    rw [h2]; omega
  omega

/-- Below 2^33 the text is recovered from the double it is read as. -/
theorem millionths_back (k : Nat) (hk : k ≤ 2 ^ 33 * 1000000) : millionths (back k) = k := by
  rcases Nat.lt_or_ge k (2 ^ 33 * 1000000) with h | h
  · obtain ⟨h1, h2⟩ := back_close k h
    exact rne_unique _ _ _ h1 h2
  · have : k = 2 ^ 33 * 1000000 := by omega
    subst this
    have e1 : 2 ^ 33 * 1000000 * one = 1 * 2 ^ 1107 * 1000000 := by
      unfold one; rw [show 1107 = 33 + 1074 from rfl, pow_split, Nat.one_mul]; ac_rfl
    unfold back
    rw [e1, roundUnits_exact 1 1107 1000000 (by omega) (by decide)]
    unfold millionths
    rw [← e1, rne_exact _ _ one_pos]

theorem millionths_small (u : Nat) (h : u < 2 ^ 33 * one) : millionths u ≤ 2 ^ 33 * 1000000 := by
  by_contra hc
  obtain ⟨h1, h2⟩ := millionths_bounds u
  have h3 : (2 ^ 33 * 1000000 + 1) * one ≤ millionths u * one := Nat.mul_le_mul_right _ (by omega)
  rw [Nat.add_mul] at h3
  have h4 : 2 ^ 33 * 1000000 * one = 2 ^ 33 * one * 1000000 := by ac_rfl
  rw [h4] at h3
  obtain ⟨X, hX⟩ : ∃ X, X = 2 ^ 33 * one := ⟨_, rfl⟩
  rw [← hX] at h3 h
  have := one_pos
  omega

/-- Writing what was read back writes the same millionths. -/
theorem millionths_stable (t e : Nat) (ht : t < 2 ^ 53) : millionths (back (millionths (t * 2 ^ e))) = millionths (t * 2 ^ e) := by
  rcases Nat.lt_or_ge (t * 2 ^ e) (2 ^ 33 * one) with h | h
  · exact millionths_back _ (millionths_small _ h)
  · rw [back_large t e ht h]

/-- Below 2^33 no number of millionths lies half way between two doubles. -/
theorem no_tie (k : Nat) (hk : k < 2 ^ 33 * 1000000) :
    2 * (k * one % (1000000 * 2 ^ lastPlace (k * one / 1000000))) ≠ 1000000 * 2 ^ lastPlace (k * one / 1000000) := by
  have hp := back_place k hk
  generalize lastPlace (k * one / 1000000) = E at *
  intro h
  have hd := Nat.div_add_mod (k * one) (1000000 * 2 ^ E)
  generalize k * one / (1000000 * 2 ^ E) = r at *
  have h1 : 2 * (k * one) = (2 * r + 1) * (1000000 * 2 ^ E) := by
    rw [Nat.add_mul, Nat.one_mul, ← hd, Nat.mul_add, h]
    have : 2 * (1000000 * 2 ^ E * r) = 2 * r * (1000000 * 2 ^ E) := by ac_rfl
    rw [this]
  have h2 : 2 * (k * one) = (k * 2 ^ (1075 - E)) * 2 ^ E := by
    unfold one
    have : (2 : Nat) ^ 1075 = 2 ^ (1075 - E) * 2 ^ E := by rw [← Nat.pow_add]; congr 1; omega
    rw [Nat.mul_assoc, ← this]
    rw [show (1075 : Nat) = 1 + 1074 from rfl, pow_split]; ac_rfl
  have h3 : k * 2 ^ (1075 - E) = (2 * r + 1) * 1000000 := by
    apply Nat.eq_of_mul_eq_mul_right (Nat.two_pow_pos E)
    rw [← h2, h1]; ac_rfl
  have h4 : (2 : Nat) ^ (1075 - E) = 2 ^ 7 * 2 ^ (1068 - E) := by rw [← Nat.pow_add]; congr 1; omega
  rw [h4] at h3
  have h5 : k * (2 ^ 7 * 2 ^ (1068 - E)) = 128 * (k * 2 ^ (1068 - E)) := by ac_rfl
  rw [h5] at h3
  omega

theorem rne_closest_strict (a b k : Nat) (hb : 0 < b) (ht : 2 * (a % b) ≠ b) (hk : k ≠ rne a b) :
    |((rne a b * b : Nat) : ℤ) - a| < |((k * b : Nat) : ℤ) - a| := by
  have h := Nat.div_add_mod a b
  have hm := Nat.mod_lt a hb
  have e1 : (a / b) * b = b * (a / b) := Nat.mul_comm _ _
  have e2 : (a / b + 1) * b = b * (a / b) + b := by rw [Nat.add_mul, Nat.mul_comm]; omega
  have g : 2 * (rne a b * b) < 2 * a + b ∧ 2 * a < 2 * (rne a b * b) + b := by
    unfold rne
    split
    · omega
    · split
      · omega
      · omega
  obtain ⟨g1, g2⟩ := g
  rcases Nat.lt_or_gt_of_ne hk with h | h
  · have := Nat.mul_le_mul_right b h
    rw [Nat.succ_mul] at this
    generalize rne a b * b = x at *; generalize k * b = y at *
    rw [abs_lt]
    constructor
    · have := le_abs_self ((y : ℤ) - a); have := neg_abs_le ((y : ℤ) - a); omega
    · have := le_abs_self ((y : ℤ) - a); have := neg_abs_le ((y : ℤ) - a); omega
  · have := Nat.mul_le_mul_right b h
    rw [Nat.succ_mul] at this
    generalize rne a b * b = x at *; generalize k * b = y at *
    rw [abs_lt]
    constructor
    · have := le_abs_self ((y : ℤ) - a); have := neg_abs_le ((y : ℤ) - a); omega
    · have := le_abs_self ((y : ℤ) - a); have := neg_abs_le ((y : ℤ) - a); omega

/-- Without a tie every other double is strictly further away. -/
theorem roundUnits_strict (n d t e : Nat) (hd : 0 < d) (ht : t < 2 ^ 53)
    (htie : 2 * (n % (d * 2 ^ lastPlace (n / d))) ≠ d * 2 ^ lastPlace (n / d)) (hne : t * 2 ^ e ≠ roundUnits n d) :
    |((roundUnits n d * d : Nat) : ℤ) - n| < |((t * 2 ^ e * d : Nat) : ℤ) - n| := by
  unfold roundUnits at *
  have hl := lastPlace_lower (n / d)
  generalize lastPlace (n / d) = E at *
  have hp : 0 < 2 ^ E := Nat.two_pow_pos E
  have hb : 0 < d * 2 ^ E := Nat.mul_pos hd hp
  have e0 : rne n (d * 2 ^ E) * 2 ^ E * d = rne n (d * 2 ^ E) * (d * 2 ^ E) := by ac_rfl
  rw [e0]
  by_cases hm : 2 ^ (52 + E) ≤ t * 2 ^ e ∨ E = 0
  · obtain ⟨k, hk⟩ := rep_multiple t e E ht hm
    have e1 : t * 2 ^ e * d = k * (d * 2 ^ E) := by rw [hk]; ac_rfl
    rw [e1]
    refine rne_closest_strict _ _ _ hb htie ?_
    rintro rfl
    exact hne hk
  · have hE : 0 < E := by omega
    have hlt : t * 2 ^ e < 2 ^ (52 + E) := by omega
    have c := rne_closest n (d * 2 ^ E) (2 ^ 52) hb
    have e1 : 2 ^ 52 * (d * 2 ^ E) = 2 ^ (52 + E) * d := by rw [Nat.pow_add]; ac_rfl
    rw [e1] at c
    have hn : 2 ^ (52 + E) * d ≤ n := (Nat.le_div_iff_mul_le hd).1 (hl hE)
    have hlt2 : t * 2 ^ e * d < 2 ^ (52 + E) * d := Nat.mul_lt_mul_of_pos_right hlt hd
    refine lt_of_le_of_lt c ?_
    generalize 2 ^ (52 + E) * d = x at *; generalize t * 2 ^ e * d = y at *
    rw [abs_of_nonpos (by omega), abs_of_nonpos (by omega)]; omega

/-- Equally close integers are neighbours, and the chosen one is even. -/
theorem rne_tie (a b k : Nat) (hb : 0 < b) (hk : k ≠ rne a b)
    (h : |((k * b : Nat) : ℤ) - a| = |((rne a b * b : Nat) : ℤ) - a|) :
    (k = rne a b + 1 ∨ rne a b = k + 1) ∧ rne a b % 2 = 0 := by
  have ht : 2 * (a % b) = b := by
    by_contra hc
    exact absurd h (ne_of_gt (rne_closest_strict a b k hb hc hk))
  have h0 := Nat.div_add_mod a b
  have e1 : (a / b) * b = b * (a / b) := Nat.mul_comm _ _
  have e2 : (a / b + 1) * b = b * (a / b) + b := by rw [Nat.add_mul, Nat.mul_comm]; omega
  have hr : (rne a b = a / b ∨ rne a b = a / b + 1) ∧ rne a b % 2 = 0 := by
    unfold rne
    rw [if_neg (by omega), if_neg (by omega)]
    split
    · exact ⟨Or.inl rfl, by omega⟩
    · exact ⟨Or.inr rfl, by omega⟩
  refine ⟨?_, hr.2⟩
  have hk2 : k = a / b ∨ k = a / b + 1 := by
    by_contra hc
    have hlt : k < a / b ∨ a / b + 1 < k := by omega
    have hd : 2 * |((rne a b * b : Nat) : ℤ) - a| = b := by
      rcases hr.1 with e | e <;> rw [e]
      · rw [e1, abs_of_nonpos (by omega)]; omega
      · rw [e2, abs_of_nonneg (by omega)]; omega
    rw [← h] at hd
    rcases hlt with hlt | hlt
    · have := Nat.mul_le_mul_right b hlt
      rw [Nat.succ_mul] at this
      rw [abs_of_nonpos (by omega)] at hd; omega
    · have := Nat.mul_le_mul_right b hlt
      rw [Nat.succ_mul] at this
      rw [abs_of_nonneg (by omega)] at hd; omega
  rcases hr.1 with e | e <;> rcases hk2 with f | f <;> omega

/-- Two doubles equally close: the chosen one is an even multiple of their distance. -/
theorem roundUnits_tie (n d t e : Nat) (hd : 0 < d) (ht : t < 2 ^ 53) (hne : t * 2 ^ e ≠ roundUnits n d)
    (h : |((t * 2 ^ e * d : Nat) : ℤ) - n| = |((roundUnits n d * d : Nat) : ℤ) - n|) :
    ∃ j : Nat, (roundUnits n d : ℤ) = 2 * j * |(roundUnits n d : ℤ) - ((t * 2 ^ e : Nat) : ℤ)| := by
  unfold roundUnits at *
  have hl := lastPlace_lower (n / d)
  generalize lastPlace (n / d) = E at *
  have hp : 0 < 2 ^ E := Nat.two_pow_pos E
  have hb : 0 < d * 2 ^ E := Nat.mul_pos hd hp
  have e0 : rne n (d * 2 ^ E) * 2 ^ E * d = rne n (d * 2 ^ E) * (d * 2 ^ E) := by ac_rfl
  rw [e0] at h
  by_cases hm : 2 ^ (52 + E) ≤ t * 2 ^ e ∨ E = 0
  · obtain ⟨k, hk⟩ := rep_multiple t e E ht hm
    have e1 : t * 2 ^ e * d = k * (d * 2 ^ E) := by rw [hk]; ac_rfl
    rw [e1] at h
    have hkne : k ≠ rne n (d * 2 ^ E) := by rintro rfl; exact hne hk
    obtain ⟨h1, h2⟩ := rne_tie _ _ _ hb hkne h
    rw [hk]
    generalize rne n (d * 2 ^ E) = r at *
    refine ⟨r / 2, ?_⟩
    have hr : r = 2 * (r / 2) := by omega
    have hab : |((r * 2 ^ E : Nat) : ℤ) - ((k * 2 ^ E : Nat) : ℤ)| = ((2 ^ E : Nat) : ℤ) := by
      rcases h1 with rfl | rfl
      · rw [Nat.add_mul, Nat.one_mul, abs_of_nonpos (by omega)]; omega
      · rw [Nat.add_mul, Nat.one_mul, abs_of_nonneg (by omega)]; omega
    rw [hab]
    generalize 2 ^ E = X at *
    conv_lhs => rw [hr]
    push_cast; ring
  · exfalso
    have hE : 0 < E := by omega
    have hlt : t * 2 ^ e < 2 ^ (52 + E) := by omega
    have c := rne_closest n (d * 2 ^ E) (2 ^ 52) hb
    have e1 : 2 ^ 52 * (d * 2 ^ E) = 2 ^ (52 + E) * d := by rw [Nat.pow_add]; ac_rfl
    rw [e1] at c
    have hn : 2 ^ (52 + E) * d ≤ n := (Nat.le_div_iff_mul_le hd).1 (hl hE)
    have hlt2 : t * 2 ^ e * d < 2 ^ (52 + E) * d := Nat.mul_lt_mul_of_pos_right hlt hd
    rw [← h] at c
    generalize 2 ^ (52 + E) * d = x at *; generalize t * 2 ^ e * d = y at *
    rw [abs_of_nonpos (by omega), abs_of_nonpos (by omega)] at c; omega

end Types
