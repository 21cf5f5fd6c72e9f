import Verif.Types.FloatProps2
import Mathlib.Data.Nat.Log
set_option linter.unusedVariables false
set_option linter.unusedSimpArgs false
set_option exponentiation.threshold 3000
/-!
Decimal numbers of up to fifteen significant digits and `float64`: no two of them are read as the same double, and the shortest text of the double denotes the number.
-/
namespace Types

/-! ### Specification -/

/-- The number can be written with `k` significant decimal digits. -/
def SigDigits (k : Nat) (v : ℚ) : Prop := ∃ (m : ℤ) (x : ℤ), |m| < 10 ^ k ∧ v = m * (10 : ℚ) ^ x

/-- Zero, or of a size between 10^-307 and 10^307. -/
def Moderate (v : ℚ) : Prop := v = 0 ∨ (1 / 10 ^ 307 ≤ |v| ∧ |v| ≤ 10 ^ 307)

/-- `strconv.FormatFloat(d, 'f', -1, 64)` (standard library, by its documentation): a decimal text that `ParseFloat` reads as exactly `d`, with the smallest number of digits. -/
structure Shortest (hex : Bytes → Option Dbl) (short : Dbl → Literal) : Prop where
  ok : ∀ d, Finite d → IsDouble d → (short d).OK
  reads : ∀ d, Finite d → IsDouble d → parseFloat hex (short d).text = some d
  least : ∀ d, Finite d → IsDouble d → ∀ l : Literal, l.OK → parseFloat hex l.text = some d → ∀ k, SigDigits k l.value → SigDigits k (short d).value

/-! ### Relative error -/

theorem roundUnits_rel (n d : Nat) (hd : 0 < d) (h : 2 ^ 52 * d ≤ n) : 2 ^ 53 * |((roundUnits n d * d : Nat) : ℤ) - n| ≤ n := by
  have hl : 2 ^ (52 + lastPlace (n / d)) ≤ n / d := by
    by_cases h0 : 0 < lastPlace (n / d)
    · exact lastPlace_lower _ h0
    · have : lastPlace (n / d) = 0 := by omega
      rw [this]
      exact (Nat.le_div_iff_mul_le hd).2 h
  have hn : 2 ^ (52 + lastPlace (n / d)) * d ≤ n := (Nat.le_div_iff_mul_le hd).1 hl
  unfold roundUnits
  generalize lastPlace (n / d) = e at *
  have hb : 0 < d * 2 ^ e := Nat.mul_pos hd (Nat.two_pow_pos e)
  obtain ⟨g1, g2⟩ := rne_bounds n (d * 2 ^ e) hb
  have e1 : 2 ^ (52 + e) * d = 2 ^ 52 * (d * 2 ^ e) := by rw [Nat.pow_add]; ac_rfl
  have e2 : rne n (d * 2 ^ e) * 2 ^ e * d = rne n (d * 2 ^ e) * (d * 2 ^ e) := by rw [Nat.mul_assoc, Nat.mul_comm (2 ^ e) d]
  rw [e1] at hn
  rw [e2]
  generalize rne n (d * 2 ^ e) * (d * 2 ^ e) = r at *
  generalize d * 2 ^ e = b at *
  have : |((r : Nat) : ℤ) - n| * 2 ≤ b := by
    rcases abs_cases (((r : Nat) : ℤ) - n) with ⟨h, _⟩ | ⟨h, _⟩ <;> rw [h] <;> omega
  have h52 : (2 : ℤ) ^ 52 * b ≤ n := by exact_mod_cast hn
  have : (2 : ℤ) ^ 53 = 2 ^ 52 * 2 := by norm_num
  nlinarith

/-- Every rational is `± n/d` units. -/
theorem as_units (x : ℚ) : ∃ n d : Nat, 0 < d ∧ |x| = (n : ℚ) / (d * 2 ^ 1074) := by
  refine ⟨x.num.natAbs * one, x.den, x.den_pos, ?_⟩
  have h2 : (0 : ℚ) < 2 ^ 1074 := S_pos
  rw [← one_cast] at h2 ⊢
  generalize one = S at *
  have hd : (0 : ℚ) < x.den := by exact_mod_cast x.den_pos
  have e : |x| = (x.num.natAbs : ℚ) / x.den := by
    conv_lhs => rw [← Rat.num_div_den x]
    rw [abs_div, abs_of_pos hd, Nat.cast_natAbs, Int.cast_abs]
  rw [e]
  push_cast
  field_simp

theorem sign_mul_abs (x : ℚ) : (if decide (x < 0) = true then (-1 : ℚ) else 1) * |x| = x := by
  by_cases h : x < 0
  · simp [h, abs_of_neg]
  · simp [h, abs_of_nonneg (not_lt.1 h)]

/-- A nearest double differs from the number by at most one part in 2^53 (in the normal range). -/
theorem rel_error (v : Dbl) (x : ℚ) (h : Nearest v x) (h1 : 1 / 2 ^ 1022 ≤ |x|) (h2 : |x| ≤ largest) : |numberOf v - x| ≤ |x| / 2 ^ 53 := by
  obtain ⟨n, d, hd, hx⟩ := as_units x
  have hd' : (0 : ℚ) < d := by exact_mod_cast hd
  have hb : roundUnits n d < tooBig := by
    by_contra hc
    have := overflow_large n d hd (not_lt.1 hc)
    rw [← hx] at this
    exact absurd h2 (not_le.2 this)
  have hn := nearest_round (decide (x < 0)) n d hd hb
  rw [← hx, sign_mul_abs] at hn
  refine le_trans (h.2.2 _ hn.1 hn.2.1) ?_
  have hr : 2 ^ 52 * d ≤ n := by
    rw [hx, div_le_div_iff₀ (by positivity) (mul_pos hd' S_pos)] at h1
    have e : (2 : ℚ) ^ 1074 = 2 ^ 52 * 2 ^ 1022 := by rw [← pow_add]
    rw [e, one_mul] at h1
    have hp : (0 : ℚ) < 2 ^ 1022 := by positivity
    generalize (2 : ℚ) ^ 1022 = T at *
    have : (d : ℚ) * 2 ^ 52 ≤ n := by
      have : ((d : ℚ) * 2 ^ 52) * T ≤ n * T := by linarith
      exact le_of_mul_le_mul_right this hp
    have : ((d * 2 ^ 52 : Nat) : ℚ) ≤ n := by push_cast; exact this
    have := Nat.cast_le.1 this
    omega
  have hrel := roundUnits_rel n d hd hr
  have e : |numberOf (.fin (decide (x < 0)) (roundUnits n d)) - x| = |((roundUnits n d : Nat) : ℚ) / 2 ^ 1074 - (n : ℚ) / (d * 2 ^ 1074)| := by
    rw [← hx, ← sign_dist_same (decide (x < 0)) (((roundUnits n d : Nat) : ℚ) / 2 ^ 1074) |x|, sign_mul_abs]
    rfl
  rw [e, dist_eq _ n d hd, hx, div_div, mul_comm _ ((2 : ℚ) ^ 53)]
  rw [div_le_div_iff₀ (mul_pos hd' S_pos) (mul_pos (by positivity) (mul_pos hd' S_pos))]
  have h3 : ((2 ^ 53 * |((roundUnits n d * d : Nat) : ℤ) - n| : ℤ) : ℚ) ≤ n := by exact_mod_cast hrel
  rw [Int.cast_mul] at h3
  have h4 : (0 : ℚ) < d * 2 ^ 1074 := mul_pos hd' S_pos
  generalize (d : ℚ) * 2 ^ 1074 = D at *
  generalize ((|((roundUnits n d * d : Nat) : ℤ) - n| : ℤ) : ℚ) = A at *
  have e53 : (((2 : ℤ) ^ 53 : ℤ) : ℚ) = 2 ^ 53 := by norm_num
  rw [e53] at h3
  calc A * (2 ^ 53 * D) = (2 ^ 53 * A) * D := by ring
    _ ≤ n * D := mul_le_mul_of_nonneg_right h3 h4.le

/-! ### Fifteen digits -/

theorem sig_mono {k j : Nat} (h : k ≤ j) {v : ℚ} (hv : SigDigits k v) : SigDigits j v := by
  obtain ⟨m, x, hm, e⟩ := hv
  exact ⟨m, x, lt_of_lt_of_le hm (pow_le_pow_right₀ (by norm_num) h), e⟩

theorem sig_neg {k : Nat} {v : ℚ} (hv : SigDigits k v) : SigDigits k (-v) := by
  obtain ⟨m, x, hm, e⟩ := hv
  exact ⟨-m, x, by rwa [abs_neg], by rw [e]; push_cast; ring⟩

/-- A positive number of up to fifteen digits, written with exactly fifteen. -/
theorem normalised {v : ℚ} (hv : 0 < v) (h : SigDigits 15 v) : ∃ (m : Nat) (y : ℤ), 10 ^ 14 ≤ m ∧ m < 10 ^ 15 ∧ v = m * (10 : ℚ) ^ y := by
  obtain ⟨m, x, hm, e⟩ := h
  have hp : (0 : ℚ) < (10 : ℚ) ^ x := zpow_pos (by norm_num) x
  have hm0 : 0 < m := by
    by_contra hc
    have : (m : ℚ) ≤ 0 := by exact_mod_cast not_lt.1 hc
    have : v ≤ 0 := by rw [e]; exact mul_nonpos_of_nonpos_of_nonneg this hp.le
    exact absurd hv (not_lt.2 this)
  obtain ⟨n, rfl⟩ := Int.eq_ofNat_of_zero_le hm0.le
  have hn0 : n ≠ 0 := by intro h; subst h; simp at hm0
  have hn : n < 10 ^ 15 := by
    have : ((n : ℤ)) < 10 ^ 15 := lt_of_le_of_lt (le_abs_self _) hm
    exact_mod_cast this
  have hl : Nat.log 10 n ≤ 14 := by
    have := Nat.log_lt_of_lt_pow hn0 hn
    omega
  refine ⟨n * 10 ^ (14 - Nat.log 10 n), x - ((14 - Nat.log 10 n : Nat) : ℤ), ?_, ?_, ?_⟩
  · have := Nat.pow_log_le_self 10 hn0
    calc 10 ^ 14 = 10 ^ (Nat.log 10 n) * 10 ^ (14 - Nat.log 10 n) := by rw [← Nat.pow_add]; congr 1; omega
      _ ≤ _ := Nat.mul_le_mul_right _ this
  · have := Nat.lt_pow_succ_log_self (b := 10) (by norm_num) n
    calc n * 10 ^ (14 - Nat.log 10 n) < 10 ^ (Nat.log 10 n + 1) * 10 ^ (14 - Nat.log 10 n) := Nat.mul_lt_mul_of_pos_right this (by positivity)
      _ = 10 ^ 15 := by rw [← Nat.pow_add]; congr 1; omega
  · rw [e]
    push_cast
    rw [zpow_sub₀ (by norm_num), zpow_natCast]
    field_simp

theorem apart {a b : ℚ} (hb : 0 < b) (hab : b < a) (ha : SigDigits 15 a) (hb' : SigDigits 15 b) : b / 10 ^ 15 < a - b := by
  obtain ⟨m, y, h1, h2, e⟩ := normalised hb hb'
  obtain ⟨n, z, h3, h4, e'⟩ := normalised (lt_trans hb hab) ha
  have py : (0 : ℚ) < (10 : ℚ) ^ y := zpow_pos (by norm_num) y
  have pz : (0 : ℚ) < (10 : ℚ) ^ z := zpow_pos (by norm_num) z
  have h1' : (10 : ℚ) ^ 14 ≤ m := by exact_mod_cast h1
  have h2' : (m : ℚ) < 10 ^ 15 := by exact_mod_cast h2
  have h4' : (n : ℚ) < 10 ^ 15 := by exact_mod_cast h4
  have hyz : y ≤ z := by
    by_contra hc
    have hzy : z + 1 ≤ y := by omega
    have : (10 : ℚ) ^ (z + 1) ≤ 10 ^ y := zpow_le_zpow_right₀ (by norm_num) hzy
    rw [zpow_add₀ (by norm_num), zpow_one] at this
    have : a < b := by
      rw [e, e']
      calc (n : ℚ) * 10 ^ z < 10 ^ 15 * 10 ^ z := mul_lt_mul_of_pos_right h4' pz
        _ = 10 ^ 14 * (10 ^ z * 10) := by ring
        _ ≤ 10 ^ 14 * 10 ^ y := by gcongr
        _ ≤ m * 10 ^ y := mul_le_mul_of_nonneg_right h1' py.le
    exact absurd hab (not_lt.2 this.le)
  obtain ⟨j, hj⟩ := Int.eq_ofNat_of_zero_le (show 0 ≤ z - y by omega)
  have ez : (10 : ℚ) ^ z = 10 ^ j * 10 ^ y := by
    rw [← zpow_natCast, ← zpow_add₀ (by norm_num)]; congr 1; omega
  have ea : a = ((n * 10 ^ j : Nat) : ℚ) * 10 ^ y := by rw [e', ez]; push_cast; ring
  have hlt : m < n * 10 ^ j := by
    rw [ea, e] at hab
    exact_mod_cast lt_of_mul_lt_mul_right hab py.le
  have hle : ((m + 1 : Nat) : ℚ) ≤ ((n * 10 ^ j : Nat) : ℚ) := Nat.cast_le.2 hlt
  have : (10 : ℚ) ^ y ≤ a - b := by
    rw [ea, e, ← sub_mul]
    have : (1 : ℚ) ≤ ((n * 10 ^ j : Nat) : ℚ) - m := by push_cast at hle ⊢; linarith
    calc (10 : ℚ) ^ y = 1 * 10 ^ y := by ring
      _ ≤ _ := mul_le_mul_of_nonneg_right this py.le
  refine lt_of_lt_of_le ?_ this
  rw [div_lt_iff₀ (by positivity), e, mul_comm]
  exact mul_lt_mul_of_pos_left h2' py

theorem close_eq_pos {a b : ℚ} (hb : 0 < b) (hab : b < a) (ha : SigDigits 15 a) (hb' : SigDigits 15 b) (h : a - b ≤ (a + b) / 2 ^ 53) : False := by
  have h1 := apart hb hab ha hb'
  rw [le_div_iff₀ (by positivity)] at h
  rw [div_lt_iff₀ (by positivity)] at h1
  norm_num at h h1
  linarith

theorem close_eq {a b : ℚ} (ha : SigDigits 15 a) (hb : SigDigits 15 b) (h : |a - b| ≤ (|a| + |b|) / 2 ^ 53) : a = b := by
  rw [le_div_iff₀ (by positivity)] at h
  by_contra hne
  have h' : |a - b| ≤ (|a| + |b|) / 2 ^ 53 := by rw [le_div_iff₀ (by positivity)]; exact h
  rcases lt_trichotomy a 0 with ha0 | ha0 | ha0 <;> rcases lt_trichotomy b 0 with hb0 | hb0 | hb0
  · rcases lt_or_gt_of_ne hne with hl | hl
    · rw [abs_of_neg (by linarith : a - b < 0), abs_of_neg ha0, abs_of_neg hb0] at h'
      exact close_eq_pos (a := -a) (b := -b) (by linarith) (by linarith) (sig_neg ha) (sig_neg hb) (by linarith)
    · rw [abs_of_pos (by linarith : 0 < a - b), abs_of_neg ha0, abs_of_neg hb0] at h'
      exact close_eq_pos (a := -b) (b := -a) (by linarith) (by linarith) (sig_neg hb) (sig_neg ha) (by linarith)
  · subst hb0; norm_num [abs_of_neg ha0] at h; linarith
  · rw [abs_of_neg (by linarith : a - b < 0), abs_of_neg ha0, abs_of_pos hb0] at h; norm_num at h; linarith
  · subst ha0; norm_num [abs_of_neg hb0] at h; linarith
  · exact hne (ha0.trans hb0.symm)
  · subst ha0; norm_num [abs_of_pos hb0] at h; linarith
  · rw [abs_of_pos (by linarith : 0 < a - b), abs_of_pos ha0, abs_of_neg hb0] at h; norm_num at h; linarith
  · subst hb0; norm_num [abs_of_pos ha0] at h; linarith
  · rcases lt_or_gt_of_ne hne with hl | hl
    · rw [abs_of_neg (by linarith : a - b < 0), abs_of_pos ha0, abs_of_pos hb0] at h'
      exact close_eq_pos (a := b) (b := a) (by linarith) (by linarith) hb ha (by linarith)
    · rw [abs_of_pos (by linarith : 0 < a - b), abs_of_pos ha0, abs_of_pos hb0] at h'
      exact close_eq_pos hb0 hl ha hb h'

/-! ### Reading and the shortest text -/

theorem pow_307 : (10 : ℚ) ^ 307 ≤ 2 ^ 1020 := by
  have : (10 : Nat) ^ 307 ≤ 2 ^ 1020 := by decide +kernel
  exact_mod_cast this

theorem largest_ge : (2 : ℚ) ^ 1023 ≤ largest := by
  unfold largest
  have e : (2 : ℚ) ^ 1023 = 2 ^ 52 * 2 ^ 971 := by rw [← pow_add]
  rw [e]
  have : (0 : ℚ) < 2 ^ 971 := by positivity
  generalize (2 : ℚ) ^ 971 = T at *
  norm_num
  linarith

/-- `2^e` is a double, `-1074 ≤ e ≤ 1023`. -/
theorem pow_double (neg : Bool) (e : Nat) (h : e ≤ 2045) : IsDouble (.fin neg (2 ^ e)) := ⟨1, e, by norm_num, h, by simp⟩

theorem zero_near {v : Dbl} (h : Nearest v 0) : numberOf v = 0 := by
  have := h.2.2 (.fin false 0) trivial ⟨0, 0, by norm_num, by norm_num, rfl⟩
  simp [numberOf] at this
  simpa [numberOf] using this

theorem moderate_normal {x : ℚ} (h : Moderate x) (hx : x ≠ 0) : 1 / 2 ^ 1022 ≤ |x| ∧ |x| ≤ largest := by
  rcases h with h | ⟨h1, h2⟩
  · exact absurd h hx
  · constructor
    · refine le_trans ?_ h1
      apply one_div_le_one_div_of_le (by positivity)
      refine le_trans pow_307 ?_
      exact pow_le_pow_right₀ (by norm_num) (by norm_num)
    · refine le_trans h2 (le_trans pow_307 (le_trans ?_ largest_ge))
      exact pow_le_pow_right₀ (by norm_num) (by norm_num)

theorem moderate_error {v : Dbl} {x : ℚ} (h : Nearest v x) (hm : Moderate x) : |numberOf v - x| ≤ |x| / 2 ^ 53 := by
  by_cases hx : x = 0
  · subst hx; rw [zero_near h]; simp
  · exact rel_error v x h (moderate_normal hm hx).1 (moderate_normal hm hx).2

/-- Whatever else is read as the same double is in the normal range too. -/
theorem other_normal {v : Dbl} {x y : ℚ} (h : Nearest v x) (h' : Nearest v y) (hm : Moderate x) (hx : x ≠ 0) : 1 / 2 ^ 1022 ≤ |y| ∧ |y| ≤ largest := by
  have he := moderate_error h hm
  have hv1 : |x| / 2 ≤ |numberOf v| := by
    have := abs_sub_abs_le_abs_sub x (numberOf v)
    rw [abs_sub_comm] at this
    have h3 : |x| / 2 ^ 53 ≤ |x| / 2 := by
      apply div_le_div_of_nonneg_left (abs_nonneg _) (by norm_num) (by norm_num)
    linarith
  have hv2 : |numberOf v| ≤ 2 * |x| := by
    have := abs_sub_abs_le_abs_sub (numberOf v) x
    have h3 : |x| / 2 ^ 53 ≤ |x| := div_le_self (abs_nonneg _) (by norm_num)
    linarith
  rcases hm with hm | ⟨h1, h2⟩
  · exact absurd hm hx
  have k1 : (1 : ℚ) / 2 ^ 1020 ≤ |x| := le_trans (one_div_le_one_div_of_le (by positivity) pow_307) h1
  have k2 : |x| ≤ 2 ^ 1020 := le_trans h2 pow_307
  have f1 : (1 : ℚ) / 2 ^ 1020 = 4 * (1 / 2 ^ 1022) := by
    have : (2 : ℚ) ^ 1022 = 4 * 2 ^ 1020 := by rw [show (4 : ℚ) = 2 ^ 2 by norm_num, ← pow_add]
    rw [this]; field_simp
  have f2 : (2 : ℚ) ^ 1022 = 4 * 2 ^ 1020 := by rw [show (4 : ℚ) = 2 ^ 2 by norm_num, ← pow_add]
  have f3 : (2 : ℚ) ^ 1022 ≤ 2 ^ 1023 := pow_le_pow_right₀ (by norm_num) (by norm_num)
  have p1 : (0 : ℚ) < 1 / 2 ^ 1022 := by positivity
  -- the same size, with the sign of `y`
  have hs : ∀ e : Nat, e ≤ 2045 → |(numberOf v) - y| ≤ |(2 : ℚ) ^ e / 2 ^ 1074 - (|y|)| := by
    intro e he
    refine le_trans (h'.2.2 (.fin (decide (y < 0)) (2 ^ e)) trivial (pow_double _ e he)) ?_
    rw [← sign_dist_same (decide (y < 0)) ((2 : ℚ) ^ e / 2 ^ 1074) |y|, sign_mul_abs]
    simp only [numberOf]
    apply le_of_eq
    congr 4
    exact_mod_cast Nat.cast_pow 2 e
  have hd : |(numberOf v)| - |y| ≤ |numberOf v - y| := abs_sub_abs_le_abs_sub _ _
  have hd' : |y| - |(numberOf v)| ≤ |numberOf v - y| := by rw [abs_sub_comm]; exact abs_sub_abs_le_abs_sub _ _
  constructor
  · by_contra hc
    have hc := not_le.1 hc
    have := hs 52 (by norm_num)
    have e : (2 : ℚ) ^ 52 / 2 ^ 1074 = 1 / 2 ^ 1022 := by
      rw [show (2 : ℚ) ^ 1074 = 2 ^ 52 * 2 ^ 1022 by rw [← pow_add]]
      field_simp
    rw [e, abs_of_pos (a := 1 / 2 ^ 1022 - |y|) (by linarith)] at this
    generalize (1 : ℚ) / 2 ^ 1022 = T at *
    linarith
  · by_contra hc
    have hc := not_le.1 hc
    have hb := largest_ge
    have := hs 2045 (by norm_num)
    have e : (2 : ℚ) ^ 2045 / 2 ^ 1074 = 2 ^ 971 := by
      rw [show (2 : ℚ) ^ 2045 = 2 ^ 971 * 2 ^ 1074 by rw [← pow_add]]
      field_simp
    have hpow : (2 : ℚ) ^ 2097 / 2 ^ 1074 = 2 ^ 1023 := by
      rw [show (2 : ℚ) ^ 2097 = 2 ^ 1023 * 2 ^ 1074 by rw [← pow_add]]
      field_simp
    have := h'.2.2 (.fin (decide (y < 0)) ((2 ^ 53 - 1) * 2 ^ 2045)) trivial ⟨2 ^ 53 - 1, 2045, by norm_num, le_refl _, rfl⟩
    have e2 : |numberOf (.fin (decide (y < 0)) ((2 ^ 53 - 1) * 2 ^ 2045)) - y| = |largest - (|y|)| := by
      rw [← sign_dist_same (decide (y < 0)) largest |y|, sign_mul_abs]
      simp only [numberOf]
      congr 3
      have h2 : ((2 ^ 53 - 1 : Nat) : ℚ) = 2 ^ 53 - 1 := by norm_num
      rw [Nat.cast_mul, h2, mul_div_assoc, Nat.cast_pow]
      unfold largest
      rw [show ((2 : Nat) : ℚ) = 2 by norm_num, e]
    rw [e2, abs_of_neg (a := largest - |y|) (by linarith)] at this
    generalize largest = L at *
    generalize (2 : ℚ) ^ 1023 = B at *
    generalize (2 : ℚ) ^ 1022 = A at *
    linarith

/-- Two numbers of up to fifteen digits with a common nearest double are equal. -/
theorem nearest_inj {v : Dbl} {x y : ℚ} (h : Nearest v x) (h' : Nearest v y) (hm : Moderate x) (hx : x ≠ 0) (dx : SigDigits 15 x) (dy : SigDigits 15 y) : x = y := by
  have e1 := moderate_error h hm
  obtain ⟨n1, n2⟩ := other_normal h h' hm hx
  have e2 := rel_error v y h' n1 n2
  apply close_eq dx dy
  have : |x - y| ≤ |numberOf v - x| + |numberOf v - y| := by
    have := abs_sub_le x (numberOf v) y
    rwa [abs_sub_comm x (numberOf v)] at this
  have e3 : (|x| + |y|) / 2 ^ 53 = |x| / 2 ^ 53 + |y| / 2 ^ 53 := by rw [add_div]
  rw [e3]
  linarith

theorem literal_zero_sig {k : Nat} : SigDigits k 0 := ⟨0, 0, by positivity, by simp⟩

theorem reads_some (hex : Bytes → Option Dbl) (l : Literal) (h : l.OK) (hm : Moderate l.value) :
    ∃ d, parseFloat hex l.text = some d ∧ Nearest d l.value ∧ ∃ u, d = .fin (decide (l.sign = b!"-")) u := by
  have := C76_parse_is_nearest hex l h
  cases hp : parseFloat hex l.text with
  | some d => rw [hp] at this; exact ⟨d, rfl, this⟩
  | none =>
    rw [hp] at this
    exfalso
    have hb : |l.value| ≤ largest := by
      by_cases hx : l.value = 0
      · rw [hx, abs_zero]; exact le_trans (by positivity) largest_ge
      · exact (moderate_normal hm hx).2
    exact absurd hb (not_le.2 this)

theorem nearest_of_reads (hex : Bytes → Option Dbl) (l : Literal) (h : l.OK) (d : Dbl) (hp : parseFloat hex l.text = some d) : Nearest d l.value := by
  have := C76_parse_is_nearest hex l h
  rw [hp] at this
  exact this.1

/-- **C110, the numbers**: a decimal number of up to fifteen significant digits (of any size between 10^-307 and 10^307) is read as a double whose shortest text denotes the very same number;
and two texts of such numbers are read as the same double only if the numbers are equal. -/
theorem C110_fifteen_digits_survive (hex : Bytes → Option Dbl) (short : Dbl → Literal) (hs : Shortest hex short) (l : Literal) (hl : l.OK) (hd : SigDigits 15 l.value) (hm : Moderate l.value) :
    ∃ d, parseFloat hex l.text = some d ∧ Finite d ∧ (short d).value = l.value
      ∧ ∀ l' : Literal, l'.OK → SigDigits 15 l'.value → Moderate l'.value → (∃ d', parseFloat hex l'.text = some d' ∧ numberOf d' = numberOf d) → l'.value = l.value := by
  obtain ⟨d, hp, hn, u, hu⟩ := reads_some hex l hl hm
  have hf : Finite d := by rw [hu]; trivial
  refine ⟨d, hp, hf, ?_, ?_⟩
  · by_cases hx : l.value = 0
    · have h0 : SigDigits 0 l.value := by rw [hx]; exact literal_zero_sig
      obtain ⟨m, x, h1, h2⟩ := hs.least d hf hn.2.1 l hl hp 0 h0
      have : m = 0 := by
        have : |m| < 1 := by simpa using h1
        have := abs_nonneg m
        exact abs_eq_zero.1 (by omega)
      rw [h2, this, hx]; simp
    · exact (nearest_inj hn (nearest_of_reads hex _ (hs.ok d hf hn.2.1) d (hs.reads d hf hn.2.1)) hm hx hd (hs.least d hf hn.2.1 l hl hp 15 hd)).symm
  · rintro l' hl' hd' hm' ⟨d', hp', hnum⟩
    have hn' := nearest_of_reads hex l' hl' d' hp'
    have hn2 : Nearest d l'.value := ⟨hf, hn.2.1, fun w h1 h2 => by rw [← hnum]; exact hn'.2.2 w h1 h2⟩
    by_cases hx : l.value = 0
    · by_cases hy : l'.value = 0
      · rw [hx, hy]
      · exact (nearest_inj hn2 hn hm' hy hd' hd)
    · exact (nearest_inj hn hn2 hm hx hd hd').symm

/-! ### The contract can be met -/

/-- The exact value of a double, as a decimal. -/
def exactLiteral (neg : Bool) (u : Nat) : Literal := ⟨if neg then b!"-" else [], Num.dec (u * 5 ^ 1074), false, [], b!"e-", b!"1074"⟩

theorem exact_ok (neg : Bool) (u : Nat) : (exactLiteral neg u).OK := by
  have hd := Types.dec_digits (u * 5 ^ 1074)
  refine ⟨by cases neg <;> simp [exactLiteral], hd.1.2, by simp [exactLiteral, AllDigits], Or.inl hd.1.1, by simp [exactLiteral], by simp [exactLiteral], ?_, by simp [exactLiteral]⟩
  show ∀ c ∈ b!"1074", 48 ≤ c.toNat ∧ c.toNat ≤ 57
  exact forall_mem_of_all (by decide)

theorem exact_power (neg : Bool) (u : Nat) : (exactLiteral neg u).power = -1074 := by
  have h : (if (b!"e-").getLast? = some c!"-" then (-1 : ℤ) else 1) * (Spec.number b!"1074" : ℤ) = -1074 := by decide
  exact h

theorem exact_value (neg : Bool) (u : Nat) : (exactLiteral neg u).value = numberOf (.fin neg u) := by
  have hd := Types.dec_digits (u * 5 ^ 1074)
  have hp := exact_power neg u
  have hsgn : ((exactLiteral neg u).sign = b!"-") ↔ neg = true := by cases neg <;> simp [exactLiteral]
  unfold Literal.value
  rw [hp]
  simp only [hsgn, numberOf]
  rw [mul_assoc]
  congr 1
  have e : (exactLiteral neg u).int ++ (exactLiteral neg u).frac = Num.dec (u * 5 ^ 1074) := by simp [exactLiteral]
  have e2 : (exactLiteral neg u).frac.length = 0 := rfl
  rw [e, e2, hd.2, zpow_neg]
  have e3 : (10 : ℚ) ^ (1074 : ℤ) = 2 ^ 1074 * 5 ^ 1074 := by
    rw [← mul_pow, show (1074 : ℤ) = ((1074 : Nat) : ℤ) by norm_num, zpow_natCast]
    norm_num
  rw [e3, Nat.cast_mul, Nat.cast_pow]
  have h2 : (0 : ℚ) < 2 ^ 1074 := S_pos
  have h5 : (0 : ℚ) < 5 ^ 1074 := by positivity
  rw [show ((5 : Nat) : ℚ) = 5 by norm_num]
  generalize (2 : ℚ) ^ 1074 = S at *
  generalize (5 : ℚ) ^ 1074 = F at *
  field_simp

theorem exact_reads (hex : Bytes → Option Dbl) (neg : Bool) (u : Nat) (h : IsDouble (.fin neg u)) : parseFloat hex (exactLiteral neg u).text = some (.fin neg u) := by
  have := C76_parse_is_nearest hex _ (exact_ok neg u)
  have hsgn : decide ((exactLiteral neg u).sign = b!"-") = neg := by cases neg <;> simp [exactLiteral]
  cases hp : parseFloat hex (exactLiteral neg u).text with
  | some v =>
    rw [hp] at this
    obtain ⟨hn, w, hw⟩ := this
    rw [hsgn] at hw
    have h0 := hn.2.2 (.fin neg u) trivial h
    rw [exact_value, sub_self, abs_zero] at h0
    have h1 := abs_eq_zero.1 (le_antisymm h0 (abs_nonneg _))
    rw [hw] at h1 ⊢
    simp only [numberOf, ← mul_sub, ← sub_div] at h1
    have h2 : (0 : ℚ) < 2 ^ 1074 := S_pos
    have h3 : ((w : ℚ) - u) = 0 := by
      rcases mul_eq_zero.1 h1 with h | h
      · cases neg <;> simp at h
      · rcases div_eq_zero_iff.1 h with h | h
        · exact h
        · rw [h] at h2; exact absurd h2 (lt_irrefl _)
    have : (w : ℚ) = u := sub_eq_zero.1 h3
    rw [Nat.cast_inj.1 this]
  | none =>
    rw [hp] at this
    exfalso
    rw [exact_value] at this
    obtain ⟨t, e, ht, he, rfl⟩ := h
    have hb : (t * 2 ^ e : Nat) ≤ (2 ^ 53 - 1) * 2 ^ 2045 := Nat.mul_le_mul (by omega) (Nat.pow_le_pow_right (by omega) he)
    have h2 : (0 : ℚ) < 2 ^ 1074 := S_pos
    have : |numberOf (.fin neg (t * 2 ^ e))| ≤ largest := by
      have e1 : |numberOf (.fin neg (t * 2 ^ e))| = ((t * 2 ^ e : Nat) : ℚ) / 2 ^ 1074 := by
        simp only [numberOf]
        rw [abs_mul, abs_of_nonneg (div_nonneg (Nat.cast_nonneg _) h2.le)]
        cases neg <;> simp
      rw [e1, div_le_iff₀ h2]
      have e2 : largest * 2 ^ 1074 = (((2 ^ 53 - 1) * 2 ^ 2045 : Nat) : ℚ) := by
        unfold largest
        have h1 : (2 : ℚ) ^ 971 * 2 ^ 1074 = ((2 ^ 2045 : Nat) : ℚ) := by rw [← pow_add]; exact (Nat.cast_pow 2 2045).symm
        have h2 : ((2 ^ 53 - 1 : Nat) : ℚ) = 2 ^ 53 - 1 := by norm_num
        rw [Nat.cast_mul, h2, ← h1]
        ring
      rw [e2]
      exact Nat.cast_le.2 hb
    exact absurd this (not_le.2 (by assumption))

theorem sig_some (v : Dbl) (neg : Bool) (u : Nat) : ∃ k, SigDigits k (exactLiteral neg u).value := by
  refine ⟨(u * 5 ^ 1074), ((if neg then -1 else 1) * ((u * 5 ^ 1074 : Nat) : ℤ)), -1074, ?_, ?_⟩
  · have : |(if neg then (-1 : ℤ) else 1) * ((u * 5 ^ 1074 : Nat) : ℤ)| = ((u * 5 ^ 1074 : Nat) : ℤ) := by
      rw [abs_mul, abs_of_nonneg (Int.natCast_nonneg _)]; cases neg <;> simp
    rw [this]
    have := Nat.lt_pow_self (n := u * 5 ^ 1074) (a := 10) (by norm_num)
    generalize u * 5 ^ 1074 = n at *
    exact_mod_cast this
  · unfold Literal.value
    have hp := exact_power neg u
    have hd := Types.dec_digits (u * 5 ^ 1074)
    have e : (exactLiteral neg u).int ++ (exactLiteral neg u).frac = Num.dec (u * 5 ^ 1074) := by simp [exactLiteral]
    have e2 : (exactLiteral neg u).frac.length = 0 := rfl
    rw [hp, e, e2, hd.2]
    generalize u * 5 ^ 1074 = n
    generalize (10 : ℚ) ^ (-1074 : ℤ) = T
    cases neg <;> simp [exactLiteral]

/-- The contract of `FormatFloat` can be met, and for every double there is a shortest text. -/
theorem shortest_exists (hex : Bytes → Option Dbl) : ∃ short, Shortest hex short := by
  classical
  have key : ∀ d, ∃ l : Literal, Finite d → IsDouble d → l.OK ∧ parseFloat hex l.text = some d
      ∧ ∀ l' : Literal, l'.OK → parseFloat hex l'.text = some d → ∀ k, SigDigits k l'.value → SigDigits k l.value := by
    intro d
    by_cases hd : Finite d ∧ IsDouble d
    · obtain ⟨hf, hi⟩ := hd
      cases d with
      | inf _ => exact absurd hf (by simp [Finite])
      | nan => exact absurd hf (by simp [Finite])
      | fin neg u =>
        have hex' : ∃ k, ∃ l : Literal, l.OK ∧ parseFloat hex l.text = some (.fin neg u) ∧ SigDigits k l.value := by
          obtain ⟨k, hk⟩ := sig_some (.fin neg u) neg u
          exact ⟨k, _, exact_ok neg u, exact_reads hex neg u hi, hk⟩
        obtain ⟨l, h1, h2, h3⟩ := Nat.find_spec hex'
        refine ⟨l, fun _ _ => ⟨h1, h2, fun l' h4 h5 k h6 => sig_mono (Nat.find_min' hex' ⟨l', h4, h5, h6⟩) h3⟩⟩
    · exact ⟨⟨[], [], false, [], [], []⟩, fun a b => absurd ⟨a, b⟩ hd⟩
  choose short hs using key
  exact ⟨short, fun d a b => (hs d a b).1, fun d a b => (hs d a b).2.1, fun d a b => (hs d a b).2.2⟩

end Types
