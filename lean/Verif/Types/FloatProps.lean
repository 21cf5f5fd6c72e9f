import Verif.Types.FloatText
import Verif.Types.IdLemmas
/-!
C76: `Float` through JSON and text.  C77: `Float` through the database driver.
-/
set_option linter.unusedVariables false
set_option linter.unusedSimpArgs false
namespace Types

/-- Units in 1.0, as a rational. -/
theorem one_cast : ((one : Nat) : ℚ) = 2 ^ 1074 := by unfold one; exact Nat.cast_pow 2 1074

theorem S_pos : (0 : ℚ) < 2 ^ 1074 := by rw [← one_cast]; exact Nat.cast_pos.2 one_pos

theorem dist_eq (u n d : Nat) (hd : 0 < d) :
    |(u : ℚ) / 2 ^ 1074 - (n : ℚ) / (d * 2 ^ 1074)| = ((|((u * d : Nat) : ℤ) - n| : ℤ) : ℚ) / (d * 2 ^ 1074) := by
  have hd' : (0 : ℚ) < d := by exact_mod_cast hd
  have hs : (0 : ℚ) < 2 ^ 1074 := S_pos
  generalize (2 : ℚ) ^ 1074 = S at *
  have e : (u : ℚ) / S - (n : ℚ) / (d * S) = (((u * d : Nat) : ℤ) - n : ℤ) / (d * S) := by
    push_cast
    field_simp
  rw [e, abs_div, abs_of_pos (show (0 : ℚ) < d * S by positivity)]
  push_cast
  rfl

theorem dist_le (u w n d : Nat) (hd : 0 < d) :
    |(u : ℚ) / 2 ^ 1074 - (n : ℚ) / (d * 2 ^ 1074)| ≤ |(w : ℚ) / 2 ^ 1074 - (n : ℚ) / (d * 2 ^ 1074)| ↔
      |((u * d : Nat) : ℤ) - n| ≤ |((w * d : Nat) : ℤ) - n| := by
  have hd' : (0 : ℚ) < d := by exact_mod_cast hd
  have hs : (0 : ℚ) < 2 ^ 1074 := S_pos
  rw [dist_eq u n d hd, dist_eq w n d hd, div_le_div_iff_of_pos_right (mul_pos hd' hs)]
  exact_mod_cast Iff.rfl

theorem sign_dist (neg neg' : Bool) (a x : ℚ) (ha : 0 ≤ a) (hx : 0 ≤ x) :
    |a - x| ≤ |(if neg' then -1 else 1) * a - (if neg then -1 else 1) * x| := by
  cases neg <;> cases neg' <;> simp
  · rw [abs_le]; constructor
    · have := neg_abs_le (-a - x); linarith [le_abs_self (-a - x)]
    · linarith [neg_abs_le (-a - x), le_abs_self (-a - x)]
  · rw [abs_le]; constructor
    · linarith [neg_abs_le (a + x), le_abs_self (a + x)]
    · linarith [neg_abs_le (a + x), le_abs_self (a + x)]
  · rw [abs_le]; constructor
    · linarith [neg_abs_le (-a + x), le_abs_self (-a + x)]
    · linarith [neg_abs_le (-a + x), le_abs_self (-a + x)]

theorem sign_dist_same (neg : Bool) (a x : ℚ) :
    |(if neg then -1 else 1) * a - (if neg then -1 else 1) * x| = |a - x| := by
  cases neg
  · simp
  · simp only [if_true]
    rw [← mul_sub, abs_mul]; simp

theorem nearest_round (neg : Bool) (n d : Nat) (hd : 0 < d) (h : roundUnits n d < tooBig) :
    Nearest (.fin neg (roundUnits n d)) ((if neg then -1 else 1) * ((n : ℚ) / (d * 2 ^ 1074))) := by
  refine ⟨trivial, ?_, ?_⟩
  · obtain ⟨t, ht, e⟩ := roundUnits_rep n d hd
    rw [e] at h ⊢
    exact isDouble_of _ _ _ ht h
  · intro w hf hw
    cases w with
    | inf _ => exact absurd hf (by simp [Finite])
    | nan => exact absurd hf (by simp [Finite])
    | fin neg' u =>
      obtain ⟨t, e, ht, he, rfl⟩ := hw
      have c := roundUnits_closest n d t e hd ht
      rw [← dist_le _ _ _ _ hd] at c
      simp only [numberOf]
      rw [sign_dist_same]
      exact le_trans c (sign_dist neg neg' _ _ (div_nonneg (Nat.cast_nonneg _) S_pos.le) (div_nonneg (Nat.cast_nonneg _) (mul_nonneg (Nat.cast_nonneg _) S_pos.le)))

theorem zpow_split (x : ℤ) : (10 : ℚ) ^ x = (10 : ℚ) ^ x.toNat / (10 : ℚ) ^ (-x).toNat := by
  rcases Int.le_total 0 x with h | h
  · obtain ⟨n, rfl⟩ := Int.eq_ofNat_of_zero_le h
    simp
  · obtain ⟨n, hn⟩ := Int.eq_ofNat_of_zero_le (show 0 ≤ -x by omega)
    have : x = -(n : ℤ) := by omega
    subst this
    simp

theorem literal_units (l : Literal) :
    l.value = (if l.sign = b!"-" then -1 else 1) *
      (((Spec.number (l.int ++ l.frac) * 10 ^ (l.power - (l.frac.length : ℤ)).toNat * one : Nat) : ℚ)
        / ((10 ^ (-(l.power - (l.frac.length : ℤ))).toNat : Nat) * 2 ^ 1074)) := by
  unfold Literal.value
  rw [mul_assoc]
  congr 1
  have e : (10 : ℚ) ^ l.power = (10 : ℚ) ^ (l.power - (l.frac.length : ℤ)) * 10 ^ l.frac.length := by
    rw [← zpow_natCast, ← zpow_add₀ (by norm_num)]; congr 1; omega
  rw [e, zpow_split (l.power - (l.frac.length : ℤ))]
  have hone := one_cast
  have h2 : (0 : ℚ) < 2 ^ 1074 := S_pos
  rw [← hone] at h2 ⊢
  generalize one = S at *
  push_cast
  have h1 : (0 : ℚ) < 10 ^ l.frac.length := by positivity
  have h3 : (0 : ℚ) < 10 ^ (-(l.power - (l.frac.length : ℤ))).toNat := by positivity
  field_simp

theorem overflow_large (n d : Nat) (hd : 0 < d) (h : tooBig ≤ roundUnits n d) : largest < (n : ℚ) / (d * 2 ^ 1074) := by
  have c := roundUnits_closest n d (2 ^ 53 - 1) 2045 hd (by decide)
  have hlt : (2 ^ 53 - 1) * 2 ^ 2045 < tooBig := by decide +kernel
  have hn : (2 ^ 53 - 1) * 2 ^ 2045 * d < n := by
    by_contra hc
    have h1 : tooBig * d ≤ roundUnits n d * d := Nat.mul_le_mul_right _ h
    have h2 : (2 ^ 53 - 1) * 2 ^ 2045 * d < tooBig * d := Nat.mul_lt_mul_of_pos_right hlt hd
    generalize roundUnits n d * d = r at *
    generalize (2 ^ 53 - 1) * 2 ^ 2045 * d = L at *
    generalize tooBig * d = B at *
    rw [abs_of_nonneg (by omega), abs_of_nonneg (by omega)] at c
    omega
  have hd' : (0 : ℚ) < d := by exact_mod_cast hd
  rw [lt_div_iff₀ (mul_pos hd' S_pos)]
  have e : largest * ((d : ℚ) * 2 ^ 1074) = (((2 ^ 53 - 1) * 2 ^ 2045 * d : Nat) : ℚ) := by
    unfold largest
    have h1 : (2 : ℚ) ^ 971 * 2 ^ 1074 = ((2 ^ 2045 : Nat) : ℚ) := by rw [← pow_add]; exact (Nat.cast_pow 2 2045).symm
    have h2 : ((2 ^ 53 - 1 : Nat) : ℚ) = 2 ^ 53 - 1 := by norm_num
    rw [Nat.cast_mul, Nat.cast_mul, h2, ← h1]
    generalize (2 : ℚ) ^ 1074 = S
    generalize (2 : ℚ) ^ 971 = T
    ring
  rw [e]
  exact Nat.cast_lt.2 hn

theorem toDbl_cases (neg : Bool) (n d : Nat) :
    (roundUnits n d < tooBig ∧ inRange (toDbl neg n d) = some (.fin neg (roundUnits n d)) ∧ toDbl neg n d = .fin neg (roundUnits n d))
      ∨ (tooBig ≤ roundUnits n d ∧ inRange (toDbl neg n d) = none) := by
  unfold toDbl
  generalize roundUnits n d = r
  generalize tooBig = B
  by_cases h : r < B
  · left; rw [if_pos h]; exact ⟨h, rfl, rfl⟩
  · right; rw [if_neg h]; exact ⟨by omega, rfl⟩

/-- **C76**: every decimal text, of any length, is read as a double nearest to the number it denotes (with the sign of the
text), and is refused only if the number lies beyond the largest double. -/
theorem C76_parse_is_nearest (hex : Bytes → Option Dbl) (l : Literal) (h : l.OK) :
    match parseFloat hex l.text with
    | some v => Nearest v l.value ∧ ∃ u, v = .fin (decide (l.sign = b!"-")) u
    | none => largest < |l.value| := by
  generalize hr : parseFloat hex l.text = r
  rw [parse_literal hex l h] at hr
  have hv := literal_units l
  have hd : 0 < 10 ^ (-(l.power - (l.frac.length : ℤ))).toNat := Nat.pow_pos (by omega)
  unfold scaled at hr
  generalize hN : Spec.number (l.int ++ l.frac) * 10 ^ (l.power - (l.frac.length : ℤ)).toNat * one = n at hv hr
  generalize hD : 10 ^ (-(l.power - (l.frac.length : ℤ))).toNat = d at hv hd hr
  rcases toDbl_cases (decide (l.sign = b!"-")) n d with ⟨hb, e, _⟩ | ⟨hb, e⟩
  · rw [e] at hr; subst hr
    refine ⟨?_, roundUnits n d, rfl⟩
    have := nearest_round (decide (l.sign = b!"-")) n d hd hb
    rw [hv]
    simpa using this
  · rw [e] at hr; subst hr
    show largest < |l.value|
    have := overflow_large n d hd hb
    rw [hv, abs_mul]
    have e : |(if l.sign = b!"-" then (-1 : ℚ) else 1)| = 1 := by split <;> simp
    rw [e, one_mul]
    exact lt_of_lt_of_le this (le_abs_self _)

/-- Non-vacuity: a literal with all parts. -/
example : (⟨b!"-", b!"12", true, b!"50", b!"e+", b!"3"⟩ : Literal).OK
    ∧ (⟨b!"-", b!"12", true, b!"50", b!"e+", b!"3"⟩ : Literal).text = b!"-12.50e+3" :=
  ⟨⟨by decide, forall_mem_of_all (by decide), forall_mem_of_all (by decide), by decide, by decide, by decide, forall_mem_of_all (by decide), by decide⟩, rfl⟩

/-- **C76**: when two doubles are equally close to the number, the one read is the even multiple of their distance
(round half to even). -/
theorem C76_parse_ties_even (hex : Bytes → Option Dbl) (l : Literal) (h : l.OK) (u w : Nat)
    (hp : parseFloat hex l.text = some (.fin (decide (l.sign = b!"-")) u)) (hw : IsDouble (.fin (decide (l.sign = b!"-")) w)) (hne : w ≠ u)
    (ht : |numberOf (.fin (decide (l.sign = b!"-")) w) - l.value| = |numberOf (.fin (decide (l.sign = b!"-")) u) - l.value|) :
    ∃ j : Nat, (u : ℤ) = 2 * j * |(u : ℤ) - w| := by
  rw [parse_literal hex l h] at hp
  have hv := literal_units l
  have hd : 0 < 10 ^ (-(l.power - (l.frac.length : ℤ))).toNat := Nat.pow_pos (by omega)
  unfold scaled at hp
  generalize hN : Spec.number (l.int ++ l.frac) * 10 ^ (l.power - (l.frac.length : ℤ)).toNat * one = n at hv hp
  generalize hD : 10 ^ (-(l.power - (l.frac.length : ℤ))).toNat = d at hv hd hp
  rcases toDbl_cases (decide (l.sign = b!"-")) n d with ⟨hb, e, _⟩ | ⟨hb, e⟩
  · rw [e] at hp
    injection hp with hp; injection hp with _ hp
    subst hp
    obtain ⟨t, e', ht1, he, rfl⟩ := hw
    apply roundUnits_tie n d t e' hd ht1 hne
    have hs : (if l.sign = b!"-" then (-1 : ℚ) else 1) = if decide (l.sign = b!"-") = true then -1 else 1 := by
      by_cases h : l.sign = b!"-" <;> simp [h]
    rw [hv, hs] at ht
    simp only [numberOf] at ht
    rw [sign_dist_same, sign_dist_same] at ht
    exact le_antisymm ((dist_le _ _ _ _ hd).1 ht.le) ((dist_le _ _ _ _ hd).1 ht.ge)
  · rw [e] at hp; cases hp

/-! #### Writing -/

/-- The literal `MarshalJSON` writes. -/
def written (neg : Bool) (k : Nat) : Literal :=
  ⟨if neg then b!"-" else [], Num.dec (k / 1000000), true, six (k % 1000000), [], []⟩

theorem written_ok (neg : Bool) (k : Nat) : (written neg k).OK :=
  ⟨by cases neg <;> simp [written], (dec_digits _).1.2, six_digits _, Or.inl (dec_ne_nil _), by simp [written], by simp [written],
    by simp [written, AllDigits], by simp [written]⟩

theorem written_text (neg : Bool) (u : Nat) : floatJSON (.fin neg u) = (written neg (millionths u)).text := by
  simp [floatJSON, fixedSix, written, Literal.text]

theorem written_number (neg : Bool) (k : Nat) : Spec.number ((written neg k).int ++ (written neg k).frac) = k := by
  simp only [written]
  rw [number_append, (dec_digits _).2, number_six _ (Nat.mod_lt _ (by omega))]
  have : (six (k % 1000000)).length = 6 := rfl
  rw [this]; omega

theorem written_sign (neg : Bool) (k : Nat) : decide ((written neg k).sign = b!"-") = neg := by cases neg <;> rfl

theorem read_written (hex : Bytes → Option Dbl) (neg : Bool) (k : Nat) :
    parseFloat hex (written neg k).text = inRange (toDbl neg (k * one) 1000000) := by
  rw [parse_literal hex _ (written_ok neg k), written_number, written_sign]
  have hp : (written neg k).power = 0 := by simp [written, Literal.power, Spec.number]
  have hf : (written neg k).frac.length = 6 := rfl
  rw [hp, hf]
  unfold scaled
  have e1 : ((0 : ℤ) - ((6 : Nat) : ℤ)).toNat = 0 := rfl
  have e2 : (-((0 : ℤ) - ((6 : Nat) : ℤ))).toNat = 6 := rfl
  rw [e1, e2, Nat.pow_zero, Nat.mul_one]

theorem trim_plain (s : Bytes) (h1 : s.head? ≠ some 34) (h2 : s.getLast? ≠ some 34) : trimQuotes s = s := by
  have d : ∀ t : Bytes, t.head? ≠ some 34 → t.dropWhile (· == 34) = t := by
    intro t ht
    cases t with
    | nil => rfl
    | cons c t =>
      have : c ≠ 34 := by simpa using ht
      simp [this]
  unfold trimQuotes
  rw [d s h1, d _ (by rw [List.head?_reverse]; exact h2), List.reverse_reverse]

theorem floatJSON_fin (neg : Bool) (u : Nat) :
    trimQuotes (floatJSON (.fin neg u)) = floatJSON (.fin neg u) ∧ 8 ≤ (floatJSON (.fin neg u)).length := by
  have hd := (dec_digits (millionths u / 1000000)).1
  have h6 := six_digits (millionths u % 1000000)
  have hl : (six (millionths u % 1000000)).length = 6 := rfl
  constructor
  · apply trim_plain
    · intro h
      cases neg
      · simp only [floatJSON, fixedSix] at h
        cases hx : Num.dec (millionths u / 1000000) with
        | nil => exact absurd hx (dec_ne_nil _)
        | cons c r =>
          rw [hx] at h
          simp at h
          have := hd.2 c (by rw [hx]; simp)
          rw [h] at this; exact absurd this (by decide)
      · simp [floatJSON, fixedSix] at h
    · intro h
      have hne : six (millionths u % 1000000) ≠ [] := by simp [six]
      rw [show floatJSON (.fin neg u) = ((if neg then b!"-" else []) ++ Num.dec (millionths u / 1000000) ++ b!".") ++ six (millionths u % 1000000) from rfl,
        List.getLast?_append] at h
      have hg : (six (millionths u % 1000000)).getLast? = some ((six (millionths u % 1000000)).getLast hne) := List.getLast?_eq_getLast_of_ne_nil hne
      rw [hg] at h
      simp at h
      have := h6 _ (List.getLast_mem hne)
      rw [h] at this; exact absurd this (by decide)
  · have hp : 0 < (Num.dec (millionths u / 1000000)).length := List.length_pos_iff.2 (dec_ne_nil _)
    have : floatJSON (.fin neg u) = ((if neg then b!"-" else []) ++ Num.dec (millionths u / 1000000) ++ b!".") ++ six (millionths u % 1000000) := rfl
    rw [this]
    simp only [List.length_append, hl, List.length_cons, List.length_nil]
    omega

theorem fromJSON_written (hex : Bytes → Option Dbl) (old : Dbl) (neg : Bool) (u : Nat) :
    floatFromJSON hex old (floatJSON (.fin neg u)) =
      (match inRange (toDbl neg (millionths u * one) 1000000) with
      | none => (old, false)
      | some d => (d, true)) := by
  obtain ⟨h1, h2⟩ := floatJSON_fin neg u
  have hne : ∀ s : Bytes, s.length < 8 → floatJSON (.fin neg u) ≠ s := fun s hs h => by rw [h] at h2; omega
  have hr := read_written hex neg (millionths u)
  unfold floatFromJSON
  rw [h1, if_neg (by
    rintro (h | h | h)
    · exact hne _ (by decide) h
    · exact hne _ (by decide) h
    · exact hne _ (by decide) h)]
  rw [written_text]
  simp only [hr]
  generalize inRange (toDbl neg (millionths u * one) 1000000) = o
  cases o <;> rfl

theorem back_bound (k : Nat) (h : k ≤ 2 ^ 33 * 1000000) : back k ≤ 2 ^ 34 * one := by
  have h1 := millionths_back k h
  obtain ⟨h2, h3⟩ := millionths_bounds (back k)
  rw [h1] at h2 h3
  have h4 : k * one ≤ 2 ^ 33 * 1000000 * one := Nat.mul_le_mul_right _ h
  have h5 : 2 ^ 33 * 1000000 * one = 1000000 * (2 ^ 33 * one) := by rw [Nat.mul_comm (2 ^ 33) 1000000, Nat.mul_assoc]
  have h6 : 2 ^ 34 * one = 2 * (2 ^ 33 * one) := by
    have : (2 : Nat) ^ 34 = 2 * 2 ^ 33 := by decide
    rw [this, Nat.mul_assoc]
  have h7 : one ≤ 2 ^ 33 * one := Nat.le_mul_of_pos_left _ (by decide)
  rw [h5] at h4
  rw [h6]
  generalize 2 ^ 33 * one = X at h4 h7 ⊢
  generalize k * one = Y at h2 h3 h4
  generalize back k = B at h2 h3 ⊢
  omega

theorem back_inRange (u : Nat) (hu : IsDouble (.fin false u)) : back (millionths u) < tooBig := by
  obtain ⟨t, e, ht, he, rfl⟩ := hu
  rcases Nat.lt_or_ge (t * 2 ^ e) (2 ^ 33 * one) with h | h
  · refine Nat.lt_of_le_of_lt (back_bound _ (millionths_small _ h)) ?_
    unfold one tooBig
    rw [← Nat.pow_add]
    exact Nat.pow_lt_pow_right (by decide) (by decide)
  · rw [back_large t e ht h]
    have h1 : t * 2 ^ e < 2 ^ 53 * 2 ^ e := Nat.mul_lt_mul_of_pos_right ht (Nat.two_pow_pos e)
    rw [← Nat.pow_add] at h1
    refine Nat.lt_of_lt_of_le h1 ?_
    unfold tooBig
    exact Nat.pow_le_pow_right (by decide) (by omega)

theorem isDouble_sign {neg : Bool} {u : Nat} (h : IsDouble (.fin neg u)) (neg' : Bool) : IsDouble (.fin neg' u) := h

theorem json_roundtrip (hex : Bytes → Option Dbl) (old : Dbl) (neg : Bool) (u : Nat) (hu : IsDouble (.fin neg u)) :
    floatFromJSON hex old (floatJSON (.fin neg u)) = (.fin neg (back (millionths u)), true) := by
  rw [fromJSON_written]
  have hb := back_inRange u (isDouble_sign hu false)
  rcases toDbl_cases neg (millionths u * one) 1000000 with ⟨_, e, _⟩ | ⟨hb', _⟩
  · rw [e]; rfl
  · exact absurd hb (by unfold back; exact Nat.not_lt.2 hb')

theorem millionth_dist (u k : Nat) :
    |(k : ℚ) / 1000000 - (u : ℚ) / 2 ^ 1074| = ((|((u * 1000000 : Nat) : ℤ) - ((k * one : Nat) : ℤ)| : ℤ) : ℚ) / (1000000 * 2 ^ 1074) := by
  have h := dist_eq u (k * one) 1000000 (by decide)
  have e : ((k * one : Nat) : ℚ) / (((1000000 : Nat) : ℚ) * 2 ^ 1074) = (k : ℚ) / 1000000 := by
    rw [Nat.cast_mul, one_cast, mul_div_mul_right _ _ (ne_of_gt S_pos)]; norm_num
  rw [e] at h
  rw [abs_sub_comm, h]
  norm_num

theorem millionths_dist (u : Nat) : |(millionths u : ℚ) / 1000000 - (u : ℚ) / 2 ^ 1074| ≤ 1 / 2000000 := by
  obtain ⟨b1, b2⟩ := millionths_bounds u
  have hS := S_pos
  have hone := one_cast
  rw [millionth_dist, ← hone, div_le_div_iff₀ (by rw [hone]; exact mul_pos (by norm_num) hS) (by norm_num)]
  have : 2 * |((u * 1000000 : Nat) : ℤ) - ((millionths u * one : Nat) : ℤ)| ≤ (one : ℤ) := by
    generalize millionths u * one = K at *
    generalize one = o at *
    have := abs_le.2 (⟨show -(o : ℤ) ≤ 2 * (((u * 1000000 : Nat) : ℤ) - K) by omega, show 2 * (((u * 1000000 : Nat) : ℤ) - K) ≤ o by omega⟩)
    rwa [abs_mul, abs_two] at this
  have h2 : ((2 * |((u * 1000000 : Nat) : ℤ) - ((millionths u * one : Nat) : ℤ)| : ℤ) : ℚ) ≤ ((one : ℤ) : ℚ) := Int.cast_le.2 this
  rw [Int.cast_mul] at h2
  generalize (|((u * 1000000 : Nat) : ℤ) - ((millionths u * one : Nat) : ℤ)| : ℤ) = A at *
  have h3 : ((one : ℤ) : ℚ) = ((one : Nat) : ℚ) := Int.cast_natCast one
  rw [h3] at h2
  generalize ((one : Nat) : ℚ) = o at *
  push_cast at h2
  linarith

/-- **C76**: the JSON (and `String`) text of a finite double is a plain decimal: the number of millionths nearest to
it (halves to even), with exactly six decimals and no superfluous leading zero. -/
theorem C76_text (neg : Bool) (u : Nat) :
    ∃ (k : Nat) (int frac : Bytes),
      floatJSON (.fin neg u) = (if neg then b!"-" else []) ++ int ++ b!"." ++ frac
      ∧ floatString (.fin neg u) = floatJSON (.fin neg u)
      ∧ Spec.Canonical int (k / 1000000) ∧ Spec.Digits frac ∧ frac.length = 6 ∧ Spec.number (int ++ frac) = k
      ∧ |(k : ℚ) / 1000000 - (u : ℚ) / 2 ^ 1074| ≤ 1 / 2000000
      ∧ (|(k : ℚ) / 1000000 - (u : ℚ) / 2 ^ 1074| = 1 / 2000000 → k % 2 = 0)
      ∧ JsonDecimal (floatJSON (.fin neg u)) := by
  have hc := dec_canonical (millionths u / 1000000)
  have hf : Spec.Digits (six (millionths u % 1000000)) := ⟨by simp [six], six_digits _⟩
  obtain ⟨b1, b2⟩ := millionths_bounds u
  have hS := S_pos
  have hone := one_cast
  refine ⟨millionths u, Num.dec (millionths u / 1000000), six (millionths u % 1000000), rfl, rfl, hc, hf, rfl,
    written_number neg (millionths u), ?_, ?_, ?_⟩
  · exact millionths_dist u
  · intro h
    rw [millionth_dist, ← hone, div_eq_div_iff (by rw [hone]; exact ne_of_gt (mul_pos (by norm_num) hS)) (by norm_num)] at h
    have h1 : 2 * |((u * 1000000 : Nat) : ℤ) - ((millionths u * one : Nat) : ℤ)| = (one : ℤ) := by
      have h3 : ((one : ℤ) : ℚ) = ((one : Nat) : ℚ) := Int.cast_natCast one
      rw [← h3] at h
      generalize (|((u * 1000000 : Nat) : ℤ) - ((millionths u * one : Nat) : ℤ)| : ℤ) = A at *
      generalize (one : ℤ) = o at *
      have : ((2 * A : ℤ) : ℚ) = (o : ℚ) := by push_cast; linarith
      exact_mod_cast this
    by_contra hodd
    -- a tie that chose an odd number contradicts the rounding rule
    have hk : millionths u + 1 ≠ rne (u * 1000000) one := by unfold millionths; omega
    have hk' : ∀ k, k ≠ rne (u * 1000000) one →
        |((k * one : Nat) : ℤ) - ((u * 1000000 : Nat) : ℤ)| = |((rne (u * 1000000) one * one : Nat) : ℤ) - ((u * 1000000 : Nat) : ℤ)| → False := by
      intro k hk hd
      exact hodd (rne_tie _ _ k one_pos hk hd).2
    unfold millionths at h1 hodd b1 b2
    rw [abs_sub_comm] at h1
    have hr0 : rne (u * 1000000) one ≠ 0 := by intro h0; rw [h0] at hodd; exact hodd rfl
    obtain ⟨r, hr⟩ : ∃ r, rne (u * 1000000) one = r + 1 := ⟨rne (u * 1000000) one - 1, by omega⟩
    have n1 := hk' (r + 2) (by omega)
    have n0 := hk' r (by omega)
    rw [hr] at h1 n1 n0
    have e2 : (r + 2) * one = r * one + one + one := by rw [Nat.add_mul]; omega
    have e1 : (r + 1) * one = r * one + one := by rw [Nat.add_mul]; omega
    rw [e2, e1] at n1
    rw [e1] at n0 h1
    generalize r * one = R at *
    generalize u * 1000000 = U at *
    generalize one = o at *
    rcases le_total ((R + o : Nat) : ℤ) (U : ℤ) with hle | hle
    · rw [abs_of_nonpos (by omega)] at h1
      apply n1
      rw [abs_of_nonneg (by omega), abs_of_nonpos (by omega)]; omega
    · rw [abs_of_nonneg (by omega)] at h1
      apply n0
      rw [abs_of_nonpos (by omega), abs_of_nonneg (by omega)]; omega
  · refine ⟨if neg then b!"-" else [], Num.dec (millionths u / 1000000), six (millionths u % 1000000), rfl, ?_, hc.1, hc.2.2, hf⟩
    cases neg <;> simp

end Types
