import Verif.Types.FloatProps
/-!
C76 (continued): JSON round trip of `Float`.  C77: `Float` through the database driver.
-/
set_option linter.unusedVariables false
set_option linter.unusedSimpArgs false
namespace Types

theorem millionth_value (k : Nat) : ((k * one : Nat) : ℚ) / (((1000000 : Nat) : ℚ) * 2 ^ 1074) = (k : ℚ) / 1000000 := by
  rw [Nat.cast_mul, one_cast, mul_div_mul_right _ _ (ne_of_gt S_pos)]; norm_num

theorem back_nearest (k : Nat) (h : back k < tooBig) : Nearest (.fin false (back k)) ((k : ℚ) / 1000000) := by
  have := nearest_round false (k * one) 1000000 (by decide) h
  rw [millionth_value] at this
  simpa [back] using this

/-- **C76**: writing a finite double as JSON and reading it back always succeeds, gives a double of the same sign within a
millionth of the original, and writing that again gives the same text. -/
theorem C76_json_stable (hex : Bytes → Option Dbl) (old : Dbl) (neg : Bool) (u : Nat) (h : IsDouble (.fin neg u)) :
    ∃ w, floatFromJSON hex old (floatJSON (.fin neg u)) = (.fin neg w, true) ∧ IsDouble (.fin neg w)
      ∧ floatJSON (.fin neg w) = floatJSON (.fin neg u)
      ∧ |numberOf (.fin neg w) - numberOf (.fin neg u)| ≤ 1 / 1000000 := by
  have hb := back_inRange u (isDouble_sign h false)
  have hn := back_nearest _ hb
  refine ⟨back (millionths u), json_roundtrip hex old neg u h, isDouble_sign hn.2.1 neg, ?_, ?_⟩
  · obtain ⟨t, e, ht, he, rfl⟩ := h
    simp only [floatJSON, fixedSix, millionths_stable t e ht]
  · simp only [numberOf]
    rw [sign_dist_same]
    have h1 := hn.2.2 (.fin false u) trivial (isDouble_sign h false)
    simp only [numberOf, Bool.false_eq_true, if_false, one_mul] at h1
    have e2 := millionths_dist u
    rw [abs_sub_comm] at e2
    generalize (2 : ℚ) ^ 1074 = S at h1 e2 ⊢
    have t := abs_sub_le ((back (millionths u) : ℚ) / S) ((millionths u : ℚ) / 1000000) ((u : ℚ) / S)
    rw [abs_sub_comm ((millionths u : ℚ) / 1000000) ((u : ℚ) / S)] at t
    linarith

theorem nearest_units (u k : Nat) (h : Nearest (.fin false u) ((k : ℚ) / 1000000)) (w : Nat) (hw : IsDouble (.fin false w)) :
    |((u * 1000000 : Nat) : ℤ) - ((k * one : Nat) : ℤ)| ≤ |((w * 1000000 : Nat) : ℤ) - ((k * one : Nat) : ℤ)| := by
  have := h.2.2 (.fin false w) trivial hw
  simp only [numberOf, Bool.false_eq_true, if_false, one_mul] at this
  rw [← millionth_value k] at this
  exact (dist_le _ _ _ _ (by decide)).1 this

/-- A double nearest to `k` millionths, below 2^33, is the one read for `k` millionths. -/
theorem nearest_small (u k : Nat) (hu : u < 2 ^ 33 * one) (h : Nearest (.fin false u) ((k : ℚ) / 1000000)) : u = back (millionths u) := by
  obtain ⟨t, e, ht, he, hrep⟩ := h.2.1
  -- k is itself below the limit
  have hk : k < 2 ^ 33 * 1000000 := by
    by_contra hc
    have h1 := nearest_units u k h (2 ^ 33 * one) ⟨1, 1107, by decide, by decide, by
      unfold one; rw [← Nat.pow_add, Nat.one_mul]⟩
    have h2 : 2 ^ 33 * 1000000 * one ≤ k * one := Nat.mul_le_mul_right _ (by omega)
    have h3 : 2 ^ 33 * 1000000 * one = 2 ^ 33 * one * 1000000 := by rw [Nat.mul_right_comm]
    rw [h3] at h2
    obtain ⟨X, hX⟩ : ∃ X, X = 2 ^ 33 * one := ⟨_, rfl⟩
    rw [← hX] at h1 h2 hu
    generalize k * one = K at h1 h2
    rw [abs_of_nonpos (by omega), abs_of_nonpos (by omega)] at h1
    omega
  have hb : back k = u := by
    by_contra hne
    have hs := roundUnits_strict (k * one) 1000000 t e (by decide) ht (no_tie k hk) (by rw [← hrep]; intro hc; exact hne hc.symm)
    rw [← hrep] at hs
    have hin : back k < tooBig := by
      refine Nat.lt_of_le_of_lt (back_bound k (by omega)) ?_
      unfold one tooBig
      rw [← Nat.pow_add]
      exact Nat.pow_lt_pow_right (by decide) (by decide)
    have h1 := nearest_units u k h (back k) (back_nearest k hin).2.1
    exact absurd hs (not_lt.2 h1)
  rw [← hb, millionths_back k (by omega)]

/-- **C76**: a double survives JSON unchanged exactly when its magnitude is a double nearest to some whole number of
millionths. -/
theorem C76_json_exact_iff (hex : Bytes → Option Dbl) (old : Dbl) (neg : Bool) (u : Nat) (h : IsDouble (.fin neg u)) :
    floatFromJSON hex old (floatJSON (.fin neg u)) = (.fin neg u, true) ↔ ∃ k : Nat, Nearest (.fin false u) ((k : ℚ) / 1000000) := by
  rw [json_roundtrip hex old neg u h]
  have hb := back_inRange u (isDouble_sign h false)
  constructor
  · intro he
    injection he with he _
    injection he with _ he
    refine ⟨millionths u, ?_⟩
    have := back_nearest (millionths u) hb
    rwa [he] at this
  · rintro ⟨k, hk⟩
    have : u = back (millionths u) := by
      rcases Nat.lt_or_ge u (2 ^ 33 * one) with hu | hu
      · exact nearest_small u k hu hk
      · obtain ⟨t, e, ht, he, rfl⟩ := h
        exact (back_large t e ht hu).symm
    rw [← this]

/-- **C76**: every double of magnitude 2^33 or more, and every whole number up to 2^53 in magnitude, survives JSON unchanged. -/
theorem C76_json_exact (hex : Bytes → Option Dbl) (old : Dbl) (neg : Bool) (u : Nat) (h : IsDouble (.fin neg u))
    (hbig : 2 ^ 33 ≤ (u : ℚ) / 2 ^ 1074 ∨ ∃ i : Nat, (u : ℚ) / 2 ^ 1074 = i) :
    floatFromJSON hex old (floatJSON (.fin neg u)) = (.fin neg u, true) := by
  rcases hbig with hbig | ⟨i, hi⟩
  · rw [json_roundtrip hex old neg u h]
    obtain ⟨t, e, ht, he, hu⟩ := h
    have h1 : 2 ^ 33 * one ≤ u := by
      rw [le_div_iff₀ S_pos, ← one_cast] at hbig
      exact_mod_cast hbig
    rw [hu, back_large t e ht (by rw [← hu]; exact h1)]
  · rw [C76_json_exact_iff hex old neg u h]
    refine ⟨i * 1000000, trivial, h, ?_⟩
    intro w _ _
    have e : ((i * 1000000 : Nat) : ℚ) / 1000000 = i := by push_cast; exact mul_div_cancel_right₀ _ (by norm_num)
    rw [e, ← hi]
    simp only [numberOf, Bool.false_eq_true, if_false, one_mul, sub_self, abs_zero]
    exact abs_nonneg _

/-- Non-vacuity: 1.5 and 3·2^40 are doubles; 1.5 is a whole number of millionths. -/
example : IsDouble (.fin true (3 * 2 ^ 1073)) := ⟨3, 1073, by decide, by decide, rfl⟩
example : floatFromJSON (fun _ => none) .nan (floatJSON (.fin true (3 * 2 ^ 1073))) = (.fin true (3 * 2 ^ 1073), true) := by decide +kernel

/-- **C76**: below 2^33 values are lost: 1e-7 becomes 0, and the next double after 1 becomes 1 (the full claim "every
double survives JSON" is false). -/
theorem C76_json_loses (hex : Bytes → Option Dbl) (old : Dbl) :
    (∃ u, parseFloat hex b!"1e-7" = some (.fin false u) ∧ u ≠ 0
      ∧ floatFromJSON hex old (floatJSON (.fin false u)) = (.fin false 0, true))
    ∧ IsDouble (.fin false ((2 ^ 52 + 1) * 2 ^ 1022))
    ∧ floatFromJSON hex old (floatJSON (.fin false ((2 ^ 52 + 1) * 2 ^ 1022))) = (.fin false (2 ^ 1074), true) := by
  have hd : IsDouble (.fin false ((2 ^ 52 + 1) * 2 ^ 1022)) := ⟨2 ^ 52 + 1, 1022, by decide, by decide, rfl⟩
  have hl := parse_literal hex ⟨[], b!"1", false, [], b!"e-", b!"7"⟩ ⟨by decide, forall_mem_of_all (by decide), forall_mem_of_all (by decide), by decide, by decide, by decide, forall_mem_of_all (by decide), by decide⟩
  have hv : inRange (scaled (decide (([] : Bytes) = b!"-")) (Spec.number (b!"1" ++ [])) ((⟨[], b!"1", false, [], b!"e-", b!"7"⟩ : Literal).power - ((0 : Nat) : ℤ)))
      = some (.fin false (7555786372591432 * 2 ^ 998)) := by decide +kernel
  have hl' : parseFloat hex b!"1e-7" = some (.fin false (7555786372591432 * 2 ^ 998)) := hl.trans hv
  refine ⟨⟨7555786372591432 * 2 ^ 998, hl', ?_, ?_⟩, hd, ?_⟩
  · exact Nat.mul_ne_zero (by decide) (Nat.ne_of_gt (Nat.two_pow_pos _))
  · rw [json_roundtrip hex old false _ ⟨7555786372591432, 998, by decide, by decide, rfl⟩]
    have : back (millionths (7555786372591432 * 2 ^ 998)) = 0 := by decide +kernel
    rw [this]
  · rw [json_roundtrip hex old false _ hd]
    have : back (millionths ((2 ^ 52 + 1) * 2 ^ 1022)) = 2 ^ 1074 := by decide +kernel
    rw [this]

/-- **C76**: NaN and the infinities are written as texts that are not JSON numbers (encoding/json then refuses the whole
document), although the decoder accepts these texts inside a JSON string. -/
theorem C76_special_not_json (hex : Bytes → Option Dbl) (old v : Dbl) (h : ¬ Finite v) :
    ¬ JsonDecimal (floatJSON v) ∧ floatFromJSON hex old (b!"\"" ++ floatJSON v ++ b!"\"") = (v, true) := by
  have nodot : ∀ s : Bytes, (46 : UInt8) ∉ s → ¬ JsonDecimal s := by
    rintro s hs ⟨a, b, c, rfl, _⟩
    exact hs (by simp)
  have key : ∀ t : Bytes, ∀ d, specialOf t = some d → trimQuotes (b!"\"" ++ t ++ b!"\"") = t → t.length ≠ 0 → t ≠ b!"0" → t ≠ b!"NULL" →
      floatFromJSON hex old (b!"\"" ++ t ++ b!"\"") = (d, true) := by
    intro t d hs ht h0 h1 h2
    unfold floatFromJSON
    rw [ht, if_neg (by
      rintro (h | h | h)
      · exact h0 (by rw [h]; rfl)
      · exact h1 h
      · exact h2 h)]
    simp only [parseFloat, hs]
  cases v with
  | fin _ _ => exact absurd trivial h
  | nan => exact ⟨nodot _ (by decide), key b!"NaN" _ (by decide) (by decide) (by decide) (by decide) (by decide)⟩
  | inf neg =>
    cases neg
    · exact ⟨nodot _ (by decide), key b!"+Inf" _ (by decide) (by decide) (by decide) (by decide) (by decide)⟩
    · exact ⟨nodot _ (by decide), key b!"-Inf" _ (by decide) (by decide) (by decide) (by decide) (by decide)⟩

/-- **C76**: JSON decoding ignores quotes around the text; the empty string, `0` and `NULL` are zero; anything
`ParseFloat` refuses is refused and the destination keeps its value; JSON `null` is refused. -/
theorem C76_json_decode (hex : Bytes → Option Dbl) (old : Dbl) (data : Bytes) :
    ((trimQuotes data = [] ∨ trimQuotes data = b!"0" ∨ trimQuotes data = b!"NULL") →
      floatFromJSON hex old data = (.fin false 0, true))
    ∧ (∀ l : Literal, l.OK → trimQuotes data = l.text → l.text ≠ b!"0" →
        ((∃ v, floatFromJSON hex old data = (v, true) ∧ Nearest v l.value)
          ∨ (floatFromJSON hex old data = (old, false) ∧ largest < |l.value|)))
    ∧ (hex b!"null" = none → floatFromJSON hex old b!"null" = (old, false)) := by
  refine ⟨?_, ?_, ?_⟩
  · intro h
    unfold floatFromJSON
    rw [if_pos h]
  · intro l hl ht h0
    have hp := C76_parse_is_nearest hex l hl
    have hb := body_head l hl
    have hne : ¬ (trimQuotes data = [] ∨ trimQuotes data = b!"0" ∨ trimQuotes data = b!"NULL") := by
      rw [ht]
      have hsp := special_none l hl
      have e : l.text = l.sign ++ l.body := by simp [Literal.text, Literal.body]
      obtain ⟨c, r, hb, h1, h2⟩ := hb
      rintro (h | h | h)
      · rw [e, hb] at h; simp at h
      · exact h0 h
      · rw [e, hb] at h
        rcases hl.sign with hs | hs | hs
        · rw [hs] at h; simp at h; rw [h.1] at h2; exact absurd h2 (by decide)
        · rw [hs] at h; simp at h
        · rw [hs] at h; simp at h
    unfold floatFromJSON
    rw [if_neg hne, ht]
    generalize parseFloat hex l.text = o at hp ⊢
    cases o with
    | none => right; exact ⟨rfl, hp⟩
    | some v => left; exact ⟨v, rfl, hp.1⟩
  · intro h
    unfold floatFromJSON
    rw [if_neg (by decide)]
    have e : parseFloat hex (trimQuotes b!"null") = hex b!"null" := rfl
    rw [e, h]

/-- Ties: 2^53 + 1 lies half way between two doubles and is read as the even one. -/
example : parseFloat (fun _ => none) b!"9007199254740993" = some (intDbl 9007199254740992)
    ∧ parseFloat (fun _ => none) b!"9007199254740995" = some (intDbl 9007199254740996) := by decide +kernel

/-! #### C77: the database driver -/

theorem intDbl_exact (i : ℤ) (h : i.natAbs ≤ 2 ^ 53) :
    ∃ u, intDbl i = .fin (decide (i < 0)) u ∧ numberOf (.fin (decide (i < 0)) u) = i := by
  have hr : ∃ t e, t < 2 ^ 53 ∧ i.natAbs * one = t * 2 ^ e := by
    rcases Nat.lt_or_ge i.natAbs (2 ^ 53) with h1 | h1
    · exact ⟨i.natAbs, 1074, h1, by rw [one_eq]⟩
    · have : i.natAbs = 2 ^ 53 := by omega
      exact ⟨1, 53 + 1074, by decide, by rw [this, Nat.one_mul, pow_split, one_eq]⟩
  obtain ⟨t, e, ht, hte⟩ := hr
  have hround : roundUnits (i.natAbs * one) 1 = i.natAbs * one := by
    have := roundUnits_exact t e 1 (by decide) ht
    rw [← hte, Nat.mul_one] at this; exact this
  have hlt : i.natAbs * one < tooBig := by
    have h1 : i.natAbs * one ≤ 2 ^ 53 * one := Nat.mul_le_mul_right _ h
    refine Nat.lt_of_le_of_lt h1 ?_
    unfold one tooBig
    rw [← Nat.pow_add]
    exact Nat.pow_lt_pow_right (by decide) (by decide)
  refine ⟨i.natAbs * one, ?_, ?_⟩
  · unfold intDbl
    rcases toDbl_cases (decide (i < 0)) (i.natAbs * one) 1 with ⟨_, _, e3⟩ | ⟨h3, _⟩
    · rw [e3, hround]
    · rw [hround] at h3; exact absurd hlt (Nat.not_lt.2 h3)
  · simp only [numberOf]
    rw [Nat.cast_mul, one_cast, mul_div_cancel_right₀ _ (ne_of_gt S_pos)]
    have hab : ((i.natAbs : Nat) : ℚ) = |(i : ℚ)| := by
      rw [← Int.cast_natCast, Int.natCast_natAbs, Int.cast_abs]
    rw [hab]
    by_cases hn : i < 0
    · have : (i : ℚ) < 0 := by exact_mod_cast hn
      simp [hn, abs_of_neg this]
    · have : (0 : ℚ) ≤ i := by exact_mod_cast (not_lt.1 hn)
      simp [hn, abs_of_nonneg this]

theorem intDbl_nearest (i : ℤ) (h : i.natAbs < 2 ^ 64) : Nearest (intDbl i) i := by
  have hd : (0 : Nat) < 1 := by decide
  have hv : (if decide (i < 0) = true then (-1 : ℚ) else 1) * (((i.natAbs * one : Nat) : ℚ) / (((1 : Nat) : ℚ) * 2 ^ 1074)) = i := by
    rw [Nat.cast_mul, one_cast, Nat.cast_one, one_mul, mul_div_cancel_right₀ _ (ne_of_gt S_pos)]
    have hab : ((i.natAbs : Nat) : ℚ) = |(i : ℚ)| := by
      rw [← Int.cast_natCast, Int.natCast_natAbs, Int.cast_abs]
    rw [hab]
    by_cases hn : i < 0
    · have : (i : ℚ) < 0 := by exact_mod_cast hn
      simp [hn, abs_of_neg this]
    · have : (0 : ℚ) ≤ i := by exact_mod_cast (not_lt.1 hn)
      simp [hn, abs_of_nonneg this]
  unfold intDbl
  rcases toDbl_cases (decide (i < 0)) (i.natAbs * one) 1 with ⟨h1, _, e3⟩ | ⟨h3, _⟩
  · rw [e3]
    have := nearest_round (decide (i < 0)) (i.natAbs * one) 1 hd h1
    rwa [hv] at this
  · exfalso
    have h4 := overflow_large (i.natAbs * one) 1 hd h3
    rw [Nat.cast_mul, one_cast, Nat.cast_one, one_mul, mul_div_cancel_right₀ _ (ne_of_gt S_pos)] at h4
    have h5 : ((i.natAbs : Nat) : ℚ) < 2 ^ 64 := by exact_mod_cast h
    have h6 : (2 : ℚ) ^ 64 ≤ 2 ^ 971 := pow_le_pow_right₀ (by norm_num) (by norm_num)
    have h7 : (2 : ℚ) ^ 971 ≤ largest := by
      unfold largest
      generalize hX : (2 : ℚ) ^ 971 = X at h6 ⊢
      have h0 : (0 : ℚ) ≤ X := le_trans (by norm_num) h6
      have h1 : (1 : ℚ) * X ≤ (2 ^ 53 - 1) * X := mul_le_mul_of_nonneg_right (by norm_num) h0
      rwa [one_mul] at h1
    generalize (2 : ℚ) ^ 971 = X at *
    linarith

/-- **C77**: a `Float` is stored as NULL exactly when it is zero (of either sign); every other value is handed over as
is, and reading it back gives the same value. -/
theorem C77_value_scan (hex : Bytes → Option Dbl) (old v : Dbl) :
    (floatValue v = .dv .null ↔ ∃ neg, v = .fin neg 0)
    ∧ ((∀ neg, v ≠ .fin neg 0) → floatValue v = .f64 v ∧ floatScan hex old (floatValue v) = (v, true)) := by
  cases v with
  | nan => simp [floatValue, floatScan]
  | inf neg => simp [floatValue, floatScan]
  | fin neg u => cases u <;> simp [floatValue, floatScan]

/-- **C77**: what `Scan` stores for each kind of column: floats exactly, integers as the nearest double (exactly up to
2^53 in magnitude), text as the nearest double to the number it denotes. -/
theorem C77_scan_stores (hex : Bytes → Option Dbl) (old : Dbl) :
    (∀ d, floatScan hex old (.f64 d) = (d, true) ∧ floatScan hex old (.f32 d) = (d, true))
    ∧ (∀ n : Int64, ∃ v, floatScan hex old (.dv (.i64 n)) = (v, true) ∧ floatScan hex old (.dv (.int n)) = (v, true)
        ∧ Nearest v n.toInt ∧ (n.toInt.natAbs ≤ 2 ^ 53 → numberOf v = n.toInt))
    ∧ (∀ n : UInt64, ∃ v, floatScan hex old (.dv (.u64 n)) = (v, true) ∧ floatScan hex old (.dv (.uint n)) = (v, true)
        ∧ Nearest v (n.toNat : ℤ) ∧ (n.toNat ≤ 2 ^ 53 → numberOf v = n.toNat))
    ∧ (∀ l : Literal, l.OK → (∃ v, floatScan hex old (.dv (.bytes l.text)) = (v, true) ∧ Nearest v l.value)
        ∨ (floatScan hex old (.dv (.bytes l.text)) = (old, false) ∧ largest < |l.value|)) := by
  refine ⟨fun d => ⟨rfl, rfl⟩, ?_, ?_, ?_⟩
  · intro n
    refine ⟨intDbl n.toInt, rfl, rfl, intDbl_nearest _ ?_, ?_⟩
    · have h1 := n.toInt_lt; have h2 := n.le_toInt; omega
    · intro h
      obtain ⟨u, e1, e2⟩ := intDbl_exact _ h
      rw [e1, e2]
  · intro n
    have hn := n.toNat_lt
    refine ⟨intDbl n.toNat, rfl, rfl, intDbl_nearest _ (by omega), ?_⟩
    intro h
    obtain ⟨u, e1, e2⟩ := intDbl_exact (n.toNat : ℤ) (by omega)
    rw [e1, e2]; simp
  · intro l hl
    have hp := C76_parse_is_nearest hex l hl
    simp only [floatScan]
    generalize parseFloat hex l.text = o at hp ⊢
    cases o with
    | none => right; exact ⟨rfl, hp⟩
    | some v => left; exact ⟨v, rfl, hp.1⟩

/-- **C77**: a failed `Scan` leaves the destination unchanged; a NULL column succeeds and leaves the destination
unchanged too, so the previous row's value survives (the same defect as C18); strings, booleans and 32-bit integers are refused. -/
theorem C77_scan_null_and_errors (hex : Bytes → Option Dbl) (old : Dbl) (x : FV) :
    ((floatScan hex old x).2 = false → (floatScan hex old x).1 = old)
    ∧ floatScan hex old (.dv .null) = (old, true)
    ∧ (∀ s b i u t, floatScan hex old (.dv (.text s)) = (old, false) ∧ floatScan hex old (.dv (.bool b)) = (old, false)
        ∧ floatScan hex old (.dv (.i32 i)) = (old, false) ∧ floatScan hex old (.dv (.u32 u)) = (old, false)
        ∧ floatScan hex old (.dv (.other t)) = (old, false)) := by
  refine ⟨?_, rfl, fun _ _ _ _ _ => ⟨rfl, rfl, rfl, rfl, rfl⟩⟩
  intro h
  cases x with
  | f64 d => cases h
  | f32 d => cases h
  | dv d =>
    cases d <;> simp only [floatScan] at h ⊢ <;> try (cases h)
    rename_i s
    generalize parseFloat hex s = o at h ⊢
    cases o with
    | none => rfl
    | some v => cases h

end Types
