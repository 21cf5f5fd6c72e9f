import Verif.Gen.SaveLoad
import Verif.Types.Digits15
import Mathlib.Data.Rat.Floor
import Mathlib.Tactic.LinearCombination
import Mathlib.RingTheory.Coprime.Lemmas
set_option linter.unusedVariables false
set_option linter.unusedSimpArgs false
set_option exponentiation.threshold 3000
/-!
Decimal columns (`numeric`, `decimal`) and generated models: what the `float64` and `xdb.Float` fields (internal/cli/schema/types.go:16-98) make of amounts.
-/
namespace Gen
open Schema Types

/-- The number nearest to `v` with `s` decimals, halves away from zero: what the databases do when a number is stored in a column with scale `s`. -/
def roundScale (s : Nat) (v : ℚ) : ℚ :=
  if 0 ≤ v then (⌊v * 10 ^ s + 1 / 2⌋ : ℤ) / 10 ^ s else -((⌊-v * 10 ^ s + 1 / 2⌋ : ℤ) : ℚ) / 10 ^ s

/-- The declaration of a decimal column: precision and scale, or (PostgreSQL's plain `numeric`) neither. -/
abbrev DecType := Option (Nat × Nat)

/-- Storing a number in a decimal column: rounded to its scale, refused when it has too many digits. -/
def storeNumber : DecType → ℚ → Option ℚ
  | none, v => some v
  | some (p, s), v => if |roundScale s v| * 10 ^ s < 10 ^ p then some (roundScale s v) else none

/-- The number a driver sends for a `float64`: lib/pq the text `strconv.FormatFloat(v, 'f', -1, 64)` (third party, `encode.go` `encode`), go-mssqldb the eight bytes of the double. -/
def sentNumber (short : Dbl → Literal) : Driver → Dbl → ℚ
  | .pg, d => (short d).value
  | .ms, d => numberOf d

/-- The database storing a driver's value in a decimal column (`none`: refused; infinities and NaN are not modelled). -/
def storeAmount (short : Dbl → Literal) (drv : Driver) (decl : DecType) (nullable : Bool) : Given → Option (Option ℚ)
  | .dv .null => if nullable then some none else none
  | .f64 (.fin neg u) => (storeNumber decl (sentNumber short drv (.fin neg u))).map some
  | _ => none

/-- The column as the driver sees it: the database prints the number. -/
def amountCell (print : ℚ → Literal) : Option ℚ → Cell
  | none => .null
  | some v => .dec (print v)

/-- Reading a decimal column into the generated field and writing the field back. -/
def writeBackDec (hex : Bytes → Option Dbl) (fb : Tm.Layout → Bytes → Option Tm.GoTime) (nilIsNull : Bool) (short : Dbl → Literal) (print : ℚ → Literal) (drv : Driver) (decl : DecType)
    (nullable : Bool) (t : GT) (v : Option ℚ) : Option (Option ℚ) := do
  let g ← readField hex fb t (given drv .dec (amountCell print v))
  let d ← fieldValue nilIsNull t g
  storeAmount short drv decl nullable d

/-- Saving a field in a decimal column and loading it into a fresh field. -/
def saveLoadDec (hex : Bytes → Option Dbl) (fb : Tm.Layout → Bytes → Option Tm.GoTime) (nilIsNull : Bool) (short : Dbl → Literal) (print : ℚ → Literal) (drv : Driver) (decl : DecType)
    (nullable : Bool) (t : GT) (g : GoVal) : Option GoVal := do
  let d ← fieldValue nilIsNull t g
  let v ← storeAmount short drv decl nullable d
  readField hex fb t (given drv .dec (amountCell print v))

/-! ### Specification -/

/-- The database prints decimal numbers as decimal numbers (in any of the usual forms). -/
def Spec.Prints (print : ℚ → Literal) : Prop := ∀ (m : ℤ) (s : Nat), (print (m / 10 ^ s)).OK ∧ (print (m / 10 ^ s)).value = m / 10 ^ s

/-- The numbers a column `numeric(p, s)` holds. -/
def Spec.Amount (p s : Nat) (v : ℚ) : Prop := ∃ m : ℤ, |m| < 10 ^ p ∧ v = m / 10 ^ s

/-- Columns and numbers of at most fifteen significant digits. -/
def Spec.Fifteen (drv : Driver) (decl : DecType) (v : ℚ) : Prop :=
  match decl with
  | some (p, s) => p ≤ 15 ∧ s ≤ 307 ∧ Spec.Amount p s v
  | none => drv = .pg ∧ (∃ (m : ℤ) (s : Nat), v = m / 10 ^ s) ∧ SigDigits 15 v ∧ Moderate v

/-! ### Lemmas -/

theorem roundScale_near (s : Nat) (m : ℤ) (y : ℚ) (h : |y - m / 10 ^ s| * 10 ^ s < 1 / 2) : roundScale s y = m / 10 ^ s := by
  have hp : (0 : ℚ) < 10 ^ s := by positivity
  have h1 : |y * 10 ^ s - m| < 1 / 2 := by
    have : y * 10 ^ s - m = (y - m / 10 ^ s) * 10 ^ s := by field_simp
    rw [this, abs_mul, abs_of_pos hp]; exact h
  rw [abs_lt] at h1
  unfold roundScale
  split
  · have : ⌊y * 10 ^ s + 1 / 2⌋ = m := by rw [Int.floor_eq_iff]; constructor <;> linarith
    rw [this]
  · have : ⌊-y * 10 ^ s + 1 / 2⌋ = -m := by rw [Int.floor_eq_iff]; push_cast; constructor <;> linarith
    rw [this]; push_cast; ring

theorem roundScale_exact (s : Nat) (m : ℤ) : roundScale s (m / 10 ^ s) = m / 10 ^ s := roundScale_near s m _ (by simp)

theorem roundScale_amount (s : Nat) (v : ℚ) : ∃ m : ℤ, roundScale s v = m / 10 ^ s := by
  unfold roundScale
  split
  · exact ⟨_, rfl⟩
  · exact ⟨-⌊-v * 10 ^ s + 1 / 2⌋, by push_cast; ring⟩

theorem amount_size {p s : Nat} {m : ℤ} : |(m : ℚ) / 10 ^ s| * 10 ^ s < 10 ^ p ↔ |m| < 10 ^ p := by
  have hp : (0 : ℚ) < 10 ^ s := by positivity
  rw [abs_div, abs_of_pos hp, div_mul_cancel₀ _ hp.ne', ← Int.cast_abs]
  exact_mod_cast Iff.rfl

theorem store_amount_exact {p s : Nat} {v : ℚ} (h : Spec.Amount p s v) : storeNumber (some (p, s)) v = some v := by
  obtain ⟨m, hm, rfl⟩ := h
  simp only [storeNumber, roundScale_exact]
  rw [if_pos (amount_size.2 hm)]

theorem storeNumber_amount {p s : Nat} {v w : ℚ} (h : storeNumber (some (p, s)) v = some w) : Spec.Amount p s w := by
  simp only [storeNumber] at h
  split at h
  · rename_i hc
    cases h
    obtain ⟨m, hm⟩ := roundScale_amount s v
    rw [hm] at hc ⊢
    exact ⟨m, amount_size.1 hc, rfl⟩
  · cases h

theorem div_pow_zpow (m : ℤ) (s : Nat) : (m : ℚ) / 10 ^ s = m * (10 : ℚ) ^ (-(s : ℤ)) := by
  rw [zpow_neg, zpow_natCast]; rfl

theorem amount_moderate {p s : Nat} {v : ℚ} (hp : p ≤ 15) (hs : s ≤ 307) (h : Spec.Amount p s v) : SigDigits 15 v ∧ Moderate v := by
  obtain ⟨m, hm, rfl⟩ := h
  have hm' : |m| < 10 ^ 15 := lt_of_lt_of_le hm (pow_le_pow_right₀ (by norm_num) hp)
  refine ⟨⟨m, -(s : ℤ), hm', div_pow_zpow m s⟩, ?_⟩
  by_cases h0 : m = 0
  · left; simp [h0]
  · right
    have ps : (0 : ℚ) < 10 ^ s := by positivity
    have h1 : (1 : ℚ) ≤ |(m : ℚ)| := by
      rw [← Int.cast_abs]
      have : 1 ≤ |m| := Int.one_le_abs h0
      exact_mod_cast this
    have h2 : |(m : ℚ)| ≤ 10 ^ 15 := by rw [← Int.cast_abs]; exact_mod_cast hm'.le
    rw [abs_div, abs_of_pos ps]
    constructor
    · apply div_le_div₀ (by positivity) h1 ps
      exact pow_le_pow_right₀ (by norm_num) hs
    · rw [div_le_iff₀ ps]
      calc |(m : ℚ)| ≤ 10 ^ 15 := h2
        _ ≤ 10 ^ 307 * 1 := by rw [mul_one]; exact pow_le_pow_right₀ (by norm_num) (by norm_num)
        _ ≤ 10 ^ 307 * 10 ^ s := by gcongr; exact one_le_pow₀ (by norm_num)

theorem fifteen_sig {drv : Driver} {decl : DecType} {v : ℚ} (h : Spec.Fifteen drv decl v) : SigDigits 15 v ∧ Moderate v ∧ ∃ (m : ℤ) (s : Nat), v = m / 10 ^ s := by
  cases decl with
  | none => exact ⟨h.2.2.1, h.2.2.2, h.2.1⟩
  | some ps =>
    obtain ⟨p, s⟩ := ps
    obtain ⟨hp, hs, h⟩ := h
    have := amount_moderate hp hs h
    obtain ⟨m, _, e⟩ := h
    exact ⟨this.1, this.2, m, s, e⟩

/-- A double that is nearest to an amount of the column is stored as that amount. -/
theorem stored_back (hex) (short) (hs : Shortest hex short) (drv : Driver) (decl : DecType) (l : Literal) (hl : l.OK) (h : Spec.Fifteen drv decl l.value) (d : Dbl)
    (hp : parseFloat hex l.text = some d) (d' : Dbl) (hf : Types.Finite d') (hi : IsDouble d') (hnum : numberOf d' = numberOf d) (hz : l.value = 0 ∨ d' = d) :
    storeNumber decl (sentNumber short drv d') = some l.value := by
  obtain ⟨hsig, hm, _⟩ := fifteen_sig h
  have hn := nearest_of_reads hex l hl d hp
  have hsame : ∀ w : ℚ, (drv = .pg → w = l.value) → w = sentNumber short drv d' → storeNumber decl w = some l.value := by
    intro w hw e
    cases decl with
    | none =>
      rw [hw h.1]; rfl
    | some ps =>
      obtain ⟨p, s⟩ := ps
      cases drv with
      | pg => rw [hw rfl]; exact store_amount_exact h.2.2
      | ms =>
        obtain ⟨hp15, hs', ha⟩ := h
        have ha' := ha
        obtain ⟨m, hm1, hv⟩ := ha
        have e : w = numberOf d := by rw [e, ← hnum]; rfl
        have he := moderate_error hn hm
        have hr : roundScale s w = l.value := by
          rw [hv]
          apply roundScale_near
          rw [e, ← hv]
          have ps : (0 : ℚ) < 10 ^ s := by positivity
          have hm15 : |(m : ℚ)| ≤ 10 ^ 15 := by
            rw [← Int.cast_abs]
            have : |m| < 10 ^ 15 := lt_of_lt_of_le hm1 (pow_le_pow_right₀ (by norm_num) hp15)
            exact_mod_cast this.le
          calc |numberOf d - l.value| * 10 ^ s ≤ |l.value| / 2 ^ 53 * 10 ^ s := mul_le_mul_of_nonneg_right he ps.le
            _ = |(m : ℚ)| / 2 ^ 53 := by rw [hv, abs_div, abs_of_pos ps]; field_simp
            _ ≤ 10 ^ 15 / 2 ^ 53 := by gcongr
            _ < 1 / 2 := by norm_num
        simp only [storeNumber, hr]
        rw [hv, if_pos (amount_size.2 hm1)]
  apply hsame _ _ rfl
  intro hdrv
  subst hdrv
  rcases hz with hz | hz
  · -- zero
    have h0 : numberOf d' = 0 := by rw [hnum]; rw [hz] at hn; exact zero_near hn
    show (short d').value = l.value
    cases d' with
    | inf _ => exact absurd hf (by simp [Types.Finite])
    | nan => exact absurd hf (by simp [Types.Finite])
    | fin neg u =>
      have hr := exact_reads hex neg u hi
      have hv := exact_value neg u
      have := hs.least _ hf hi _ (exact_ok neg u) hr 0 (by rw [hv, h0]; exact literal_zero_sig)
      obtain ⟨m, x, h1, h2⟩ := this
      have : m = 0 := by
        have h1 : |m| < 1 := by simpa using h1
        have := abs_nonneg m
        exact abs_eq_zero.1 (by omega)
      rw [h2, this, hz]; simp
  · subst hz
    obtain ⟨e, he, _, h4, _⟩ := C110_fifteen_digits_survive hex short hs l hl hsig hm
    rw [hp] at he
    cases he
    exact h4

theorem fieldValue_zero (nb : Bool) (neg : Bool) : fieldValue nb .xfloat (.float (.fin neg 0)) = some (.dv .null) := rfl

theorem fieldValue_xfloat (nb : Bool) (neg : Bool) (u : Nat) (h : u ≠ 0) : fieldValue nb .xfloat (.float (.fin neg u)) = some (.f64 (.fin neg u)) := by
  cases u with
  | zero => exact absurd rfl h
  | succ u => rfl

theorem read_dec (hex fb) (drv : Driver) (nu key ids : Bool) (l : Literal) (hl : l.OK) (d : Dbl) (h : parseFloat hex l.text = some d) :
    readField hex fb (expected .dec nu key ids) (given drv .dec (.dec l)) = some (.float d) := by
  cases nu
  · simp [expected, readField, given, toFloat, h]
  · simp [expected, readField, given, kept, floatScan, h]

theorem number_zero {neg : Bool} {u : Nat} (h : numberOf (.fin neg u) = 0) : u = 0 := by
  simp only [numberOf] at h
  rcases mul_eq_zero.1 h with h | h
  · cases neg <;> simp at h
  · rcases div_eq_zero_iff.1 h with h | h
    · exact_mod_cast h
    · exact absurd h (ne_of_gt S_pos)

/-- **C110, reading and writing back**: an amount of at most fifteen significant digits in a decimal column is unchanged when the row is read into the generated model and written back,
in both databases; except that zero in a nullable column becomes NULL. -/
theorem C110_amounts_survive (hex fb nb) (short) (print) (hs : Shortest hex short) (hpr : Spec.Prints print) (eqFold : Bytes → Bytes → Bool) (over : Bytes → Option Bytes) (drv : Driver) (c : Column)
    (decl : DecType) (ho : NoOverride over c) (ho' : over b!"_count" = none) (hk : kindOf drv c = some .dec) :
    ∃ r t, toGoType eqFold over c = some r ∧ goTypeOf r = some t ∧
      ∀ v, Spec.Fifteen drv decl v →
        writeBackDec hex fb nb short print drv decl c.nullable t (some v) = some (if c.nullable = true ∧ v = 0 then none else some v) := by
  obtain ⟨r, hr, ht⟩ := Option.bind_eq_some_iff.1 (chosen eqFold over drv c .dec ho ho' hk)
  refine ⟨r, _, hr, ht, ?_⟩
  intro v hv
  obtain ⟨hsig, hm, m, s, e⟩ := fifteen_sig hv
  obtain ⟨hok, hval⟩ := hpr m s
  rw [← e] at hok hval
  rw [← hval] at hsig hm
  obtain ⟨d, hp, hn, u, hu⟩ := reads_some hex _ hok hm
  have hback := stored_back hex short hs drv decl (print v) hok (by rw [hval]; exact hv) d hp d (by rw [hu]; trivial) hn.2.1 rfl (Or.inr rfl)
  rw [hval] at hback hn
  simp only [writeBackDec, amountCell, read_dec hex fb drv c.nullable _ _ _ hok d hp, bind, Option.bind_some]
  have hz : u = 0 ↔ v = 0 := by
    constructor
    · intro h
      by_contra hv0
      have := moderate_error hn (by rw [← hval]; exact hm)
      rw [hu, h] at this
      simp only [numberOf, Nat.cast_zero, zero_div, mul_zero, zero_sub, abs_neg] at this
      have hp : 0 < |v| := abs_pos.2 hv0
      have : |v| / 2 ^ 53 < |v| := div_lt_self hp (by norm_num)
      linarith
    · intro h
      subst h
      have := zero_near hn
      rw [hu] at this
      exact number_zero this
  cases hn' : c.nullable with
  | false =>
    simp only [expected, Bool.false_eq_true, false_and, if_false, fieldValue, Option.bind_some]
    rw [hu] at hback ⊢
    simp only [storeAmount, hback, Option.map_some]
  | true =>
    simp only [expected, if_true, true_and]
    by_cases hv0 : v = 0
    · rw [if_pos hv0]
      have := hz.2 hv0
      rw [hu, this, fieldValue_zero]
      rfl
    · rw [if_neg hv0]
      have : u ≠ 0 := fun h => hv0 (hz.1 h)
      rw [hu] at hback ⊢
      rw [fieldValue_xfloat _ _ _ this]
      simp only [Option.bind_some, storeAmount, hback, Option.map_some]

/-! ### Saving and loading -/

theorem rne_scale (a b c : Nat) (hc : 0 < c) : rne (a * c) (b * c) = rne a b := by
  unfold rne
  rw [Nat.mul_mod_mul_right, Nat.mul_div_mul_right _ _ hc]
  have e : 2 * (a % b * c) = 2 * (a % b) * c := by rw [Nat.mul_assoc]
  rw [e]
  simp only [Nat.mul_lt_mul_right hc]

theorem roundUnits_scale (n d c : Nat) (hc : 0 < c) : roundUnits (n * c) (d * c) = roundUnits n d := by
  unfold roundUnits
  rw [Nat.mul_div_mul_right _ _ hc]
  have e : d * c * 2 ^ lastPlace (n / d) = d * 2 ^ lastPlace (n / d) * c := by rw [Nat.mul_right_comm]
  rw [e, rne_scale _ _ _ hc]

theorem roundUnits_ratio (n d n' d' : Nat) (hd : 0 < d) (hd' : 0 < d') (h : n * d' = n' * d) : roundUnits n d = roundUnits n' d' := by
  rw [← roundUnits_scale n d d' hd', h, Nat.mul_comm d d', roundUnits_scale n' d' d hd]

/-- How a number is written makes no difference to the double that is read (except for the sign of zero). -/
theorem parse_congr (hex : Bytes → Option Dbl) (l l' : Literal) (hl : l.OK) (hl' : l'.OK) (h : l.value = l'.value) (h0 : l.value ≠ 0) :
    parseFloat hex l.text = parseFloat hex l'.text := by
  rw [parse_literal hex l hl, parse_literal hex l' hl']
  have hv := literal_units l
  have hv' := literal_units l'
  have hd : 0 < 10 ^ (-(l.power - (l.frac.length : ℤ))).toNat := Nat.pow_pos (by omega)
  have hd' : 0 < 10 ^ (-(l'.power - (l'.frac.length : ℤ))).toNat := Nat.pow_pos (by omega)
  unfold scaled
  generalize Spec.number (l.int ++ l.frac) * 10 ^ (l.power - (l.frac.length : ℤ)).toNat * one = n at *
  generalize 10 ^ (-(l.power - (l.frac.length : ℤ))).toNat = d at *
  generalize Spec.number (l'.int ++ l'.frac) * 10 ^ (l'.power - (l'.frac.length : ℤ)).toNat * one = n' at *
  generalize 10 ^ (-(l'.power - (l'.frac.length : ℤ))).toNat = d' at *
  have q : (0 : ℚ) < d := by exact_mod_cast hd
  have q' : (0 : ℚ) < d' := by exact_mod_cast hd'
  have hS := S_pos
  have key : ∀ a b : ℚ, 0 ≤ a → 0 ≤ b → (if l.sign = b!"-" then (-1 : ℚ) else 1) * a = (if l'.sign = b!"-" then (-1 : ℚ) else 1) * b → (if l.sign = b!"-" then (-1 : ℚ) else 1) * a ≠ 0 →
      decide (l.sign = b!"-") = decide (l'.sign = b!"-") ∧ a = b := by
    intro a b ha hb
    by_cases h1 : l.sign = b!"-" <;> by_cases h2 : l'.sign = b!"-" <;> simp only [h1, h2, if_true, if_false]
    · intro h _; exact ⟨by simp, by linarith⟩
    · intro h hne; exact absurd (show (-1 : ℚ) * a = 0 by linarith) hne
    · intro h hne; exact absurd (show (1 : ℚ) * a = 0 by linarith) hne
    · intro h _; exact ⟨by simp, by linarith⟩
  obtain ⟨k1, k2⟩ := key ((n : ℚ) / (d * 2 ^ 1074)) ((n' : ℚ) / (d' * 2 ^ 1074)) (div_nonneg (Nat.cast_nonneg _) (mul_pos q hS).le) (div_nonneg (Nat.cast_nonneg _) (mul_pos q' hS).le)
    (by rw [← hv, ← hv']; exact h) (by rw [← hv]; exact h0)
  rw [k1]
  have hr : n * d' = n' * d := by
    rw [div_eq_div_iff (mul_pos q hS).ne' (mul_pos q' hS).ne'] at k2
    generalize (2 : ℚ) ^ 1074 = S at *
    have : ((n : ℚ) * d') * S = (n' * d) * S := by linarith
    have := mul_right_cancel₀ hS.ne' this
    exact_mod_cast this
  unfold toDbl
  rw [roundUnits_ratio n d n' d' hd hd' hr]

theorem reads_zero (hex : Bytes → Option Dbl) (l : Literal) (hl : l.OK) (h : l.value = 0) : ∃ neg, parseFloat hex l.text = some (.fin neg 0) := by
  obtain ⟨d, hp, hn, u, hu⟩ := reads_some hex l hl (by left; exact h)
  rw [h] at hn
  have := zero_near hn
  rw [hu] at this
  exact ⟨_, by rw [hp, hu, number_zero this]⟩

theorem readField_null (hex fb) (drv : Driver) (key ids : Bool) : readField hex fb (expected .dec true key ids) (given drv .dec .null) = some (.float (.fin false 0)) := rfl

/-- Loading an amount. -/
theorem load_amount (hex fb) (print) (hpr : Spec.Prints print) (drv : Driver) (nu key ids : Bool) (m : ℤ) (s : Nat) (l : Literal) (hl : l.OK) (hv : l.value = m / 10 ^ s) (d : Dbl)
    (hp : parseFloat hex l.text = some d) :
    ∃ d', readField hex fb (expected .dec nu key ids) (given drv .dec (amountCell print (some (m / 10 ^ s)))) = some (.float d') ∧ numberOf d' = numberOf d := by
  obtain ⟨hok, hval⟩ := hpr m s
  by_cases h0 : l.value = 0
  · obtain ⟨n1, h1⟩ := reads_zero hex l hl h0
    obtain ⟨n2, h2⟩ := reads_zero hex _ hok (by rw [hval, ← hv, h0])
    rw [hp] at h1
    cases h1
    exact ⟨_, read_dec hex fb drv nu key ids _ hok _ h2, by simp [numberOf]⟩
  · have := parse_congr hex l _ hl hok (by rw [hval, hv]) h0
    rw [hp] at this
    exact ⟨_, read_dec hex fb drv nu key ids _ hok _ this.symm, rfl⟩

/-- A field with a finite number. -/
def Spec.Number : GoVal → ℚ → Prop
  | .float d, x => Types.Finite d ∧ numberOf d = x
  | _, _ => False

theorem shortest_zero (hex) (short) (hs : Shortest hex short) (neg : Bool) : (short (.fin neg 0)).value = 0 := by
  have hi : IsDouble (.fin neg 0) := ⟨0, 0, by norm_num, by norm_num, rfl⟩
  have := hs.least (.fin neg 0) trivial hi _ (exact_ok neg 0) (exact_reads hex neg 0 hi) 0 (by rw [exact_value]; simp [numberOf]; exact literal_zero_sig)
  obtain ⟨m, x, h1, h2⟩ := this
  have : m = 0 := by
    have h1 : |m| < 1 := by simpa using h1
    have := abs_nonneg m
    exact abs_eq_zero.1 (by omega)
  rw [h2, this]; simp

theorem literal_terminates (l : Literal) : ∃ (m : ℤ) (s : Nat), l.value = m / 10 ^ s := by
  unfold Literal.value
  generalize hN : Spec.number (l.int ++ l.frac) = N
  generalize l.frac.length = f
  generalize l.power = x
  refine ⟨(if l.sign = b!"-" then -1 else 1) * (N * 10 ^ x.toNat), f + (-x).toNat, ?_⟩
  rw [zpow_split x, pow_add]
  push_cast
  have h1 : (0 : ℚ) < 10 ^ f := by positivity
  have h2 : (0 : ℚ) < 10 ^ (-x).toNat := by positivity
  split <;> field_simp

/-- **C110, plain `numeric` in PostgreSQL**: every finite number a field can hold is stored and loaded exactly (zero of a nullable column through NULL). -/
theorem C110_plain_numeric_keeps_every_double (hex fb nb) (short) (print) (hs : Shortest hex short) (hpr : Spec.Prints print) (eqFold : Bytes → Bytes → Bool) (over : Bytes → Option Bytes)
    (c : Column) (ho : NoOverride over c) (ho' : over b!"_count" = none) (hk : kindOf .pg c = some .dec) :
    ∃ r t, toGoType eqFold over c = some r ∧ goTypeOf r = some t ∧
      ∀ d, Types.Finite d → IsDouble d →
        ∃ g, saveLoadDec hex fb nb short print .pg none c.nullable t (.float d) = some g ∧ Spec.Number g (numberOf d) := by
  obtain ⟨r, hr, ht⟩ := Option.bind_eq_some_iff.1 (chosen eqFold over .pg c .dec ho ho' hk)
  refine ⟨r, _, hr, ht, ?_⟩
  clear ht hr
  generalize isID eqFold c.name = key
  generalize hasSuffix c.name b!"_ids" = ids
  intro d hf hi
  cases d with
  | inf _ => exact absurd hf (by simp [Types.Finite])
  | nan => exact absurd hf (by simp [Types.Finite])
  | fin neg u =>
    obtain ⟨m, s, hv⟩ := literal_terminates (short (.fin neg u))
    obtain ⟨d', h1, h2⟩ := load_amount hex fb print hpr .pg c.nullable key ids m s _ (hs.ok (.fin neg u) trivial hi) hv _ (hs.reads (.fin neg u) trivial hi)
    have hfin : ∀ g, readField hex fb (expected .dec c.nullable key ids) (given .pg .dec (amountCell print (some (m / 10 ^ s)))) = some g → ∀ d', g = .float d' → Types.Finite d' := by
      intro g hg d' e
      subst e
      obtain ⟨hok, hval⟩ := hpr m s
      have := C76_parse_is_nearest hex _ hok
      cases hp : parseFloat hex (print (m / 10 ^ s)).text with
      | none =>
        cases hn : c.nullable <;> rw [hn] at hg <;> simp [expected, readField, given, amountCell, toFloat, kept, floatScan, hp] at hg
      | some e =>
        rw [hp] at this
        simp only [amountCell, read_dec hex fb .pg _ _ _ _ hok e hp] at hg
        cases hg
        exact this.1.1
    cases hn : c.nullable with
    | false =>
      rw [hn] at h1 hfin
      refine ⟨.float d', ?_, hfin _ h1 _ rfl, h2⟩
      simp only [saveLoadDec, expected, Bool.false_eq_true, if_false, fieldValue, bind, Option.bind_some, storeAmount, sentNumber, storeNumber, Option.map_some, hv]
      exact h1
    | true =>
      rw [hn] at h1 hfin
      by_cases h0 : u = 0
      · subst h0
        refine ⟨.float (.fin false 0), ?_, trivial, by simp [numberOf]⟩
        simp only [saveLoadDec, expected, if_true, fieldValue_zero, bind, Option.bind_some, storeAmount]
        rfl
      · refine ⟨.float d', ?_, hfin _ h1 _ rfl, h2⟩
        simp only [saveLoadDec, expected, if_true, fieldValue_xfloat _ _ _ h0, bind, Option.bind_some, storeAmount, sentNumber, storeNumber, Option.map_some, hv]
        exact h1

/-- A number with `s` decimals, as a literal. -/
def amountLiteral (m : ℤ) (s : Nat) : Literal := ⟨if m < 0 then b!"-" else [], Num.dec m.natAbs, false, [], b!"e-", Num.dec s⟩

theorem amountLiteral_ok (m : ℤ) (s : Nat) : (amountLiteral m s).OK ∧ (amountLiteral m s).value = m / 10 ^ s := by
  have hd := Types.dec_digits m.natAbs
  have hs := Types.dec_digits s
  refine ⟨⟨?_, hd.1.2, by simp [amountLiteral, AllDigits], Or.inl hd.1.1, by simp [amountLiteral], by simp [amountLiteral], hs.1.2, ?_⟩, ?_⟩
  · simp only [amountLiteral]; split <;> simp
  · simp only [amountLiteral]
    exact ⟨fun h => absurd h (by decide), fun h => absurd h hs.1.1⟩
  · have e : (amountLiteral m s).int ++ (amountLiteral m s).frac = Num.dec m.natAbs := by simp [amountLiteral]
    have e2 : (amountLiteral m s).frac.length = 0 := rfl
    have e3 : (amountLiteral m s).power = -(s : ℤ) := by
      have : (amountLiteral m s).power = (if (b!"e-").getLast? = some c!"-" then (-1 : ℤ) else 1) * (Spec.number (Num.dec s) : ℤ) := rfl
      rw [this, hs.2]
      simp
    have e4 : ((amountLiteral m s).sign = b!"-") ↔ m < 0 := by
      simp only [amountLiteral]; split <;> simp [*]
    unfold Literal.value
    rw [e, e2, e3, hd.2, div_pow_zpow]
    simp only [e4]
    congr 1
    by_cases h : m < 0
    · rw [if_pos h]
      have : ((m.natAbs : Nat) : ℚ) = -m := by rw [Nat.cast_natAbs, abs_of_neg h]; push_cast; rfl
      rw [this]; simp
    · rw [if_neg h]
      have : ((m.natAbs : Nat) : ℚ) = m := by rw [Nat.cast_natAbs, abs_of_nonneg (not_lt.1 h)]
      rw [this]; simp

/-- Decimal numbers can be printed. -/
theorem prints_exist : ∃ print, Spec.Prints print := by
  classical
  refine ⟨fun v => if h : ∃ ms : ℤ × Nat, v = ms.1 / 10 ^ ms.2 then amountLiteral h.choose.1 h.choose.2 else amountLiteral 0 0, ?_⟩
  intro m s
  have h : ∃ ms : ℤ × Nat, (m : ℚ) / 10 ^ s = ms.1 / 10 ^ ms.2 := ⟨(m, s), rfl⟩
  have e := amountLiteral_ok h.choose.1 h.choose.2
  simp only [dif_pos h]
  refine ⟨e.1, ?_⟩
  rw [e.2, ← h.choose_spec]

theorem number_inj {neg neg' : Bool} {u u' : Nat} (h : numberOf (.fin neg u) = numberOf (.fin neg' u')) (h0 : u ≠ 0) : (.fin neg u : Dbl) = .fin neg' u' := by
  have hS := S_pos
  have hu : (0 : ℚ) < (u : ℚ) / 2 ^ 1074 := div_pos (by exact_mod_cast Nat.pos_of_ne_zero h0) hS
  have hu' : (0 : ℚ) ≤ (u' : ℚ) / 2 ^ 1074 := div_nonneg (Nat.cast_nonneg _) hS.le
  simp only [numberOf] at h
  have key : neg = neg' ∧ (u : ℚ) / 2 ^ 1074 = (u' : ℚ) / 2 ^ 1074 := by
    generalize (u : ℚ) / 2 ^ 1074 = a at *
    generalize (u' : ℚ) / 2 ^ 1074 = b at *
    cases neg <;> cases neg' <;> simp at h ⊢ <;> linarith
  obtain ⟨rfl, hk⟩ := key
  have := (div_left_inj' hS.ne').1 hk
  rw [Nat.cast_inj.1 this]

/-- No amount of the column is half-way between two doubles. -/
theorem no_tie_amount (hex : Bytes → Option Dbl) (p s : Nat) (hp15 : p ≤ 15) (hs307 : s ≤ 307) (m : ℤ) (hm : |m| < 10 ^ p) (neg : Bool) (u : Nat) (hn : Nearest (.fin neg u) ((m : ℚ) / 10 ^ s))
    (d' : Dbl) (hp : parseFloat hex (amountLiteral m s).text = some d') : numberOf (.fin neg u) = numberOf d' := by
  obtain ⟨hok, hval⟩ := amountLiteral_ok m s
  obtain ⟨hsig, hmod⟩ := amount_moderate hp15 hs307 ⟨m, hm, rfl⟩
  have hn' := nearest_of_reads hex _ hok d' hp
  rw [hval] at hn'
  by_cases hm0 : m = 0
  · subst hm0
    simp only [Int.cast_zero, zero_div] at hn hn'
    rw [zero_near hn, zero_near hn']
  have hpos : (0 : ℚ) < 10 ^ s := by positivity
  have hv0 : (m : ℚ) / 10 ^ s ≠ 0 := div_ne_zero (by exact_mod_cast hm0) hpos.ne'
  have hsgn : decide ((amountLiteral m s).sign = b!"-") = decide (m < 0) := by
    simp only [amountLiteral]; split <;> simp [*]
  obtain ⟨_, hp2, _, u', hu'⟩ := reads_some hex _ hok (by rw [hval]; exact hmod)
  rw [hp] at hp2
  cases hp2
  rw [hsgn] at hu'
  have hneg : m < 0 ↔ (m : ℚ) / 10 ^ s < 0 := by
    rw [div_lt_iff₀ hpos, zero_mul]; exact_mod_cast Iff.rfl
  -- the sign
  have hs' : neg = decide (m < 0) := by
    have he := moderate_error hn hmod
    have hu0 : (0 : ℚ) ≤ (u : ℚ) / 2 ^ 1074 := div_nonneg (Nat.cast_nonneg _) S_pos.le
    have hl : |(m : ℚ) / 10 ^ s| / 2 ^ 53 < |(m : ℚ) / 10 ^ s| := div_lt_self (abs_pos.2 hv0) (by norm_num)
    simp only [numberOf] at he
    generalize (u : ℚ) / 2 ^ 1074 = y at *
    rcases lt_or_gt_of_ne hv0 with h | h
    · have : m < 0 := hneg.2 h
      rw [abs_of_neg h] at hl he
      cases neg
      · exfalso
        simp only [Bool.false_eq_true, if_false, one_mul] at he
        have := le_trans (le_abs_self _) he
        linarith
      · simp [this]
    · have : ¬ m < 0 := fun hc => absurd (hneg.1 hc) (not_lt.2 h.le)
      rw [abs_of_pos h] at hl he
      cases neg
      · simp [this]
      · exfalso
        simp only [if_true] at he
        have := neg_le_of_abs_le he
        linarith
  subst hs'
  rw [hu']
  by_contra hne
  have hne' : u ≠ u' := fun h => hne (by rw [h])
  have hdist : |numberOf (.fin (decide (m < 0)) u) - (m : ℚ) / 10 ^ s| = |numberOf (.fin (decide (m < 0)) u') - (m : ℚ) / 10 ^ s| := by
    rw [hu'] at hn'
    exact le_antisymm (hn.2.2 _ hn'.1 hn'.2.1) (hn'.2.2 _ hn.1 hn.2.1)
  obtain ⟨j, hj⟩ := C76_parse_ties_even hex _ hok u' u (by rw [hp, hu', hsgn]) (by rw [hsgn]; exact hn.2.1) hne' (by rw [hsgn, hval]; exact hdist)
  -- in absolute values
  have habs : |(m : ℚ) / 10 ^ s| = |(m : ℚ)| / 10 ^ s := by rw [abs_div, abs_of_pos hpos]
  have hflip : ∀ w : Nat, |numberOf (.fin (decide (m < 0)) w) - (m : ℚ) / 10 ^ s| = |(w : ℚ) / 2 ^ 1074 - |(m : ℚ)| / 10 ^ s| := by
    intro w
    rw [← sign_dist_same (decide (m < 0)) ((w : ℚ) / 2 ^ 1074) (|(m : ℚ)| / 10 ^ s), ← habs]
    congr 2
    have := sign_mul_abs ((m : ℚ) / 10 ^ s)
    have hdec : decide (m < 0) = decide ((m : ℚ) / 10 ^ s < 0) := decide_eq_decide.2 hneg
    rw [hdec]
    exact this.symm
  rw [hflip, hflip] at hdist
  have herr : |(u' : ℚ) / 2 ^ 1074 - |(m : ℚ)| / 10 ^ s| ≤ |(m : ℚ)| / 10 ^ s / 2 ^ 53 := by
    have := moderate_error hn' hmod
    rw [hu', hflip, habs] at this
    exact this
  have hS := S_pos
  have hmid : 2 * (|(m : ℚ)| / 10 ^ s) = ((u : ℚ) + u') / 2 ^ 1074 := by
    have hne2 : (u : ℚ) / 2 ^ 1074 ≠ (u' : ℚ) / 2 ^ 1074 := by
      intro h
      have := (div_left_inj' hS.ne').1 h
      exact hne' (by exact_mod_cast this)
    rw [add_div]
    rcases abs_eq_abs.1 hdist with h | h
    · exact absurd (by linarith) hne2
    · linarith
  -- the odd factor
  obtain ⟨K, hK, hodd⟩ : ∃ K : ℤ, (u : ℤ) + u' = K * |(u' : ℤ) - u| ∧ K % 2 = 1 := by
    rcases abs_cases ((u' : ℤ) - u) with ⟨h, _⟩ | ⟨h, _⟩
    · refine ⟨4 * j - 1, ?_, by omega⟩
      rw [h] at hj ⊢
      have : (u : ℤ) + u' = 2 * u' - (u' - u) := by ring
      rw [this]
      linear_combination 2 * hj
    · refine ⟨4 * j + 1, ?_, by omega⟩
      rw [h] at hj ⊢
      have : (u : ℤ) + u' = 2 * u' + -(u' - u) := by ring
      rw [this]
      linear_combination 2 * hj
  have hD : (0 : ℤ) < |(u' : ℤ) - u| := abs_pos.2 (by omega)
  have hgap : |(u' : ℚ) / 2 ^ 1074 - |(m : ℚ)| / 10 ^ s| = ((|(u' : ℤ) - u| : ℤ) : ℚ) / (2 * 2 ^ 1074) := by
    have e : |(m : ℚ)| / 10 ^ s = ((u : ℚ) + u') / 2 ^ 1074 / 2 := by linarith
    rw [e]
    have e2 : (u' : ℚ) / 2 ^ 1074 - ((u : ℚ) + u') / 2 ^ 1074 / 2 = ((u' : ℚ) - u) / (2 * 2 ^ 1074) := by field_simp; ring
    rw [e2, abs_div, abs_of_pos (show (0 : ℚ) < 2 * 2 ^ 1074 by positivity)]
    push_cast; rfl
  generalize hDd : |(u' : ℤ) - u| = D at *
  have hK53 : (2 : ℤ) ^ 53 ≤ K := by
    rw [hgap] at herr
    have e : |(m : ℚ)| / 10 ^ s = (K * D : ℚ) / (2 * 2 ^ 1074) := by
      have : ((u : ℚ) + u') = K * D := by exact_mod_cast hK
      rw [this] at hmid
      have : |(m : ℚ)| / 10 ^ s = (K * D : ℚ) / 2 ^ 1074 / 2 := by linarith
      rw [this]; field_simp
    rw [e, div_div, div_le_div_iff₀ (by positivity) (by positivity)] at herr
    have hDq : (0 : ℚ) < D := by exact_mod_cast hD
    generalize (2 : ℚ) ^ 1074 = S at *
    have : (D * (2 * S)) * (2 ^ 53 : ℚ) ≤ (D * (2 * S)) * K := by
      calc (D * (2 * S)) * (2 ^ 53 : ℚ) = D * (2 * S * 2 ^ 53) := by ring
        _ ≤ K * D * (2 * S) := herr
        _ = (D * (2 * S)) * K := by ring
    have := le_of_mul_le_mul_left this (by positivity)
    exact_mod_cast this
  have hdvd : K ∣ |m| * 2 ^ 1075 := by
    refine ⟨D * 10 ^ s, ?_⟩
    have : ((u : ℚ) + u') = K * D := by exact_mod_cast hK
    rw [this] at hmid
    have e : (|(m : ℚ)|) * 2 ^ 1075 = K * (D * 10 ^ s) := by
      have h2 : (2 : ℚ) ^ 1075 = 2 * 2 ^ 1074 := by rw [← pow_succ']
      rw [h2]
      rw [eq_div_iff hS.ne'] at hmid
      have h3 : |(m : ℚ)| / 10 ^ s * 10 ^ s = |(m : ℚ)| := div_mul_cancel₀ _ hpos.ne'
      generalize (2 : ℚ) ^ 1074 = S at *
      calc |(m : ℚ)| * (2 * S) = (|(m : ℚ)| / 10 ^ s * 10 ^ s) * (2 * S) := by rw [h3]
        _ = (2 * (|(m : ℚ)| / 10 ^ s) * S) * 10 ^ s := by ring
        _ = K * (D * 10 ^ s) := by rw [hmid]; ring
    rw [← Int.cast_abs] at e
    generalize (1075 : Nat) = N at *
    exact_mod_cast e
  have hco : IsCoprime K (2 ^ 1075) := by
    apply IsCoprime.pow_right
    exact ⟨1, -(K / 2), by omega⟩
  have hdvd' : K ∣ |m| := hco.dvd_of_dvd_mul_right hdvd
  have hle := Int.le_of_dvd (abs_pos.2 hm0) hdvd'
  have : |m| < 10 ^ 15 := lt_of_lt_of_le hm (pow_le_pow_right₀ (by norm_num) hp15)
  norm_num at hK53 this
  omega

/-- **C110, saving**: a field with a finite number, saved in a column `numeric(p, s)` of at most fifteen digits, is loaded with the same number if and only if it is how some amount of the column
is read; otherwise the database rounds it or refuses it. -/
theorem C110_saved_and_loaded_iff (hex fb nb) (short) (print) (hs : Shortest hex short) (hpr : Spec.Prints print) (eqFold : Bytes → Bytes → Bool) (over : Bytes → Option Bytes) (drv : Driver)
    (c : Column) (p s : Nat) (hp15 : p ≤ 15) (hs307 : s ≤ 307) (ho : NoOverride over c) (ho' : over b!"_count" = none) (hk : kindOf drv c = some .dec) :
    ∃ r t, toGoType eqFold over c = some r ∧ goTypeOf r = some t ∧
      ∀ d, Types.Finite d → IsDouble d →
        ((∃ g, saveLoadDec hex fb nb short print drv (some (p, s)) c.nullable t (.float d) = some g ∧ Spec.Number g (numberOf d))
          ↔ ∃ v, Spec.Amount p s v ∧ Nearest d v) := by
  obtain ⟨r, hr, ht⟩ := Option.bind_eq_some_iff.1 (chosen eqFold over drv c .dec ho ho' hk)
  refine ⟨r, _, hr, ht, ?_⟩
  clear ht hr
  generalize isID eqFold c.name = key
  generalize hasSuffix c.name b!"_ids" = ids
  intro d hf hi
  have zero_amount : Spec.Amount p s 0 := ⟨0, by positivity, by simp⟩
  -- what is loaded is nearest to the amount stored
  have load : ∀ v g, Spec.Amount p s v → readField hex fb (expected .dec c.nullable key ids) (given drv .dec (amountCell print (some v))) = some g → ∃ e, g = .float e ∧ Nearest e v := by
    intro v g ⟨m, _, e⟩ hg
    obtain ⟨hok, hval⟩ := hpr m s
    rw [← e] at hok hval
    have hn := C76_parse_is_nearest hex _ hok
    cases hp : parseFloat hex (print v).text with
    | none => cases hn : c.nullable <;> rw [hn] at hg <;> simp [expected, readField, given, amountCell, toFloat, kept, floatScan, hp] at hg
    | some e =>
      rw [hp, hval] at hn
      simp only [amountCell, read_dec hex fb drv _ _ _ _ hok e hp] at hg
      cases hg
      exact ⟨e, rfl, hn.1⟩
  have near_cong : ∀ e v, Nearest e v → numberOf e = numberOf d → Nearest d v := by
    intro e v hn h
    exact ⟨hf, hi, fun w h1 h2 => by rw [← h]; exact hn.2.2 w h1 h2⟩
  cases d with
  | inf _ => exact absurd hf (by simp [Types.Finite])
  | nan => exact absurd hf (by simp [Types.Finite])
  | fin neg u =>
    -- the value handed to the driver
    have sent : (u = 0 ∧ c.nullable = true ∧ fieldValue nb (expected .dec c.nullable key ids) (.float (.fin neg u)) = some (.dv .null))
        ∨ fieldValue nb (expected .dec c.nullable key ids) (.float (.fin neg u)) = some (.f64 (.fin neg u)) := by
      cases hn : c.nullable with
      | false => right; rfl
      | true =>
        by_cases h0 : u = 0
        · subst h0; left; exact ⟨rfl, rfl, rfl⟩
        · right; exact fieldValue_xfloat nb neg u h0
    rcases sent with ⟨h0, hnu, hv⟩ | hv
    · subst h0
      refine ⟨fun _ => ⟨0, zero_amount, trivial, hi, fun w _ _ => by simp [numberOf]⟩, fun _ => ⟨.float (.fin false 0), ?_, trivial, by simp [numberOf]⟩⟩
      simp only [saveLoadDec, hv, bind, Option.bind_some, storeAmount, hnu, if_true, amountCell]
      rfl
    · simp only [saveLoadDec, hv, bind, Option.bind_some, storeAmount]
      constructor
      · rintro ⟨g, hg, hnum⟩
        cases hst : storeNumber (some (p, s)) (sentNumber short drv (.fin neg u)) with
        | none => rw [hst] at hg; cases hg
        | some v =>
          rw [hst] at hg
          simp only [Option.map_some, Option.bind_some] at hg
          have ha := storeNumber_amount hst
          obtain ⟨e, rfl, hn⟩ := load v g ha hg
          exact ⟨v, ha, near_cong e v hn hnum.2⟩
      · rintro ⟨v, ha, hn⟩
        obtain ⟨hsig, hm⟩ := amount_moderate hp15 hs307 ha
        obtain ⟨m, hm1, e⟩ := ha
        have hok := amountLiteral_ok m s
        rw [← e] at hok
        -- the double the amount is read as
        obtain ⟨d', hp', hn', u', hu'⟩ := reads_some hex _ hok.1 (by rw [hok.2]; exact hm)
        rw [hok.2] at hn'
        have hnum : numberOf (.fin neg u) = numberOf d' := by
          subst e
          exact no_tie_amount hex p s hp15 hs307 m hm1 neg u hn d' hp'
        have hst := stored_back hex short hs drv (some (p, s)) _ hok.1 (by rw [hok.2]; exact ⟨hp15, hs307, m, hm1, e⟩) d' hp' (.fin neg u) trivial hi hnum (by
          by_cases h0 : v = 0
          · left; rw [hok.2, h0]
          · right
            have hu0 : u ≠ 0 := by
              intro h
              subst h
              have := moderate_error hn hm
              simp only [numberOf, Nat.cast_zero, zero_div, mul_zero, zero_sub, abs_neg] at this
              have hp : 0 < |v| := abs_pos.2 h0
              have : |v| / 2 ^ 53 < |v| := div_lt_self hp (by norm_num)
              linarith
            rw [hu'] at hnum ⊢
            exact number_inj hnum hu0)
        rw [hok.2] at hst
        rw [hst]
        obtain ⟨d2, h1, h2⟩ := load_amount hex fb print hpr drv c.nullable key ids m s _ hok.1 (by rw [hok.2, e]) d' hp'
        rw [← e] at h1
        simp only [Option.map_some, Option.bind_some]
        obtain ⟨e3, he3, hn3⟩ := load v _ ⟨m, hm1, e⟩ h1
        exact ⟨_, h1, by cases he3; exact hn3.1, by rw [h2, hnum]⟩

/-! ### More digits -/

/-- The integer `n`, as a literal. -/
def intLiteral (n : Nat) : Literal := ⟨[], Num.dec n, false, [], [], []⟩

theorem intLiteral_ok (n : Nat) : (intLiteral n).OK ∧ (intLiteral n).value = n := by
  have hd := Types.dec_digits n
  refine ⟨⟨Or.inl rfl, hd.1.2, by simp [intLiteral, AllDigits], Or.inl hd.1.1, by simp [intLiteral], by simp [intLiteral], by simp [intLiteral, AllDigits], by simp [intLiteral]⟩, ?_⟩
  have e : (intLiteral n).int ++ (intLiteral n).frac = Num.dec n := by simp [intLiteral]
  have e2 : (intLiteral n).frac.length = 0 := rfl
  have e3 : (intLiteral n).power = 0 := by
    have : (intLiteral n).power = (if ([] : Bytes).getLast? = some c!"-" then (-1 : ℤ) else 1) * (Spec.number [] : ℤ) := rfl
    rw [this]; rfl
  have e4 : ¬ (intLiteral n).sign = b!"-" := by simp [intLiteral]
  unfold Literal.value
  rw [e, e2, e3, hd.2, if_neg e4]
  simp

theorem reads_int (hex : Bytes → Option Dbl) (n w : Nat) (h : roundUnits (n * one) 1 = w * one) (hw : w * one < tooBig) : parseFloat hex (intLiteral n).text = some (.fin false (w * one)) := by
  have hd := Types.dec_digits n
  have e : (intLiteral n).int ++ (intLiteral n).frac = Num.dec n := by simp [intLiteral]
  have e3 : (intLiteral n).power - ((intLiteral n).frac.length : ℤ) = 0 := by
    have : (intLiteral n).power = (if ([] : Bytes).getLast? = some c!"-" then (-1 : ℤ) else 1) * (Spec.number [] : ℤ) := rfl
    rw [this]; rfl
  have e4 : decide ((intLiteral n).sign = b!"-") = false := by simp [intLiteral]
  rw [parse_literal hex _ (intLiteral_ok n).1, e, e3, e4, hd.2]
  unfold scaled
  have : n * 10 ^ (0 : ℤ).toNat * one = n * one := by simp
  rw [this]
  have : (10 : Nat) ^ (-(0 : ℤ)).toNat = 1 := by simp
  rw [this]
  unfold toDbl
  rw [h, if_pos hw]
  rfl

theorem number_int (w : Nat) : numberOf (.fin false (w * one)) = w := by
  simp only [numberOf, Bool.false_eq_true, if_false, one_mul]
  rw [Nat.cast_mul, one_cast]
  exact mul_div_cancel_right₀ _ S_pos.ne'

/-- **C110, the limit**: with sixteen digits in SQL Server, and with seventeen in PostgreSQL, reading a row and writing it back changes the amount, without an error. -/
theorem C110_longer_amounts_change (hex fb nb) (short) (print) (hs : Shortest hex short) (hpr : Spec.Prints print) :
    writeBackDec hex fb nb short print .ms (some (16, 0)) false .f64 (some 9007199254740993) = some (some 9007199254740992)
    ∧ ∃ w, writeBackDec hex fb nb short print .pg none false .f64 (some 90071992547409921) = some (some w) ∧ w ≠ 90071992547409921 := by
  have read : ∀ (drv : Driver) (n w : Nat), n ≠ 0 → roundUnits (n * one) 1 = w * one → w * one < tooBig →
      readField hex fb .f64 (given drv .dec (amountCell print (some (n : ℚ)))) = some (.float (.fin false (w * one))) := by
    intro drv n w hn h1 h2
    have hp := hpr n 0
    simp only [Int.cast_natCast, pow_zero, div_one] at hp
    have hc := parse_congr hex (intLiteral n) _ (intLiteral_ok n).1 hp.1 (by rw [(intLiteral_ok n).2, hp.2]) (by rw [(intLiteral_ok n).2]; exact_mod_cast hn)
    rw [reads_int hex n w h1 h2] at hc
    exact read_dec hex fb drv false false false _ hp.1 _ hc.symm
  constructor
  · have h := read .ms 9007199254740993 9007199254740992 (by norm_num) (by decide +kernel) (by decide +kernel)
    rw [show ((9007199254740993 : Nat) : ℚ) = 9007199254740993 by norm_num] at h
    simp only [writeBackDec, h, bind, Option.bind_some, fieldValue, storeAmount, sentNumber, number_int]
    have : storeNumber (some (16, 0)) ((9007199254740992 : Nat) : ℚ) = some ((9007199254740992 : Nat) : ℚ) :=
      store_amount_exact ⟨9007199254740992, by norm_num, by norm_num⟩
    rw [this]
    norm_num
  · have h := read .pg 90071992547409921 90071992547409920 (by norm_num) (by decide +kernel) (by decide +kernel)
    rw [show ((90071992547409921 : Nat) : ℚ) = 90071992547409921 by norm_num] at h
    refine ⟨(short (.fin false (90071992547409920 * one))).value, ?_, ?_⟩
    · simp only [writeBackDec, h, bind, Option.bind_some, fieldValue, storeAmount, sentNumber, storeNumber, Option.map_some]
    · intro he
      have hi : IsDouble (.fin false (90071992547409920 * one)) := ⟨5629499534213120, 1078, by norm_num, by norm_num, by decide +kernel⟩
      have hr : parseFloat hex (intLiteral 90071992547409920).text = some (.fin false (90071992547409920 * one)) :=
        reads_int hex _ _ (by decide +kernel) (by decide +kernel)
      have h16 := hs.least (.fin false (90071992547409920 * one)) trivial hi _ (intLiteral_ok 90071992547409920).1 hr 16
        ⟨9007199254740992, 1, by norm_num, by rw [(intLiteral_ok 90071992547409920).2]; norm_num⟩
      rw [he] at h16
      obtain ⟨m, x, h1, h2⟩ := h16
      have hx : 1 ≤ x := by
        by_contra hc
        have h3 : (10 : ℚ) ^ x ≤ 10 ^ (0 : ℤ) := zpow_le_zpow_right₀ (by norm_num) (by omega)
        rw [zpow_zero] at h3
        have h4 : |(m : ℚ)| < 10 ^ 16 := by rw [← Int.cast_abs]; exact_mod_cast h1
        have h5 : (0 : ℚ) < (10 : ℚ) ^ x := zpow_pos (by norm_num) x
        have h6 : |(m : ℚ) * (10 : ℚ) ^ x| ≤ 10 ^ 16 := by
          rw [abs_mul, abs_of_pos h5]
          calc |(m : ℚ)| * (10 : ℚ) ^ x ≤ 10 ^ 16 * 1 := mul_le_mul h4.le h3 h5.le (by positivity)
            _ = 10 ^ 16 := by ring
        rw [← h2] at h6
        norm_num at h6
      obtain ⟨j, hj⟩ := Int.eq_ofNat_of_zero_le (show 0 ≤ x - 1 by omega)
      have ex : (10 : ℚ) ^ x = 10 * 10 ^ j := by
        have : x = 1 + (j : ℤ) := by omega
        rw [this, zpow_add₀ (by norm_num), zpow_one, zpow_natCast]
      rw [ex] at h2
      have h3 : (90071992547409921 : ℤ) = m * (10 * 10 ^ j) := by exact_mod_cast h2
      have h4 : (90071992547409921 : ℤ) = 10 * (m * 10 ^ j) := by rw [h3]; ring
      generalize m * 10 ^ j = q at h4
      omega

/-- The hypotheses can be met: an amount of 9999999999999.99 in `numeric(15, 2)`, in both databases; a column of that type; a shortest text and a printed form exist (`shortest_exists`, `prints_exist`). -/
example : (∀ drv, Spec.Fifteen drv (some (15, 2)) (9999999999999.99)) ∧ Spec.Fifteen .pg none (1 / 100)
    ∧ kindOf .pg ⟨b!"price", b!"numeric", b!"numeric", true, 0, 1, [], none, []⟩ = some .dec := by
  refine ⟨fun drv => ⟨le_refl _, by norm_num, 999999999999999, by norm_num, by norm_num⟩, ⟨rfl, ⟨1, 2, by norm_num⟩, ⟨1, -2, by norm_num, by norm_num⟩, Or.inr ⟨?_, ?_⟩⟩, rfl⟩
  · rw [abs_of_pos (by norm_num)]
    exact one_div_le_one_div_of_le (by norm_num) (le_trans (show (100 : ℚ) ≤ 10 ^ 2 by norm_num) (pow_le_pow_right₀ (by norm_num) (by norm_num)))
  · rw [abs_of_pos (by norm_num)]
    exact le_trans (show (1 / 100 : ℚ) ≤ 10 ^ 0 by norm_num) (pow_le_pow_right₀ (by norm_num) (by norm_num))

end Gen
