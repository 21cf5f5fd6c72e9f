import Verif.Gen.Decimal
import Mathlib.Data.Set.Finite.Lemmas
import Mathlib.Algebra.Order.Archimedean.Basic
import Mathlib.Data.Int.Interval
import Mathlib.Order.Interval.Finset.Basic
set_option linter.unusedVariables false
set_option linter.unusedSimpArgs false
set_option exponentiation.threshold 3000
/-!
Single-precision columns (`real`, `float4`) and generated models: the `float32` and `xdb.Float` fields (internal/cli/schema/types.go:39-40, 73-74) over such columns.
-/
namespace Gen
open Schema Types

/-! ### Specification: single precision (IEEE 754 binary32) -/

/-- The finite numbers of single precision: a 24-bit significand times a power of two between 2^-149 and 2^104. -/
def IsSingle (v : ℚ) : Prop := ∃ m e : ℤ, |m| < 2 ^ 24 ∧ -149 ≤ e ∧ e ≤ 104 ∧ v = m * (2 : ℚ) ^ e

/-- `s` is a single-precision number and none is closer to `v`. -/
def Nearest32 (s v : ℚ) : Prop := IsSingle s ∧ ∀ w, IsSingle w → |s - v| ≤ |w - v|

/-- From this size on a number rounds to infinity. -/
def singleLimit : ℚ := 2 ^ 128 - 2 ^ 103

/-- Rounding to single precision, halves decided in whatever way (IEEE 754: to even). -/
def Spec.Rounds32 (round : ℚ → ℚ) : Prop := ∀ v, |v| < singleLimit → Nearest32 (round v) v

/-- PostgreSQL's text of a `real` (`float4out`, since version 12): a decimal of at most nine significant digits that rounds to the number; `0` for zero. -/
structure Spec.Prints32 (round : ℚ → ℚ) (print : ℚ → Literal) : Prop where
  ok : ∀ v, IsSingle v → (print v).OK
  digits : ∀ v, IsSingle v → SigDigits 9 (print v).value
  size : ∀ v, IsSingle v → |(print v).value| < singleLimit
  reads : ∀ v, IsSingle v → round (print v).value = v
  zero : (print 0).value = 0

/-! ### Model -/

/-- The double of a single-precision number (the conversion `float64(f)` is exact; the sign of zero is not modelled). -/
def ofSingle (v : ℚ) : Dbl := .fin (decide (v < 0)) (⌊|v| * 2 ^ 1074⌋.toNat)

/-- The fields `toGoType` chooses for such columns (types.go:39-40, 73-74). -/
inductive RealGT where
  | f32 | xfloat
  deriving DecidableEq

/-- Their names. -/
def realGoTypes : List (Bytes × RealGT) := [(b!"float32", .f32), (b!"xdb.Float", .xfloat)]

/-- What a driver hands to `Scan`: lib/pq parses the printed text as a double (third party, `encode.go` `textDecode`), go-mssqldb widens the four bytes (third party, `types.go`). -/
def realGiven (hex : Bytes → Option Dbl) (print : ℚ → Literal) (drv : Driver) : Option ℚ → Option Given
  | none => some (.dv .null)
  | some v => match drv with
    | .pg => (parseFloat hex (print v).text).map .f64
    | .ms => some (.f64 (ofSingle v))

/-- Reading into the field: `Float.Scan` (types.go:568-597), or for a Go `float32` `database/sql`'s conversion (standard library, `convertAssign`): the double is formatted with the fewest digits
and that text is parsed as a single-precision number, which fails when it is out of range; NULL is refused. -/
def readReal (hex : Bytes → Option Dbl) (short : Dbl → Literal) (round : ℚ → ℚ) (t : RealGT) (g : Given) : Option GoVal :=
  match t, g with
  | .xfloat, .f64 d => kept (floatScan hex (.fin false 0) (.f64 d)) .float
  | .xfloat, .dv d => kept (floatScan hex (.fin false 0) (.dv d)) .float
  | .f32, .f64 (.fin neg u) => if |(short (.fin neg u)).value| < singleLimit then some (.float (ofSingle (round (short (.fin neg u)).value))) else none
  | _, _ => none

/-- What the field hands to the driver: `Float.Value` (types.go:600-609), and for a Go `float32` the double (standard library, `driver.DefaultParameterConverter`). -/
def realValue (t : RealGT) (g : GoVal) : Option Given :=
  match t, g with
  | .xfloat, .float d => some (match floatValue d with | .f64 d => .f64 d | .f32 d => .f64 d | .dv d => .dv d)
  | .f32, .float d => some (.f64 d)
  | _, _ => none

/-- The database storing a driver's value in such a column: PostgreSQL rounds the text it is sent, SQL Server the double; too large a number is refused, and PostgreSQL also refuses one that would
become zero.  `none`: refused; infinities and NaN are not modelled. -/
def storeReal (short : Dbl → Literal) (round : ℚ → ℚ) (drv : Driver) (nullable : Bool) : Given → Option (Option ℚ)
  | .dv .null => if nullable then some none else none
  | .f64 (.fin neg u) =>
    let x := sentNumber short drv (.fin neg u)
    if |x| < singleLimit ∧ ¬ (drv = .pg ∧ round x = 0 ∧ x ≠ 0) then some (some (round x)) else none
  | _ => none

/-- Reading such a column into the generated field and writing the field back. -/
def writeBackReal (hex : Bytes → Option Dbl) (short : Dbl → Literal) (round : ℚ → ℚ) (print : ℚ → Literal) (drv : Driver) (nullable : Bool) (t : RealGT) (v : Option ℚ) : Option (Option ℚ) := do
  let g ← realGiven hex print drv v
  let f ← readReal hex short round t g
  let d ← realValue t f
  storeReal short round drv nullable d

/-- Saving a field in such a column and loading it into a fresh field. -/
def saveLoadReal (hex : Bytes → Option Dbl) (short : Dbl → Literal) (round : ℚ → ℚ) (print : ℚ → Literal) (drv : Driver) (nullable : Bool) (t : RealGT) (f : GoVal) : Option GoVal := do
  let d ← realValue t f
  let v ← storeReal short round drv nullable d
  let g ← realGiven hex print drv v
  readReal hex short round t g

/-! ### Lemmas: single and double precision -/

theorem single_zero : IsSingle 0 := ⟨0, 0, by norm_num, by norm_num, by norm_num, by simp⟩

theorem single_neg {v : ℚ} (h : IsSingle v) : IsSingle (-v) := by
  obtain ⟨m, e, h1, h2, h3, rfl⟩ := h
  exact ⟨-m, e, by rwa [abs_neg], h2, h3, by push_cast; ring⟩

/-- A 53-bit integer times a power of two is a double. -/
theorem double_of (k e : ℤ) (hk : |k| < 2 ^ 53) (h1 : -1074 ≤ e) (h2 : e ≤ 971) : ∃ u : Nat, (|(k : ℚ) * (2 : ℚ) ^ e| * 2 ^ 1074 = u) ∧ IsDouble (.fin (decide ((k : ℚ) * (2 : ℚ) ^ e < 0)) u)
    ∧ numberOf (.fin (decide ((k : ℚ) * (2 : ℚ) ^ e < 0)) u) = k * (2 : ℚ) ^ e := by
  obtain ⟨j, hj⟩ := Int.eq_ofNat_of_zero_le (show 0 ≤ e + 1074 by omega)
  have hS := S_pos
  have e1 : |(k : ℚ) * (2 : ℚ) ^ e| * 2 ^ 1074 = ((k.natAbs * 2 ^ j : Nat) : ℚ) := by
    have h2j : (2 : ℚ) ^ e * 2 ^ 1074 = 2 ^ j := by
      rw [← zpow_natCast, ← zpow_natCast, ← zpow_add₀ (by norm_num)]
      congr 1
    have hp : (0 : ℚ) < (2 : ℚ) ^ e := zpow_pos (by norm_num) e
    rw [abs_mul, abs_of_pos hp, mul_assoc, h2j]
    push_cast
    rw [Nat.cast_natAbs, Int.cast_abs]
  refine ⟨k.natAbs * 2 ^ j, e1, ⟨k.natAbs, j, ?_, by omega, rfl⟩, ?_⟩
  · have : (k.natAbs : ℤ) < 2 ^ 53 := by rw [Int.natCast_natAbs]; exact hk
    exact_mod_cast this
  · simp only [numberOf]
    rw [← e1, mul_div_cancel_right₀ _ hS.ne']
    exact sign_mul_abs _

/-- Every single-precision number is a double. -/
theorem single_double {v : ℚ} (h : IsSingle v) : Types.Finite (ofSingle v) ∧ IsDouble (ofSingle v) ∧ numberOf (ofSingle v) = v := by
  obtain ⟨m, e, h1, h2, h3, hv⟩ := h
  obtain ⟨u, hu, hd, hn⟩ := double_of m e (lt_of_lt_of_le h1 (by norm_num)) (by omega) (by omega)
  have : ofSingle v = .fin (decide ((m : ℚ) * (2 : ℚ) ^ e < 0)) u := by
    unfold ofSingle
    have : ⌊(u : ℚ)⌋.toNat = u := by rw [Int.floor_natCast]; rfl
    rw [hv, hu, this]
  rw [this]
  exact ⟨trivial, hd, by rw [hn, hv]⟩

theorem between_aux {a b : ℚ} {m e m' e' : ℤ} (hm : |m| < 2 ^ 24) (h1 : -149 ≤ e) (h2 : e ≤ 104) (ha : a = m * (2 : ℚ) ^ e) (hb : b = m' * (2 : ℚ) ^ e') (hee : e ≤ e') (hne : a ≠ b) :
    ∃ d, Types.Finite d ∧ IsDouble d ∧ ((a < numberOf d ∧ numberOf d < b) ∨ (b < numberOf d ∧ numberOf d < a)) := by
  obtain ⟨j, hj⟩ := Int.eq_ofNat_of_zero_le (show 0 ≤ e' - e by omega)
  have hp : (0 : ℚ) < (2 : ℚ) ^ (e - 1) := zpow_pos (by norm_num) _
  have ea : a = (2 * m : ℤ) * (2 : ℚ) ^ (e - 1) := by
    rw [ha, show e = 1 + (e - 1) by ring, zpow_add₀ (by norm_num), zpow_one]
    push_cast
    rw [show 1 + (e - 1) - 1 = e - 1 by ring]
    ring
  have eb : b = (2 * (m' * 2 ^ j) : ℤ) * (2 : ℚ) ^ (e - 1) := by
    rw [hb, show e' = (j : ℤ) + (1 + (e - 1)) by omega, zpow_add₀ (by norm_num), zpow_add₀ (by norm_num), zpow_one, zpow_natCast]
    push_cast
    ring
  generalize m' * 2 ^ j = n at eb
  have hmn : m ≠ n := by
    intro h
    apply hne
    rw [ea, eb, h]
  have hm53 : |m| < 2 ^ 24 := hm
  rw [abs_lt] at hm53
  rcases lt_or_gt_of_ne hmn with h | h
  · obtain ⟨u, _, hd, hn⟩ := double_of (2 * m + 1) (e - 1) (by rw [abs_lt]; omega) (by omega) (by omega)
    refine ⟨.fin _ u, trivial, hd, Or.inl ?_⟩
    rw [hn, ea, eb]
    constructor
    · exact mul_lt_mul_of_pos_right (by exact_mod_cast (by omega)) hp
    · exact mul_lt_mul_of_pos_right (by exact_mod_cast (by omega)) hp
  · obtain ⟨u, _, hd, hn⟩ := double_of (2 * m - 1) (e - 1) (by rw [abs_lt]; omega) (by omega) (by omega)
    refine ⟨.fin _ u, trivial, hd, Or.inr ?_⟩
    rw [hn, ea, eb]
    constructor
    · exact mul_lt_mul_of_pos_right (by exact_mod_cast (by omega)) hp
    · exact mul_lt_mul_of_pos_right (by exact_mod_cast (by omega)) hp

/-- Between two single-precision numbers there is a double. -/
theorem between {a b : ℚ} (ha : IsSingle a) (hb : IsSingle b) (hne : a ≠ b) :
    ∃ d, Types.Finite d ∧ IsDouble d ∧ ((a < numberOf d ∧ numberOf d < b) ∨ (b < numberOf d ∧ numberOf d < a)) := by
  obtain ⟨m, e, h1, h2, h3, ea⟩ := ha
  obtain ⟨m', e', h1', h2', h3', eb⟩ := hb
  rcases le_total e e' with h | h
  · exact between_aux h1 h2 h3 ea eb h hne
  · obtain ⟨d, hf, hd, ho⟩ := between_aux h1' h2' h3' eb ea h (Ne.symm hne)
    exact ⟨d, hf, hd, ho.symm⟩

/-- A number read as the double of a single-precision number rounds to that single-precision number. -/
theorem nearest_single {d : Dbl} {y v w : ℚ} (hn : Nearest d y) (hv : IsSingle v) (hd : numberOf d = v) (hw : Nearest32 w y) : w = v := by
  by_contra hne
  obtain ⟨p, hf, hi, hp⟩ := between hv hw.1 (Ne.symm hne)
  have h1 := hn.2.2 p hf hi
  have h2 := hw.2 v hv
  rw [hd] at h1
  rcases hp with ⟨p1, p2⟩ | ⟨p1, p2⟩
  · have : y < numberOf p := by
      rcases abs_cases (v - y) with ⟨e1, _⟩ | ⟨e1, _⟩ <;> rcases abs_cases (numberOf p - y) with ⟨e2, _⟩ | ⟨e2, _⟩ <;> linarith
    rcases abs_cases (v - y) with ⟨e1, _⟩ | ⟨e1, _⟩ <;> rcases abs_cases (numberOf p - y) with ⟨e2, _⟩ | ⟨e2, _⟩ <;> rcases abs_cases (w - y) with ⟨e3, _⟩ | ⟨e3, _⟩ <;> linarith
  · have : numberOf p < y := by
      rcases abs_cases (v - y) with ⟨e1, _⟩ | ⟨e1, _⟩ <;> rcases abs_cases (numberOf p - y) with ⟨e2, _⟩ | ⟨e2, _⟩ <;> linarith
    rcases abs_cases (v - y) with ⟨e1, _⟩ | ⟨e1, _⟩ <;> rcases abs_cases (numberOf p - y) with ⟨e2, _⟩ | ⟨e2, _⟩ <;> rcases abs_cases (w - y) with ⟨e3, _⟩ | ⟨e3, _⟩ <;> linarith

theorem single_le {v : ℚ} (h : IsSingle v) : |v| < singleLimit := by
  obtain ⟨m, e, h1, h2, h3, hv⟩ := h
  have hp : (0 : ℚ) < (2 : ℚ) ^ e := zpow_pos (by norm_num) e
  rw [hv, abs_mul, abs_of_pos hp]
  have hm : |(m : ℚ)| ≤ 2 ^ 24 - 1 := by
    rw [← Int.cast_abs]
    have : |m| ≤ 2 ^ 24 - 1 := by omega
    exact_mod_cast this
  have he : (2 : ℚ) ^ e ≤ 2 ^ (104 : ℤ) := zpow_le_zpow_right₀ (by norm_num) h3
  calc |(m : ℚ)| * 2 ^ e ≤ (2 ^ 24 - 1) * 2 ^ (104 : ℤ) := mul_le_mul hm he hp.le (by norm_num)
    _ < singleLimit := by unfold singleLimit; norm_num

/-- A number read as the double of a single-precision number is not too large. -/
theorem nearest_size {d : Dbl} {y v : ℚ} (hn : Nearest d y) (hv : IsSingle v) (hd : numberOf d = v) : |y| < singleLimit := by
  have hl := single_le hv
  have key : ∀ s : ℤ, |s| = 1 → ∃ p, Types.Finite p ∧ IsDouble p ∧ numberOf p = s * singleLimit := by
    intro s hs
    obtain ⟨u, _, hd, hn⟩ := double_of (s * (2 ^ 25 - 1)) 103 (by rw [abs_mul, hs]; norm_num) (by norm_num) (by norm_num)
    refine ⟨.fin _ u, trivial, hd, ?_⟩
    rw [hn]
    unfold singleLimit
    push_cast
    norm_num
    ring
  obtain ⟨p, hf, hi, hp⟩ := key 1 (by norm_num)
  obtain ⟨q, hf', hi', hq⟩ := key (-1) (by norm_num)
  have h1 := hn.2.2 p hf hi
  have h2 := hn.2.2 q hf' hi'
  rw [hd, hp] at h1
  rw [hd, hq] at h2
  push_cast at h1 h2
  rw [abs_lt] at hl ⊢
  constructor
  · rcases abs_cases (v - y) with ⟨e1, _⟩ | ⟨e1, _⟩ <;> rcases abs_cases (-1 * singleLimit - y) with ⟨e2, _⟩ | ⟨e2, _⟩ <;> linarith
  · rcases abs_cases (v - y) with ⟨e1, _⟩ | ⟨e1, _⟩ <;> rcases abs_cases (1 * singleLimit - y) with ⟨e2, _⟩ | ⟨e2, _⟩ <;> linarith

theorem round_single {round : ℚ → ℚ} (hr : Spec.Rounds32 round) {v : ℚ} (hv : IsSingle v) : round v = v := by
  have := (hr v (single_le hv)).2 v hv
  rw [sub_self, abs_zero] at this
  have := abs_nonpos_iff.1 this
  linarith

theorem ofSingle_zero : ofSingle 0 = .fin false 0 := by simp [ofSingle]

theorem limit_size : singleLimit ≤ (10 : ℚ) ^ 307 := by
  have : singleLimit ≤ (10 : ℚ) ^ 39 := by unfold singleLimit; norm_num
  exact le_trans this (pow_le_pow_right₀ (by norm_num) (by norm_num))

theorem tiny : (1 : ℚ) / 10 ^ 307 ≤ (2 : ℚ) ^ (-150 : ℤ) := by
  rw [zpow_neg, show (150 : ℤ) = ((150 : Nat) : ℤ) by norm_num, zpow_natCast, one_div]
  apply inv_anti₀ (by positivity)
  calc (2 : ℚ) ^ 150 ≤ 10 ^ 150 := pow_le_pow_left₀ (by norm_num) (by norm_num) 150
    _ ≤ 10 ^ 307 := pow_le_pow_right₀ (by norm_num) (by norm_num)

theorem single_big {v : ℚ} (h : IsSingle v) (h0 : v ≠ 0) : (2 : ℚ) ^ (-149 : ℤ) ≤ |v| := by
  obtain ⟨m, e, h1, h2, h3, hv⟩ := h
  have hp : (0 : ℚ) < (2 : ℚ) ^ e := zpow_pos (by norm_num) e
  have hm : m ≠ 0 := by rintro rfl; exact h0 (by rw [hv]; simp)
  have h1m : (1 : ℚ) ≤ |(m : ℚ)| := by
    rw [← Int.cast_abs]
    exact_mod_cast Int.one_le_abs hm
  rw [hv, abs_mul, abs_of_pos hp]
  calc (2 : ℚ) ^ (-149 : ℤ) ≤ 2 ^ e := zpow_le_zpow_right₀ (by norm_num) h2
    _ = 1 * 2 ^ e := (one_mul _).symm
    _ ≤ |(m : ℚ)| * 2 ^ e := by gcongr

/-- What PostgreSQL prints for a number is of a moderate size. -/
theorem printed {round : ℚ → ℚ} {print : ℚ → Literal} (hr : Spec.Rounds32 round) (hp : Spec.Prints32 round print) {v : ℚ} (hv : IsSingle v) :
    SigDigits 15 (print v).value ∧ Moderate (print v).value ∧ ((print v).value = 0 ↔ v = 0) := by
  have h0 : (print v).value = 0 ↔ v = 0 := by
    constructor
    · intro h
      have := hp.reads v hv
      rw [h, round_single hr single_zero] at this
      exact this.symm
    · rintro rfl; exact hp.zero
  refine ⟨sig_mono (by norm_num) (hp.digits v hv), ?_, h0⟩
  by_cases hz : v = 0
  · exact Or.inl (h0.2 hz)
  · right
    have hs := hp.size v hv
    refine ⟨?_, le_trans hs.le limit_size⟩
    have hn := (hr _ hs).2 0 single_zero
    rw [hp.reads v hv, zero_sub, abs_neg] at hn
    have h2 : |v| ≤ 2 * |(print v).value| := by
      have := abs_sub_abs_le_abs_sub v (print v).value
      linarith
    have h3 := single_big hv hz
    have h4 : (2 : ℚ) ^ (-149 : ℤ) = 2 * 2 ^ (-150 : ℤ) := by
      rw [show (-149 : ℤ) = 1 + -150 by norm_num, zpow_add₀ (by norm_num), zpow_one]
    have h5 : 2 * (2 : ℚ) ^ (-150 : ℤ) ≤ 2 * |(print v).value| := by rw [← h4]; exact h3.trans h2
    exact tiny.trans (le_of_mul_le_mul_left h5 (by norm_num))

/-- Reading what PostgreSQL prints. -/
theorem pg_read (hex) (short) (hs : Shortest hex short) {round : ℚ → ℚ} {print : ℚ → Literal} (hr : Spec.Rounds32 round) (hp : Spec.Prints32 round print) {v : ℚ} (hv : IsSingle v) :
    ∃ neg u, parseFloat hex (print v).text = some (.fin neg u) ∧ Nearest (.fin neg u) (print v).value ∧ (short (.fin neg u)).value = (print v).value ∧ (u = 0 ↔ v = 0) := by
  obtain ⟨h1, h2, h3⟩ := printed hr hp hv
  have hok := hp.ok v hv
  obtain ⟨d, hd, hn, u, hu⟩ := reads_some hex _ hok h2
  obtain ⟨d', hd', _, hval, _⟩ := C110_fifteen_digits_survive hex short hs _ hok h1 h2
  rw [hd] at hd'
  cases hd'
  rw [hu] at hd hn hval
  refine ⟨_, u, hd, hn, hval, ?_⟩
  rw [← h3]
  constructor
  · intro h
    by_contra hx
    have := moderate_error hn h2
    rw [h] at this
    simp only [numberOf, Nat.cast_zero, zero_div, mul_zero, zero_sub, abs_neg] at this
    have hp : 0 < |(print v).value| := abs_pos.2 hx
    have : |(print v).value| / 2 ^ 53 < |(print v).value| := div_lt_self hp (by norm_num)
    linarith
  · intro h
    rw [h] at hn
    exact number_zero (zero_near hn)

theorem ofSingle_fin (v : ℚ) : ∃ neg u, ofSingle v = .fin neg u := ⟨_, _, rfl⟩

/-- A single-precision number sent as a double is stored unchanged. -/
theorem store_single (hex) (short) (hs : Shortest hex short) {round : ℚ → ℚ} (hr : Spec.Rounds32 round) (drv : Driver) (nullable : Bool) {v : ℚ} (hv : IsSingle v) {neg : Bool} {u : Nat}
    (hi : IsDouble (.fin neg u)) (hd : numberOf (.fin neg u) = v) : storeReal short round drv nullable (.f64 (.fin neg u)) = some (some v) := by
  cases drv with
  | ms =>
    simp only [storeReal, sentNumber, hd, round_single hr hv]
    rw [if_pos]
    exact ⟨single_le hv, by simp⟩
  | pg =>
    have hn := nearest_of_reads hex _ (hs.ok _ (show Types.Finite (.fin neg u) from trivial) hi) _ (hs.reads _ trivial hi)
    have hsz := nearest_size hn hv hd
    have hrd := nearest_single hn hv hd (hr _ hsz)
    simp only [storeReal, sentNumber, hrd]
    rw [if_pos]
    refine ⟨hsz, ?_⟩
    rintro ⟨_, h0, hx⟩
    rw [h0] at hd
    have := number_zero hd
    subst this
    exact hx (shortest_zero hex short hs neg)

/-- A number that PostgreSQL printed is stored as the number it was printed for. -/
theorem store_printed (short) {round : ℚ → ℚ} {print : ℚ → Literal} (hr : Spec.Rounds32 round) (hp : Spec.Prints32 round print) (nullable : Bool) {v : ℚ} (hv : IsSingle v) {neg : Bool} {u : Nat}
    (hval : (short (.fin neg u)).value = (print v).value) : storeReal short round .pg nullable (.f64 (.fin neg u)) = some (some v) := by
  simp only [storeReal, sentNumber, hval, hp.reads v hv]
  rw [if_pos]
  refine ⟨hp.size v hv, ?_⟩
  rintro ⟨_, h0, hx⟩
  exact hx ((printed hr hp hv).2.2.2 h0)

/-- A Go `float32` is loaded with the number of the column. -/
theorem read_f32 (hex) (short) (hs : Shortest hex short) {round : ℚ → ℚ} (hr : Spec.Rounds32 round) {print : ℚ → Literal} (hp : Spec.Prints32 round print) (drv : Driver) {v : ℚ} (hv : IsSingle v) :
    ∃ g, realGiven hex print drv (some v) = some g ∧ readReal hex short round .f32 g = some (.float (ofSingle v)) := by
  obtain ⟨hf, hi, hnum⟩ := single_double hv
  cases drv with
  | pg =>
    obtain ⟨neg, u, h1, _, h3, _⟩ := pg_read hex short hs hr hp hv
    refine ⟨.f64 (.fin neg u), by simp [realGiven, h1], ?_⟩
    simp only [readReal, h3, hp.reads v hv]
    rw [if_pos (hp.size v hv)]
  | ms =>
    refine ⟨.f64 (ofSingle v), rfl, ?_⟩
    obtain ⟨neg, u, h⟩ := ofSingle_fin v
    rw [h] at hi hnum ⊢
    have hn := nearest_of_reads hex _ (hs.ok _ (show Types.Finite (.fin neg u) from trivial) hi) _ (hs.reads _ trivial hi)
    have hsz := nearest_size hn hv hnum
    have hrd := nearest_single hn hv hnum (hr _ hsz)
    simp only [readReal]
    rw [if_pos hsz, hrd, h]

/-- A single-precision column. -/
def Spec.Real (c : Column) : Prop := c.type ≠ b!"ARRAY" ∧ (if c.udtType = [] then c.type else c.udtType) ∈ [b!"real", b!"float4"]

/-- The field the generator chooses. -/
theorem real_chosen (eqFold : Bytes → Bytes → Bool) (over : Bytes → Option Bytes) (c : Column) (ho : NoOverride over c) (ho' : over b!"_count" = none) (hc : Spec.Real c) :
    ∃ r, toGoType eqFold over c = some r ∧ realGoTypes.lookup r = some (if c.nullable then .xfloat else .f32) := by
  have table : ∀ typ ∈ [b!"real", b!"float4"], ∀ nu key : Bool,
      (tryTypes nu (if key then [b!"id " ++ typ, typ] else [typ])) = some (if nu then b!"xdb.Float" else b!"float32") := by decide +kernel
  have := table _ hc.2 c.nullable (isID eqFold c.name)
  refine ⟨if c.nullable then b!"xdb.Float" else b!"float32", ?_, ?_⟩
  · unfold toGoType
    rw [ho.1, ho.2]
    simp only [ho', ite_self, if_neg hc.1]
    exact this
  · cases c.nullable <;> decide

/-- **C112, reading and writing back**: every value of a single-precision column is unchanged when the row is read into the generated model and written back, in both databases; except that zero in a
nullable column becomes NULL. -/
theorem C112_singles_survive (hex) (short) (hs : Shortest hex short) (round) (hr : Spec.Rounds32 round) (print) (hp : Spec.Prints32 round print) (eqFold : Bytes → Bytes → Bool)
    (over : Bytes → Option Bytes) (drv : Driver) (c : Column) (ho : NoOverride over c) (ho' : over b!"_count" = none) (hc : Spec.Real c) :
    ∃ r t, toGoType eqFold over c = some r ∧ realGoTypes.lookup r = some t ∧
      (∀ v, IsSingle v → writeBackReal hex short round print drv c.nullable t (some v) = some (if c.nullable = true ∧ v = 0 then none else some v))
      ∧ (c.nullable = true → writeBackReal hex short round print drv c.nullable t none = some none) := by
  obtain ⟨r, hr1, hr2⟩ := real_chosen eqFold over c ho ho' hc
  refine ⟨r, _, hr1, hr2, ?_, ?_⟩
  · intro v hv
    obtain ⟨hf, hi, hnum⟩ := single_double hv
    cases hnu : c.nullable with
    | false =>
      simp only [Bool.false_eq_true, if_false, false_and]
      have hread := read_f32 hex short hs hr hp drv hv
      obtain ⟨g, h1, h2⟩ := hread
      simp only [writeBackReal, h1, bind, Option.bind_some, h2, realValue]
      obtain ⟨neg, u, h⟩ := ofSingle_fin v
      rw [h] at hi hnum ⊢
      exact store_single hex short hs hr drv false hv hi hnum
    | true =>
      simp only [if_true, true_and]
      have main : ∀ neg u, realGiven hex print drv (some v) = some (.f64 (.fin neg u)) → (u = 0 ↔ v = 0) → storeReal short round drv true (.f64 (.fin neg u)) = some (some v) →
          writeBackReal hex short round print drv true .xfloat (some v) = some (if v = 0 then none else some v) := by
        intro neg u h1 h2 h3
        simp only [writeBackReal, h1, bind, Option.bind_some]
        have : readReal hex short round .xfloat (.f64 (.fin neg u)) = some (.float (.fin neg u)) := rfl
        simp only [this, Option.bind_some]
        by_cases hv0 : v = 0
        · have := h2.2 hv0
          subst this
          rw [if_pos hv0]
          rfl
        · rw [if_neg hv0]
          have hu : u ≠ 0 := fun h => hv0 (h2.1 h)
          have : realValue .xfloat (.float (.fin neg u)) = some (.f64 (.fin neg u)) := by
            cases u with
            | zero => exact absurd rfl hu
            | succ u => rfl
          simp only [this, Option.bind_some, h3]
      cases drv with
      | pg =>
        obtain ⟨neg, u, h1, _, h3, h4⟩ := pg_read hex short hs hr hp hv
        exact main neg u (by simp [realGiven, h1]) h4 (store_printed short hr hp true hv h3)
      | ms =>
        obtain ⟨neg, u, h⟩ := ofSingle_fin v
        rw [h] at hi hnum
        refine main neg u (by simp [realGiven, h]) ?_ (store_single hex short hs hr .ms true hv hi hnum)
        constructor
        · rintro rfl; rw [← hnum]; simp [numberOf]
        · rintro rfl; exact number_zero hnum
  · intro hnu
    rw [hnu]
    rfl

/-! ### Saving and loading -/

/-- **C112, saving a `float32`**: every number of a NOT NULL single-precision column is saved and loaded unchanged, in both databases. -/
theorem C112_float32_saved_and_loaded (hex) (short) (hs : Shortest hex short) (round) (hr : Spec.Rounds32 round) (print) (hp : Spec.Prints32 round print) (eqFold : Bytes → Bytes → Bool)
    (over : Bytes → Option Bytes) (drv : Driver) (c : Column) (ho : NoOverride over c) (ho' : over b!"_count" = none) (hc : Spec.Real c) (hnn : c.nullable = false) :
    ∃ r t, toGoType eqFold over c = some r ∧ realGoTypes.lookup r = some t ∧
      ∀ s, IsSingle s → saveLoadReal hex short round print drv c.nullable t (.float (ofSingle s)) = some (.float (ofSingle s)) := by
  obtain ⟨r, hr1, hr2⟩ := real_chosen eqFold over c ho ho' hc
  refine ⟨r, _, hr1, hr2, ?_⟩
  intro s hsg
  obtain ⟨hf, hi, hnum⟩ := single_double hsg
  obtain ⟨g, h1, h2⟩ := read_f32 hex short hs hr hp drv hsg
  obtain ⟨neg, u, h⟩ := ofSingle_fin s
  have hst : storeReal short round drv false (.f64 (ofSingle s)) = some (some s) := by
    rw [h] at hi hnum ⊢
    exact store_single hex short hs hr drv false hsg hi hnum
  rw [hnn]
  simp only [saveLoadReal, realValue, bind, Option.bind_some, hst, h1, Bool.false_eq_true, if_false, h2]

/-- **C112, saving an `xdb.Float`**: a finite number in the field of a nullable single-precision column is loaded again as the same number if and only if, in SQL Server, it is a single-precision
number, and in PostgreSQL, it is how the text of some single-precision number is read; otherwise the database rounds it or refuses it. -/
theorem C112_float_saved_and_loaded_iff (hex) (short) (hs : Shortest hex short) (round) (hr : Spec.Rounds32 round) (print) (hp : Spec.Prints32 round print) (eqFold : Bytes → Bytes → Bool)
    (over : Bytes → Option Bytes) (drv : Driver) (c : Column) (ho : NoOverride over c) (ho' : over b!"_count" = none) (hc : Spec.Real c) (hnu : c.nullable = true) :
    ∃ r t, toGoType eqFold over c = some r ∧ realGoTypes.lookup r = some t ∧
      ∀ d, Types.Finite d → IsDouble d →
        ((∃ g, saveLoadReal hex short round print drv c.nullable t (.float d) = some g ∧ Spec.Number g (numberOf d))
          ↔ match drv with
            | .ms => IsSingle (numberOf d)
            | .pg => ∃ v, IsSingle v ∧ ∃ d', parseFloat hex (print v).text = some d' ∧ numberOf d' = numberOf d) := by
  obtain ⟨r, hr1, hr2⟩ := real_chosen eqFold over c ho ho' hc
  refine ⟨r, _, hr1, hr2, ?_⟩
  intro d hf hi
  rw [hnu]
  simp only [if_true]
  have readF : ∀ d', Types.Finite d' → readReal hex short round .xfloat (.f64 d') = some (.float d') := fun d' _ => rfl
  -- how a stored number is loaded
  have load : ∀ v, IsSingle v → ∃ d', realGiven hex print drv (some v) = some (.f64 d') ∧ Types.Finite d' ∧ (match drv with | .ms => numberOf d' = v | .pg => parseFloat hex (print v).text = some d') := by
    intro v hv
    cases drv with
    | ms => exact ⟨_, rfl, (single_double hv).1, (single_double hv).2.2⟩
    | pg =>
      obtain ⟨neg, u, h1, _⟩ := pg_read hex short hs hr hp hv
      exact ⟨.fin neg u, by simp [realGiven, h1], trivial, h1⟩
  cases d with
  | inf _ => exact absurd hf (by simp [Types.Finite])
  | nan => exact absurd hf (by simp [Types.Finite])
  | fin neg u =>
    by_cases h0 : u = 0
    · subst h0
      have hz : numberOf (.fin neg 0) = 0 := by simp [numberOf]
      rw [hz]
      have : saveLoadReal hex short round print drv true .xfloat (.float (.fin neg 0)) = some (.float (.fin false 0)) := rfl
      refine ⟨fun _ => ?_, fun _ => ⟨_, this, trivial, by simp [numberOf]⟩⟩
      cases drv with
      | ms => exact single_zero
      | pg =>
        obtain ⟨n', u', h1, _, _, h4⟩ := pg_read hex short hs hr hp single_zero
        have := h4.2 rfl
        subst this
        exact ⟨0, single_zero, _, h1, by simp [numberOf]⟩
    · have hval : realValue .xfloat (.float (.fin neg u)) = some (.f64 (.fin neg u)) := by
        cases u with
        | zero => exact absurd rfl h0
        | succ u => rfl
      simp only [saveLoadReal, hval, bind, Option.bind_some]
      constructor
      · rintro ⟨g, hg, hnum⟩
        cases hst : storeReal short round drv true (.f64 (.fin neg u)) with
        | none => rw [hst] at hg; cases hg
        | some v =>
          rw [hst] at hg
          simp only [storeReal] at hst
          split at hst
          · rename_i hsz
            cases hst
            have hv := (hr _ hsz.1).1
            obtain ⟨d', h1, h2, h3⟩ := load _ hv
            simp only [Option.bind_some, h1, readF d' h2] at hg
            cases hg
            cases drv with
            | ms =>
              show IsSingle (numberOf (.fin neg u))
              rw [← hnum.2, show numberOf d' = _ from h3]
              exact hv
            | pg => exact ⟨_, hv, d', h3, hnum.2⟩
          · cases hst
      · intro hcond
        have stored : ∃ v, IsSingle v ∧ storeReal short round drv true (.f64 (.fin neg u)) = some (some v)
            ∧ ∀ d', (match drv with | .ms => numberOf d' = v | .pg => parseFloat hex (print v).text = some d') → numberOf d' = numberOf (.fin neg u) := by
          cases drv with
          | ms => exact ⟨_, hcond, store_single hex short hs hr .ms true hcond hi rfl, fun d' h => h⟩
          | pg =>
            obtain ⟨v, hv, d', h1, h2⟩ := hcond
            obtain ⟨n', u', h3, _, h5, _⟩ := pg_read hex short hs hr hp hv
            rw [h1] at h3
            cases h3
            have e := number_inj h2.symm h0
            refine ⟨v, hv, store_printed short hr hp true hv (by rw [e]; exact h5), ?_⟩
            intro d2 h
            rw [h1] at h
            cases h
            exact h2
        obtain ⟨v, hv, h1, h2⟩ := stored
        obtain ⟨d', h3, h4, h5⟩ := load v hv
        refine ⟨.float d', ?_, h4, h2 d' h5⟩
        simp only [h1, Option.bind_some, h3, readF d' h4]

/-! ### The contracts can be met, and the limit -/

/-- A rounding to single precision exists. -/
theorem rounds_exist : ∃ round, Spec.Rounds32 round := by
  have hfin : Set.Finite {w : ℚ | IsSingle w} := by
    apply Set.Finite.subset ((Set.finite_Icc (-(2 : ℤ) ^ 24, (-149 : ℤ)) (2 ^ 24, 104)).image fun p => (p.1 : ℚ) * (2 : ℚ) ^ p.2)
    rintro w ⟨m, e, h1, h2, h3, rfl⟩
    rw [abs_lt] at h1
    exact ⟨(m, e), ⟨⟨h1.1.le, h2⟩, ⟨h1.2.le, h3⟩⟩, rfl⟩
  have key : ∀ v : ℚ, ∃ s, Nearest32 s v := by
    intro v
    obtain ⟨s, h1, h2⟩ := Set.exists_min_image _ (fun w => |w - v|) hfin ⟨0, single_zero⟩
    exact ⟨s, h1, h2⟩
  choose f hf using key
  exact ⟨f, fun v _ => hf v⟩

theorem apart_aux {a b : ℚ} {m e m' e' : ℤ} (hm : |m| < 2 ^ 24) (ha : a = m * (2 : ℚ) ^ e) (hb : b = m' * (2 : ℚ) ^ e') (hee : e ≤ e') (hne : a ≠ b) : |a| < 2 ^ 24 * |a - b| := by
  obtain ⟨j, hj⟩ := Int.eq_ofNat_of_zero_le (show 0 ≤ e' - e by omega)
  have hp : (0 : ℚ) < (2 : ℚ) ^ e := zpow_pos (by norm_num) _
  have eb : b = (m' * 2 ^ j : ℤ) * (2 : ℚ) ^ e := by
    rw [hb, show e' = (j : ℤ) + e by omega, zpow_add₀ (by norm_num), zpow_natCast]
    push_cast
    ring
  generalize m' * 2 ^ j = n at eb
  have hmn : m - n ≠ 0 := by
    intro h
    apply hne
    rw [ha, eb, show m = n by omega]
  have e1 : a - b = (m - n : ℤ) * (2 : ℚ) ^ e := by rw [ha, eb]; push_cast; ring
  rw [e1, ha, abs_mul, abs_mul, abs_of_pos hp, ← mul_assoc]
  apply mul_lt_mul_of_pos_right _ hp
  have h1 : 1 ≤ |m - n| := Int.one_le_abs hmn
  rw [← Int.cast_abs, ← Int.cast_abs]
  have : |m| < 2 ^ 24 * |m - n| := by
    generalize |m - n| = z at *
    omega
  exact_mod_cast this

/-- Single-precision numbers are not close to each other. -/
theorem singles_apart {a b : ℚ} (ha : IsSingle a) (hb : IsSingle b) (hne : a ≠ b) : |a| < 2 ^ 24 * |a - b| ∨ |b| < 2 ^ 24 * |a - b| := by
  obtain ⟨m, e, h1, h2, h3, ea⟩ := ha
  obtain ⟨m', e', h1', h2', h3', eb⟩ := hb
  rcases le_total e e' with h | h
  · exact Or.inl (apart_aux h1 ea eb h hne)
  · right
    rw [abs_sub_comm]
    exact apart_aux h1' eb ea h (Ne.symm hne)

/-- Nine digits are enough. -/
theorem nine_digits {v : ℚ} (h : 0 < v) : ∃ (m x : ℤ), 0 ≤ m ∧ m < 10 ^ 9 ∧ (m : ℚ) * (10 : ℚ) ^ x ≤ v ∧ v - m * (10 : ℚ) ^ x ≤ v / 10 ^ 8 := by
  obtain ⟨k, h1, h2⟩ := exists_mem_Ico_zpow (x := v) (y := (10 : ℚ)) h (by norm_num)
  have hp : (0 : ℚ) < (10 : ℚ) ^ (k - 8) := zpow_pos (by norm_num) _
  have e1 : (10 : ℚ) ^ k = 10 ^ 8 * 10 ^ (k - 8) := by
    rw [← zpow_natCast, ← zpow_add₀ (by norm_num)]
    congr 1
    push_cast; ring
  have e2 : (10 : ℚ) ^ (k + 1) = 10 ^ 9 * 10 ^ (k - 8) := by
    rw [← zpow_natCast, ← zpow_add₀ (by norm_num)]
    congr 1
    push_cast; ring
  rw [e1] at h1
  rw [e2] at h2
  have hf := Int.floor_le (v / 10 ^ (k - 8))
  have hl := Int.lt_floor_add_one (v / 10 ^ (k - 8))
  have h3 : v / 10 ^ (k - 8) < 10 ^ 9 := (div_lt_iff₀ hp).2 h2
  refine ⟨⌊v / 10 ^ (k - 8)⌋, k - 8, Int.floor_nonneg.2 (div_nonneg h.le hp.le), ?_, ?_, ?_⟩
  · rw [Int.floor_lt]
    exact_mod_cast h3
  · exact (le_div_iff₀ hp).1 hf
  · have h4 : v < (⌊v / 10 ^ (k - 8)⌋ + 1) * 10 ^ (k - 8) := (div_lt_iff₀ hp).1 hl
    have h5 : (10 : ℚ) ^ (k - 8) ≤ v / 10 ^ 8 := by rw [le_div_iff₀ (by norm_num)]; linarith
    linarith

theorem decimal_literal (m x : ℤ) : ∃ l : Literal, l.OK ∧ l.value = m * (10 : ℚ) ^ x := by
  obtain ⟨h1, h2⟩ := amountLiteral_ok (m * 10 ^ x.toNat) (-x).toNat
  refine ⟨_, h1, ?_⟩
  rw [h2]
  push_cast
  rcases le_total 0 x with h | h
  · obtain ⟨j, rfl⟩ := Int.eq_ofNat_of_zero_le h
    simp
  · obtain ⟨j, hj⟩ := Int.eq_ofNat_of_zero_le (show 0 ≤ -x by omega)
    have : x = -(j : ℤ) := by omega
    subst this
    simp [zpow_neg]
    rfl

theorem close_rounds {round : ℚ → ℚ} (hr : Spec.Rounds32 round) {v x : ℚ} (hv : IsSingle v) (hx : |x| ≤ |v|) (h : |v - x| ≤ |v| / 10 ^ 8) : round x = v := by
  have hn := hr x (lt_of_le_of_lt hx (single_le hv))
  by_contra hne
  have h1 := hn.2 v hv
  have h2 : |round x - v| ≤ |round x - x| + |x - v| := abs_sub_le _ _ _
  rw [abs_sub_comm x v] at h2
  have h3 : |v| ≤ |v - round x| + |round x| := by
    have := abs_add_le (v - round x) (round x)
    simpa using this
  rw [abs_sub_comm v (round x)] at h3
  rcases singles_apart hn.1 hv hne with h4 | h4
  · have : |v| < (2 ^ 24 + 1) * |round x - v| := by linarith
    have h5 : |round x - v| ≤ 2 * (|v| / 10 ^ 8) := by linarith
    have h6 : (0 : ℚ) ≤ |v| := abs_nonneg v
    linarith
  · have h5 : |round x - v| ≤ 2 * (|v| / 10 ^ 8) := by linarith
    have h6 : (0 : ℚ) ≤ |v| := abs_nonneg v
    linarith

/-- Texts of nine digits exist. -/
theorem prints32_exist (round : ℚ → ℚ) (hr : Spec.Rounds32 round) : ∃ print, Spec.Prints32 round print := by
  have key : ∀ v : ℚ, ∃ l : Literal, IsSingle v → l.OK ∧ SigDigits 9 l.value ∧ |l.value| < singleLimit ∧ round l.value = v ∧ (v = 0 → l.value = 0) := by
    intro v
    by_cases hv : IsSingle v
    · have main : ∃ m x : ℤ, |m| < 10 ^ 9 ∧ |(m : ℚ) * (10 : ℚ) ^ x| ≤ |v| ∧ |v - m * (10 : ℚ) ^ x| ≤ |v| / 10 ^ 8 := by
        rcases lt_trichotomy v 0 with h | h | h
        · obtain ⟨m, x, h1, h2, h3, h4⟩ := nine_digits (v := -v) (by linarith)
          have hp : (0 : ℚ) ≤ (m : ℚ) * (10 : ℚ) ^ x := mul_nonneg (by exact_mod_cast h1) (zpow_nonneg (by norm_num) x)
          refine ⟨-m, x, by rw [abs_neg, abs_of_nonneg h1]; exact h2, ?_, ?_⟩
          · push_cast
            rw [neg_mul, abs_neg, abs_of_nonneg hp, abs_of_neg h]; exact h3
          · push_cast
            have : v - -(m : ℚ) * (10 : ℚ) ^ x ≤ 0 := by linarith
            rw [abs_of_nonpos this, abs_of_neg h]
            linarith
        · refine ⟨0, 0, by norm_num, by simp, by rw [h]; simp⟩
        · obtain ⟨m, x, h1, h2, h3, h4⟩ := nine_digits h
          have hp : (0 : ℚ) ≤ (m : ℚ) * (10 : ℚ) ^ x := mul_nonneg (by exact_mod_cast h1) (zpow_nonneg (by norm_num) x)
          refine ⟨m, x, by rw [abs_of_nonneg h1]; exact h2, ?_, ?_⟩
          · rw [abs_of_nonneg hp, abs_of_pos h]; exact h3
          · rw [abs_of_nonneg (by linarith), abs_of_pos h]; exact h4
      obtain ⟨m, x, h1, h2, h3⟩ := main
      obtain ⟨l, hl, e⟩ := decimal_literal m x
      refine ⟨l, fun _ => ⟨hl, ⟨m, x, h1, e⟩, ?_, ?_, ?_⟩⟩
      · rw [e]; exact lt_of_le_of_lt h2 (single_le hv)
      · rw [e]; exact close_rounds hr hv h2 h3
      · intro h0
        rw [e]
        rw [h0, abs_zero] at h2
        exact abs_nonpos_iff.1 h2
    · exact ⟨amountLiteral 0 0, fun h => absurd h hv⟩
  choose f hf using key
  exact ⟨f, fun v hv => (hf v hv).1, fun v hv => (hf v hv).2.1, fun v hv => (hf v hv).2.2.1, fun v hv => (hf v hv).2.2.2.1, (hf 0 single_zero).2.2.2.2 rfl⟩

/-- Whole numbers above 2^24 need more than 24 bits when they are odd. -/
theorem odd_not_single : ¬ IsSingle 16777217 := by
  rintro ⟨m, e, h1, h2, h3, h⟩
  rcases le_total e 0 with he | he
  · have hp : (0 : ℚ) < (2 : ℚ) ^ e := zpow_pos (by norm_num) _
    have : (2 : ℚ) ^ e ≤ 1 := by
      calc (2 : ℚ) ^ e ≤ 2 ^ (0 : ℤ) := zpow_le_zpow_right₀ (by norm_num) he
        _ = 1 := zpow_zero _
    have hm : |(m : ℚ)| ≤ 2 ^ 24 := by rw [← Int.cast_abs]; exact_mod_cast h1.le
    have h4 : |(m : ℚ) * (2 : ℚ) ^ e| ≤ 2 ^ 24 * 1 := by
      rw [abs_mul, abs_of_pos hp]
      exact mul_le_mul hm this hp.le (by norm_num)
    rw [← h] at h4
    norm_num at h4
  · rcases eq_or_lt_of_le he with he | he
    · rw [← he, zpow_zero, mul_one] at h
      have : m = 16777217 := by exact_mod_cast h.symm
      rw [this] at h1
      norm_num at h1
    · obtain ⟨j, hj⟩ := Int.eq_ofNat_of_zero_le (show 0 ≤ e - 1 by omega)
      rw [show e = 1 + (j : ℤ) by omega, zpow_add₀ (by norm_num), zpow_one, zpow_natCast] at h
      have h4 : (16777217 : ℤ) = m * (2 * 2 ^ j) := by exact_mod_cast h
      have h5 : (16777217 : ℤ) = 2 * (m * 2 ^ j) := by rw [h4]; ring
      generalize m * 2 ^ j = q at h5
      omega

/-- **C112, the limit**: a `Float` of 16777217, saved in a nullable `real` column of SQL Server, is not loaded as that number, and no error is reported. -/
theorem C112_other_doubles_change (hex) (short) (round) (hr : Spec.Rounds32 round) (print) :
    ∃ g, saveLoadReal hex short round print .ms true .xfloat (.float (.fin false (16777217 * one))) = some g ∧ ¬ Spec.Number g 16777217 := by
  have hv : numberOf (.fin false (16777217 * one)) = 16777217 := by
    have := number_int 16777217
    rw [this]; norm_num
  have hs := hr 16777217 (by rw [abs_of_pos (by norm_num)]; unfold singleLimit; norm_num)
  refine ⟨.float (ofSingle (round 16777217)), ?_, ?_⟩
  · have h1 : realValue .xfloat (.float (.fin false (16777217 * one))) = some (.f64 (.fin false (16777217 * one))) := by
      have : ∃ n, 16777217 * one = n + 1 := by
        have h0 : 0 < one := by unfold one; positivity
        exact ⟨16777217 * one - 1, by omega⟩
      obtain ⟨n, hn⟩ := this
      rw [hn]; rfl
    have h2 : storeReal short round .ms true (.f64 (.fin false (16777217 * one))) = some (some (round 16777217)) := by
      simp only [storeReal, sentNumber, hv]
      rw [if_pos]
      refine ⟨by rw [abs_of_pos (by norm_num)]; unfold singleLimit; norm_num, by simp⟩
    simp only [saveLoadReal, h1, bind, Option.bind_some, h2]
    rfl
  · rintro ⟨_, h⟩
    rw [(single_double hs.1).2.2] at h
    rw [h] at hs
    exact odd_not_single hs.1

/-- The hypotheses can be met: a column `real`, nullable or not, of either database; one third rounded to single precision; roundings and texts exist (`rounds_exist`, `prints32_exist`). -/
example : Spec.Real ⟨b!"ratio", b!"real", b!"float4", true, 0, 1, [], none, []⟩ ∧ Spec.Real ⟨b!"ratio", b!"real", [], false, 0, 1, [], none, []⟩
    ∧ IsSingle (11184811 / 2 ^ 25) ∧ ofSingle (-3 / 2) = .fin true (3 * 2 ^ 1073) := by
  refine ⟨⟨by decide, by decide⟩, ⟨by decide, by decide⟩, ⟨11184811, -25, by norm_num, by norm_num, by norm_num, ?_⟩, ?_⟩
  · rw [zpow_neg]; rfl
  · have : |(-3 / 2 : ℚ)| * 2 ^ 1074 = ((3 * 2 ^ 1073 : Nat) : ℚ) := by
      rw [abs_of_neg (by norm_num), show (1074 : Nat) = 1073 + 1 by norm_num, pow_succ]
      push_cast
      ring
    unfold ofSingle
    rw [this, Int.floor_natCast]
    have : decide ((-3 / 2 : ℚ) < 0) = true := by norm_num
    rw [this]
    rfl

end Gen
