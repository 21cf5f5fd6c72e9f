import Verif.Types.Float
import Verif.Types.Spec
import Mathlib.Algebra.Order.Field.Rat
import Mathlib.Algebra.Order.Field.Basic
/-!
Small specification for `Float`: which magnitudes are doubles, the rational number a double denotes, the nearest
double to a rational number, and JSON number literals.
-/
namespace Types

/-- The finite doubles: a 53-bit significand times a power of two between 2^-1074 and 2^971 (and the infinities and NaN). -/
def IsDouble : Dbl → Prop
  | .fin _ u => ∃ t e : Nat, t < 2 ^ 53 ∧ e ≤ 2045 ∧ u = t * 2 ^ e
  | _ => True

/-- The number a finite double denotes (0 for the others, which no statement uses). -/
def numberOf : Dbl → ℚ
  | .fin neg u => (if neg then -1 else 1) * ((u : ℚ) / 2 ^ 1074)
  | _ => 0

/-- A finite double. -/
def Finite : Dbl → Prop
  | .fin _ _ => True
  | _ => False

/-- `v` is a finite double and no finite double is closer to `x`. -/
def Nearest (v : Dbl) (x : ℚ) : Prop :=
  Finite v ∧ IsDouble v ∧ ∀ w, Finite w → IsDouble w → |numberOf v - x| ≤ |numberOf w - x|

/-- A JSON number literal with a fraction and no exponent (RFC 8259): optional minus, an integer without a leading zero,
a point and digits. -/
def JsonDecimal (s : Bytes) : Prop :=
  ∃ sign int frac : Bytes, s = sign ++ int ++ b!"." ++ frac ∧ (sign = [] ∨ sign = b!"-") ∧
    Spec.Digits int ∧ (int.head? = some 48 → int = b!"0") ∧ Spec.Digits frac

/-- A decimal literal: sign, integer digits, optional point and fraction, optional exponent. -/
structure Literal where
  sign : Bytes
  int : Bytes
  point : Bool
  frac : Bytes
  exp : Bytes
  expDigits : Bytes

/-- Only ASCII decimal digits (possibly none). -/
def AllDigits (s : Bytes) : Prop := ∀ c ∈ s, 48 ≤ c.toNat ∧ c.toNat ≤ 57

/-- Well-formed decimal literals: at least one digit; a fraction only after a point; exponent digits only and always after
an exponent mark. -/
structure Literal.OK (l : Literal) : Prop where
  sign : l.sign = [] ∨ l.sign = b!"+" ∨ l.sign = b!"-"
  int : AllDigits l.int
  frac : AllDigits l.frac
  some_digit : l.int ≠ [] ∨ l.frac ≠ []
  no_point : l.point = false → l.frac = []
  exp : l.exp = [] ∨ l.exp = b!"e" ∨ l.exp = b!"E" ∨ l.exp = b!"e+" ∨ l.exp = b!"E+" ∨ l.exp = b!"e-" ∨ l.exp = b!"E-"
  expDigits : AllDigits l.expDigits
  exp_iff : l.exp = [] ↔ l.expDigits = []

/-- Its text. -/
def Literal.text (l : Literal) : Bytes :=
  l.sign ++ l.int ++ (if l.point then b!"." else []) ++ l.frac ++ l.exp ++ l.expDigits

/-- Its exponent. -/
def Literal.power (l : Literal) : ℤ :=
  (if l.exp.getLast? = some c!"-" then -1 else 1) * (Spec.number l.expDigits : ℤ)

/-- The number it denotes. -/
def Literal.value (l : Literal) : ℚ :=
  (if l.sign = b!"-" then -1 else 1) * ((Spec.number (l.int ++ l.frac) : ℚ) / 10 ^ l.frac.length) * (10 : ℚ) ^ l.power

/-- The largest finite double. -/
def largest : ℚ := (2 ^ 53 - 1) * 2 ^ 971

end Types
