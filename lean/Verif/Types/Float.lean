import Verif.Types.Id
/-!
Model of `xdb.Float` (types.go:533-610): IEEE doubles, `%f` with six decimals, `strconv.ParseFloat`.

A finite double is a sign and a magnitude counted in units of 2^-1074 (the smallest positive double), so every
finite double is a natural number of units.  All NaNs are one value (the code never looks at the payload).
-/
namespace Types

/-- A Go `float64`. -/
inductive Dbl where
  | fin (neg : Bool) (units : Nat)
  | inf (neg : Bool)
  | nan
  deriving DecidableEq, Repr

/-- Units in 1.0: 2^1074. -/
def one : Nat := 2 ^ 1074

/-- First magnitude beyond the finite doubles: 2^1024. -/
def tooBig : Nat := 2 ^ 2098

/-- Division rounded to the nearest integer, halves to even. -/
def rne (a b : Nat) : Nat :=
  if 2 * (a % b) < b then a / b
  else if b < 2 * (a % b) then a / b + 1
  else if a / b % 2 = 0 then a / b else a / b + 1

/-- Exponent of the last place of the binade holding `q` units: 53-bit significands. -/
def lastPlace (q : Nat) : Nat := q.log2 - 52

/-- IEEE rounding of `n/d` units to 53 bits, halves to even, without the upper limit. -/
def roundUnits (n d : Nat) : Nat := rne n (d * 2 ^ lastPlace (n / d)) * 2 ^ lastPlace (n / d)

/-- Go's conversion of `± n/d` units to `float64`: too large gives an infinity. -/
def toDbl (neg : Bool) (n d : Nat) : Dbl :=
  if roundUnits n d < tooBig then .fin neg (roundUnits n d) else .inf neg

/-- `float64(i)` for an integer. -/
def intDbl (i : Int) : Dbl := toDbl (decide (i < 0)) (i.natAbs * one) 1

/-! #### strconv -/

/-- An ASCII decimal digit. -/
def isDig (c : UInt8) : Bool := decide (48 ≤ c.toNat ∧ c.toNat ≤ 57)

/-- The number a string of digits denotes. -/
def digitsVal (s : Bytes) : Nat := s.foldl (fun a c => a * 10 + (c.toNat - 48)) 0

/-- Optional leading sign (strconv `readFloat`, `special`). -/
def signOf (s : Bytes) : Bool × Bytes :=
  match s with
  | 45 :: r => (true, r)
  | 43 :: r => (false, r)
  | _ => (false, s)

/-- The exponent after `e`: optional sign and at least one digit, up to the end. -/
def expOf (s : Bytes) : Option Int :=
  if (signOf s).2 = [] ∨ (signOf s).2.all isDig = false then none
  else some (if (signOf s).1 then -(digitsVal (signOf s).2 : Int) else (digitsVal (signOf s).2 : Int))

/-- The part after the integer digits: an optional point and digits, and what remains. -/
def fracOf (s : Bytes) : Bytes × Bytes :=
  match s with
  | 46 :: r => (r.takeWhile isDig, r.dropWhile isDig)
  | _ => ([], s)

/-- What follows the mantissa: nothing or an exponent. -/
def tailExp (s : Bytes) : Option Int :=
  match s with
  | [] => some 0
  | c :: r => if c = 101 ∨ c = 69 then expOf r else none

/-- strconv `readFloat` on an unsigned decimal text: `(m, x)` denotes `m·10^x`. -/
def decimalOf (s : Bytes) : Option (Nat × Int) :=
  if s.takeWhile isDig = [] ∧ (fracOf (s.dropWhile isDig)).1 = [] then none
  else
    match tailExp (fracOf (s.dropWhile isDig)).2 with
    | none => none
    | some x => some (digitsVal (s.takeWhile isDig ++ (fracOf (s.dropWhile isDig)).1), x - ((fracOf (s.dropWhile isDig)).1.length : Int))

/-- ASCII lower case. -/
def lowerByte (c : UInt8) : UInt8 := if 65 ≤ c.toNat ∧ c.toNat ≤ 90 then c + 32 else c

/-- strconv `special`: infinities and NaN, in any case; NaN takes no sign. -/
def specialOf (s : Bytes) : Option Dbl :=
  if (signOf s).2.map lowerByte = b!"inf" ∨ (signOf s).2.map lowerByte = b!"infinity" then some (.inf (signOf s).1)
  else if s.map lowerByte = b!"nan" then some .nan else none

/-- `m·10^x` converted to a double. -/
def scaled (neg : Bool) (m : Nat) (x : Int) : Dbl := toDbl neg (m * 10 ^ x.toNat * one) (10 ^ (-x).toNat)

/-- Out of range (an infinity after rounding) is an error. -/
def inRange (d : Dbl) : Option Dbl :=
  match d with
  | .fin neg u => some (.fin neg u)
  | _ => none

/-- `strconv.ParseFloat(s, 64)` with `err == nil` (standard library, by its documentation: nearest double, halves to
even; out of range is an error).  Hexadecimal texts, the only others accepted, are the parameter `hex`. -/
def parseFloat (hex : Bytes → Option Dbl) (s : Bytes) : Option Dbl :=
  match specialOf s with
  | some d => some d
  | none =>
    match decimalOf (signOf s).2 with
    | none => hex s
    | some (m, x) => inRange (scaled (signOf s).1 m x)

/-- Six decimal digits. -/
def six (n : Nat) : Bytes :=
  [n / 100000 % 10, n / 10000 % 10, n / 1000 % 10, n / 100 % 10, n / 10 % 10, n % 10].map Num.digitByte

/-- Millionths in `u` units, halves to even. -/
def millionths (u : Nat) : Nat := rne (u * 1000000) one

/-- `strconv.FormatFloat(v, 'f', 6, 64)` and `fmt.Sprintf("%f", v)` (standard library): exact decimal expansion rounded to
six decimals, halves to even. -/
def fixedSix (v : Dbl) : Bytes :=
  match v with
  | .nan => b!"NaN"
  | .inf neg => if neg then b!"-Inf" else b!"+Inf"
  | .fin neg u =>
    (if neg then b!"-" else []) ++ Num.dec (millionths u / 1000000) ++ b!"." ++ six (millionths u % 1000000)

/-! #### types.go -/

/-- types.go:537-539 `Float.MarshalJSON`. -/
def floatJSON (v : Dbl) : Bytes := fixedSix v

/-- types.go:558-560 `Float.String`. -/
def floatString (v : Dbl) : Bytes := fixedSix v

/-- types.go:542-555 `Float.UnmarshalJSON`: new contents of the destination and `err == nil`. -/
def floatFromJSON (hex : Bytes → Option Dbl) (old : Dbl) (data : Bytes) : Dbl × Bool :=
  if trimQuotes data = b!"" ∨ trimQuotes data = b!"0" ∨ trimQuotes data = b!"NULL" then (.fin false 0, true)
  else
    match parseFloat hex (trimQuotes data) with
    | none => (old, false)
    | some d => (d, true)

/-- What a driver hands to `Float.Scan`: a float64, a float32 (given by its exact value), or one of the other types. -/
inductive FV where
  | f64 (d : Dbl)
  | f32 (d : Dbl)
  | dv (d : DV)
  deriving DecidableEq, Repr

/-- types.go:568-597 `Float.Scan`: the conversion of a float32 is exact. -/
def floatScan (hex : Bytes → Option Dbl) (old : Dbl) (x : FV) : Dbl × Bool :=
  match x with
  | .f64 d => (d, true)
  | .f32 d => (d, true)
  | .dv .null => (old, true)
  | .dv (.bytes s) =>
    match parseFloat hex s with
    | none => (old, false)
    | some d => (d, true)
  | .dv (.u64 n) => (intDbl n.toNat, true)
  | .dv (.i64 n) => (intDbl n.toInt, true)
  | .dv (.int n) => (intDbl n.toInt, true)
  | .dv (.uint n) => (intDbl n.toNat, true)
  | .dv _ => (old, false)

/-- types.go:600-609 `Float.Value`: both zeros compare equal to 0, NaN does not. -/
def floatValue (v : Dbl) : FV :=
  match v with
  | .fin _ 0 => .dv .null
  | d => .f64 d

example : floatJSON (.fin false (3 * 2 ^ 1073)) = b!"1.500000" := by decide +kernel
example : floatJSON (intDbl (-12)) = b!"-12.000000" := by decide +kernel
example : (parseFloat (fun _ => none) b!"0.1").map floatJSON = some b!"0.100000" := by decide +kernel
example : parseFloat (fun _ => none) b!"0.1" = some (.fin false (3602879701896397 * 2 ^ 1019)) := by decide +kernel
example : parseFloat (fun _ => none) b!"-1.5e3" = some (intDbl (-1500)) := by decide +kernel
example : parseFloat (fun _ => none) b!"1e400" = none := by decide +kernel
example : parseFloat (fun _ => none) b!"1.7976931348623157e308" = some (.fin false ((2 ^ 53 - 1) * 2 ^ 2045)) := by decide +kernel
example : parseFloat (fun _ => none) b!"4.9e-324" = some (.fin false 1) := by decide +kernel
example : parseFloat (fun _ => none) b!"+iNf" = some (.inf false) := by decide +kernel
example : parseFloat (fun _ => none) b!"1e" = none := by decide +kernel
example : parseFloat (fun _ => none) b!"." = none := by decide +kernel
end Types
