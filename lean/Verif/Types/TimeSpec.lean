import Verif.Types.Time
/-! Specification vocabulary for `xdb.Time`: the Gregorian calendar and RFC 3339 texts. -/
namespace Types.Tm.Spec

/-- The Gregorian leap year rule. -/
def Leap (y : Nat) : Prop := y % 4 = 0 ∧ (y % 100 ≠ 0 ∨ y % 400 = 0)
instance (y : Nat) : Decidable (Leap y) := inferInstanceAs (Decidable (_ ∧ _))

/-- Month lengths. -/
def monthDays (y : Nat) : Nat → Nat
  | 1 => 31 | 2 => if Leap y then 29 else 28 | 3 => 31 | 4 => 30 | 5 => 31 | 6 => 30
  | 7 => 31 | 8 => 31 | 9 => 30 | 10 => 31 | 11 => 30 | 12 => 31 | _ => 0

/-- Day number of January 1 of a year, counting from 0001-01-01: one year after the other. -/
def yearStart : Nat → Int
  | 0 => -366
  | y + 1 => yearStart y + (if Leap y then 366 else 365)

/-- Days in the months before month `m`. -/
def monthStart (y : Nat) : Nat → Nat
  | 0 => 0
  | m + 1 => monthStart y m + monthDays y m

/-- A date and time with fraction digits and a zone (`none` is `Z`, `some (east, hours, minutes)` an offset). -/
structure Fields where
  y : Nat
  mo : Nat
  d : Nat
  h : Nat
  mi : Nat
  s : Nat
  frac : Bytes
  zone : Option (Bool × Nat × Nat)

/-- The fields are in range (four-digit year) and the fraction consists of digits. -/
def Fields.Valid (f : Fields) : Prop :=
  f.y ≤ 9999 ∧ 1 ≤ f.mo ∧ f.mo ≤ 12 ∧ 1 ≤ f.d ∧ f.d ≤ monthDays f.y f.mo ∧ f.h ≤ 23 ∧ f.mi ≤ 59 ∧ f.s ≤ 59
  ∧ (∀ c ∈ f.frac, 48 ≤ c.toNat ∧ c.toNat ≤ 57)
  ∧ (∀ e hr mm, f.zone = some (e, hr, mm) → hr ≤ 23 ∧ mm ≤ 59)

/-- Two- and four-digit numbers. -/
def two (n : Nat) : Bytes := [UInt8.ofNat (48 + n / 10), UInt8.ofNat (48 + n % 10)]
def four (n : Nat) : Bytes := two (n / 100) ++ two (n % 100)

/-- The text of the date. -/
def Fields.date (f : Fields) : Bytes := four f.y ++ b!"-" ++ two f.mo ++ b!"-" ++ two f.d
/-- The text of the time of day, to the second. -/
def Fields.clock (f : Fields) : Bytes := two f.h ++ b!":" ++ two f.mi ++ b!":" ++ two f.s
/-- The text of the zone. -/
def Fields.zoneText (f : Fields) : Bytes :=
  match f.zone with
  | none => b!"Z"
  | some (e, hr, mm) => (if e then b!"+" else b!"-") ++ two hr ++ b!":" ++ two mm
/-- The RFC 3339 text. -/
def Fields.text (f : Fields) : Bytes :=
  f.date ++ b!"T" ++ f.clock ++ (if f.frac = [] then [] else b!"." ++ f.frac) ++ f.zoneText

/-- Offset of the zone in seconds east of UTC. -/
def Fields.offset (f : Fields) : Int :=
  match f.zone with
  | none => 0
  | some (e, hr, mm) => (if e then 1 else -1) * (((hr * 60 + mm) * 60 : Nat) : Int)

/-- The nanoseconds denoted by a fraction: digit number `i` (from 0) counts `10^(8-i)`, digits after the ninth do not count. -/
def nanos : Nat → Bytes → Nat
  | 0, _ => 0
  | _, [] => 0
  | k + 1, c :: cs => (c.toNat - 48) * 10 ^ k + nanos k cs

/-- The instant denoted by the fields, in nanoseconds since 0001-01-01T00:00:00Z. -/
def Fields.instant (f : Fields) : Int :=
  ((yearStart f.y + monthStart f.y f.mo + f.d - 1) * 86400 + f.h * 3600 + f.mi * 60 + f.s - f.offset) * 1000000000
    + nanos 9 f.frac

/-- The instants whose UTC year is 1 to 9999. -/
def InRange (ns : Int) : Prop := 0 ≤ ns ∧ ns < yearStart 10000 * 86400 * 1000000000

/-- `ns` is a whole number of milliseconds. -/
def WholeMs (ns : Int) : Prop := ∃ k : Int, ns = k * 1000000

/-- The last millisecond boundary not after `ns`. -/
def IsFloorMs (ns r : Int) : Prop := WholeMs r ∧ r ≤ ns ∧ ns < r + 1000000

end Types.Tm.Spec
