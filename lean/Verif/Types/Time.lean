import Verif.Types.Id
/-!
Model of `xdb.Time` (time.go) and of the parts of Go's `time` package it relies on: instants, `Truncate`,
`Unix`, `UnixMilli`, `Format` of a UTC time with the layouts used here, and the fast path of `time.Parse`
for RFC 3339 texts.  Texts outside the strict grammars are left to an arbitrary function `fb`
(the general layout-driven parser of Go, not modelled).
-/
namespace Types.Tm

/-- A `time.Time`: nanoseconds since 0001-01-01T00:00:00Z (Go's zero time), and the offset east of UTC of its location
in seconds.  The monotonic clock reading is not modelled (`Truncate` and `UTC` drop it or ignore it), and instants are
unbounded integers (Go: int64 seconds, about 292 billion years). -/
structure GoTime where
  ns : Int
  off : Int
  deriving DecidableEq, Repr

/-- `time.Time{}`. -/
def zero : GoTime := ⟨0, 0⟩
/-- `Time.IsZero`: the instant, whatever the location. -/
def GoTime.isZero (t : GoTime) : Bool := t.ns == 0
/-- `Time.UTC`. -/
def GoTime.utc (t : GoTime) : GoTime := ⟨t.ns, 0⟩
/-- `Time.Truncate(d)` for `d > 0`: rounds down since the zero time. -/
def GoTime.truncate (t : GoTime) (d : Int) : GoTime := ⟨t.ns - t.ns % d, t.off⟩
/-- `Time.Add`. -/
def GoTime.add (t : GoTime) (d : Int64) : GoTime := ⟨t.ns + d.toInt, t.off⟩

/-- `time.Millisecond`, time.go:17 `DefaultTrucate`. -/
def milli : Int := 1000000
/-- Nanoseconds from the zero time to 1970-01-01T00:00:00Z. -/
def epoch : Int := 62135596800 * 1000000000

/-- `time.Unix(sec, nsec)`, in the local zone `off`. -/
def unix (off : Int) (sec nsec : Int64) : GoTime := ⟨epoch + sec.toInt * 1000000000 + nsec.toInt, off⟩
/-- `time.Time.UnixMilli`: `sec*1e3 + nsec/1e6` in int64 arithmetic. -/
def GoTime.unixMilli (t : GoTime) : Int64 := Int64.ofInt ((t.ns - epoch) / milli)

/-! #### Calendar -/

/-- `isLeap`. -/
def isLeap (y : Int) : Bool := y % 4 == 0 && (y % 100 != 0 || y % 400 == 0)
/-- `daysBefore[m]` for a non-leap year, months counted from 0. -/
def daysBefore : List Nat := [0, 31, 59, 90, 120, 151, 181, 212, 243, 273, 304, 334, 365]
/-- `daysIn`. -/
def daysIn (m : Nat) (y : Int) : Nat :=
  if m = 2 then (if isLeap y then 29 else 28) else daysBefore.getD m 0 - daysBefore.getD (m - 1) 0
/-- Days from 0001-01-01 to January 1 of year `y` (`daysSinceEpoch`, shifted). -/
def daysToYear (y : Int) : Int := 365 * (y - 1) + (y - 1) / 4 - (y - 1) / 100 + (y - 1) / 400
/-- `Date(y, m, d, 0, 0, 0, 0, UTC)` in days, for a month 1 to 12. -/
def dateDays (y : Int) (m d : Nat) : Int :=
  daysToYear y + daysBefore.getD (m - 1) 0 + (if isLeap y ∧ 3 ≤ m then 1 else 0) + d - 1
/-- The month (from 1) whose first day is the last not after day `yd` of a year with 28 days in February. -/
def monthOf (yd : Nat) : Nat := ((List.range 12).filter (fun m => daysBefore.getD m 0 ≤ yd)).length
/-- `absDate`: year, month and day of a day number: 400-, 100-, 4- and 1-year cycles, then the month table. -/
def civil (z : Int) : Int × Nat × Nat :=
  let n400 := z / 146097
  let d := (z % 146097).toNat
  let n100 := d / 36524 - d / 36524 / 4
  let d := d - n100 * 36524
  let n4 := d / 1461
  let d := d - n4 * 1461
  let n1 := d / 365 - d / 365 / 4
  let yd := d - n1 * 365
  let y := n400 * 400 + n100 * 100 + n4 * 4 + n1 + 1
  if isLeap y then
    if yd = 59 then (y, 2, 29)
    else
      let yd := if yd > 59 then yd - 1 else yd
      (y, monthOf yd, yd - daysBefore.getD (monthOf yd - 1) 0 + 1)
  else (y, monthOf yd, yd - daysBefore.getD (monthOf yd - 1) 0 + 1)

/-! #### Formatting -/

/-- `appendInt` with a width: the last `w` decimal digits, with leading zeros. -/
def fixed : Nat → Nat → Bytes
  | 0, _ => []
  | w + 1, n => fixed w (n / 10) ++ [UInt8.ofNat (48 + n % 10)]
/-- `appendInt(b, year, 4)`. -/
def yearText (y : Int) : Bytes :=
  (if y < 0 then b!"-" else []) ++ (if y.natAbs < 10000 then fixed 4 y.natAbs else Num.dec y.natAbs)
/-- `appendNano` for the layouts `.999` (`k = 3`) and `.999999999` (`k = 9`): the first `k` digits of the fraction
without trailing zeros, and no point when nothing is left. -/
def fracText (k : Nat) (nsec : Nat) : Bytes :=
  let ds := (((fixed 9 nsec).take k).reverse.dropWhile (· == c!"0")).reverse
  if ds = [] then [] else b!"." ++ ds
/-- `Format` of a UTC time with "2006-01-02T15:04:05" + fraction of `k` digits + "Z07:00". -/
def format (k : Nat) (ns : Int) : Bytes :=
  let (y, m, d) := civil (ns / 86400000000000)
  let sod := (ns % 86400000000000).toNat
  yearText y ++ b!"-" ++ fixed 2 m ++ b!"-" ++ fixed 2 d ++ b!"T" ++ fixed 2 (sod / 3600000000000) ++ b!":"
    ++ fixed 2 (sod / 60000000000 % 60) ++ b!":" ++ fixed 2 (sod / 1000000000 % 60)
    ++ fracText k (sod % 1000000000) ++ b!"Z"

/-! #### Parsing -/

/-- `parseUint` inside `parseRFC3339`: decimal digits only, within a range. -/
def parseRange (s : Bytes) (lo hi : Nat) : Option Nat :=
  if s.all (fun c => 48 ≤ c.toNat ∧ c.toNat ≤ 57) then
    let x := s.foldl (fun a c => a * 10 + (c.toNat - 48)) 0
    if lo ≤ x ∧ x ≤ hi then some x else none
  else none
/-- `s[i:j]`. -/
def sub (s : Bytes) (i j : Nat) : Bytes := (s.drop i).take (j - i)
def isDig (c : UInt8) : Bool := 48 ≤ c.toNat && c.toNat ≤ 57
/-- `parseNanoseconds`: at most nine digits count, missing ones are zeros. -/
def fracNanos (ds : Bytes) : Nat :=
  ((ds.take 9) ++ List.replicate (9 - ds.length) c!"0").foldl (fun a c => a * 10 + (c.toNat - 48)) 0
/-- The date and time part, 19 bytes with separator `sep` between date and time. -/
def parseDateTime (sep : UInt8) (s : Bytes) : Option Int := do
  if s.length < 19 then none else pure ()
  let y ← parseRange (sub s 0 4) 0 9999
  let mo ← parseRange (sub s 5 7) 1 12
  let d ← parseRange (sub s 8 10) 1 (daysIn mo y)
  let h ← parseRange (sub s 11 13) 0 23
  let mi ← parseRange (sub s 14 16) 0 59
  let sec ← parseRange (sub s 17 19) 0 59
  if s[4]? = some c!"-" ∧ s[7]? = some c!"-" ∧ s[10]? = some sep ∧ s[13]? = some c!":" ∧ s[16]? = some c!":" then
    some ((dateDays y mo d * 86400 + h * 3600 + mi * 60 + sec) * 1000000000)
  else none
/-- The zone: `Z` or `±hh:mm`; offset in seconds. -/
def parseZone (s : Bytes) : Option Int :=
  if s = b!"Z" then some 0
  else if s.length = 6 then do
    let hr ← parseRange (sub s 1 3) 0 23
    let mm ← parseRange (sub s 4 6) 0 59
    if (s[0]? = some c!"-" ∨ s[0]? = some c!"+") ∧ s[3]? = some c!":" then
      some (if s[0]? = some c!"-" then -((hr * 60 + mm : Nat) * 60 : Int) else ((hr * 60 + mm : Nat) * 60 : Int))
    else none
  else none
/-- Go's `parseRFC3339` (time/format_rfc3339.go). -/
def parseRFC3339 (s : Bytes) : Option GoTime := do
  let dt ← parseDateTime c!"T" s
  let r := s.drop 19
  let ds := (r.drop 1).takeWhile isDig
  let hasFrac := r.head? = some c!"." ∧ ds ≠ []
  let off ← parseZone (if hasFrac then r.drop (1 + ds.length) else r)
  some ⟨dt + (if hasFrac then (fracNanos ds : Int) else 0) - off * 1000000000, off⟩
/-- A text in the layout `2006-01-02`. -/
def parseDateOnly (s : Bytes) : Option GoTime := do
  if s.length = 10 then pure () else none
  let y ← parseRange (sub s 0 4) 0 9999
  let mo ← parseRange (sub s 5 7) 1 12
  let d ← parseRange (sub s 8 10) 1 (daysIn mo y)
  if s[4]? = some c!"-" ∧ s[7]? = some c!"-" then some ⟨dateDays y mo d * 86400 * 1000000000, 0⟩ else none

/-- The layouts of time.go: time.go:13 `DefaultTimeFormat`, `time.RFC3339`, `time.DateTime`, `time.DateOnly`,
`time.RFC3339Nano`. -/
inductive Layout where
  | dflt | rfc3339 | dateTime | dateOnly | rfc3339Nano
  deriving DecidableEq, Repr

/-- `time.Parse`: texts of the strict grammar of the layout are read as written, all others are left to `fb`. -/
def parse (fb : Layout → Bytes → Option GoTime) (l : Layout) (s : Bytes) : Option GoTime :=
  match l with
  | .dflt | .rfc3339 | .rfc3339Nano => (parseRFC3339 s).or (fb l s)
  | .dateTime => ((if s.length = 19 then parseDateTime c!" " s else none).map (fun n => ⟨n, 0⟩)).or (fb l s)
  | .dateOnly => (parseDateOnly s).or (fb l s)

/-! #### time.go -/

/-- What a driver delivers for a time column. -/
inductive TV where
  | null
  | time (t : GoTime)
  | text (s : Bytes)
  | other
  deriving DecidableEq, Repr

/-- time.go:77-96 `ParseTime`. A failed `time.Parse` returns the zero time; the error is dropped. -/
def parseTime (fb : Layout → Bytes → Option GoTime) (s : Bytes) : GoTime :=
  if s = [] then zero
  else
    let l := if s.length = 29 then Layout.dflt else if s.length = 25 then .rfc3339
      else if s.length = 19 then .dateTime else if s.length = 10 then .dateOnly else .rfc3339Nano
    (((parse fb l s).getD zero).truncate milli).utc
/-- time.go:23-41 `Time.Scan`: new contents and `err == nil`. `[]byte` and every other type are refused by
`sql.NullTime.Scan`. -/
def scan (fb : Layout → Bytes → Option GoTime) (old : GoTime) (v : TV) : GoTime × Bool :=
  match v with
  | .text s => (parseTime fb s, true)
  | .null => (zero, true)
  | .time t => (t.utc, true)
  | .other => (old, false)
/-- time.go:44-50 `Time.Value`. -/
def value (t : GoTime) : TV := if t.isZero then .null else .time t.utc
/-- time.go:53-61 `Now` (at clock reading `t`) and `UTC`. -/
def utcOf (t : GoTime) : GoTime := (t.truncate milli).utc
/-- time.go:65-67 `FromNow`, at clock reading `now`. -/
def fromNow (now : GoTime) (d : Int64) : GoTime := ((now.add d).truncate milli).utc
/-- time.go:70-74 `FromUnixMilli` in a process whose local zone is `off`. -/
def fromUnixMilli (off : Int) (tm : Int64) : GoTime := (unix off (tm / 1000) (tm % 1000 * 1000000)).utc
/-- time.go:99-101 `Time.UnixMilli`. -/
def unixMilli (t : GoTime) : Int64 := t.unixMilli
/-- time.go:105-107 `Time.Add`. -/
def add (t : GoTime) (d : Int64) : GoTime := ((GoTime.add t d).truncate milli).utc
/-- time.go:125-131 `Time.Ptr`, types.go:95-103 `TimePtr`. -/
def ptr (t : GoTime) : Option GoTime := if t.utc.isZero then none else some t.utc
/-- time.go:135-141 `Time.String`. -/
def string (t : GoTime) : Bytes := if t.utc.isZero then [] else format 3 t.ns
/-- time.go:145-151 `Time.MarshalJSON`; `time.Time.MarshalJSON` refuses years outside 0 to 9999. -/
def marshal (t : GoTime) : Option Bytes :=
  if t.utc.isZero then some b!"\"\""
  else
    let y := (civil (t.ns / 86400000000000)).1
    if 0 ≤ y ∧ y ≤ 9999 then some (b!"\"" ++ format 9 t.ns ++ b!"\"") else none
/-- time.go:155-161 `Time.UnmarshalJSON` on a JSON value without surrounding white space: `null` leaves the
destination alone, a plain string is parsed as RFC 3339 (and a failed parse clears the destination), anything else
is refused. -/
def unmarshal (fb : Layout → Bytes → Option GoTime) (old : GoTime) (data : Bytes) : GoTime × Bool :=
  if data = [] ∨ data = b!"\"\"" then (zero, true)
  else if data = b!"null" then (old, true)
  else if 2 ≤ data.length ∧ data.head? = some c!"\"" ∧ data.getLast? = some c!"\""
      ∧ (data.tail.dropLast).all (fun c => 32 ≤ c.toNat ∧ c ≠ c!"\"" ∧ c ≠ c!"\\") then
    match parse fb .rfc3339 (data.tail.dropLast) with
    | some t => (t, true)
    | none => (zero, false)
  else (old, false)

end Types.Tm
