import Verif.Types.Id
/-!
Model of the nullable scalar column types: `ID32` (id.go:350-412), `NULLString` (types.go:310-338),
`UUID` (types.go:341-380), `Int64` (types.go:383-456), `Int32` (types.go:458-530), `Bool` (types.go:612-675).
Each `scan` takes the old contents of the destination and returns the new contents and `err == nil`.
`Float` is in `Float.lean`.
-/
namespace Types

/-! #### ID32 -/

/-- id.go:354-356, 374-376 `ID32.MarshalJSON`, `String`. -/
def id32JSON (v : UInt32) : Bytes := Num.dec v.toNat

/-- id.go:359-372 `ID32.UnmarshalJSON`. -/
def id32FromJSON (old : UInt32) (data : Bytes) : UInt32 × Bool :=
  if trimQuotes data = b!"" ∨ trimQuotes data = b!"0" ∨ trimQuotes data = b!"NULL" then (0, true)
  else
    match Num.parseUint 32 (trimQuotes data) with
    | none => (old, false)
    | some n => (UInt32.ofNat n, true)

/-- id.go:379-400 `ID32.Scan`: the conversion `ID32(id)` keeps the low 32 bits. -/
def id32Scan (old : UInt32) (d : DV) : UInt32 × Bool :=
  match d with
  | .null => (old, true)
  | .u64 n => (n.toUInt32, true)
  | .i64 n => (n.toUInt64.toUInt32, true)
  | .int n => (n.toUInt64.toUInt32, true)
  | .uint n => (n.toUInt32, true)
  | _ => (old, false)

/-- id.go:403-412 `ID32.Value`. -/
def id32Value (v : UInt32) : DV := if v = 0 then .null else .i64 (Int64.ofNat v.toNat)

/-! #### Int64, Int32 -/

/-- types.go:387-389 `Int64.MarshalJSON`, 407-409 `String`. -/
def int64JSON (v : Int64) : Bytes := Num.fmtInt 10 v.toInt

/-- types.go:392-404 `Int64.UnmarshalJSON`. -/
def int64FromJSON (old : Int64) (data : Bytes) : Int64 × Bool :=
  if trimQuotes data = b!"" ∨ trimQuotes data = b!"0" ∨ trimQuotes data = b!"NULL" then (0, true)
  else
    match Num.parseInt 64 (trimQuotes data) with
    | none => (old, false)
    | some n => (Int64.ofInt n, true)

/-- types.go:423-444 `Int64.Scan`. -/
def int64Scan (old : Int64) (d : DV) : Int64 × Bool :=
  match d with
  | .null => (old, true)
  | .u64 n => (n.toInt64, true)
  | .i64 n => (n, true)
  | .int n => (n, true)
  | .uint n => (n.toInt64, true)
  | _ => (old, false)

/-- types.go:447-456 `Int64.Value`. -/
def int64Value (v : Int64) : DV := if v = 0 then .null else .i64 v

/-- types.go:462-464 `Int32.MarshalJSON`, 482-484 `String`. -/
def int32JSON (v : Int32) : Bytes := Num.fmtInt 10 v.toInt

/-- types.go:467-480 `Int32.UnmarshalJSON`. -/
def int32FromJSON (old : Int32) (data : Bytes) : Int32 × Bool :=
  if trimQuotes data = b!"" ∨ trimQuotes data = b!"0" ∨ trimQuotes data = b!"NULL" then (0, true)
  else
    match Num.parseInt 32 (trimQuotes data) with
    | none => (old, false)
    | some n => (Int32.ofInt n, true)

/-- types.go:497-518 `Int32.Scan`: the conversion `Int32(id)` keeps the low 32 bits. -/
def int32Scan (old : Int32) (d : DV) : Int32 × Bool :=
  match d with
  | .null => (old, true)
  | .u64 n => (n.toInt64.toInt32, true)
  | .i64 n => (n.toInt32, true)
  | .int n => (n.toInt32, true)
  | .uint n => (n.toInt64.toInt32, true)
  | _ => (old, false)

/-- types.go:521-530 `Int32.Value`. -/
def int32Value (v : Int32) : DV := if v = 0 then .null else .i64 v.toInt64

/-! #### Bool -/

/-- types.go:616-618 `Bool.MarshalJSON`, 632-634 `String`. -/
def boolJSON (v : Bool) : Bytes := if v then b!"true" else b!"false"

/-- types.go:621-629 `Bool.UnmarshalJSON`: never fails. -/
def boolFromJSON (data : Bytes) : Bool :=
  trimQuotes data = b!"true" ∨ trimQuotes data = b!"1" ∨ trimQuotes data = b!"TRUE"

/-- types.go:642-665 `Bool.Scan`. -/
def boolScan (old : Bool) (d : DV) : Bool × Bool :=
  match d with
  | .null => (old, true)
  | .u64 n => (decide (n > 0), true)
  | .i64 n => (decide (n > 0), true)
  | .int n => (decide (n > 0), true)
  | .uint n => (decide (n > 0), true)
  | .bool b => (b, true)
  | _ => (old, false)

/-- types.go:668-675 `Bool.Value`. -/
def boolValue (v : Bool) : DV := if v then .bool v else .null

/-! #### NULLString -/

/-- `sql.NullString.Scan` (standard library, `convertAssign` to a string): text and bytes verbatim, integers in decimal,
booleans as `true`/`false`.  Times and floats (`other`) are outside the model. -/
def nullStringScan (d : DV) : Option (Option Bytes) :=
  match d with
  | .null => some none
  | .text s => some (some s)
  | .bytes s => some (some s)
  | .i64 n => some (some (Num.fmtInt 10 n.toInt))
  | .int n => some (some (Num.fmtInt 10 n.toInt))
  | .u64 n => some (some (Num.dec n.toNat))
  | .uint n => some (some (Num.dec n.toNat))
  | .i32 n => some (some (Num.fmtInt 10 n.toInt))
  | .u32 n => some (some (Num.dec n.toNat))
  | .bool b => some (some (if b then b!"true" else b!"false"))
  | .other _ => none

/-- types.go:319-331 `NULLString.Scan`. -/
def nstrScan (old : Bytes) (d : DV) : Bytes × Bool :=
  match nullStringScan d with
  | none => (old, false)
  | some none => ([], true)
  | some (some s) => (s, true)

/-- types.go:334-339 `NULLString.Value`. -/
def nstrValue (s : Bytes) : DV := if s = [] then .null else .text s

/-! #### UUID -/

/-- One upper-case hexadecimal digit of `fmt.Sprintf("%02X")`. -/
def hexDigit (n : Nat) : UInt8 := if n < 10 then UInt8.ofNat (48 + n) else UInt8.ofNat (55 + n)

/-- `fmt.Sprintf("%02X", b)` (standard library). -/
def hex2 (b : UInt8) : Bytes := [hexDigit (b.toNat / 16), hexDigit (b.toNat % 16)]

/-- types.go:362-363: the format string and the argument order. -/
def uuidText (v : Bytes) : Bytes :=
  let at_ (i : Nat) : Bytes := hex2 (v.getD i 0)
  at_ 3 ++ at_ 2 ++ at_ 1 ++ at_ 0 ++ b!"-" ++ at_ 5 ++ at_ 4 ++ b!"-" ++ at_ 7 ++ at_ 6 ++ b!"-" ++ at_ 8 ++ at_ 9 ++ b!"-"
    ++ at_ 10 ++ at_ 11 ++ at_ 12 ++ at_ 13 ++ at_ 14 ++ at_ 15

/-- types.go:350-373 `UUID.Scan`.  For a byte string of the wrong length the code returns
`errors.WithMessagef(err, …)` with a nil `err`, which is nil: no error is reported. -/
def uuidScan (old : Bytes) (d : DV) : Bytes × Bool :=
  match d with
  | .null => ([], true)
  | .bytes v => if v.length ≠ 16 then (old, true) else (uuidText v, true)
  | .text s => (s, true)
  | _ => (old, false)

/-- types.go:376-381 `UUID.Value`. -/
def uuidValue (s : Bytes) : DV := if s = [] then .null else .text s

end Types
