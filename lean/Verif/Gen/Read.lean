import Verif.Gen.Types
import Verif.Types.IdArrayProps
import Verif.Types.FloatProps2
set_option linter.unusedVariables false
set_option linter.unusedSimpArgs false
/-!
Reading a row into a generated model: the generated `ScanRow` hands the driver's value of column `i` to field `i`, whose Go type was chosen by `toGoType`.
Model of what the drivers hand out (lib/pq, go-mssqldb), of `database/sql`'s conversion to built-in types, and of the `Scan` methods on fresh fields.
-/
namespace Gen
open Schema Types

/-- The value of a column of one row, as the database sees it.  `uuid` holds the 16 bytes in the order of the text (RFC 4122); `dec` is the decimal text of a numeric. -/
inductive Cell where
  | null
  | int (n : Int)
  | bool (b : Bool)
  | dbl (d : Dbl)
  | dec (l : Literal)
  | text (s : Bytes)
  | bin (s : Bytes)
  | time (t : Tm.GoTime)
  | uuid (u : Bytes)
  | ints (l : List Int64)

/-- The drivers of the two supported databases. -/
inductive Driver where
  | pg | ms
  deriving DecidableEq

/-- Integer columns of 1, 2, 4 and 8 bytes. -/
inductive Width where
  | tiny | small | four | eight
  deriving DecidableEq

/-- What a column type holds; `opaque`: text that lib/pq hands out as bytes (types it does not know). -/
inductive Kind where
  | int (w : Width)
  | bool
  | dbl
  | dec
  | text
  | opaque
  | json
  | bin
  | time
  | uuid
  | ints
  deriving DecidableEq

/-- Least and greatest value of an integer column (SQL Server's tinyint is unsigned). -/
def Width.lo : Width → Int
  | .tiny => 0
  | .small => -2 ^ 15
  | .four => -2 ^ 31
  | .eight => -2 ^ 63
def Width.hi : Width → Int
  | .tiny => 255
  | .small => 2 ^ 15 - 1
  | .four => 2 ^ 31 - 1
  | .eight => 2 ^ 63 - 1

/-- The column types of the two databases that occur in `typeByColumnType` (internal/cli/schema/types.go:16-98), by the name the schema provider reports.
Not here: `float4` and `real` (`Gen/Real.lean`). -/
def kinds : Driver → List (Bytes × Kind)
  | .pg => [(b!"int2", .int .small), (b!"int4", .int .four), (b!"int8", .int .eight), (b!"bool", .bool), (b!"float8", .dbl), (b!"numeric", .dec),
      (b!"char", .text), (b!"bpchar", .text), (b!"varchar", .text), (b!"text", .text), (b!"cidr", .opaque), (b!"inet", .opaque), (b!"ltree", .opaque),
      (b!"jsonb", .json), (b!"bytea", .bin), (b!"time", .time), (b!"date", .time), (b!"timestamp", .time), (b!"timestamptz", .time), (b!"uuid", .uuid)]
  | .ms => [(b!"tinyint", .int .tiny), (b!"smallint", .int .small), (b!"int", .int .four), (b!"bigint", .int .eight), (b!"bit", .bool),
      (b!"decimal", .dec), (b!"numeric", .dec), (b!"nchar", .text), (b!"nvarchar", .text), (b!"char", .text), (b!"varchar", .text), (b!"text", .text),
      (b!"time", .time), (b!"date", .time), (b!"datetime", .time), (b!"datetime2", .time), (b!"uniqueidentifier", .uuid)]

/-- The kind of a column: PostgreSQL reports arrays as type `ARRAY` with the element type in the second name. -/
def kindOf (drv : Driver) (c : Column) : Option Kind :=
  if c.type = b!"ARRAY" then (if drv = .pg ∧ c.udtType = b!"_int8" then some .ints else none)
  else (kinds drv).lookup (if c.udtType = [] then c.type else c.udtType)

/-- What a driver hands to `Scan`. -/
inductive Given where
  | dv (d : DV)
  | f64 (d : Dbl)
  | time (t : Tm.GoTime)
  deriving DecidableEq

/-- One byte in lower-case hexadecimal. -/
def lowHex (b : UInt8) : Bytes := [b!"0123456789abcdef".getD (b.toNat / 16) 0, b!"0123456789abcdef".getD (b.toNat % 16) 0]

/-- The text PostgreSQL prints for a uuid. -/
def pgUuid (u : Bytes) : Bytes :=
  (u.take 4).flatMap lowHex ++ b!"-" ++ ((u.drop 4).take 2).flatMap lowHex ++ b!"-" ++ ((u.drop 6).take 2).flatMap lowHex ++ b!"-"
    ++ ((u.drop 8).take 2).flatMap lowHex ++ b!"-" ++ (u.drop 10).flatMap lowHex

/-- The bytes of a SQL Server uniqueidentifier: the first three groups in reverse. -/
def msUuid (u : Bytes) : Bytes := (u.take 4).reverse ++ ((u.drop 4).take 2).reverse ++ ((u.drop 6).take 2).reverse ++ u.drop 8

/-- lib/pq (third party, `encode.go` `textDecode`) and go-mssqldb (third party, `types.go`): the Go value of a column.  lib/pq knows integers, floats, booleans, texts, bytea and
times, and hands out every other type (numeric, uuid, jsonb, inet, arrays, …) as the bytes of its text. -/
def given (drv : Driver) (k : Kind) : Cell → Given
  | .null => .dv .null
  | .int n => .dv (.i64 (Int64.ofInt n))
  | .bool b => .dv (.bool b)
  | .dbl d => .f64 d
  | .dec l => .dv (.bytes l.text)
  | .text s => .dv (if k = .text then .text s else .bytes s)
  | .bin s => .dv (.bytes s)
  | .time t => .time t
  | .uuid u => .dv (.bytes (match drv with | .pg => pgUuid u | .ms => msUuid u))
  | .ints l => .dv (.bytes (b!"{" ++ joinComma (l.map fun x => Num.fmtInt 10 x.toInt) ++ b!"}"))

/-- The Go types of generated fields. -/
inductive GT where
  | id | id32 | xint64 | xint32
  | int (bits : Nat)
  | xbool | bool | xfloat | f64 | bytes | str | nstr | time | uuid | idarr | i64arr
  deriving DecidableEq

/-- Their names. -/
def goTypes : List (Bytes × GT) :=
  [(b!"xdb.ID", .id), (b!"xdb.ID32", .id32), (b!"xdb.Int64", .xint64), (b!"xdb.Int32", .xint32), (b!"int64", .int 64), (b!"int32", .int 32), (b!"int16", .int 16), (b!"int8", .int 8),
   (b!"xdb.Bool", .xbool), (b!"bool", .bool), (b!"xdb.Float", .xfloat), (b!"float64", .f64), (b!"[]byte", .bytes), (b!"string", .str), (b!"xdb.NULLString", .nstr),
   (b!"xdb.Time", .time), (b!"xdb.UUID", .uuid), (b!"xdb.IDArray", .idarr), (b!"pq.Int64Array", .i64arr)]

/-- The type a name stands for. -/
def goTypeOf (r : Bytes) : Option GT := goTypes.lookup r

/-- What a field holds. -/
inductive GoVal where
  | num (n : Int)
  | bool (b : Bool)
  | float (d : Dbl)
  | str (s : Bytes)
  | bytes (s : Option Bytes)
  | time (t : Tm.GoTime)
  | nums (l : Option (List Int))
  deriving DecidableEq

/-- A result together with `err == nil`. -/
def kept (r : α × Bool) (f : α → GoVal) : Option GoVal := if r.2 then some (f r.1) else none

/-- `database/sql` `convertAssign` (standard library) to a built-in integer type of `bits` bits: an int64 in range; texts are parsed.  Other types are refused
(booleans, floats and unsigned integers never reach such a field here). -/
def toInteger (bits : Nat) : Given → Option GoVal
  | .dv (.i64 n) => if -2 ^ (bits - 1) ≤ n.toInt ∧ n.toInt < 2 ^ (bits - 1) then some (.num n.toInt) else none
  | .dv (.bytes s) | .dv (.text s) => (Num.parseInt bits s).map .num
  | _ => none

/-- The same to `float64`: an int64 goes through its decimal text. -/
def toFloat (hex : Bytes → Option Dbl) : Given → Option GoVal
  | .f64 d => some (.float d)
  | .dv (.bytes s) | .dv (.text s) => (parseFloat hex s).map .float
  | .dv (.i64 n) => (parseFloat hex (Num.fmtInt 10 n.toInt)).map .float
  | _ => none

/-- Reading a driver's value into a fresh field of a given type: the `Scan` methods of the package (id.go, types.go, time.go) on a zero destination, `database/sql`'s conversion for
built-in types (`none`: an error; NULL is refused by numbers, booleans and strings), and lib/pq's `Int64Array`.  `hex`, `fb`: the parts of strconv and time outside the model. -/
def readField (hex : Bytes → Option Dbl) (fb : Tm.Layout → Bytes → Option Tm.GoTime) (t : GT) (g : Given) : Option GoVal :=
  match t, g with
  | .id, .dv d => if (scan [] none d).2.2 then some (.num (val (scan [] none d).1 (scan [] none d).2.1).toNat) else none
  | .id32, .dv d => kept (id32Scan 0 d) fun v => .num v.toNat
  | .xint64, .dv d => kept (int64Scan 0 d) fun v => .num v.toInt
  | .xint32, .dv d => kept (int32Scan 0 d) fun v => .num v.toInt
  | .int b, g => toInteger b g
  | .xbool, .dv d => kept (boolScan false d) .bool
  | .bool, .dv (.bool b) => some (.bool b)
  | .xfloat, .f64 d => kept (floatScan hex (.fin false 0) (.f64 d)) .float
  | .xfloat, .dv d => kept (floatScan hex (.fin false 0) (.dv d)) .float
  | .f64, g => toFloat hex g
  | .bytes, .dv .null => some (.bytes none)
  | .bytes, .dv (.bytes s) => some (.bytes (some s))
  | .bytes, .dv (.text s) => some (.bytes (some s))
  | .str, .dv (.bytes s) => some (.str s)
  | .str, .dv (.text s) => some (.str s)
  | .nstr, .dv d => kept (nstrScan [] d) .str
  | .time, .dv .null => kept (Tm.scan fb Tm.zero .null) .time
  | .time, .dv (.text s) => kept (Tm.scan fb Tm.zero (.text s)) .time
  | .time, .time t => kept (Tm.scan fb Tm.zero (.time t)) .time
  | .uuid, .dv d => kept (uuidScan [] d) .str
  | .idarr, .dv d => kept (arrayScan d) fun l => .nums (some (l.map fun n => (n.toNat : Int)))
  | .i64arr, .dv .null => some (.nums none)
  | .i64arr, .dv (.bytes s) => (pqScan s).map fun l => .nums (some (l.map (·.toInt)))
  | .i64arr, .dv (.text s) => (pqScan s).map fun l => .nums (some (l.map (·.toInt)))
  | _, _ => none

/-- The generated `ScanRow` (internal/cli/schema/template.go:113-124) through `sql.Rows.Scan` (standard library): one destination per column, in order; the number of columns must agree,
the first error ends the scan. -/
def scanRow (hex : Bytes → Option Dbl) (fb : Tm.Layout → Bytes → Option Tm.GoTime) : List GT → List Given → Option (List GoVal)
  | [], [] => some []
  | t :: ts, g :: gs => do
    let v ← readField hex fb t g
    let vs ← scanRow hex fb ts gs
    return v :: vs
  | _, _ => none

/-! ### Specification -/

/-- A column of kind `k` can hold the value. -/
def Spec.Holds (k : Kind) (nullable : Bool) : Cell → Prop
  | .null => nullable = true
  | .int n => ∃ w, k = .int w ∧ w.lo ≤ n ∧ n ≤ w.hi
  | .bool _ => k = .bool
  | .dbl _ => k = .dbl
  | .dec l => k = .dec ∧ l.OK ∧ |l.value| ≤ largest
  | .text _ => k = .text ∨ k = .opaque ∨ k = .json
  | .bin _ => k = .bin
  | .time _ => k = .time
  | .uuid u => k = .uuid ∧ u.length = 16
  | .ints _ => k = .ints

/-- The text of a UUID (RFC 4122), in upper case: bytes 0-3, 4-5, 6-7, 8-9, 10-15 in hexadecimal, separated by hyphens. -/
def Spec.uuidText (u : Bytes) : Bytes :=
  let group (i n : Nat) : Bytes := ((u.drop i).take n).flatMap Types.Spec.hexByte
  group 0 4 ++ b!"-" ++ group 4 2 ++ b!"-" ++ group 6 2 ++ b!"-" ++ group 8 2 ++ b!"-" ++ group 10 6

/-- The zero value of a field (`IDArray` does not tell nil from empty). -/
def Spec.zero : GT → GoVal
  | .id | .id32 | .xint64 | .xint32 | .int _ => .num 0
  | .xbool | .bool => .bool false
  | .xfloat | .f64 => .float (.fin false 0)
  | .bytes => .bytes none
  | .str | .nstr | .uuid => .str []
  | .time => .time ⟨0, 0⟩
  | .idarr => .nums (some [])
  | .i64arr => .nums none

/-- The field shows the value of the column: NULL as the zero value of the field's type, a number as that number (a decimal fraction as a nearest double), a text as that text, a time as that
instant, a UUID as its text in upper or lower case. -/
def Spec.Shows (t : GT) : Cell → GoVal → Prop
  | .null, g => g = Spec.zero t
  | .int n, g => g = .num n
  | .bool b, g => g = .bool b
  | .dbl d, g => g = .float d
  | .dec l, g => ∃ d, g = .float d ∧ Nearest d l.value
  | .text s, g => g = .str s
  | .bin s, g => g = .bytes (some s)
  | .time t, g => ∃ t', g = .time t' ∧ t'.ns = t.ns
  | .uuid u, g => ∃ s, g = .str s ∧ (s = Spec.uuidText u ∨ s = (Spec.uuidText u).map lowerByte)
  | .ints l, g => g = .nums (some (l.map (·.toInt)))

/-- A column that is taken for a 64- or 32-bit key. -/
def Spec.keyColumn (eqFold : Bytes → Bytes → Bool) (c : Column) (k : Kind) : Prop := Spec.keyName eqFold c.name ∧ (k = .int .four ∨ k = .int .eight)

/-- The values that a generated field does not show: a PostgreSQL uuid, a negative number in a key column or in an array of keys, and a tinyint above 127 in a `NOT NULL` column. -/
def Spec.Lost (eqFold : Bytes → Bytes → Bool) (drv : Driver) (c : Column) (k : Kind) : Cell → Prop
  | .uuid _ => drv = .pg
  | .int n => (Spec.keyColumn eqFold c k ∧ n < 0) ∨ (k = .int .tiny ∧ c.nullable = false ∧ 127 < n)
  | .ints l => (∃ pre, c.name = pre ++ b!"_ids") ∧ ∃ x ∈ l, x.toInt < 0
  | _ => False

/-! ### Lemmas -/

/-- The type chosen, by kind. -/
def expected (k : Kind) (nu key ids : Bool) : GT :=
  match k with
  | .int .eight => if key then .id else if nu then .xint64 else .int 64
  | .int .four => if key then .id32 else if nu then .xint32 else .int 32
  | .int .small => if nu then .xint32 else .int 16
  | .int .tiny => if nu then .xint32 else .int 8
  | .bool => if nu then .xbool else .bool
  | .dbl => if nu then .xfloat else .f64
  | .dec => if nu then .xfloat else .f64
  | .text => if nu then .nstr else .str
  | .opaque => if nu then .nstr else .str
  | .json => .nstr
  | .bin => .bytes
  | .time => .time
  | .uuid => .uuid
  | .ints => if ids then .idarr else .i64arr

theorem lookup_mem_kind : ∀ (l : List (Bytes × Kind)) (k : Bytes) (v : Kind), l.lookup k = some v → (k, v) ∈ l := by
  intro l
  induction l with
  | nil => intro k v h; cases h
  | cons e l ih =>
    intro k v h
    obtain ⟨a, b⟩ := e
    by_cases hk : k = a
    · subst hk; simp only [List.lookup_cons, beq_self_eq_true, Option.some.injEq] at h; subst h; simp
    · rw [List.lookup_cons, beq_false_of_ne hk] at h
      exact List.mem_cons_of_mem _ (ih k v h)

theorem table_expected (drv : Driver) : ∀ e ∈ kinds drv, ∀ nu key ids : Bool,
    ((tryTypes nu (if key then [b!"id " ++ e.1, e.1] else [e.1])).bind goTypeOf) = some (expected e.2 nu key ids) := by
  cases drv <;> decide +kernel

theorem chosen (eqFold : Bytes → Bytes → Bool) (over : Bytes → Option Bytes) (drv : Driver) (c : Column) (k : Kind) (ho : NoOverride over c) (ho' : over b!"_count" = none)
    (hk : kindOf drv c = some k) :
    ((toGoType eqFold over c).bind goTypeOf) = some (expected k c.nullable (isID eqFold c.name) (hasSuffix c.name b!"_ids")) := by
  unfold kindOf at hk
  split at hk
  · rename_i ha
    split at hk
    · rename_i hu
      cases hk
      unfold toGoType
      rw [ho.1, ho.2]
      simp only [ho', ite_self, if_pos ha, hu.2, if_true, Option.bind_some, expected]
      cases hasSuffix c.name b!"_ids" <;> decide +kernel
    · cases hk
  · rename_i ha
    have hm := lookup_mem_kind _ _ _ hk
    have := table_expected drv _ hm c.nullable (isID eqFold c.name) (hasSuffix c.name b!"_ids")
    unfold toGoType
    rw [ho.1, ho.2]
    simp only [ho', ite_self, if_neg ha]
    exact this

theorem int_back {n : Int} (h1 : -2 ^ 63 ≤ n) (h2 : n ≤ 2 ^ 63 - 1) : (Int64.ofInt n).toInt = n :=
  Int64.toInt_ofInt_of_le (by omega) (by omega)

theorem width_range (w : Width) : -2 ^ 63 ≤ w.lo ∧ w.hi ≤ 2 ^ 63 - 1 := by cases w <;> decide

theorem u64_of (x : Int64) : (x.toUInt64.toNat : Int) = if x.toInt < 0 then x.toInt + 2 ^ 64 else x.toInt := by
  have h1 : x.toUInt64.toNat = x.toBitVec.toNat := rfl
  have h2 : x.toInt = x.toBitVec.toInt := rfl
  have := x.toBitVec.isLt
  rw [h1, h2, BitVec.toInt_eq_toNat_cond]
  split <;> split <;> omega

theorem u32_of (x : Int64) (h1 : -2 ^ 31 ≤ x.toInt) (h2 : x.toInt ≤ 2 ^ 31 - 1) :
    (x.toUInt64.toUInt32.toNat : Int) = if x.toInt < 0 then x.toInt + 2 ^ 32 else x.toInt := by
  have h3 : x.toUInt64.toUInt32.toNat = x.toUInt64.toNat % 2 ^ 32 := by simp
  have h4 := u64_of x
  rw [h3]
  push_cast
  rw [h4]
  split <;> omega

theorem i32_of (x : Int64) (h1 : -2 ^ 31 ≤ x.toInt) (h2 : x.toInt ≤ 2 ^ 31 - 1) : x.toInt32.toInt = x.toInt := by
  rw [Int64.toInt_toInt32]
  rw [Int.bmod_eq_of_le] <;> omega

theorem val_newID (x : UInt64) : val (newID [] x).1 (newID [] x).2 = x := by
  unfold newID
  split
  · simp [alloc, val, cellAt]
  · rename_i h
    have : x = 0 := by
      rcases x with ⟨⟨x⟩⟩
      simp at h
      exact h
    subst this; rfl

/-- What a generated field of an integer column holds. -/
theorem read_int (hex fb) (drv : Driver) (w : Width) (nu key ids : Bool) (n : Int) (h1 : w.lo ≤ n) (h2 : n ≤ w.hi) :
    readField hex fb (expected (.int w) nu key ids) (given drv (.int w) (.int n))
      = if w = .tiny ∧ nu = false ∧ 127 < n then none
        else if key = true ∧ n < 0 ∧ w = .eight then some (.num (n + 2 ^ 64))
        else if key = true ∧ n < 0 ∧ w = .four then some (.num (n + 2 ^ 32)) else some (.num n) := by
  have hr := width_range w
  have hb := int_back (n := n) (by omega) (by omega)
  cases w <;> simp only [Width.lo, Width.hi] at h1 h2 <;> simp only [expected, given, reduceCtorEq, false_and, and_false, if_false, true_and, and_true]
  case tiny =>
    cases nu <;> simp only [Bool.false_eq_true, if_false, if_true, readField, toInteger, kept, int32Scan, reduceCtorEq, true_and, false_and]
    · rw [hb]
      by_cases h : 127 < n
      · rw [if_neg (by omega), if_pos h]
      · rw [if_pos (by omega), if_neg h]
    · rw [i32_of _ (by omega) (by omega), hb]
  case small =>
    cases nu <;> simp only [Bool.false_eq_true, if_false, if_true, readField, toInteger, kept, int32Scan]
    · rw [hb, if_pos (by omega)]
    · rw [i32_of _ (by omega) (by omega), hb]
  case four =>
    cases key <;> cases nu <;> simp only [Bool.false_eq_true, if_false, if_true, readField, toInteger, kept, int32Scan, id32Scan, false_and, true_and, and_true]
    · rw [hb, if_pos (by omega)]
    · rw [i32_of _ (by omega) (by omega), hb]
    · rw [u32_of _ (by omega) (by omega), hb]; split <;> rfl
    · rw [u32_of _ (by omega) (by omega), hb]; split <;> rfl
  case eight =>
    cases key <;> cases nu <;> simp only [Bool.false_eq_true, if_false, if_true, readField, toInteger, kept, int64Scan, scan, false_and, true_and, and_true, val_newID]
    · rw [hb, if_pos (by omega)]
    · rw [hb]
    · rw [u64_of, hb]; split <;> rfl
    · rw [u64_of, hb]; split <;> rfl

theorem pgUuid_length {u : Bytes} (h : u.length = 16) : (pgUuid u).length = 36 := by
  obtain ⟨a0, a1, a2, a3, a4, a5, a6, a7, a8, a9, a10, a11, a12, a13, a14, a15, rfl⟩ := len16 h
  rfl

theorem msUuid_read {u : Bytes} (h : u.length = 16) (old : Bytes) : uuidScan old (.bytes (msUuid u)) = (Spec.uuidText u, true) := by
  obtain ⟨a0, a1, a2, a3, a4, a5, a6, a7, a8, a9, a10, a11, a12, a13, a14, a15, rfl⟩ := len16 h
  rw [(C19_uuid_text old _ rfl).1]
  rfl

/-- The array text is read back. -/
theorem array_read (l : List Int64) : pqScan (b!"{" ++ joinComma (l.map fun x => Num.fmtInt 10 x.toInt) ++ b!"}") = some l := by
  by_cases hl : l = []
  · subst hl; decide +kernel
  · have h := (C16_sql_roundtrip (l.map (·.toUInt64))).1
    have e : arrayValue (l.map (·.toUInt64)) = .text (b!"{" ++ joinComma (l.map fun x => Num.fmtInt 10 x.toInt) ++ b!"}") := by
      unfold arrayValue
      rw [if_neg (by simpa using hl)]
      simp [pqValue, int64Array, Function.comp_def]
    rw [e] at h
    unfold arrayScan at h
    simp only at h
    cases hp : pqScan (b!"{" ++ joinComma (l.map fun x => Num.fmtInt 10 x.toInt) ++ b!"}") with
    | none => rw [hp] at h; simp at h
    | some r =>
      rw [hp] at h
      simp only [Prod.mk.injEq, and_true] at h
      have := congrArg (List.map (fun x : UInt64 => x.toInt64)) h
      simpa [Function.comp_def] using this

theorem ids_nonneg {l : List Int64} : l.map (fun x => (x.toUInt64.toNat : Int)) = l.map (·.toInt) ↔ ∀ x ∈ l, 0 ≤ x.toInt := by
  rw [List.map_inj_left]
  refine forall_congr' fun x => forall_congr' fun _ => ?_
  rw [u64_of]
  split <;> omega

theorem hold_null {k : Kind} {nu : Bool} (h : nu = true) (hex fb) (drv : Driver) (key ids : Bool) :
    ∃ g, readField hex fb (expected k nu key ids) (given drv k .null) = some g ∧ Spec.Shows (expected k nu key ids) .null g := by
  subst h
  cases k <;> try (rename_i w; cases w)
  all_goals cases key
  all_goals cases ids
  all_goals exact ⟨_, rfl, rfl⟩

theorem read_field (hex fb) (eqFold : Bytes → Bytes → Bool) (drv : Driver) (c : Column) (k : Kind) (v : Cell) (hh : Spec.Holds k c.nullable v) :
    (∃ g, readField hex fb (expected k c.nullable (isID eqFold c.name) (hasSuffix c.name b!"_ids")) (given drv k v) = some g
      ∧ Spec.Shows (expected k c.nullable (isID eqFold c.name) (hasSuffix c.name b!"_ids")) v g) ↔ ¬ Spec.Lost eqFold drv c k v := by
  generalize hkey : isID eqFold c.name = key
  generalize hids : hasSuffix c.name b!"_ids" = ids
  generalize hnu : c.nullable = nu at hh
  cases v with
  | null => exact ⟨fun _ h => h, fun _ => hold_null hh hex fb drv key ids⟩
  | int n =>
    obtain ⟨w, rfl, h1, h2⟩ := hh
    rw [read_int hex fb drv w nu key ids n h1 h2]
    have hk : Spec.keyColumn eqFold c (.int w) ↔ key = true ∧ (w = .four ∨ w = .eight) := by
      unfold Spec.keyColumn
      rw [← isID_iff, hkey]
      simp
    simp only [Spec.Lost, Spec.Shows, hk, hnu]
    cases w <;> simp only [reduceCtorEq, false_and, and_false, or_false, false_or, true_and, and_true, if_false, Kind.int.injEq, if_true, not_false_iff, true_or, or_true]
    · cases nu
      · simp only [true_and]
        by_cases h : 127 < n <;> simp [h]
      · simp
    · simp
    · cases key
      · simp
      · simp only [true_and]
        by_cases h : n < 0
        · simp [h]
        · simp [h]
    · cases key
      · simp
      · simp only [true_and]
        by_cases h : n < 0
        · simp [h]
        · simp [h]
  | bool b =>
    have hh : k = .bool := hh
    subst hh
    refine ⟨fun _ h => h, fun _ => ?_⟩
    cases nu <;> exact ⟨.bool b, rfl, rfl⟩
  | dbl d =>
    have hh : k = .dbl := hh
    subst hh
    refine ⟨fun _ h => h, fun _ => ?_⟩
    cases nu <;> exact ⟨.float d, rfl, rfl⟩
  | dec l =>
    obtain ⟨rfl, hok, hb⟩ := hh
    refine ⟨fun _ h => h, fun _ => ?_⟩
    have key2 : ∃ d, floatScan hex (.fin false 0) (.dv (.bytes l.text)) = (d, true) ∧ Nearest d l.value := by
      rcases (C77_scan_stores hex (.fin false 0)).2.2.2 l hok with h | ⟨_, h⟩
      · exact h
      · exact absurd h (not_lt.2 hb)
    obtain ⟨d, h1, h2⟩ := key2
    refine ⟨.float d, ?_, d, rfl, h2⟩
    cases nu
    · have : parseFloat hex l.text = some d := by
        simp only [floatScan] at h1
        cases hp : parseFloat hex l.text with
        | none => rw [hp] at h1; simp at h1
        | some e => rw [hp] at h1; simp at h1; rw [h1]
      simp [expected, readField, given, toFloat, this]
    · simp [expected, readField, given, kept, h1]
  | text s =>
    refine ⟨fun _ h => h, fun _ => ?_⟩
    have hh : k = .text ∨ k = .opaque ∨ k = .json := hh
    rcases hh with rfl | rfl | rfl <;> cases nu <;> exact ⟨.str s, rfl, rfl⟩
  | bin s =>
    have hh : k = .bin := hh
    subst hh
    exact ⟨fun _ h => h, fun _ => ⟨.bytes (some s), rfl, rfl⟩⟩
  | time t =>
    have hh : k = .time := hh
    subst hh
    exact ⟨fun _ h => h, fun _ => ⟨.time t.utc, rfl, t.utc, rfl, rfl⟩⟩
  | uuid u =>
    obtain ⟨rfl, hl⟩ := hh
    cases drv with
    | pg =>
      refine ⟨?_, fun h => absurd rfl h⟩
      rintro ⟨g, h1, s, rfl, h2⟩ _
      have e : uuidScan [] (.bytes (pgUuid u)) = ([], true) := by rw [C19_wrong_length_not_rejected _ _ (by rw [pgUuid_length hl]; decide)]
      simp [expected, readField, given, kept, e] at h1
      subst h1
      rcases h2 with h2 | h2
      · have := congrArg List.length h2
        obtain ⟨a0, a1, a2, a3, a4, a5, a6, a7, a8, a9, a10, a11, a12, a13, a14, a15, rfl⟩ := len16 hl
        simp [Spec.uuidText] at this
      · have := congrArg List.length h2
        obtain ⟨a0, a1, a2, a3, a4, a5, a6, a7, a8, a9, a10, a11, a12, a13, a14, a15, rfl⟩ := len16 hl
        simp [Spec.uuidText] at this
    | ms =>
      refine ⟨fun _ h => (nomatch h), fun _ => ⟨.str (Spec.uuidText u), ?_, _, rfl, Or.inl rfl⟩⟩
      simp [expected, readField, given, kept, msUuid_read hl]
  | ints l =>
    have hh : k = .ints := hh
    subst hh
    simp only [Spec.Lost, ← hasSuffix_iff, hids]
    cases ids
    · simp only [expected, Bool.false_eq_true, if_false, readField, given, array_read, Spec.Shows, Option.map_some, Option.some.injEq, exists_eq_left', false_and, not_false_iff]
    · simp only [expected, if_true, readField, given, kept, arrayScan, array_read, true_and, Spec.Shows, List.map_map, Function.comp_def, Option.some.injEq, exists_eq_left', GoVal.nums.injEq]
      rw [ids_nonneg]
      simp

/-- **C107, one field**: for every column of the modelled types, under any name and nullable or not, and for every value the column can hold, reading it into the fresh field of the generated
type succeeds and the field shows the value, if and only if the value is none of: a uuid in PostgreSQL, a negative number in a key column or an array of keys, a tinyint above 127
that is `NOT NULL`. -/
theorem C107_field_shows_the_column_iff (hex fb) (eqFold : Bytes → Bytes → Bool) (over : Bytes → Option Bytes) (drv : Driver) (c : Column) (k : Kind) (v : Cell)
    (ho : NoOverride over c) (ho' : over b!"_count" = none) (hk : kindOf drv c = some k) (hh : Spec.Holds k c.nullable v) :
    ∃ r t, toGoType eqFold over c = some r ∧ goTypeOf r = some t ∧
      ((∃ g, readField hex fb t (given drv k v) = some g ∧ Spec.Shows t v g) ↔ ¬ Spec.Lost eqFold drv c k v) := by
  have hc := chosen eqFold over drv c k ho ho' hk
  obtain ⟨r, hr, ht⟩ := Option.bind_eq_some_iff.1 hc
  exact ⟨r, _, hr, ht, read_field hex fb eqFold drv c k v hh⟩

/-- **C107, a row**: the generated `ScanRow` on a fresh struct: if no column of the row holds one of these values, it succeeds and every field shows its column; otherwise it fails or some field
shows something else. -/
theorem C107_row_shows_the_columns_iff (hex fb) (eqFold : Bytes → Bytes → Bool) (over : Bytes → Option Bytes) (drv : Driver) (ho' : over b!"_count" = none)
    (row : List (Column × Kind × Cell)) (ho : ∀ x ∈ row, NoOverride over x.1) (hk : ∀ x ∈ row, kindOf drv x.1 = some x.2.1) (hh : ∀ x ∈ row, Spec.Holds x.2.1 x.1.nullable x.2.2) :
    ∃ ts : List GT, row.map (fun x => (toGoType eqFold over x.1).bind goTypeOf) = ts.map some ∧
      ((∃ gs, scanRow hex fb ts (row.map fun x => given drv x.2.1 x.2.2) = some gs ∧ gs.length = row.length
          ∧ ∀ (i : Nat) (x : Column × Kind × Cell) (t : GT) (g : GoVal), row[i]? = some x → ts[i]? = some t → gs[i]? = some g → Spec.Shows t x.2.2 g) ↔ ∀ x ∈ row, ¬ Spec.Lost eqFold drv x.1 x.2.1 x.2.2) := by
  induction row with
  | nil => exact ⟨[], rfl, fun _ => by simp, fun _ => ⟨[], rfl, rfl, fun i x t g h => by simp at h⟩⟩
  | cons x row ih =>
    obtain ⟨ts, h1, h2⟩ := ih (fun y hy => ho y (by simp [hy])) (fun y hy => hk y (by simp [hy])) (fun y hy => hh y (by simp [hy]))
    obtain ⟨r, t, hr, ht, hf⟩ := C107_field_shows_the_column_iff hex fb eqFold over drv x.1 x.2.1 x.2.2 (ho x (by simp)) ho' (hk x (by simp)) (hh x (by simp))
    refine ⟨t :: ts, by simp [h1, hr, ht], ?_⟩
    have hl : ts.length = row.length := by simpa using (congrArg List.length h1).symm
    constructor
    · rintro ⟨gs, hg, hlen, hall⟩
      simp only [List.map_cons, scanRow] at hg
      obtain ⟨g, hg1, hg⟩ := Option.bind_eq_some_iff.1 hg
      obtain ⟨gs', hg2, hg⟩ := Option.bind_eq_some_iff.1 hg
      cases hg
      intro y hy
      rcases List.mem_cons.1 hy with rfl | hy
      · exact hf.1 ⟨g, hg1, hall 0 _ t g rfl rfl rfl⟩
      · exact h2.1 ⟨gs', hg2, by simpa using hlen, fun i x t g a b c => hall (i + 1) x t g a b c⟩ y hy
    · intro h
      obtain ⟨g, hg1, hs⟩ := hf.2 (h x (by simp))
      obtain ⟨gs, hg2, hlen, hall⟩ := h2.2 (fun y hy => h y (by simp [hy]))
      refine ⟨g :: gs, by simp [scanRow, hg1, hg2], by simp [hlen], ?_⟩
      intro i y t' g' a b c
      cases i with
      | zero => simp at a b c; subst a b c; exact hs
      | succ i => exact hall i y t' g' a b c

/-- **C107, what becomes of the other values**: a PostgreSQL uuid is read as the empty string and no error is reported; a negative key wraps around; a tinyint above 127 makes the row unreadable. -/
theorem C107_what_the_others_become (hex fb) (u : Bytes) (hu : u.length = 16) (n : Int) (h1 : -2 ^ 63 ≤ n) (h2 : n < 0) (m : Int) (h3 : 127 < m) (h4 : m ≤ 255) :
    readField hex fb .uuid (given .pg .uuid (.uuid u)) = some (.str [])
    ∧ (∀ drv, readField hex fb .id (given drv (.int .eight) (.int n)) = some (.num (n + 2 ^ 64)))
    ∧ readField hex fb (.int 8) (given .ms (.int .tiny) (.int m)) = none := by
  refine ⟨?_, ?_, ?_⟩
  · have e : uuidScan [] (.bytes (pgUuid u)) = ([], true) := by rw [C19_wrong_length_not_rejected _ _ (by rw [pgUuid_length hu]; decide)]
    simp [readField, given, kept, e]
  · intro drv
    have := read_int hex fb drv .eight false true false n h1 (by simp only [Width.hi]; omega)
    simpa [expected, h2] using this
  · have := read_int hex fb .ms .tiny false false false m (by simp only [Width.lo]; omega) h4
    simpa [expected, h3] using this

/-- A row with a key, a nullable name and a boolean, whose values are all read back. -/
def demoRow : List (Column × Kind × Cell) :=
  [(⟨b!"id", b!"bigint", b!"int8", false, 0, 1, b!"public.user.id", none, []⟩, .int .eight, .int 42),
   (⟨b!"name", b!"character varying", b!"varchar", true, 64, 2, b!"public.user.name", none, []⟩, .text, .null),
   (⟨b!"active", b!"boolean", b!"bool", false, 0, 3, b!"public.user.active", none, []⟩, .bool, .bool true)]

example : (∀ x ∈ demoRow, NoOverride (fun _ => none) x.1) ∧ (∀ x ∈ demoRow, kindOf .pg x.1 = some x.2.1) ∧ (∀ x ∈ demoRow, Spec.Holds x.2.1 x.1.nullable x.2.2)
    ∧ ∀ x ∈ demoRow, ¬ Spec.Lost (fun a b => a == b) .pg x.1 x.2.1 x.2.2 := by
  refine ⟨fun _ _ => ⟨rfl, rfl⟩, by decide +kernel, ?_, ?_⟩
  · intro x hx
    simp only [demoRow, List.mem_cons, List.not_mem_nil, or_false] at hx
    rcases hx with rfl | rfl | rfl
    · exact ⟨.eight, rfl, by decide, by decide⟩
    · exact rfl
    · exact rfl
  · intro x hx
    simp only [demoRow, List.mem_cons, List.not_mem_nil, or_false] at hx
    rcases hx with rfl | rfl | rfl
    · rintro (⟨_, h⟩ | ⟨h, _⟩)
      · exact absurd h (by decide)
      · cases h
    · exact id
    · exact id

/-- **C107 (wrong width).** A row with more or fewer columns than the model has fields is refused, whatever it holds. -/
theorem C107_wrong_width_refused (hex : Bytes → Option Dbl) (fb : Tm.Layout → Bytes → Option Tm.GoTime) (ts : List GT) (gs : List Given)
    (h : ts.length ≠ gs.length) : scanRow hex fb ts gs = none := by
  induction ts generalizing gs with
  | nil => cases gs with
    | nil => exact absurd rfl h
    | cons g gs => rfl
  | cons t ts ih => cases gs with
    | nil => rfl
    | cons g gs =>
      rw [scanRow, ih gs (by simpa using h)]
      cases readField hex fb t g <;> rfl

example : ([.id, .bool] : List GT).length ≠ ([.dv .null] : List Given).length := by decide

example : scanRow (fun _ => none) (fun _ _ => none) [.id, .nstr, .bool] (demoRow.map fun x => given .pg x.2.1 x.2.2) = some [.num 42, .str [], .bool true] := by decide +kernel
example : pgUuid (List.replicate 15 0 ++ [255]) = b!"00000000-0000-0000-0000-0000000000ff" := by decide +kernel

end Gen
