import Verif.Gen.Read
set_option linter.unusedVariables false
set_option linter.unusedSimpArgs false
/-!
Reading a row into a generated model and writing it back: the `Value` methods, `database/sql`'s conversion of built-in types, and what the column then holds.
-/
namespace Gen
open Schema Types

/-- What a field hands to the driver: the `Value` methods of the package (id.go:177-186, 238-254, 403-412; types.go:334-339, 376-381, 447-456, 521-530, 600-609, 668-675; time.go:44-50),
and `database/sql`'s default conversion for built-in types (standard library); lib/pq's `Int64Array`.  `nilIsNull`: whether the driver sends a nil byte slice as NULL (this depends on its version). -/
def fieldValue (nilIsNull : Bool) (t : GT) (g : GoVal) : Option Given :=
  match t, g with
  | .id, .num n => some (.dv (value (newID [] (UInt64.ofNat n.toNat)).1 (newID [] (UInt64.ofNat n.toNat)).2))
  | .id32, .num n => some (.dv (id32Value (UInt32.ofNat n.toNat)))
  | .xint64, .num n => some (.dv (int64Value (Int64.ofInt n)))
  | .xint32, .num n => some (.dv (int32Value (Int32.ofInt n)))
  | .int _, .num n => some (.dv (.i64 (Int64.ofInt n)))
  | .xbool, .bool b => some (.dv (boolValue b))
  | .bool, .bool b => some (.dv (.bool b))
  | .xfloat, .float d => some (match floatValue d with | .f64 d => .f64 d | .f32 d => .f64 d | .dv d => .dv d)
  | .f64, .float d => some (.f64 d)
  | .bytes, .bytes (some s) => some (.dv (.bytes s))
  | .bytes, .bytes none => some (.dv (if nilIsNull then .null else .bytes []))
  | .str, .str s => some (.dv (.text s))
  | .nstr, .str s => some (.dv (nstrValue s))
  | .uuid, .str s => some (.dv (uuidValue s))
  | .time, .time t => some (match Tm.value t with | .time t => .time t | .null => .dv .null | .text s => .dv (.text s) | .other => .dv (.other 0))
  | .idarr, .nums l => some (.dv (arrayValue ((l.getD []).map fun n => UInt64.ofNat n.toNat)))
  | .i64arr, .nums none => some (.dv .null)
  | .i64arr, .nums (some l) => some (.dv (pqValue (l.map Int64.ofInt)))
  | _, _ => none

/-- The number of a hexadecimal digit of either case. -/
def hexVal (c : UInt8) : Option Nat :=
  if 48 ≤ c.toNat ∧ c.toNat ≤ 57 then some (c.toNat - 48)
  else if 65 ≤ c.toNat ∧ c.toNat ≤ 70 then some (c.toNat - 55)
  else if 97 ≤ c.toNat ∧ c.toNat ≤ 102 then some (c.toNat - 87)
  else none

/-- Two digits per byte. -/
def hexBytes : Bytes → Option Bytes
  | [] => some []
  | [_] => none
  | a :: b :: r => do
    let x ← hexVal a
    let y ← hexVal b
    let t ← hexBytes r
    return UInt8.ofNat (16 * x + y) :: t

/-- The database reading the text of a UUID: hyphens after 8, 12, 16 and 20 digits. -/
def uuidOfText (s : Bytes) : Option Bytes :=
  if s.length = 36 ∧ s[8]? = some c!"-" ∧ s[13]? = some c!"-" ∧ s[18]? = some c!"-" ∧ s[23]? = some c!"-" then
    hexBytes (s.take 8 ++ (s.drop 9).take 4 ++ (s.drop 14).take 4 ++ (s.drop 19).take 4 ++ s.drop 24)
  else none

/-- The database storing a driver's value in a column (`none`: refused): NULL only if allowed, integers only in range, a time as its instant.
Decimal fractions are not modelled here. -/
def store (k : Kind) (nullable : Bool) (g : Given) : Option Cell :=
  match k, g with
  | _, .dv .null => if nullable then some .null else none
  | .int w, .dv (.i64 n) => if w.lo ≤ n.toInt ∧ n.toInt ≤ w.hi then some (.int n.toInt) else none
  | .bool, .dv (.bool b) => some (.bool b)
  | .dbl, .f64 d => some (.dbl d)
  | .text, .dv (.text s) => some (.text s)
  | .opaque, .dv (.text s) => some (.text s)
  | .json, .dv (.text s) => some (.text s)
  | .bin, .dv (.bytes s) => some (.bin s)
  | .time, .time t => some (.time t)
  | .uuid, .dv (.text s) => (uuidOfText s).map .uuid
  | .ints, .dv (.text s) => (pqScan s).map .ints
  | _, _ => none

/-- Reading a column into the generated field and writing the field back to the column. -/
def writeBack (hex : Bytes → Option Dbl) (fb : Tm.Layout → Bytes → Option Tm.GoTime) (nilIsNull : Bool) (drv : Driver) (k : Kind) (nullable : Bool) (t : GT) (v : Cell) : Option Cell := do
  let g ← readField hex fb t (given drv k v)
  let d ← fieldValue nilIsNull t g
  store k nullable d

/-! ### Specification -/

/-- The same value: for times, the same instant. -/
def Spec.Same : Cell → Cell → Prop
  | .time t, .time t' => t.ns = t'.ns
  | v, v' => v = v'

/-- The values that do not survive: zero, `false` and the empty text in a nullable column, zero in a key column, the zero time, an empty array of keys,
a negative number in a 32-bit key column, a tinyint above 127 that is `NOT NULL`, a PostgreSQL uuid (and a NULL bytea when the driver does not send nil as NULL). -/
def Spec.Changed (eqFold : Bytes → Bytes → Bool) (nilIsNull : Bool) (drv : Driver) (c : Column) (k : Kind) : Cell → Prop
  | .null => k = .bin ∧ nilIsNull = false
  | .int n => (n = 0 ∧ (c.nullable = true ∨ Spec.keyColumn eqFold c k)) ∨ (Spec.keyName eqFold c.name ∧ k = .int .four ∧ n < 0) ∨ (k = .int .tiny ∧ c.nullable = false ∧ 127 < n)
  | .bool b => b = false ∧ c.nullable = true
  | .dbl d => c.nullable = true ∧ ∃ neg, d = .fin neg 0
  | .text s => s = [] ∧ (c.nullable = true ∨ k = .json)
  | .time t => t.ns = 0
  | .uuid _ => drv = .pg
  | .ints l => (∃ pre, c.name = pre ++ b!"_ids") ∧ l = []
  | _ => False

/-! ### Lemmas -/

theorem hexByte_back : ∀ b : UInt8, (hexVal (b!"0123456789ABCDEF".getD (b.toNat / 16) 0) = some (b.toNat / 16))
    ∧ hexVal (b!"0123456789ABCDEF".getD (b.toNat % 16) 0) = some (b.toNat % 16) := by
  intro b
  have h : ∀ n, n < 16 → hexVal (b!"0123456789ABCDEF".getD n 0) = some n := by decide +kernel
  have := b.toNat_lt
  exact ⟨h _ (by omega), h _ (by omega)⟩

theorem hexBytes_back : ∀ u r : Bytes, hexBytes (u.flatMap Types.Spec.hexByte ++ r) = (hexBytes r).map (u ++ ·) := by
  intro u r
  induction u with
  | nil => simp
  | cons a u ih =>
    have h := hexByte_back a
    have ha : UInt8.ofNat (16 * (a.toNat / 16) + a.toNat % 16) = a := by rw [Nat.div_add_mod]; simp
    simp only [List.flatMap_cons, Types.Spec.hexByte, List.cons_append, List.nil_append, hexBytes]
    rw [h.1, h.2]
    simp only [bind, Option.bind_some, ih]
    cases hexBytes r <;> simp [ha]

theorem uuid_back {u : Bytes} (h : u.length = 16) : uuidOfText (Spec.uuidText u) = some u := by
  obtain ⟨a0, a1, a2, a3, a4, a5, a6, a7, a8, a9, a10, a11, a12, a13, a14, a15, rfl⟩ := len16 h
  have e := hexBytes_back [a0, a1, a2, a3, a4, a5, a6, a7, a8, a9, a10, a11, a12, a13, a14, a15] []
  have e2 : uuidOfText (Spec.uuidText [a0, a1, a2, a3, a4, a5, a6, a7, a8, a9, a10, a11, a12, a13, a14, a15])
      = hexBytes ([a0, a1, a2, a3, a4, a5, a6, a7, a8, a9, a10, a11, a12, a13, a14, a15].flatMap Types.Spec.hexByte ++ []) := by
    obtain ⟨x, y, hf⟩ : ∃ x y : UInt8 → UInt8, Types.Spec.hexByte = fun b => [x b, y b] := ⟨_, _, rfl⟩
    unfold Spec.uuidText
    rw [hf]
    generalize x a0 = b0, y a0 = c0, x a1 = b1, y a1 = c1, x a2 = b2, y a2 = c2, x a3 = b3, y a3 = c3, x a4 = b4, y a4 = c4, x a5 = b5, y a5 = c5, x a6 = b6, y a6 = c6, x a7 = b7, y a7 = c7
    simp only [List.flatMap_cons, List.flatMap_nil, List.drop, List.take, List.cons_append, List.nil_append, List.append_nil, uuidOfText, List.length_cons, List.length_nil,
      List.getElem?_cons_succ, List.getElem?_cons_zero, Nat.reduceAdd, true_and, if_true, and_self]
  rw [e2, e]
  rfl

theorem ofInt_zero_iff {n : Int} (h1 : -2 ^ 63 ≤ n) (h2 : n ≤ 2 ^ 63 - 1) : Int64.ofInt n = 0 ↔ n = 0 := by
  rw [← Int64.toInt_inj, int_back h1 h2]; rfl

theorem id_value (x : Int64) : fieldValue b .id (.num x.toUInt64.toNat) = some (.dv (if x.toInt = 0 then .null else .i64 x)) := by
  have e : UInt64.ofNat (x.toUInt64.toNat : Int).toNat = x.toUInt64 := by simp
  simp only [fieldValue, value, e, val_newID]
  have h0 : x.toUInt64 = 0 ↔ x.toInt = 0 := by
    have h := u64_of x
    have hx : x.toUInt64 = 0 ↔ x.toUInt64.toNat = 0 := by rw [← UInt64.toNat_inj]; rfl
    have := x.toInt_lt
    have := x.le_toInt
    rw [hx]
    split at h <;> omega
  simp only [h0]
  split
  · rfl
  · simp

theorem id32_value {n : Int} (h1 : 0 ≤ n) (h2 : n < 2 ^ 32) : fieldValue b .id32 (.num n) = some (.dv (if n = 0 then .null else .i64 (Int64.ofInt n))) := by
  obtain ⟨m, rfl⟩ := Int.eq_ofNat_of_zero_le h1
  have h2 : m < 2 ^ 32 := by omega
  have e : (UInt32.ofNat m).toNat = m := by rw [UInt32.toNat_ofNat_of_lt' (by simpa using h2)]
  have h0 : UInt32.ofNat m = 0 ↔ m = 0 := by rw [← UInt32.toNat_inj, e]; rfl
  simp only [fieldValue, id32Value, Int.toNat_natCast, e, h0, Int.natCast_eq_zero]
  split
  · rfl
  · rfl

theorem i32_back {n : Int} (h1 : -2 ^ 31 ≤ n) (h2 : n ≤ 2 ^ 31 - 1) : (Int32.ofInt n).toInt = n := Int32.toInt_ofInt_of_le (by omega) (by omega)

theorem xint32_value {n : Int} (h1 : -2 ^ 31 ≤ n) (h2 : n ≤ 2 ^ 31 - 1) : fieldValue b .xint32 (.num n) = some (.dv (if n = 0 then .null else .i64 (Int64.ofInt n))) := by
  have h0 : Int32.ofInt n = 0 ↔ n = 0 := by rw [← Int32.toInt_inj, i32_back h1 h2]; rfl
  have e : (Int32.ofInt n).toInt64 = Int64.ofInt n := by rw [← Int64.toInt_inj, int_back (by omega) (by omega), Int32.toInt_toInt64, i32_back h1 h2]
  simp only [fieldValue, int32Value, h0, e]

theorem xint64_value {n : Int} (h1 : -2 ^ 63 ≤ n) (h2 : n ≤ 2 ^ 63 - 1) : fieldValue b .xint64 (.num n) = some (.dv (if n = 0 then .null else .i64 (Int64.ofInt n))) := by
  simp only [fieldValue, int64Value, ofInt_zero_iff h1 h2]

theorem store_int {w : Width} {nu : Bool} {n : Int} (h1 : w.lo ≤ n) (h2 : n ≤ w.hi) : store (.int w) nu (.dv (.i64 (Int64.ofInt n))) = some (.int n) := by
  have hr := width_range w
  simp only [store]
  rw [int_back (by omega) (by omega), if_pos ⟨h1, h2⟩]

/-- What becomes of an integer. -/
theorem back_int (hex fb nb) (drv : Driver) (w : Width) (nu key ids : Bool) (n : Int) (h1 : w.lo ≤ n) (h2 : n ≤ w.hi) :
    writeBack hex fb nb drv (.int w) nu (expected (.int w) nu key ids) (.int n)
      = if w = .tiny ∧ nu = false ∧ 127 < n then none
        else if key = true ∧ w = .four ∧ n < 0 then none
        else if n = 0 ∧ (nu = true ∨ key = true ∧ (w = .four ∨ w = .eight)) then (if nu then some .null else none)
        else some (.int n) := by
  have hr := width_range w
  unfold writeBack
  rw [read_int hex fb drv w nu key ids n h1 h2]
  have hst := store_int (nu := nu) h1 h2
  have hx : ∀ t, (∀ b, fieldValue b t (.num n) = some (.dv (if n = 0 then .null else .i64 (Int64.ofInt n)))) →
      ((fieldValue nb t (.num n)).bind (store (.int w) nu)) = if n = 0 then (if nu then some .null else none) else some (.int n) := by
    intro t ht
    rw [ht]
    by_cases h : n = 0
    · simp [h, store]
    · simp only [h, if_false, Option.bind_some, hst]
  have hi : ∀ b, (fieldValue nb (.int b) (.num n)).bind (store (.int w) nu) = some (.int n) := by
    intro b; simp only [fieldValue, Option.bind_some, hst]
  cases w <;> simp only [Width.lo, Width.hi] at h1 h2 <;> simp only [expected, reduceCtorEq, false_and, and_false, if_false, true_and, and_true, or_false, false_or, or_true, true_or, bind]
  · cases nu
    · simp only [Bool.false_eq_true, if_false, true_and]
      by_cases h : 127 < n
      · simp [h]
      · simpa [h] using hi 8
    · simpa using hx .xint32 (fun b => xint32_value (by omega) (by omega))
  · cases nu
    · simpa using hi 16
    · simpa using hx .xint32 (fun b => xint32_value (by omega) (by omega))
  · cases key
    · cases nu
      · simpa using hi 32
      · simpa using hx .xint32 (fun b => xint32_value (by omega) (by omega))
    · simp only [true_and, and_true, if_true, or_true]
      by_cases h : n < 0
      · simp only [h, if_true, Option.bind_some, id32_value (b := nb) (n := n + 2 ^ 32) (by omega) (by omega)]
        rw [if_neg (by omega)]
        simp only [store]
        rw [int_back (by omega) (by omega), if_neg (by simp only [Width.lo, Width.hi]; omega)]
      · simpa [h] using hx .id32 (fun b => id32_value (by omega) (by omega))
  · cases key
    · cases nu
      · simpa using hi 64
      · simpa using hx .xint64 (fun b => xint64_value (by omega) (by omega))
    · have hb := int_back (n := n) (by omega) (by omega)
      have hu := u64_of (Int64.ofInt n)
      have hv := id_value (b := nb) (Int64.ofInt n)
      rw [hb] at hu hv
      have hsel : (if True ∧ n < 0 then some (GoVal.num (n + 2 ^ 64)) else some (.num n)) = some (.num ((Int64.ofInt n).toUInt64.toNat : Int)) := by
        rw [hu]; by_cases h : n < 0 <;> simp [h]
      simp only [true_and] at hsel
      simp only [true_and, if_true, or_true, and_true, hsel, Option.bind_some, hv]
      by_cases h : n = 0
      · simp [h, store]
      · simp only [h, if_false]
        exact hst

theorem back_ints_plain (hex fb nb) (drv : Driver) (nu key : Bool) (l : List Int64) :
    writeBack hex fb nb drv .ints nu (expected .ints nu key false) (.ints l) = some (.ints l) := by
  have e : (l.map (·.toInt)).map Int64.ofInt = l := by
    rw [List.map_map]
    conv => rhs; rw [← List.map_id l]
    exact List.map_congr_left fun x _ => by simp
  simp only [writeBack, expected, Bool.false_eq_true, if_false, readField, given, array_read, Option.map_some, bind, Option.bind_some, fieldValue, e, pqValue, store]

theorem back_ints_keys (hex fb nb) (drv : Driver) (nu key : Bool) (l : List Int64) :
    writeBack hex fb nb drv .ints nu (expected .ints nu key true) (.ints l) = if l = [] then (if nu then some .null else none) else some (.ints l) := by
  have e : (l.map (fun x => (x.toUInt64.toNat : Int))).map (fun n => UInt64.ofNat n.toNat) = l.map (·.toUInt64) := by
    rw [List.map_map]
    exact List.map_congr_left fun x _ => by simp
  have e2 : int64Array (l.map (·.toUInt64)) = l := by
    unfold int64Array
    rw [List.map_map]
    conv => rhs; rw [← List.map_id l]
    exact List.map_congr_left fun x _ => by simp
  simp only [writeBack, expected, if_true, readField, given, kept, arrayScan, array_read, List.map_map, Function.comp_def, bind, Option.bind_some, fieldValue, Option.getD_some]
  have e' : (l.map (fun x => UInt64.ofNat ((x.toUInt64.toNat : Int)).toNat)) = l.map (·.toUInt64) := by rw [← e, List.map_map]; rfl
  rw [e']
  unfold arrayValue
  by_cases hl : l = []
  · subst hl; rfl
  · rw [if_neg (by simpa using hl), if_neg hl, e2]
    simp only [pqValue, store, array_read, Option.map_some]

theorem not_same_none {v : Cell} : ¬ ∃ v', (none : Option Cell) = some v' ∧ Spec.Same v v' := by rintro ⟨_, h, _⟩; cases h

theorem back_field (hex fb nb) (eqFold : Bytes → Bytes → Bool) (drv : Driver) (c : Column) (k : Kind) (v : Cell) (hh : Spec.Holds k c.nullable v) (hd : k ≠ .dec) :
    (∃ v', writeBack hex fb nb drv k c.nullable (expected k c.nullable (isID eqFold c.name) (hasSuffix c.name b!"_ids")) v = some v' ∧ Spec.Same v v')
      ↔ ¬ Spec.Changed eqFold nb drv c k v := by
  generalize hkey : isID eqFold c.name = key
  generalize hids : hasSuffix c.name b!"_ids" = ids
  cases v with
  | null =>
    have hn : c.nullable = true := hh
    rw [hn]
    simp only [Spec.Changed]
    cases k <;> try (rename_i w; cases w)
    case bin =>
      cases nb
      · simp only [true_and, not_true, iff_false]
        rintro ⟨v', h, hs⟩
        cases h
        cases hs
      · simp only [true_and, reduceCtorEq, not_false_iff, iff_true]
        exact ⟨.null, rfl, rfl⟩
    all_goals cases key
    all_goals cases ids
    all_goals simp only [reduceCtorEq, false_and, not_false_iff, iff_true]
    all_goals exact ⟨.null, rfl, rfl⟩
  | int n =>
    obtain ⟨w, rfl, h1, h2⟩ := hh
    rw [back_int hex fb nb drv w _ key ids n h1 h2]
    have hk : Spec.keyName eqFold c.name ↔ key = true := by rw [← isID_iff, hkey]
    simp only [Spec.Changed, Spec.keyColumn, hk, Kind.int.injEq]
    by_cases ha : w = .tiny ∧ c.nullable = false ∧ 127 < n
    · rw [if_pos ha]; simp [ha, not_same_none]
    · rw [if_neg ha]
      by_cases hb : key = true ∧ w = .four ∧ n < 0
      · rw [if_pos hb]; simp [hb, not_same_none]
      · rw [if_neg hb]
        by_cases hc : n = 0 ∧ (c.nullable = true ∨ key = true ∧ (w = .four ∨ w = .eight))
        · rw [if_pos hc]
          refine ⟨?_, fun h => absurd (Or.inl hc) h⟩
          rintro ⟨v', h, hs⟩ _
          split at h
          · cases h; cases hs
          · cases h
        · rw [if_neg hc]
          refine ⟨fun _ h => ?_, fun _ => ⟨_, rfl, rfl⟩⟩
          rcases h with h | h | h
          · exact hc h
          · exact hb h
          · exact ha h
  | bool b =>
    have hh : k = .bool := hh
    subst hh
    simp only [Spec.Changed]
    cases c.nullable
    · simp only [Bool.false_eq_true, and_false, not_false_iff, iff_true]
      exact ⟨.bool b, rfl, rfl⟩
    · cases b
      · simp only [true_and, and_self, not_true, iff_false]
        rintro ⟨v', h, hs⟩
        cases h; cases hs
      · simp only [reduceCtorEq, false_and, not_false_iff, iff_true]
        exact ⟨.bool true, rfl, rfl⟩
  | dbl d =>
    have hh : k = .dbl := hh
    subst hh
    simp only [Spec.Changed]
    cases c.nullable
    · simp only [Bool.false_eq_true, false_and, not_false_iff, iff_true]
      exact ⟨.dbl d, rfl, rfl⟩
    · by_cases hz : ∃ neg, d = .fin neg 0
      · simp only [true_and, hz, not_true, iff_false]
        obtain ⟨neg, rfl⟩ := hz
        rintro ⟨v', h, hs⟩
        cases h; cases hs
      · simp only [true_and, hz, not_false_iff, iff_true]
        have hv := ((C77_value_scan hex (.fin false 0) d).2 (fun neg h => hz ⟨neg, h⟩)).1
        refine ⟨.dbl d, ?_, rfl⟩
        simp [writeBack, expected, readField, given, kept, floatScan, fieldValue, hv, store]
  | dec l => exact absurd hh.1 hd
  | text s =>
    have hh : k = .text ∨ k = .opaque ∨ k = .json := hh
    simp only [Spec.Changed]
    rcases hh with rfl | rfl | rfl <;> cases hn : c.nullable <;> by_cases hs : s = []
    all_goals first
      | (subst hs; simp only [reduceCtorEq, Bool.false_eq_true, or_false, or_true, and_false, and_true, true_and, not_true, not_false_iff, iff_false, iff_true]
         first
           | (rintro ⟨v', h, hs⟩; cases h; cases hs)
           | (rintro ⟨v', h, hs⟩; cases h)
           | exact ⟨.text [], rfl, rfl⟩)
      | (simp only [hs, false_and, not_false_iff, iff_true]
         refine ⟨.text s, ?_, rfl⟩
         simp [writeBack, expected, readField, given, kept, nstrScan, nullStringScan, fieldValue, nstrValue, hs, store])
  | bin s =>
    have hh : k = .bin := hh
    subst hh
    exact ⟨fun _ h => h, fun _ => ⟨.bin s, rfl, rfl⟩⟩
  | time t =>
    have hh : k = .time := hh
    subst hh
    simp only [Spec.Changed]
    by_cases hz : t.ns = 0
    · simp only [hz, not_true, iff_false]
      rintro ⟨v', h, hs⟩
      simp [writeBack, expected, readField, given, kept, Tm.scan, fieldValue, Tm.value, Tm.GoTime.isZero, Tm.GoTime.utc, hz, store] at h
      rw [← h.2] at hs
      cases hs
    · simp only [hz, not_false_iff, iff_true]
      refine ⟨.time t.utc.utc, ?_, rfl⟩
      simp [writeBack, expected, readField, given, kept, Tm.scan, fieldValue, Tm.value, Tm.GoTime.isZero, Tm.GoTime.utc, hz, store]
  | uuid u =>
    obtain ⟨rfl, hl⟩ := hh
    cases drv with
    | pg =>
      refine ⟨?_, fun h => absurd rfl h⟩
      rintro ⟨v', h, hs⟩ _
      have e : uuidScan [] (.bytes (pgUuid u)) = ([], true) := by rw [C19_wrong_length_not_rejected _ _ (by rw [pgUuid_length hl]; decide)]
      simp [writeBack, expected, readField, given, kept, e, fieldValue, uuidValue, store] at h
      rw [← h.2] at hs
      cases hs
    | ms =>
      refine ⟨fun _ h => (nomatch h), fun _ => ⟨.uuid u, ?_, rfl⟩⟩
      have hne : Spec.uuidText u ≠ [] := by
        intro h
        have := uuid_back hl
        rw [h] at this
        cases this
      simp [writeBack, expected, readField, given, kept, msUuid_read hl, fieldValue, uuidValue, hne, store, uuid_back hl]
  | ints l =>
    have hh : k = .ints := hh
    subst hh
    simp only [Spec.Changed, ← hasSuffix_iff, hids]
    cases ids
    · simp only [Bool.false_eq_true, false_and, not_false_iff, iff_true]
      exact ⟨.ints l, back_ints_plain .., rfl⟩
    · simp only [true_and]
      rw [back_ints_keys]
      by_cases hl : l = []
      · simp only [hl, if_true, not_true, iff_false]
        rintro ⟨v', h, hs⟩
        split at h
        · cases h; cases hs
        · cases h
      · simp only [hl, if_false, not_false_iff, iff_true]
        exact ⟨_, rfl, rfl⟩

/-- **C108, one column** (all column types but decimal fractions): reading a column into the generated field and writing the field back leaves the column as it was, if and only if the value is
none of those of `Spec.Changed`. -/
theorem C108_write_back_iff (hex fb nb) (eqFold : Bytes → Bytes → Bool) (over : Bytes → Option Bytes) (drv : Driver) (c : Column) (k : Kind) (v : Cell)
    (ho : NoOverride over c) (ho' : over b!"_count" = none) (hk : kindOf drv c = some k) (hh : Spec.Holds k c.nullable v) (hd : k ≠ .dec) :
    ∃ r t, toGoType eqFold over c = some r ∧ goTypeOf r = some t ∧
      ((∃ v', writeBack hex fb nb drv k c.nullable t v = some v' ∧ Spec.Same v v') ↔ ¬ Spec.Changed eqFold nb drv c k v) := by
  obtain ⟨r, hr, ht⟩ := Option.bind_eq_some_iff.1 (chosen eqFold over drv c k ho ho' hk)
  exact ⟨r, _, hr, ht, back_field hex fb nb eqFold drv c k v hh hd⟩

/-- What becomes of the others that can be read: the write is refused or the column becomes NULL; no other value is ever written. -/
theorem C108_otherwise_null_or_refused (hex fb) (eqFold : Bytes → Bytes → Bool) (over : Bytes → Option Bytes) (drv : Driver) (c : Column) (k : Kind) (v v' : Cell) (r : Bytes) (t : GT)
    (ho : NoOverride over c) (ho' : over b!"_count" = none) (hk : kindOf drv c = some k) (hh : Spec.Holds k c.nullable v) (hd : k ≠ .dec)
    (hr : toGoType eqFold over c = some r) (ht : goTypeOf r = some t) (hw : writeBack hex fb true drv k c.nullable t v = some v') :
    Spec.Same v v' ∨ (v' = .null ∧ c.nullable = true) := by
  have hc := chosen eqFold over drv c k ho ho' hk
  rw [hr, Option.bind_some, ht, Option.some.injEq] at hc
  subst hc
  generalize isID eqFold c.name = key at hw
  generalize hids : hasSuffix c.name b!"_ids" = ids at hw
  generalize c.nullable = nu at hw hh ⊢
  have nullOr : ∀ {o : Option Cell}, (if nu = true then some Cell.null else none) = some v' → v' = .null ∧ nu = true := by
    intro _ h
    split at h
    · rename_i hn; cases h; exact ⟨rfl, hn⟩
    · cases h
  cases v with
  | null =>
    have hn : nu = true := hh
    subst hn
    left
    cases k <;> try (rename_i w; cases w)
    all_goals cases key
    all_goals cases ids
    all_goals cases hw
    all_goals rfl
  | int n =>
    obtain ⟨w, rfl, h1, h2⟩ := hh
    rw [back_int hex fb true drv w _ key ids n h1 h2] at hw
    split at hw
    · cases hw
    · split at hw
      · cases hw
      · split at hw
        · exact Or.inr (nullOr (o := none) hw)
        · cases hw; exact Or.inl rfl
  | bool b =>
    have hh : k = .bool := hh
    subst hh
    cases nu <;> cases b <;> cases hw
    · exact Or.inl rfl
    · exact Or.inl rfl
    · exact Or.inr ⟨rfl, rfl⟩
    · exact Or.inl rfl
  | dbl d =>
    have hh : k = .dbl := hh
    subst hh
    cases nu
    · cases hw; exact Or.inl rfl
    · by_cases hz : ∃ neg, d = .fin neg 0
      · obtain ⟨neg, rfl⟩ := hz
        cases hw; exact Or.inr ⟨rfl, rfl⟩
      · have hv := ((C77_value_scan hex (.fin false 0) d).2 (fun neg h => hz ⟨neg, h⟩)).1
        simp [writeBack, expected, readField, given, kept, floatScan, fieldValue, hv, store] at hw
        subst hw; exact Or.inl rfl
  | dec l => exact absurd hh.1 hd
  | text s =>
    have hh : k = .text ∨ k = .opaque ∨ k = .json := hh
    by_cases hs : s = []
    · subst hs
      rcases hh with rfl | rfl | rfl <;> cases nu <;> cases hw <;> first | exact Or.inl rfl | exact Or.inr ⟨rfl, rfl⟩
    · rcases hh with rfl | rfl | rfl <;> cases nu <;> simp [writeBack, expected, readField, given, kept, nstrScan, nullStringScan, fieldValue, nstrValue, hs, store] at hw <;>
        (subst hw; exact Or.inl rfl)
  | bin s =>
    have hh : k = .bin := hh
    subst hh
    cases hw; exact Or.inl rfl
  | time t =>
    have hh : k = .time := hh
    subst hh
    by_cases hz : t.ns = 0
    · simp [writeBack, expected, readField, given, kept, Tm.scan, fieldValue, Tm.value, Tm.GoTime.isZero, Tm.GoTime.utc, hz, store] at hw
      exact Or.inr ⟨hw.2.symm, hw.1⟩
    · simp [writeBack, expected, readField, given, kept, Tm.scan, fieldValue, Tm.value, Tm.GoTime.isZero, Tm.GoTime.utc, hz, store] at hw
      subst hw; exact Or.inl rfl
  | uuid u =>
    obtain ⟨rfl, hl⟩ := hh
    cases drv with
    | pg =>
      have e : uuidScan [] (.bytes (pgUuid u)) = ([], true) := by rw [C19_wrong_length_not_rejected _ _ (by rw [pgUuid_length hl]; decide)]
      simp [writeBack, expected, readField, given, kept, e, fieldValue, uuidValue, store] at hw
      exact Or.inr ⟨hw.2.symm, hw.1⟩
    | ms =>
      have hne : Spec.uuidText u ≠ [] := by
        intro h
        have := uuid_back hl
        rw [h] at this
        cases this
      simp [writeBack, expected, readField, given, kept, msUuid_read hl, fieldValue, uuidValue, hne, store, uuid_back hl] at hw
      subst hw; exact Or.inl rfl
  | ints l =>
    have hh : k = .ints := hh
    subst hh
    cases ids
    · rw [back_ints_plain] at hw; cases hw; exact Or.inl rfl
    · rw [back_ints_keys] at hw
      split at hw
      · exact Or.inr (nullOr (o := none) hw)
      · cases hw; exact Or.inl rfl

/-- **C108, the PostgreSQL uuid**: reading a row and writing it back erases a nullable uuid column, and is refused when the column is `NOT NULL`. -/
theorem C108_uuid_erased (hex fb nb) (u : Bytes) (hu : u.length = 16) :
    writeBack hex fb nb .pg .uuid true .uuid (.uuid u) = some .null ∧ writeBack hex fb nb .pg .uuid false .uuid (.uuid u) = none := by
  have e : uuidScan [] (.bytes (pgUuid u)) = ([], true) := by rw [C19_wrong_length_not_rejected _ _ (by rw [pgUuid_length hu]; decide)]
  constructor <;> simp [writeBack, readField, given, kept, e, fieldValue, uuidValue, store]

/-- **C108, zero**: in a nullable column 0, `false` and the empty text become NULL; in a `NOT NULL` key column a row with key 0 cannot be written back. -/
theorem C108_zero_becomes_null (hex fb nb) (drv : Driver) :
    writeBack hex fb nb drv (.int .eight) true .xint64 (.int 0) = some .null
    ∧ writeBack hex fb nb drv .bool true .xbool (.bool false) = some .null
    ∧ writeBack hex fb nb drv .text true .nstr (.text []) = some .null
    ∧ writeBack hex fb nb drv (.int .eight) false .id (.int 0) = none := ⟨rfl, rfl, rfl, rfl⟩

example : Spec.Holds .text true (.text b!"Ann") ∧ ¬ Spec.Changed (fun a b => a == b) true .pg demoRow[1].1 .text (.text b!"Ann") ∧ NoOverride (fun _ => none) demoRow[1].1
    ∧ kindOf .pg demoRow[1].1 = some .text :=
  ⟨Or.inl rfl, fun h => absurd h.1 (by decide), ⟨rfl, rfl⟩, by decide +kernel⟩
example : uuidOfText b!"6F9619FF-8B86-D011-B42D-00CF4FC964FF" = uuidOfText b!"6f9619ff-8b86-d011-b42d-00cf4fc964ff" := by decide +kernel

end Gen
