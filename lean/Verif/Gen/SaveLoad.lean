import Verif.Gen.WriteBack
set_option linter.unusedVariables false
set_option linter.unusedSimpArgs false
/-!
Saving a generated model and loading it again: what the database keeps of the field's value, and what the generated field then shows.
-/
namespace Gen
open Schema Types

/-- How a column rounds instants (dates, times of day, microseconds) and texts (padding, length limits, the normal form of jsonb, inet, …); nothing is assumed about either.
A text that the column refuses is `none`. -/
structure Storage where
  round : Int → Int
  keep : Bytes → Option Bytes

/-- What the column keeps of a value. -/
def Storage.apply (S : Storage) : Cell → Option Cell
  | .time t => some (.time ⟨S.round t.ns, t.off⟩)
  | .text s => (S.keep s).map .text
  | v => some v

/-- Saving a field (`fieldValue`: its `Value` method; `store`: the database) and reading the column into a fresh field of the same type. -/
def saveLoad (hex : Bytes → Option Dbl) (fb : Tm.Layout → Bytes → Option Tm.GoTime) (nilIsNull : Bool) (S : Storage) (drv : Driver) (k : Kind) (nullable : Bool) (t : GT) (g : GoVal) : Option GoVal := do
  let d ← fieldValue nilIsNull t g
  let v ← store k nullable d
  let v ← S.apply v
  readField hex fb t (given drv k v)

/-! ### Specification -/

/-- The values a field of the type can hold. -/
def Spec.FieldVal : GT → GoVal → Prop
  | .id, .num n => 0 ≤ n ∧ n < 2 ^ 64
  | .id32, .num n => 0 ≤ n ∧ n < 2 ^ 32
  | .xint64, .num n => -2 ^ 63 ≤ n ∧ n < 2 ^ 63
  | .xint32, .num n => -2 ^ 31 ≤ n ∧ n < 2 ^ 31
  | .int b, .num n => -2 ^ (b - 1) ≤ n ∧ n < 2 ^ (b - 1)
  | .xbool, .bool _ | .bool, .bool _ => True
  | .xfloat, .float _ | .f64, .float _ => True
  | .bytes, .bytes _ => True
  | .str, .str _ | .nstr, .str _ | .uuid, .str _ => True
  | .time, .time _ => True
  | .idarr, .nums l => ∀ n ∈ l.getD [], 0 ≤ n ∧ n < 2 ^ 64
  | .i64arr, .nums l => ∀ n ∈ l.getD [], -2 ^ 63 ≤ n ∧ n < 2 ^ 63
  | _, _ => False

/-- Two fields that show the same: equal, except that times are compared as instants, UUIDs ignoring case, arrays of keys by their elements (nil and empty are the same), and the
two floating-point zeros are the same. -/
def Spec.SameField (t : GT) : GoVal → GoVal → Prop
  | .time a, .time b => a.ns = b.ns
  | .str a, .str b => if t = .uuid then a.map lowerByte = b.map lowerByte else a = b
  | .nums a, .nums b => if t = .idarr then a.getD [] = b.getD [] else a = b
  | .float a, .float b => a = b ∨ ∃ p q, a = .fin p 0 ∧ b = .fin q 0
  | a, b => a = b

/-- The text is a UUID in hyphenated form, in any case. -/
def Spec.IsUuid (s : Bytes) : Prop := ∃ u : Bytes, u.length = 16 ∧ s.map lowerByte = (Spec.uuidText u).map lowerByte

/-- The values of a field that are not kept: a zero key, an empty array of keys, a nil array, a nil byte slice, an empty `NULLString` or UUID and the zero time if the column is `NOT NULL`
(also a nil byte slice when the driver does not send it as NULL); numbers outside the range of the column (keys of 2³¹ and more in a 32-bit column; 64-bit keys are all kept);
instants and texts the column changes; texts that are no UUID; in PostgreSQL every UUID. -/
def Spec.NotKept (S : Storage) (nilIsNull : Bool) (drv : Driver) (k : Kind) (nullable : Bool) (t : GT) : GoVal → Prop
  | .num n => (t = .id ∧ n = 0 ∧ nullable = false) ∨ (t = .id32 ∧ ((n = 0 ∧ nullable = false) ∨ 2 ^ 31 ≤ n))
      ∨ (t ≠ .id ∧ t ≠ .id32 ∧ ∃ w, k = .int w ∧ (n < w.lo ∨ w.hi < n))
  | .bytes none => nilIsNull = false ∨ nullable = false
  | .str s => (s = [] ∧ t ≠ .str ∧ nullable = false) ∨ (t = .uuid ∧ s ≠ [] ∧ (drv = .pg ∨ ¬ Spec.IsUuid s)) ∨ (t ≠ .uuid ∧ (t = .str ∨ s ≠ []) ∧ S.keep s ≠ some s)
  | .time t => (t.ns = 0 ∧ nullable = false) ∨ (t.ns ≠ 0 ∧ S.round t.ns ≠ t.ns)
  | .nums l => nullable = false ∧ (l = none ∨ (t = .idarr ∧ l = some []))
  | _ => False

/-! ### Lemmas -/

theorem lower_hex (a b : UInt8) (h : lowerByte a = lowerByte b) : hexVal a = hexVal b := by
  have key : ∀ c : UInt8, hexVal (lowerByte c) = hexVal c := by
    intro c
    unfold lowerByte
    split
    · rename_i hc
      have e : (c + 32).toNat = c.toNat + 32 := by
        rw [UInt8.toNat_add]
        have : (32 : UInt8).toNat = 32 := rfl
        omega
      unfold hexVal
      rw [e]
      split
      · omega
      · split
        · omega
        · split
          · rw [if_neg (by omega), if_pos (by omega)]; congr 1
          · rw [if_neg (by omega), if_neg (by omega), if_neg (by omega)]
    · rfl
  rw [← key a, h, key b]

theorem hexVal_lower {c : UInt8} {n : Nat} (h : hexVal c = some n) : n < 16 ∧ lowerByte (b!"0123456789ABCDEF".getD n 0) = lowerByte c := by
  have key : ∀ c : UInt8, ∀ n, hexVal c = some n → n < 16 ∧ lowerByte (b!"0123456789ABCDEF".getD n 0) = lowerByte c := by
    have : ∀ m, m < 256 → ∀ n, hexVal (UInt8.ofNat m) = some n → n < 16 ∧ lowerByte (b!"0123456789ABCDEF".getD n 0) = lowerByte (UInt8.ofNat m) := by
      have h2 : ∀ m, m < 256 → (match hexVal (UInt8.ofNat m) with | none => true | some n => decide (n < 16 ∧ lowerByte (b!"0123456789ABCDEF".getD n 0) = lowerByte (UInt8.ofNat m))) = true := by
        decide +kernel
      intro m hm n hn
      have := h2 m hm
      rw [hn] at this
      simpa using this
    intro c n hn
    have := this c.toNat c.toNat_lt n (by simpa using hn)
    simpa using this
  exact key c n h

theorem hexBytes_lower : ∀ s t : Bytes, s.map lowerByte = t.map lowerByte → hexBytes s = hexBytes t
  | [], t, h => by cases t with | nil => rfl | cons _ _ => cases h
  | [a], t, h => by
    match t, h with
    | [b], _ => rfl
    | [], h => cases h
    | _ :: _ :: _, h => simp at h
  | a :: b :: r, t, h => by
    match t, h with
    | c :: d :: r', h =>
      simp only [List.map_cons, List.cons.injEq] at h
      simp only [hexBytes, lower_hex _ _ h.1, lower_hex _ _ h.2.1, hexBytes_lower r r' h.2.2]
    | [], h => cases h
    | [_], h => simp at h

theorem hexBytes_some : ∀ (s u : Bytes), hexBytes s = some u → s.length = 2 * u.length ∧ s.map lowerByte = (u.flatMap Types.Spec.hexByte).map lowerByte
  | [], u, h => by cases h; exact ⟨rfl, rfl⟩
  | [a], u, h => by cases h
  | a :: b :: r, u, h => by
    simp only [hexBytes, bind, Option.bind_eq_some_iff, pure, Option.some.injEq] at h
    obtain ⟨x, hx, y, hy, t, ht, rfl⟩ := h
    obtain ⟨i1, i2⟩ := hexBytes_some r t ht
    obtain ⟨x1, x2⟩ := hexVal_lower hx
    obtain ⟨y1, y2⟩ := hexVal_lower hy
    have e : (UInt8.ofNat (16 * x + y)).toNat = 16 * x + y := by rw [UInt8.toNat_ofNat_of_lt' (by simp [UInt8.size]; omega)]
    refine ⟨by simp [i1]; omega, ?_⟩
    rw [List.flatMap_cons, List.map_append, ← i2]
    have e1 : (16 * x + y) / 16 = x := by omega
    have e2 : (16 * x + y) % 16 = y := by omega
    simp only [Types.Spec.hexByte, List.map_cons, List.map_nil, List.cons_append, List.nil_append, e, e1, e2]
    rw [x2, y2]

theorem lower_hyphen : ∀ c : UInt8, lowerByte c = c!"-" ↔ c = c!"-" := by
  have h : ∀ m, m < 256 → (lowerByte (UInt8.ofNat m) = c!"-" ↔ UInt8.ofNat m = c!"-") := by decide +kernel
  intro c
  have := h c.toNat c.toNat_lt
  simpa using this

theorem hyphen_at (s t : Bytes) (h : s.map lowerByte = t.map lowerByte) (i : Nat) : s[i]? = some c!"-" ↔ t[i]? = some c!"-" := by
  have key : ∀ s : Bytes, s[i]? = some c!"-" ↔ (s.map lowerByte)[i]? = some c!"-" := by
    intro s
    rw [List.getElem?_map]
    cases s[i]? with
    | none => simp
    | some c => simp [lower_hyphen]
  rw [key s, key t, h]

theorem uuidOfText_lower (s t : Bytes) (h : s.map lowerByte = t.map lowerByte) : uuidOfText s = uuidOfText t := by
  have hl : s.length = t.length := by simpa using congrArg List.length h
  unfold uuidOfText
  simp only [hl, hyphen_at s t h]
  congr 1
  apply hexBytes_lower
  simp only [List.map_append, List.map_take, List.map_drop, h]

theorem append_split {a b c d : List α} (h : a ++ b = c ++ d) (hl : a.length = c.length) : a = c ∧ b = d := List.append_inj h hl

theorem uuidOfText_some {s u : Bytes} (h : uuidOfText s = some u) : u.length = 16 ∧ s.map lowerByte = (Spec.uuidText u).map lowerByte := by
  unfold uuidOfText at h
  split at h
  · rename_i hc
    obtain ⟨hl, h8, h13, h18, h23⟩ := hc
    obtain ⟨i1, i2⟩ := hexBytes_some _ _ h
    simp only [List.length_append, List.length_take, List.length_drop, hl] at i1
    have hu : u.length = 16 := by omega
    refine ⟨hu, ?_⟩
    -- the text in pieces
    have piece : ∀ (i n : Nat), i < 36 → s[i]? = some c!"-" → s.drop i = c!"-" :: s.drop (i + 1) := by
      intro i n hi h
      rw [List.drop_eq_getElem_cons (by omega)]
      rw [List.getElem?_eq_getElem (by omega), Option.some.injEq] at h
      rw [h]
    have cut : ∀ i n, s.drop i = (s.drop i).take n ++ s.drop (i + n) := by
      intro i n; rw [← List.drop_drop, List.take_append_drop]
    have e : s = s.take 8 ++ (c!"-" :: ((s.drop 9).take 4 ++ (c!"-" :: ((s.drop 14).take 4 ++ (c!"-" :: ((s.drop 19).take 4 ++ (c!"-" :: s.drop 24))))))) := by
      conv => lhs; rw [← List.take_append_drop 8 s, piece 8 0 (by decide) h8, cut 9 4, piece 13 0 (by decide) h13, cut 14 4, piece 18 0 (by decide) h18, cut 19 4, piece 23 0 (by decide) h23]
    obtain ⟨a0, a1, a2, a3, a4, a5, a6, a7, a8, a9, a10, a11, a12, a13, a14, a15, rfl⟩ := len16 hu
    have two : ∀ b, (Types.Spec.hexByte b).length = 2 := fun b => rfl
    simp only [List.flatMap_cons, List.flatMap_nil, List.append_nil, List.map_append, List.append_assoc] at i2
    have len : ∀ (l : Bytes) (n : Nat), l.length = n → (l.map lowerByte).length = n := fun l n h => by simp [h]
    have g1 : (s.take 8).map lowerByte ++ (((s.drop 9).take 4).map lowerByte ++ (((s.drop 14).take 4).map lowerByte ++ (((s.drop 19).take 4).map lowerByte ++ (s.drop 24).map lowerByte)))
        = ([a0, a1, a2, a3].flatMap Types.Spec.hexByte).map lowerByte ++ (([a4, a5].flatMap Types.Spec.hexByte).map lowerByte ++ (([a6, a7].flatMap Types.Spec.hexByte).map lowerByte
          ++ (([a8, a9].flatMap Types.Spec.hexByte).map lowerByte ++ ([a10, a11, a12, a13, a14, a15].flatMap Types.Spec.hexByte).map lowerByte))) := by
      rw [i2]
      simp only [List.flatMap_cons, List.flatMap_nil, List.append_nil, List.map_append, List.append_assoc]
    obtain ⟨p1, g2⟩ := append_split g1 (by simp [hl, Types.Spec.hexByte])
    obtain ⟨p2, g3⟩ := append_split g2 (by simp [hl, Types.Spec.hexByte])
    obtain ⟨p3, g4⟩ := append_split g3 (by simp [hl, Types.Spec.hexByte])
    obtain ⟨p4, p5⟩ := append_split g4 (by simp [hl, Types.Spec.hexByte])
    conv => lhs; rw [e]
    simp only [List.map_append, List.map_cons, p1, p2, p3, p4, p5, Spec.uuidText, List.drop, List.take]
    simp [List.map_append]
  · cases h

theorem uuidOfText_iff {s u : Bytes} : uuidOfText s = some u ↔ u.length = 16 ∧ s.map lowerByte = (Spec.uuidText u).map lowerByte := by
  refine ⟨uuidOfText_some, fun ⟨h1, h2⟩ => ?_⟩
  rw [uuidOfText_lower _ _ h2, uuid_back h1]

theorem not_same_field {t : GT} {g : GoVal} : ¬ ∃ g', (none : Option GoVal) = some g' ∧ Spec.SameField t g g' := by rintro ⟨_, h, _⟩; cases h

theorem same_num {t : GT} {n m : Int} : (∃ g', some (GoVal.num m) = some g' ∧ Spec.SameField t (.num n) g') ↔ n = m := by
  constructor
  · rintro ⟨g', h, hs⟩; cases h; cases hs; rfl
  · rintro rfl; exact ⟨_, rfl, rfl⟩

theorem same_str {t : GT} (ht : t ≠ .uuid) {s s' : Bytes} : (∃ g', some (GoVal.str s') = some g' ∧ Spec.SameField t (.str s) g') ↔ s = s' := by
  constructor
  · rintro ⟨g', h, hs⟩
    cases h
    simpa [Spec.SameField, ht] using hs
  · rintro rfl
    exact ⟨_, rfl, by simp [Spec.SameField]⟩

/-- Fields of ordinary integer columns that are saved as NULL when zero. -/
theorem save_x (hex fb nb S) (drv : Driver) (w : Width) (nu ids : Bool) (t : GT) (n : Int) (ht : t = expected (.int w) true false ids)
    (hv : fieldValue nb t (.num n) = some (.dv (if n = 0 then .null else .i64 (Int64.ofInt n)))) (h1 : -2 ^ 63 ≤ n) (h2 : n < 2 ^ 63) :
    (∃ g', saveLoad hex fb nb S drv (.int w) true t (.num n) = some g' ∧ Spec.SameField t (.num n) g') ↔ w.lo ≤ n ∧ n ≤ w.hi := by
  unfold saveLoad
  rw [hv]
  by_cases h0 : n = 0
  · subst h0
    have : w.lo ≤ 0 ∧ 0 ≤ w.hi := by cases w <;> decide
    simp only [this, and_self, iff_true, if_true, bind, Option.bind_some, store, Storage.apply]
    refine ⟨.num 0, ?_, rfl⟩
    subst ht
    cases w <;> rfl
  · simp only [if_neg h0, bind, Option.bind_some, store]
    rw [int_back h1 (by omega)]
    by_cases h : w.lo ≤ n ∧ n ≤ w.hi
    · rw [if_pos h]
      simp only [Option.bind_some, Storage.apply, h, and_self, iff_true]
      subst ht
      rw [read_int hex fb drv w true false ids n h.1 h.2]
      exact ⟨.num n, by simp, rfl⟩
    · rw [if_neg h]; simp only [h, iff_false]; exact not_same_field

/-- Built-in integer fields. -/
theorem save_i (hex fb nb S) (drv : Driver) (w : Width) (ids : Bool) (n : Int) (b : Nat) (ht : expected (.int w) false false ids = .int b) (h0 : -2 ^ (b - 1) ≤ n ∧ n < 2 ^ (b - 1))
    (h1 : -2 ^ 63 ≤ n) (h2 : n < 2 ^ 63) :
    (∃ g', saveLoad hex fb nb S drv (.int w) false (.int b) (.num n) = some g' ∧ Spec.SameField (.int b) (.num n) g') ↔ w.lo ≤ n ∧ n ≤ w.hi := by
  unfold saveLoad
  simp only [fieldValue, bind, Option.bind_some, store]
  rw [int_back h1 (by omega)]
  by_cases h : w.lo ≤ n ∧ n ≤ w.hi
  · rw [if_pos h]
    simp only [Option.bind_some, Storage.apply, h, and_self, iff_true, given, readField, toInteger]
    rw [int_back h1 (by omega), if_pos h0]
    exact ⟨.num n, rfl, rfl⟩
  · rw [if_neg h]; simp only [h, iff_false]; exact not_same_field

theorem save_id (hex fb nb S) (drv : Driver) (nu : Bool) (n : Int) (h : 0 ≤ n ∧ n < 2 ^ 64) :
    saveLoad hex fb nb S drv (.int .eight) nu .id (.num n) = if n = 0 ∧ nu = false then none else some (.num n) := by
  obtain ⟨m, rfl⟩ := Int.eq_ofNat_of_zero_le h.1
  have hm : m < 2 ^ 64 := by omega
  have hx : ((UInt64.ofNat m).toInt64.toUInt64.toNat : Int) = m := by
    have : (UInt64.ofNat m).toInt64.toUInt64 = UInt64.ofNat m := by simp
    rw [this, UInt64.toNat_ofNat_of_lt' (by simpa [UInt64.size] using hm)]
  have hv := id_value (b := nb) (UInt64.ofNat m).toInt64
  rw [hx] at hv
  have h0 : (UInt64.ofNat m).toInt64.toInt = 0 ↔ m = 0 := by
    have hu := u64_of (UInt64.ofNat m).toInt64
    rw [hx] at hu
    have := (UInt64.ofNat m).toInt64.toInt_lt
    have := (UInt64.ofNat m).toInt64.le_toInt
    split at hu <;> omega
  simp only [saveLoad, hv, h0, Int.natCast_eq_zero]
  by_cases hz : m = 0
  · subst hz
    cases nu <;> rfl
  · have hr : (Width.eight.lo ≤ (UInt64.ofNat m).toInt64.toInt ∧ (UInt64.ofNat m).toInt64.toInt ≤ Width.eight.hi) := by
      have := (UInt64.ofNat m).toInt64.toInt_lt
      have := (UInt64.ofNat m).toInt64.le_toInt
      simp only [Width.lo, Width.hi]; omega
    simp only [hz, if_false, bind, Option.bind_some, store, if_pos hr, Storage.apply, given, readField, scan, val_newID, if_true, false_and]
    have e : Int64.ofInt (UInt64.ofNat m).toInt64.toInt = (UInt64.ofNat m).toInt64 := Int64.ofInt_toInt _
    rw [e, hx]

theorem save_id32 (hex fb nb S) (drv : Driver) (nu : Bool) (n : Int) (h : 0 ≤ n ∧ n < 2 ^ 32) :
    saveLoad hex fb nb S drv (.int .four) nu .id32 (.num n) = if (n = 0 ∧ nu = false) ∨ 2 ^ 31 ≤ n then none else some (.num n) := by
  unfold saveLoad
  rw [id32_value h.1 h.2]
  by_cases h0 : n = 0
  · subst h0
    cases nu <;> rfl
  · simp only [h0, if_false, bind, Option.bind_some, store, false_and, false_or]
    rw [int_back (by omega) (by omega)]
    by_cases h1 : 2 ^ 31 ≤ n
    · rw [if_neg (by simp only [Width.lo, Width.hi]; omega), if_pos h1]; rfl
    · rw [if_pos (by simp only [Width.lo, Width.hi]; omega), if_neg h1]
      simp only [Option.bind_some, Storage.apply]
      have := read_int hex fb drv .four nu true false n (by simp only [Width.lo]; omega) (by simp only [Width.hi]; omega)
      simp only [expected, if_true] at this
      rw [this, if_neg (by simp), if_neg (by simp), if_neg (by omega)]

theorem nums_u64 {l : List Int} (h : ∀ n ∈ l, 0 ≤ n ∧ n < 2 ^ 64) :
    ((int64Array (l.map fun n => UInt64.ofNat n.toNat)).map fun x => (x.toUInt64.toNat : Int)) = l := by
  unfold int64Array
  rw [List.map_map, List.map_map]
  conv => rhs; rw [← List.map_id l]
  refine List.map_congr_left fun n hn => ?_
  obtain ⟨m, rfl⟩ := Int.eq_ofNat_of_zero_le (h n hn).1
  have hm : m < 2 ^ 64 := by have := (h _ hn).2; omega
  have : (UInt64.ofNat m).toInt64.toUInt64 = UInt64.ofNat m := by simp
  simp only [Function.comp_def, Int.toNat_natCast, this, id]
  rw [UInt64.toNat_ofNat_of_lt' (by simpa [UInt64.size] using hm)]

theorem nums_i64 {l : List Int} (h : ∀ n ∈ l, -2 ^ 63 ≤ n ∧ n < 2 ^ 63) : ((l.map Int64.ofInt).map (·.toInt)) = l := by
  rw [List.map_map]
  conv => rhs; rw [← List.map_id l]
  refine List.map_congr_left fun n hn => ?_
  have := h n hn
  exact int_back (by omega) (by omega)

/-- All field types. -/
theorem save_field (hex fb nb S) (drv : Driver) (k : Kind) (nu key ids : Bool) (g : GoVal) (hd : k ≠ .dec) (hg : Spec.FieldVal (expected k nu key ids) g) :
    (∃ g', saveLoad hex fb nb S drv k nu (expected k nu key ids) g = some g' ∧ Spec.SameField (expected k nu key ids) g g') ↔ ¬ Spec.NotKept S nb drv k nu (expected k nu key ids) g := by
  have xcase : ∀ (w : Width) (t : GT) (n : Int), t = expected (.int w) true false ids → t ≠ .id → t ≠ .id32 → 
      fieldValue nb t (.num n) = some (.dv (if n = 0 then .null else .i64 (Int64.ofInt n))) → -2 ^ 63 ≤ n → n < 2 ^ 63 →
      ((∃ g', saveLoad hex fb nb S drv (.int w) true t (.num n) = some g' ∧ Spec.SameField t (.num n) g') ↔ ¬ Spec.NotKept S nb drv (.int w) true t (.num n)) := by
    intro w t n ht h1 h2 hv h3 h4
    rw [save_x hex fb nb S drv w true ids t n ht hv h3 h4]
    simp only [Spec.NotKept, h1, h2, false_and, false_or, ne_eq, not_false_iff, true_and, Kind.int.injEq, exists_eq_left']
    omega
  have icase : ∀ (w : Width) (b : Nat) (n : Int), expected (.int w) false false ids = .int b → (-2 ^ (b - 1) ≤ n ∧ n < 2 ^ (b - 1)) → -2 ^ 63 ≤ n → n < 2 ^ 63 →
      ((∃ g', saveLoad hex fb nb S drv (.int w) false (.int b) (.num n) = some g' ∧ Spec.SameField (.int b) (.num n) g') ↔ ¬ Spec.NotKept S nb drv (.int w) false (.int b) (.num n)) := by
    intro w b n ht h0 h3 h4
    rw [save_i hex fb nb S drv w ids n b ht h0 h3 h4]
    simp only [Spec.NotKept, reduceCtorEq, false_and, false_or, ne_eq, not_false_iff, true_and, Kind.int.injEq, exists_eq_left']
    omega
  cases k with
  | dec => exact absurd rfl hd
  | int w =>
    have hn : ∃ n, g = .num n := by
      cases w <;> cases key <;> cases nu <;> cases g <;> first | exact ⟨_, rfl⟩ | exact False.elim hg
    obtain ⟨n, rfl⟩ := hn
    cases w with
    | tiny =>
      cases nu
      · have h : -2 ^ (8 - 1) ≤ n ∧ n < 2 ^ (8 - 1) := hg
        exact icase .tiny 8 n rfl h (by omega) (by omega)
      · have h : -2 ^ 31 ≤ n ∧ n < 2 ^ 31 := hg
        exact xcase .tiny .xint32 n rfl (by decide) (by decide) (xint32_value (by omega) (by omega)) (by omega) (by omega)
    | small =>
      cases nu
      · have h : -2 ^ (16 - 1) ≤ n ∧ n < 2 ^ (16 - 1) := hg
        exact icase .small 16 n rfl h (by omega) (by omega)
      · have h : -2 ^ 31 ≤ n ∧ n < 2 ^ 31 := hg
        exact xcase .small .xint32 n rfl (by decide) (by decide) (xint32_value (by omega) (by omega)) (by omega) (by omega)
    | four =>
      cases key
      · cases nu
        · have h : -2 ^ (32 - 1) ≤ n ∧ n < 2 ^ (32 - 1) := hg
          exact icase .four 32 n rfl h (by omega) (by omega)
        · have h : -2 ^ 31 ≤ n ∧ n < 2 ^ 31 := hg
          exact xcase .four .xint32 n rfl (by decide) (by decide) (xint32_value (by omega) (by omega)) (by omega) (by omega)
      · have h : 0 ≤ n ∧ n < 2 ^ 32 := hg
        have e : expected (.int .four) nu true ids = .id32 := rfl
        rw [e, save_id32 hex fb nb S drv nu n h]
        simp only [Spec.NotKept, reduceCtorEq, false_and, false_or, ne_eq, not_false_iff, not_true, true_and, or_false]
        split
        · rename_i hc; exact ⟨fun h => absurd h not_same_field, fun h => absurd hc h⟩
        · rename_i hc; exact ⟨fun _ => hc, fun _ => ⟨_, rfl, rfl⟩⟩
    | eight =>
      cases key
      · cases nu
        · have h : -2 ^ (64 - 1) ≤ n ∧ n < 2 ^ (64 - 1) := hg
          exact icase .eight 64 n rfl h (by omega) (by omega)
        · have h : -2 ^ 63 ≤ n ∧ n < 2 ^ 63 := hg
          exact xcase .eight .xint64 n rfl (by decide) (by decide) (xint64_value (by omega) (by omega)) (by omega) (by omega)
      · have h : 0 ≤ n ∧ n < 2 ^ 64 := hg
        have e : expected (.int .eight) nu true ids = .id := rfl
        rw [e, save_id hex fb nb S drv nu n h]
        simp only [Spec.NotKept, reduceCtorEq, false_and, false_or, ne_eq, not_false_iff, not_true, true_and, or_false, and_false]
        split
        · rename_i hc; exact ⟨fun h => absurd h not_same_field, fun h => absurd hc h⟩
        · rename_i hc; exact ⟨fun _ => hc, fun _ => ⟨_, rfl, rfl⟩⟩
  | bool =>
    cases nu <;> cases g <;> first | exact False.elim hg | skip
    · rename_i b
      exact ⟨fun _ h => h, fun _ => ⟨.bool b, rfl, rfl⟩⟩
    · rename_i b
      exact ⟨fun _ h => h, fun _ => ⟨.bool b, by cases b <;> rfl, rfl⟩⟩
  | dbl =>
    cases nu <;> cases g <;> first | exact False.elim hg | skip
    · rename_i d
      exact ⟨fun _ h => h, fun _ => ⟨.float d, rfl, Or.inl rfl⟩⟩
    · rename_i d
      refine ⟨fun _ h => h, fun _ => ?_⟩
      by_cases hz : ∃ neg, d = .fin neg 0
      · obtain ⟨neg, rfl⟩ := hz
        exact ⟨.float (.fin false 0), rfl, Or.inr ⟨_, _, rfl, rfl⟩⟩
      · have hv := ((C77_value_scan hex (.fin false 0) d).2 (fun neg h => hz ⟨neg, h⟩)).1
        refine ⟨.float d, ?_, Or.inl rfl⟩
        simp [saveLoad, expected, readField, given, kept, floatScan, fieldValue, hv, store, Storage.apply]
  | text =>
    cases nu <;> cases g <;> first | exact False.elim hg | skip
    all_goals rename_i s
    · simp only [saveLoad, expected, Bool.false_eq_true, if_false, fieldValue, bind, Option.bind_some, store, Storage.apply, Spec.NotKept, ne_eq, not_true, not_false_iff, false_and, and_false, false_or, reduceCtorEq, true_or, true_and]
      cases hk : S.keep s with
      | none => simp
      | some s' =>
        change (∃ g', some (GoVal.str s') = some g' ∧ _) ↔ _
        rw [same_str (by decide)]; simp [eq_comm]
    · by_cases hs : s = []
      · subst hs
        simp only [Spec.NotKept, expected, if_true, reduceCtorEq, false_and, and_false, false_or, or_false, not_true, ne_eq, not_false_iff, iff_true]
        exact ⟨.str [], rfl, rfl⟩
      · simp only [saveLoad, expected, if_true, fieldValue, nstrValue, hs, if_false, bind, Option.bind_some, store, Storage.apply, Spec.NotKept, ne_eq, not_true, not_false_iff, false_and, and_false, false_or, reduceCtorEq, or_true, true_and]
        cases hk : S.keep s with
        | none => simp
        | some s' =>
          change (∃ g', some (GoVal.str s') = some g' ∧ _) ↔ _
          rw [same_str (by decide)]; simp [eq_comm]
  | «opaque» =>
    cases nu <;> cases g <;> first | exact False.elim hg | skip
    all_goals rename_i s
    · simp only [saveLoad, expected, Bool.false_eq_true, if_false, fieldValue, bind, Option.bind_some, store, Storage.apply, Spec.NotKept, ne_eq, not_true, not_false_iff, false_and, and_false, false_or, reduceCtorEq, true_or, true_and]
      cases hk : S.keep s with
      | none => simp
      | some s' =>
        change (∃ g', some (GoVal.str s') = some g' ∧ _) ↔ _
        rw [same_str (by decide)]; simp [eq_comm]
    · by_cases hs : s = []
      · subst hs
        simp only [Spec.NotKept, expected, if_true, reduceCtorEq, false_and, and_false, false_or, or_false, not_true, ne_eq, not_false_iff, iff_true]
        exact ⟨.str [], rfl, rfl⟩
      · simp only [saveLoad, expected, if_true, fieldValue, nstrValue, hs, if_false, bind, Option.bind_some, store, Storage.apply, Spec.NotKept, ne_eq, not_true, not_false_iff, false_and, and_false, false_or, reduceCtorEq, or_true, true_and]
        cases hk : S.keep s with
        | none => simp
        | some s' =>
          change (∃ g', some (GoVal.str s') = some g' ∧ _) ↔ _
          rw [same_str (by decide)]; simp [eq_comm]
  | json =>
    cases g <;> first | exact False.elim hg | skip
    rename_i s
    by_cases hs : s = []
    · subst hs
      simp only [Spec.NotKept, expected, reduceCtorEq, false_and, and_false, false_or, or_false, not_true, ne_eq, not_false_iff, true_and]
      cases nu
      · simp only [not_true, iff_false]; exact not_same_field
      · simp only [reduceCtorEq, not_false_iff, iff_true]; exact ⟨.str [], rfl, rfl⟩
    · simp only [saveLoad, expected, fieldValue, nstrValue, hs, if_false, bind, Option.bind_some, store, Storage.apply, Spec.NotKept, ne_eq, not_true, not_false_iff, false_and, and_false, false_or, reduceCtorEq, or_true, true_and]
      cases hk : S.keep s with
      | none => simp
      | some s' =>
        change (∃ g', some (GoVal.str s') = some g' ∧ _) ↔ _
        rw [same_str (by decide)]; simp [eq_comm]
  | bin =>
    cases g <;> first | exact False.elim hg | skip
    rename_i s
    cases s with
    | some s => exact ⟨fun _ h => h, fun _ => ⟨.bytes (some s), rfl, rfl⟩⟩
    | none =>
      cases nb <;> cases nu <;> simp only [Spec.NotKept, reduceCtorEq, or_true, true_or, or_self, not_true, not_false_iff, iff_true, iff_false]
      · rintro ⟨g', h, hs⟩; cases h; cases hs
      · rintro ⟨g', h, hs⟩; cases h; cases hs
      · exact not_same_field
      · exact ⟨.bytes none, rfl, rfl⟩
  | time =>
    cases g <;> first | exact False.elim hg | skip
    rename_i t
    simp only [saveLoad, expected, fieldValue, Tm.value, Tm.GoTime.isZero, Spec.NotKept, bind, Option.bind_some]
    by_cases hz : t.ns = 0
    · cases nu
      · simp [hz, store]
      · simp only [hz, beq_self_eq_true, if_true, store, Option.bind_some, Storage.apply, true_and, reduceCtorEq, not_true, false_and, or_self, not_false_iff, iff_true, ne_eq]
        exact ⟨.time Tm.zero, rfl, hz⟩
    · simp [hz, store, Storage.apply, given, readField, kept, Tm.scan, Tm.GoTime.utc, Spec.SameField]
      exact eq_comm
  | uuid =>
    cases g <;> first | exact False.elim hg | skip
    rename_i s
    by_cases hs : s = []
    · subst hs
      simp only [Spec.NotKept, expected, reduceCtorEq, false_and, and_false, false_or, or_false, not_true, ne_eq, not_false_iff, true_and]
      cases nu
      · simp only [not_true, iff_false]; exact not_same_field
      · simp only [reduceCtorEq, not_false_iff, iff_true]; exact ⟨.str [], rfl, by simp [Spec.SameField]⟩
    · simp only [saveLoad, expected, fieldValue, uuidValue, hs, if_false, bind, Option.bind_some, store, Spec.NotKept, ne_eq, not_true, not_false_iff, false_and, and_false, false_or, or_false, reduceCtorEq, or_true, true_and]
      cases hu : uuidOfText s with
      | none =>
        simp only [Option.map_none, Option.bind_none]
        refine ⟨fun h => absurd h not_same_field, fun h => absurd (Or.inr ?_) h⟩
        rintro ⟨u, h1, h2⟩
        rw [uuidOfText_iff.2 ⟨h1, h2⟩] at hu
        cases hu
      | some u =>
        obtain ⟨h1, h2⟩ := uuidOfText_iff.1 hu
        have hi : Spec.IsUuid s := ⟨u, h1, h2⟩
        simp only [Option.map_some, Option.bind_some, Storage.apply, given, readField, hi, not_true, or_false]
        cases drv with
        | pg =>
          have e : uuidScan [] (.bytes (pgUuid u)) = ([], true) := by rw [C19_wrong_length_not_rejected _ _ (by rw [pgUuid_length h1]; decide)]
          simp [kept, e, Spec.SameField, hs]
        | ms =>
          simp [kept, msUuid_read h1, Spec.SameField, h2]
  | ints =>
    cases g <;> first | (cases ids <;> exact False.elim hg) | skip
    rename_i l
    cases ids
    · cases l with
      | none =>
        simp only [Spec.NotKept, expected, Bool.false_eq_true, if_false, true_or, and_true]
        cases nu
        · simp only [not_true, iff_false]; exact not_same_field
        · simp only [reduceCtorEq, not_false_iff, iff_true]; exact ⟨.nums none, rfl, by simp [Spec.SameField]⟩
      | some l =>
        have hl : ∀ n ∈ l, -2 ^ 63 ≤ n ∧ n < 2 ^ 63 := hg
        simp only [Spec.NotKept, expected, Bool.false_eq_true, if_false, reduceCtorEq, false_and, or_self, and_false, not_false_iff, iff_true]
        refine ⟨.nums (some l), ?_, by simp [Spec.SameField]⟩
        simp only [saveLoad, fieldValue, bind, Option.bind_some, pqValue, store, array_read, Option.map_some, Storage.apply, given, readField, nums_i64 hl]
    · have hl : ∀ n ∈ l.getD [], 0 ≤ n ∧ n < 2 ^ 64 := hg
      have hnk : Spec.NotKept S nb drv .ints nu (expected .ints nu key true) (.nums l) ↔ nu = false ∧ l.getD [] = [] := by
        cases l with
        | none => simp [Spec.NotKept]
        | some l => simp [Spec.NotKept, expected]
      rw [hnk]
      simp only [saveLoad, expected, if_true, fieldValue, bind, Option.bind_some, arrayValue]
      generalize he : l.getD [] = m at hl
      by_cases hm : m = []
      · subst hm
        cases nu
        · simp [store]
        · simp only [List.map_nil, if_true, store, Option.bind_some, Storage.apply, reduceCtorEq, false_and, not_false_iff, iff_true]
          exact ⟨.nums (some []), rfl, by simp [Spec.SameField, he]⟩
      · rw [if_neg (by simpa using hm)]
        simp only [pqValue, store, array_read, Option.map_some, Option.bind_some, Storage.apply, given, readField, kept, arrayScan, if_true, List.map_map, hm, and_false, not_false_iff, iff_true]
        refine ⟨_, rfl, ?_⟩
        simp only [Spec.SameField, if_true, Option.getD_some, he]
        exact (nums_u64 hl).symm

/-- **C109, one field** (all column types but decimal fractions): for every value a generated field can hold, saving it in its column and loading it into a fresh field gives the same value back
if and only if it is none of those of `Spec.NotKept`; otherwise the database refuses it or the loaded field differs. -/
theorem C109_field_saved_and_loaded_iff (hex fb nb S) (eqFold : Bytes → Bytes → Bool) (over : Bytes → Option Bytes) (drv : Driver) (c : Column) (k : Kind)
    (ho : NoOverride over c) (ho' : over b!"_count" = none) (hk : kindOf drv c = some k) (hd : k ≠ .dec) :
    ∃ r t, toGoType eqFold over c = some r ∧ goTypeOf r = some t ∧ ∀ g, Spec.FieldVal t g →
      ((∃ g', saveLoad hex fb nb S drv k c.nullable t g = some g' ∧ Spec.SameField t g g') ↔ ¬ Spec.NotKept S nb drv k c.nullable t g) := by
  obtain ⟨r, hr, ht⟩ := Option.bind_eq_some_iff.1 (chosen eqFold over drv c k ho ho' hk)
  exact ⟨r, _, hr, ht, fun g hg => save_field hex fb nb S drv k c.nullable _ _ g hd hg⟩

/-- The hypotheses can be met: a 64-bit key above 2⁶³ is kept; a negative tinyint is not; nor is a UUID in PostgreSQL. -/
example : Spec.FieldVal .id (.num (2 ^ 64 - 1)) ∧ ¬ Spec.NotKept ⟨id, some⟩ true .pg (.int .eight) false .id (.num (2 ^ 64 - 1))
    ∧ Spec.FieldVal (.int 8) (.num (-1)) ∧ Spec.NotKept ⟨id, some⟩ true .ms (.int .tiny) false (.int 8) (.num (-1))
    ∧ Spec.NotKept ⟨id, some⟩ true .pg .uuid true .uuid (.str b!"6F9619FF-8B86-D011-B42D-00CF4FC964FF")
    ∧ ¬ Spec.NotKept ⟨id, some⟩ true .ms .uuid true .uuid (.str b!"6F9619FF-8B86-D011-B42D-00CF4FC964FF") := by
  refine ⟨⟨by decide, by decide⟩, ?_, ⟨by decide, by decide⟩, Or.inr (Or.inr ⟨by decide, by decide, .tiny, rfl, Or.inl (by decide)⟩), Or.inr (Or.inl ⟨rfl, by decide, Or.inl rfl⟩), ?_⟩
  · rintro (⟨_, h, _⟩ | ⟨h, _⟩ | ⟨h, _⟩)
    · exact absurd h (by decide)
    · cases h
    · exact h rfl
  · rintro (⟨h, _⟩ | ⟨_, _, h | h⟩ | ⟨h, _⟩)
    · exact absurd h (by decide)
    · cases h
    · exact h ⟨[0x6F, 0x96, 0x19, 0xFF, 0x8B, 0x86, 0xD0, 0x11, 0xB4, 0x2D, 0x00, 0xCF, 0x4F, 0xC9, 0x64, 0xFF], rfl, by decide +kernel⟩
    · exact h rfl

end Gen
