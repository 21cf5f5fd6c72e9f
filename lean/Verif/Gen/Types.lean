import Verif.Schema.Model
import Verif.Types.ColumnProps
import Verif.Types.TimeProps
set_option linter.unusedVariables false
set_option linter.unusedSimpArgs false
/-!
The type mapper of the code generator (internal/cli/schema/types.go): C57, C73.
-/
namespace Gen
open Schema

/-- types.go:16-98 `typeByColumnType`, entry by entry. -/
def typeTable : List (Bytes × Bytes) := [
  (b!"id bigint", b!"xdb.ID"),
  (b!"id bigint NULL", b!"xdb.ID"),
  (b!"id int8", b!"xdb.ID"),
  (b!"id int8 NULL", b!"xdb.ID"),
  (b!"id int", b!"xdb.ID32"),
  (b!"id int NULL", b!"xdb.ID32"),
  (b!"id int4", b!"xdb.ID32"),
  (b!"id int4 NULL", b!"xdb.ID32"),
  (b!"bigint", b!"int64"),
  (b!"bigint NULL", b!"xdb.Int64"),
  (b!"int8", b!"int64"),
  (b!"int4", b!"int32"),
  (b!"int", b!"int32"),
  (b!"int2", b!"int16"),
  (b!"smallint", b!"int16"),
  (b!"tinyint", b!"int8"),
  (b!"decimal", b!"float64"),
  (b!"numeric", b!"float64"),
  (b!"real", b!"float32"),
  (b!"float4", b!"float32"),
  (b!"float8", b!"float64"),
  (b!"bool", b!"bool"),
  (b!"boolean", b!"bool"),
  (b!"bit", b!"bool"),
  (b!"jsonb", b!"xdb.NULLString"),
  (b!"bytea", b!"[]byte"),
  (b!"nchar", b!"string"),
  (b!"nvarchar", b!"string"),
  (b!"char", b!"string"),
  (b!"varchar", b!"string"),
  (b!"bpchar", b!"string"),
  (b!"text", b!"string"),
  (b!"cidr", b!"string"),
  (b!"inet", b!"string"),
  (b!"ltree", b!"string"),
  (b!"int8 NULL", b!"xdb.Int64"),
  (b!"int4 NULL", b!"xdb.Int32"),
  (b!"int NULL", b!"xdb.Int32"),
  (b!"int2 NULL", b!"xdb.Int32"),
  (b!"smallint NULL", b!"xdb.Int32"),
  (b!"tinyint NULL", b!"xdb.Int32"),
  (b!"bool NULL", b!"xdb.Bool"),
  (b!"boolean NULL", b!"xdb.Bool"),
  (b!"bit NULL", b!"xdb.Bool"),
  (b!"decimal NULL", b!"xdb.Float"),
  (b!"numeric NULL", b!"xdb.Float"),
  (b!"real NULL", b!"xdb.Float"),
  (b!"float4 NULL", b!"xdb.Float"),
  (b!"float8 NULL", b!"xdb.Float"),
  (b!"time", b!"xdb.Time"),
  (b!"date", b!"xdb.Time"),
  (b!"datetime", b!"xdb.Time"),
  (b!"datetime2", b!"xdb.Time"),
  (b!"timestamp", b!"xdb.Time"),
  (b!"timestamptz", b!"xdb.Time"),
  (b!"nchar NULL", b!"xdb.NULLString"),
  (b!"nvarchar NULL", b!"xdb.NULLString"),
  (b!"char NULL", b!"xdb.NULLString"),
  (b!"bpchar NULL", b!"xdb.NULLString"),
  (b!"varchar NULL", b!"xdb.NULLString"),
  (b!"text NULL", b!"xdb.NULLString"),
  (b!"cidr NULL", b!"xdb.NULLString"),
  (b!"inet NULL", b!"xdb.NULLString"),
  (b!"ltree NULL", b!"xdb.NULLString"),
  (b!"uniqueidentifier", b!"xdb.UUID"),
  (b!"uuid", b!"xdb.UUID"),
  (b!"uniqueidentifier NULL", b!"xdb.UUID"),
  (b!"uuid NULL", b!"xdb.UUID")]

/-- types.go `typeByColumnType[k]` with the test `res != ""`. -/
def typeOf (k : Bytes) : Option Bytes := (typeTable.lookup k).bind fun v => if v = [] then none else some v

/-- Go `strings.HasSuffix`. -/
def hasSuffix (s suf : Bytes) : Bool := suf.isSuffixOf s

/-- types.go:100-105 `isID`. -/
def isID (eqFold : Bytes → Bytes → Bool) (name : Bytes) : Bool :=
  eqFold name b!"id" || hasSuffix name b!"_id" || hasSuffix name b!"Id" || hasSuffix name b!"ID"

/-- types.go:142-151: the loop over the candidate type names. -/
def tryTypes (nullable : Bool) : List Bytes → Option Bytes
  | [] => none
  | t :: ts =>
    match (if nullable then typeOf (t ++ b!" NULL") else none) with
    | some r => some r
    | none => match typeOf t with
      | some r => some r
      | none => tryTypes nullable ts

/-- types.go:107-153 `toGoType`; `none`: it panics.  `over` is the map `typesMap`. -/
def toGoType (eqFold : Bytes → Bytes → Bool) (over : Bytes → Option Bytes) (c : Column) : Option Bytes :=
  match over c.name with
  | some r => some r
  | none => match over c.schemaName with
    | some r => some r
    | none =>
      match (if c.udtType = b!"int4" ∧ c.nullable = false ∧ hasSuffix c.name b!"_count" then over b!"_count" else none) with
      | some r => some r
      | none =>
        if c.type = b!"ARRAY" then
          if c.udtType = b!"_int8" then some (if hasSuffix c.name b!"_ids" then b!"xdb.IDArray" else b!"pq.Int64Array")
          else if c.udtType = b!"_text" ∨ c.udtType = b!"_varchar" then some b!"pq.StringArray"
          else none
        else
          let typ := if c.udtType = [] then c.type else c.udtType
          tryTypes c.nullable (if isID eqFold c.name then [b!"id " ++ typ, typ] else [typ])

/-! ### C57 -/

/-- The Go types into which database/sql can scan NULL: `[]byte` (becomes nil), lib/pq's arrays (become nil), and the column types of this
package (their `Scan(nil)` succeeds, see `C57_types_accept_null`; for `xdb.Float` this is read off types.go:566-585).
The numeric types, `bool` and `string` are not among them: scanning NULL into them is an error. -/
def Spec.acceptsNull : List Bytes :=
  [b!"[]byte", b!"pq.Int64Array", b!"pq.StringArray", b!"xdb.IDArray", b!"xdb.ID", b!"xdb.ID32", b!"xdb.Int64", b!"xdb.Int32", b!"xdb.Bool",
   b!"xdb.Float", b!"xdb.Time", b!"xdb.NULLString", b!"xdb.UUID"]

/-- The override does not apply to this column. -/
def NoOverride (over : Bytes → Option Bytes) (c : Column) : Prop := over c.name = none ∧ over c.schemaName = none

/-- Every type name that has a type which cannot hold NULL also has an entry with the suffix " NULL", and every entry with that suffix can hold NULL. -/
theorem table_covers : (∀ e ∈ typeTable, e.2 ∈ Spec.acceptsNull ∨ (typeOf (e.1 ++ b!" NULL")).isSome)
    ∧ ∀ e ∈ typeTable, hasSuffix e.1 b!" NULL" = true → e.2 ∈ Spec.acceptsNull := by
  constructor <;> decide +kernel

theorem lookup_mem' : ∀ (l : List (Bytes × Bytes)) (k v : Bytes), l.lookup k = some v → (k, v) ∈ l := by
  intro l
  induction l with
  | nil => intro k v h; cases h
  | cons e l ih =>
    intro k v h
    obtain ⟨a, b⟩ := e
    by_cases hk : k = a
    · subst hk; simp only [List.lookup_cons, beq_self_eq_true, Option.some.injEq] at h; subst h; simp
    · rw [List.lookup_cons, beq_false_of_ne hk] at h
      exact List.mem_cons_of_mem _ (ih k v h)

theorem typeOf_mem {k v : Bytes} (h : typeOf k = some v) : (k, v) ∈ typeTable := by
  unfold typeOf at h
  cases hl : typeTable.lookup k with
  | none => rw [hl] at h; cases h
  | some w =>
    rw [hl] at h
    simp only [Option.bind_some] at h
    split at h
    · cases h
    · cases h; exact lookup_mem' _ _ _ hl

theorem tryTypes_null : ∀ (ts : List Bytes) (r : Bytes), tryTypes true ts = some r → r ∈ Spec.acceptsNull := by
  intro ts
  induction ts with
  | nil => intro r h; cases h
  | cons t ts ih =>
    intro r h
    simp only [tryTypes, if_true] at h
    cases h1 : typeOf (t ++ b!" NULL") with
    | some v =>
      rw [h1] at h
      cases h
      refine table_covers.2 _ (typeOf_mem h1) ?_
      simp [hasSuffix]
    | none =>
      rw [h1] at h
      simp only at h
      cases h2 : typeOf t with
      | some v =>
        rw [h2] at h
        cases h
        rcases table_covers.1 _ (typeOf_mem h2) with h3 | h3
        · exact h3
        · rw [h1] at h3; cases h3
      | none => rw [h2] at h; exact ih r h

/-- **C57**: for every nullable column, of any name and any database type, the Go type the built-in mapping chooses can hold NULL. -/
theorem C57_nullable_columns_accept_null (eqFold : Bytes → Bytes → Bool) (over : Bytes → Option Bytes) (c : Column) (r : Bytes) (hn : c.nullable = true)
    (ho : NoOverride over c) (h : toGoType eqFold over c = some r) : r ∈ Spec.acceptsNull := by
  unfold toGoType at h
  rw [ho.1, ho.2] at h
  simp only [hn, Bool.true_eq_false, false_and, and_false, if_false] at h
  split at h
  · split at h
    · cases h; split <;> decide
    · split at h
      · cases h; decide
      · cases h
  · exact tryTypes_null _ _ h

/-- What the model of the column types says about scanning NULL: always accepted. -/
theorem C57_types_accept_null :
    (∀ h v, (Types.scan h v .null).2.2 = true) ∧ (∀ v, (Types.id32Scan v .null).2 = true) ∧ (∀ v, (Types.int64Scan v .null).2 = true)
    ∧ (∀ v, (Types.int32Scan v .null).2 = true) ∧ (∀ v, (Types.boolScan v .null).2 = true) ∧ (∀ v, (Types.nstrScan v .null).2 = true)
    ∧ (∀ v, (Types.uuidScan v .null).2 = true) ∧ (Types.arrayScan .null).2 = true ∧ (∀ fb v, (Types.Tm.scan fb v .null).2 = true) := by
  refine ⟨?_, ?_, ?_, ?_, ?_, ?_, ?_, ?_, ?_⟩ <;> first | rfl | (intros; rfl)

/-- A nullable bigint that looks like a key, in a table without overrides. -/
def parentID : Column := ⟨b!"parent_id", b!"bigint", b!"int8", true, 0, 2, b!"public.user.parent_id", none, []⟩

example : toGoType (fun a b => a == b) (fun _ => none) parentID = some b!"xdb.ID" := by decide +kernel
example : toGoType (fun a b => a == b) (fun _ => none) { parentID with name := b!"age", udtType := b!"int2" } = some b!"xdb.Int32" := by decide +kernel
example : parentID.nullable = true ∧ NoOverride (fun _ => none) parentID := ⟨rfl, rfl, rfl⟩

/-- **C57, a limit**: an override by column name applies to the nullable columns of that name too. -/
theorem C57_override_ignores_nullability :
    toGoType (fun a b => a == b) (fun n => if n = b!"status" then some b!"int32" else none)
      ⟨b!"status", b!"integer", b!"int4", true, 0, 3, b!"public.user.status", none, []⟩ = some b!"int32" ∧ b!"int32" ∉ Spec.acceptsNull := by
  decide +kernel

/-! ### C73: the chosen type has room for the values of an integer column -/

/-- Values an integer column type can hold (PostgreSQL int2, int4, int8; SQL Server tinyint, smallint, int, bigint): least and greatest. -/
def Spec.sqlRange : List (Bytes × Int × Int) :=
  [(b!"int2", -2^15, 2^15 - 1), (b!"int4", -2^31, 2^31 - 1), (b!"int8", -2^63, 2^63 - 1),
   (b!"smallint", -2^15, 2^15 - 1), (b!"int", -2^31, 2^31 - 1), (b!"bigint", -2^63, 2^63 - 1), (b!"tinyint", 0, 255)]

/-- Integers a Go type can hold without changing them. -/
def Spec.goRange : List (Bytes × Int × Int) :=
  [(b!"int8", -2^7, 2^7 - 1), (b!"int16", -2^15, 2^15 - 1), (b!"int32", -2^31, 2^31 - 1), (b!"int64", -2^63, 2^63 - 1),
   (b!"xdb.Int32", -2^31, 2^31 - 1), (b!"xdb.Int64", -2^63, 2^63 - 1), (b!"xdb.ID", 0, 2^64 - 1), (b!"xdb.ID32", 0, 2^32 - 1)]

/-- The integers of column type `typ` fit into the Go type `g`. -/
def Spec.fits (typ g : Bytes) : Prop :=
  ∀ lo hi, Spec.sqlRange.lookup typ = some (lo, hi) → ∃ lo' hi', Spec.goRange.lookup g = some (lo', hi') ∧ ∀ i : Int, lo ≤ i → i ≤ hi → lo' ≤ i ∧ i ≤ hi'

/-- The non-negative ones do. -/
def Spec.fitsNonneg (typ g : Bytes) : Prop :=
  ∀ lo hi, Spec.sqlRange.lookup typ = some (lo, hi) → ∃ lo' hi', Spec.goRange.lookup g = some (lo', hi') ∧ ∀ i : Int, 0 ≤ i → lo ≤ i → i ≤ hi → lo' ≤ i ∧ i ≤ hi'

theorem range_keys {typ : Bytes} {x : Int × Int} (h : Spec.sqlRange.lookup typ = some x) :
    typ = b!"int2" ∨ typ = b!"int4" ∨ typ = b!"int8" ∨ typ = b!"smallint" ∨ typ = b!"int" ∨ typ = b!"bigint" ∨ typ = b!"tinyint" := by
  have key : ∀ (l : List (Bytes × Int × Int)), l.lookup typ = some x → typ ∈ l.map (·.1) := by
    intro l
    induction l with
    | nil => intro h; cases h
    | cons e l ih =>
      intro h
      obtain ⟨a, b⟩ := e
      by_cases hk : typ = a
      · simp [hk]
      · rw [List.lookup_cons, beq_false_of_ne hk] at h
        exact List.mem_cons_of_mem _ (ih h)
  simpa [Spec.sqlRange] using key _ h

/-- Interval inclusion, computed. -/
def fitsB (lo0 : Option Int) (typ g : Bytes) : Bool :=
  match Spec.sqlRange.lookup typ with
  | none => true
  | some (lo, hi) => match Spec.goRange.lookup g with
    | none => false
    | some (lo', hi') => decide (lo' ≤ max lo (lo0.getD lo)) && decide (hi ≤ hi')

theorem fitsB_sound {typ g : Bytes} (h : fitsB none typ g = true) : Spec.fits typ g := by
  intro lo hi hr
  unfold fitsB at h
  rw [hr] at h
  simp only at h
  cases hg : Spec.goRange.lookup g with
  | none => rw [hg] at h; cases h
  | some x =>
    rw [hg] at h
    obtain ⟨lo', hi'⟩ := x
    simp only [Option.getD_none, Bool.and_eq_true, decide_eq_true_eq] at h
    exact ⟨lo', hi', rfl, fun i h1 h2 => by omega⟩

theorem fitsB_nonneg {typ g : Bytes} (h : fitsB (some 0) typ g = true) : Spec.fitsNonneg typ g := by
  intro lo hi hr
  unfold fitsB at h
  rw [hr] at h
  simp only at h
  cases hg : Spec.goRange.lookup g with
  | none => rw [hg] at h; cases h
  | some x =>
    rw [hg] at h
    obtain ⟨lo', hi'⟩ := x
    simp only [Option.getD_some, Bool.and_eq_true, decide_eq_true_eq] at h
    exact ⟨lo', hi', rfl, fun i h0 h1 h2 => by omega⟩

/-- What the mapper chooses for a column without overrides. -/
theorem toGoType_plain {eqFold : Bytes → Bytes → Bool} {over : Bytes → Option Bytes} {c : Column} {r : Bytes} (ho : NoOverride over c) (ho' : over b!"_count" = none)
    (harr : c.type ≠ b!"ARRAY") (h : toGoType eqFold over c = some r) :
    tryTypes c.nullable (if isID eqFold c.name then [b!"id " ++ (if c.udtType = [] then c.type else c.udtType), if c.udtType = [] then c.type else c.udtType]
      else [if c.udtType = [] then c.type else c.udtType]) = some r := by
  unfold toGoType at h
  rw [ho.1, ho.2] at h
  simpa only [ho', ite_self, if_neg harr] using h

/-- The database type of a column: the user-defined name if there is one. -/
def Spec.dbType (c : Column) : Bytes := if c.udtType = [] then c.type else c.udtType

/-- The names of columns taken for keys: `id` in any case, and what ends in `_id`, `Id` or `ID`. -/
def Spec.keyName (eqFold : Bytes → Bytes → Bool) (name : Bytes) : Prop :=
  eqFold name b!"id" = true ∨ ∃ pre : Bytes, name = pre ++ b!"_id" ∨ name = pre ++ b!"Id" ∨ name = pre ++ b!"ID"

theorem hasSuffix_iff {s suf : Bytes} : hasSuffix s suf = true ↔ ∃ pre, s = pre ++ suf := by
  unfold hasSuffix
  rw [List.isSuffixOf_iff_suffix]
  exact ⟨fun ⟨p, h⟩ => ⟨p, h.symm⟩, fun ⟨p, h⟩ => ⟨p, h.symm⟩⟩

theorem isID_iff (eqFold : Bytes → Bytes → Bool) (name : Bytes) : isID eqFold name = true ↔ Spec.keyName eqFold name := by
  unfold isID Spec.keyName
  simp only [Bool.or_eq_true, hasSuffix_iff]
  constructor
  · rintro (((h | ⟨p, h⟩) | ⟨p, h⟩) | ⟨p, h⟩)
    · exact Or.inl h
    · exact Or.inr ⟨p, Or.inl h⟩
    · exact Or.inr ⟨p, Or.inr (Or.inl h)⟩
    · exact Or.inr ⟨p, Or.inr (Or.inr h)⟩
  · rintro (h | ⟨p, h | h | h⟩)
    · exact Or.inl (Or.inl (Or.inl h))
    · exact Or.inl (Or.inl (Or.inr ⟨p, h⟩))
    · exact Or.inl (Or.inr ⟨p, h⟩)
    · exact Or.inr ⟨p, h⟩

/-- **C73**, for columns that are not taken for keys: every value of the column fits the Go type chosen, nullable or not, whatever the column is called,
except a `tinyint NOT NULL`. Missing: that one (`C73_tinyint_does_not_fit`) and negative keys (`C73_negative_keys_do_not_fit`). -/
theorem C73_integers_fit_partial (eqFold : Bytes → Bytes → Bool) (over : Bytes → Option Bytes) (c : Column) (r : Bytes) (ho : NoOverride over c) (ho' : over b!"_count" = none)
    (harr : c.type ≠ b!"ARRAY") (hid : ¬ Spec.keyName eqFold c.name) (htiny : Spec.dbType c = b!"tinyint" → c.nullable = true)
    (h : toGoType eqFold over c = some r) : Spec.fits (Spec.dbType c) r := by
  have h := toGoType_plain ho ho' harr h
  rw [if_neg (mt (isID_iff _ _).1 hid)] at h
  change tryTypes c.nullable [Spec.dbType c] = some r at h
  generalize c.nullable = nu at h htiny
  generalize Spec.dbType c = typ at h htiny ⊢
  cases hr : Spec.sqlRange.lookup typ with
  | none => intro lo hi hr'; rw [hr] at hr'; cases hr'
  | some x =>
    apply fitsB_sound
    have key : ∀ t ∈ [b!"int2", b!"int4", b!"int8", b!"smallint", b!"int", b!"bigint", b!"tinyint"], ∀ nu : Bool, (t = b!"tinyint" → nu = true) →
        (match tryTypes nu [t] with | some r => fitsB none t r | none => true) = true := by decide +kernel
    have := key typ (by simpa using range_keys hr) nu htiny
    rw [h] at this
    exact this

/-- **C73**, for keys: every non-negative value fits the Go type chosen (a key column that is a tinyint or smallint is treated as a number). -/
theorem C73_keys_fit_partial (eqFold : Bytes → Bytes → Bool) (over : Bytes → Option Bytes) (c : Column) (r : Bytes) (ho : NoOverride over c) (ho' : over b!"_count" = none)
    (harr : c.type ≠ b!"ARRAY") (hid : Spec.keyName eqFold c.name) (htiny : Spec.dbType c = b!"tinyint" → c.nullable = true)
    (h : toGoType eqFold over c = some r) : Spec.fitsNonneg (Spec.dbType c) r := by
  have h := toGoType_plain ho ho' harr h
  rw [if_pos ((isID_iff _ _).2 hid)] at h
  change tryTypes c.nullable [b!"id " ++ Spec.dbType c, Spec.dbType c] = some r at h
  generalize c.nullable = nu at h htiny
  generalize Spec.dbType c = typ at h htiny ⊢
  cases hr : Spec.sqlRange.lookup typ with
  | none => intro lo hi hr'; rw [hr] at hr'; cases hr'
  | some x =>
    apply fitsB_nonneg
    have key : ∀ t ∈ [b!"int2", b!"int4", b!"int8", b!"smallint", b!"int", b!"bigint", b!"tinyint"], ∀ nu : Bool, (t = b!"tinyint" → nu = true) →
        (match tryTypes nu [b!"id " ++ t, t] with | some r => fitsB (some 0) t r | none => true) = true := by decide +kernel
    have := key typ (by simpa using range_keys hr) nu htiny
    rw [h] at this
    exact this

/-- Examples of both kinds. -/
example : ¬ Spec.keyName (fun a b => a == b) b!"age" ∧ toGoType (fun a b => a == b) (fun _ => none) { parentID with name := b!"age", nullable := false } = some b!"int64" := by
  rw [← isID_iff]; decide +kernel
example : Spec.keyName (fun a b => a == b) parentID.name ∧ Spec.dbType parentID = b!"int8" := by rw [← isID_iff]; decide +kernel

theorem fitsB_iff {typ g : Bytes} : fitsB none typ g = true ↔ Spec.fits typ g := by
  refine ⟨fitsB_sound, ?_⟩
  intro h
  unfold fitsB
  cases hr : Spec.sqlRange.lookup typ with
  | none => rfl
  | some x =>
    obtain ⟨lo, hi⟩ := x
    obtain ⟨lo', hi', hg, hall⟩ := h lo hi hr
    have hle : lo ≤ hi := by
      have key : ∀ t ∈ [b!"int2", b!"int4", b!"int8", b!"smallint", b!"int", b!"bigint", b!"tinyint"],
          (match Spec.sqlRange.lookup t with | some x => decide (x.1 ≤ x.2) | none => true) = true := by decide +kernel
      have := key typ (by simpa using range_keys hr)
      rw [hr] at this
      exact of_decide_eq_true this
    simp only [hg, Option.getD_none, Bool.and_eq_true, decide_eq_true_eq]
    have h1 := hall lo (by omega) hle
    have h2 := hall hi hle (by omega)
    omega

/-- **C73, exactly**: the type chosen for an integer column can hold all its values, except for a `tinyint NOT NULL` and for a signed column of four or eight bytes that is taken for a key. -/
theorem C73_fits_iff (eqFold : Bytes → Bytes → Bool) (over : Bytes → Option Bytes) (c : Column) (r : Bytes) (ho : NoOverride over c) (ho' : over b!"_count" = none)
    (harr : c.type ≠ b!"ARRAY") (hint : (Spec.sqlRange.lookup (Spec.dbType c)).isSome = true) (h : toGoType eqFold over c = some r) :
    Spec.fits (Spec.dbType c) r ↔
      ¬(Spec.dbType c = b!"tinyint" ∧ c.nullable = false) ∧ ¬(Spec.keyName eqFold c.name ∧ Spec.dbType c ∈ [b!"int4", b!"int8", b!"int", b!"bigint"]) := by
  have h := toGoType_plain ho ho' harr h
  rw [← fitsB_iff, ← isID_iff]
  change tryTypes c.nullable (if isID eqFold c.name = true then [b!"id " ++ Spec.dbType c, Spec.dbType c] else [Spec.dbType c]) = some r at h
  generalize c.nullable = nu at h ⊢
  generalize isID eqFold c.name = id at h ⊢
  generalize Spec.dbType c = typ at h hint ⊢
  have key : ∀ t ∈ [b!"int2", b!"int4", b!"int8", b!"smallint", b!"int", b!"bigint", b!"tinyint"], ∀ nu id : Bool,
      (match tryTypes nu (if id = true then [b!"id " ++ t, t] else [t]) with
       | some r => fitsB none t r == decide (¬(t = b!"tinyint" ∧ nu = false) ∧ ¬(id = true ∧ t ∈ [b!"int4", b!"int8", b!"int", b!"bigint"])) | none => true) = true := by decide +kernel
  obtain ⟨x, hx⟩ := Option.isSome_iff_exists.1 hint
  have := key typ (by simpa using range_keys hx) nu id
  rw [h] at this
  have this := eq_of_beq this
  rw [this, decide_eq_true_iff]

example : Spec.dbType parentID = b!"int8" ∧ (Spec.sqlRange.lookup (Spec.dbType parentID)).isSome = true := by decide +kernel

/-- **C73 fails** for SQL Server: a `tinyint NOT NULL` column (0 to 255) becomes an `int8`, which cannot hold 200. -/
theorem C73_tinyint_does_not_fit :
    toGoType (fun a b => a == b) (fun _ => none) ⟨b!"level", b!"tinyint", b!"", false, 0, 1, b!"dbo.t.level", none, []⟩ = some b!"int8"
    ∧ ¬ Spec.fits b!"tinyint" b!"int8" := by
  refine ⟨by decide +kernel, ?_⟩
  intro h
  obtain ⟨lo, hi, hr, hall⟩ := h 0 255 (by decide +kernel)
  have e : Spec.goRange.lookup b!"int8" = some (-2^7, 2^7 - 1) := by decide +kernel
  rw [e] at hr
  cases hr
  have := hall 200 (by omega) (by omega)
  omega

/-- **C73 fails** for negative keys: a bigint column whose name looks like a key becomes an `xdb.ID`, which is unsigned. -/
theorem C73_negative_keys_do_not_fit :
    toGoType (fun a b => a == b) (fun _ => none) parentID = some b!"xdb.ID" ∧ ¬ Spec.fits b!"int8" b!"xdb.ID" := by
  refine ⟨by decide +kernel, ?_⟩
  intro h
  obtain ⟨lo, hi, hr, hall⟩ := h (-2^63) (2^63 - 1) (by decide +kernel)
  have e : Spec.goRange.lookup b!"xdb.ID" = some (0, 2^64 - 1) := by decide +kernel
  rw [e] at hr
  cases hr
  have := hall (-1) (by omega) (by omega)
  omega

end Gen
