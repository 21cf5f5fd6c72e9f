import Verif.Gen.Props
set_option linter.unusedVariables false
set_option linter.unusedSimpArgs false
/-!
Model of the printing commands (internal/cli/schema/schema.go:35-155) and of pkg/print.  C81, C82.
What is written is a list of pieces: texts, and tables handed to the table writer (the library's layout is not modelled).  Errors of the writer are ignored by the code.
-/
namespace Cli
open Schema Gen

/-- Something written to the output. -/
inductive Piece where
  | text (s : Bytes)
  | table (header : List Bytes) (rows : List (List Bytes))
  deriving DecidableEq, Repr

/-- A value to print. -/
inductive Val where
  | tables (ts : List GTable)
  | fks (ks : List ForeignKey)
  deriving DecidableEq, Repr

/-- `encoding/json.MarshalIndent` and `yaml.Marshal`; `none`: error. -/
structure Enc where
  json : Val → Option Bytes
  yaml : Val → Option Bytes

/-- `values.Select(c, "YES", "")`. -/
def yes (b : Bool) : Bytes := if b then b!"YES" else []

/-- pkg/print/schema.go:27-47: the row of a column. -/
def columnRow (c : Column) : List Bytes :=
  [Num.dec c.position.toNat, c.name, c.type, c.udtType, yes c.nullable, if c.maxLength > 0 then Num.dec c.maxLength.toNat else [], yes (decide (c.indexes.length > 0)),
    match c.ref with | some fk => fk.refColumnSchemaName | none => []]

/-- `strings.Join(names, ", ")`. -/
def joinNames : List Bytes → Bytes
  | [] => []
  | [a] => a
  | a :: l => a ++ b!", " ++ joinNames l

/-- pkg/print/schema.go:60-74 `SchemaIndexes`. -/
def schemaIndexes (is : List Index) : List Piece :=
  [.table [b!"Name", b!"Primary", b!"Unique", b!"Columns"] (is.map fun i => [i.name, yes i.isPrimary, yes i.isUnique, joinNames i.columnNames]), .text b!"\n"]

/-- pkg/print/schema.go:21-57 `SchemaTable`. -/
def schemaTable (t : GTable) : List Piece :=
  [.text (b!"Schema: " ++ t.schema ++ b!"\nTable: " ++ t.name ++ b!"\n\n"),
    .table [b!"Ord", b!"Name", b!"Type", b!"UDT", b!"NULL", b!"Max", b!"Index", b!"Ref"] (t.columns.map columnRow)]
  ++ (if t.indexes.length > 0 then .text b!"\nIndexes:\n" :: schemaIndexes t.indexes else [.text b!"\n"])

/-- pkg/print/schema.go:77-96 `SchemaForeingKeys`. -/
def schemaFks (ks : List ForeignKey) : List Piece :=
  [.table [b!"Name", b!"Schema", b!"Table", b!"Column", b!"FK Schema", b!"FK Table", b!"FK Column"]
    (ks.map fun k => [k.name, k.schema, k.table, k.column, k.refSchema, k.refTable, k.refColumn]), .text b!"\n"]

/-- pkg/print/print.go:46-60 `Print` (and schema.go:13-18 `SchemaTables`). -/
def printVal : Val → List Piece
  | .tables ts => ts.flatMap schemaTable
  | .fks ks => schemaFks ks

/-- pkg/print/print.go:35-44 `Object`: what is written, and `err == nil`. -/
def object (enc : Enc) (format : Bytes) (v : Val) : List Piece × Bool :=
  if format = b!"yaml" then
    match enc.yaml v with | some b => ([.text b], true) | none => ([], false)
  else if format = b!"json" then
    match enc.json v with | some b => ([.text b, .text b!"\n"], true) | none => ([], false)
  else (printVal v, true)

/-- What the schema provider answers (`none`: error); `provider = false`: `SchemaProvider` failed. -/
structure Answers where
  provider : Bool
  tables : Option (List GTable)
  views : Option (List GTable)
  fks : Option (List ForeignKey)

/-- schema.go:44-66 `PrintColumnsCmd.Run`: output and `err == nil`. -/
def printColumns (enc : Enc) (o : Bytes) (withViews : Bool) (a : Answers) : List Piece × Bool :=
  if a.provider then
    match a.tables with
    | none => ([], false)
    | some ts =>
      if withViews then
        match a.views with
        | none => ((object enc o (.tables ts)).1, false)
        | some vs => ((object enc o (.tables ts)).1 ++ (if vs.length > 0 then (object enc o (.tables vs)).1 else []), true)
      else ((object enc o (.tables ts)).1, true)
  else ([], false)

/-- schema.go:101-103, 130-132: one line per table. -/
def lines (ts : List GTable) : List Piece := ts.map fun t => .text (t.schema ++ b!"." ++ t.name ++ b!"\n")

/-- schema.go:96-105, 125-134: the output of `PrintTablesCmd` and `PrintViewsCmd`. -/
def listing (enc : Enc) (o : Bytes) (ts : List GTable) : List Piece × Bool :=
  if o = b!"json" ∨ o = b!"yaml" then object enc o (.tables ts) else (lines ts, true)

/-- schema.go:77-106 `PrintTablesCmd.Run`. -/
def printTables (enc : Enc) (o : Bytes) (withViews : Bool) (a : Answers) : List Piece × Bool :=
  if a.provider then
    match a.tables with
    | none => ([], false)
    | some ts =>
      if withViews then
        match a.views with
        | none => ([], false)
        | some vs => listing enc o (ts ++ vs)
      else listing enc o ts
  else ([], false)

/-- schema.go:116-134 `PrintViewsCmd.Run`. -/
def printViews (enc : Enc) (o : Bytes) (a : Answers) : List Piece × Bool :=
  if a.provider then
    match a.views with
    | none => ([], false)
    | some vs => listing enc o vs
  else ([], false)

/-- schema.go:144-154 `PrintFKCmd.Run`. -/
def printFks (enc : Enc) (o : Bytes) (a : Answers) : List Piece × Bool :=
  if a.provider then
    match a.fks with
    | none => ([], false)
    | some ks => object enc o (.fks ks)
  else ([], false)

/-! ### Specification -/

/-- The text written when everything written is text. -/
def Spec.textOf (l : List Piece) : Option Bytes :=
  match l with
  | [] => some []
  | .text s :: l => (Spec.textOf l).map (s ++ ·)
  | .table _ _ :: _ => none

/-- One line per name: `schema.name`. -/
def Spec.lineList (l : List (Bytes × Bytes)) : Bytes := l.flatMap fun x => x.1 ++ b!"." ++ x.2 ++ b!"\n"

/-! ### Properties -/

theorem lines_text : ∀ ts : List GTable, Spec.textOf (lines ts) = some (Spec.lineList (ts.map fun t => (t.schema, t.name)))
  | [] => rfl
  | t :: ts => by
    simp only [lines, List.map_cons, Spec.textOf]
    have := lines_text ts
    simp only [lines] at this
    rw [this]; simp [Spec.lineList]

/-- **C81**: without `-O json|yaml`, `tables` prints exactly one line `schema.name` per table that was listed, in order, followed (with `--views`) by those of the views;
`views` does the same for views.  Whatever the format, if a listing fails nothing is printed and the command fails. -/
theorem C81_one_line_per_table (enc : Enc) (o : Bytes) (ho : o ≠ b!"json" ∧ o ≠ b!"yaml") (a : Answers) (hp : a.provider = true) (ts vs : List GTable) :
    (a.tables = some ts → printTables enc o false a = (lines ts, true) ∧ Spec.textOf (lines ts) = some (Spec.lineList (ts.map fun t => (t.schema, t.name))))
    ∧ (a.tables = some ts → a.views = some vs → (printTables enc o true a).2 = true
        ∧ Spec.textOf (printTables enc o true a).1 = some (Spec.lineList ((ts ++ vs).map fun t => (t.schema, t.name))))
    ∧ (a.views = some vs → (printViews enc o a).2 = true ∧ Spec.textOf (printViews enc o a).1 = some (Spec.lineList (vs.map fun t => (t.schema, t.name)))) := by
  have hl : ∀ l, listing enc o l = (lines l, true) := by intro l; simp [listing, ho.1, ho.2]
  refine ⟨fun h => ⟨by simp [printTables, hp, h, hl], lines_text ts⟩, fun h h' => ?_, fun h => ?_⟩
  · have e : printTables enc o true a = (lines (ts ++ vs), true) := by simp [printTables, hp, h, h', hl]
    rw [e]; exact ⟨rfl, lines_text _⟩
  · have e : printViews enc o a = (lines vs, true) := by simp [printViews, hp, h, hl]
    rw [e]; exact ⟨rfl, lines_text _⟩

/-- **C81**: a failed listing prints nothing and is reported, by `tables`, `views` and `foreign-keys` (with `--views`, also a failure of the second listing). -/
theorem C81_failures_print_nothing (enc : Enc) (o : Bytes) (a : Answers) :
    ((a.provider = false ∨ a.tables = none) → ∀ v, printTables enc o v a = ([], false))
    ∧ (a.views = none → printTables enc o true a = ([], false))
    ∧ ((a.provider = false ∨ a.views = none) → printViews enc o a = ([], false))
    ∧ ((a.provider = false ∨ a.fks = none) → printFks enc o a = ([], false))
    ∧ ((a.provider = false ∨ a.tables = none) → ∀ v, printColumns enc o v a = ([], false)) := by
  refine ⟨?_, ?_, ?_, ?_, ?_⟩
  · rintro (h | h) v <;> simp [printTables, h]
  · intro h
    unfold printTables
    split
    · split
      · rfl
      · simp [h]
    · rfl
  · rintro (h | h) <;> simp [printViews, h]
  · rintro (h | h) <;> simp [printFks, h]
  · rintro (h | h) v <;> simp [printColumns, h]

/-- **C81**: the listing can be read back: two lists of tables (no line breaks in names, no dots in schema names) with the same output are the same, in the same order. -/
theorem C81_lines_determine_the_tables : ∀ (l m : List (Bytes × Bytes)),
    (∀ x ∈ l, 46 ∉ x.1 ∧ 10 ∉ x.2) → (∀ x ∈ m, 46 ∉ x.1 ∧ 10 ∉ x.2) → Spec.lineList l = Spec.lineList m → l = m
  | [], [], _, _, _ => rfl
  | [], x :: m, _, _, h => by simp [Spec.lineList] at h
  | x :: l, [], _, _, h => by simp [Spec.lineList] at h
  | (a, b) :: l, (c, d) :: m, hl, hm, h => by
    simp only [Spec.lineList, List.flatMap_cons, List.append_assoc, List.singleton_append, List.cons_append, List.nil_append] at h
    obtain ⟨e1, h⟩ := cut_inj 46 a c _ _ (hl (a, b) (by simp)).1 (hm (c, d) (by simp)).1 h
    obtain ⟨e2, h⟩ := cut_inj 10 b d _ _ (hl (a, b) (by simp)).2 (hm (c, d) (by simp)).2 h
    have := C81_lines_determine_the_tables l m (fun x hx => hl x (by simp [hx])) (fun x hx => hm x (by simp [hx])) (by simpa [Spec.lineList] using h)
    rw [e1, e2, this]

/-- **C81 fails** for `columns`: when the values cannot be encoded the command prints nothing and still succeeds, while `foreign-keys` reports it. -/
theorem C81_encoding_error_swallowed (enc : Enc) (a : Answers) (ts : List GTable) (ks : List ForeignKey) (hp : a.provider = true) (ht : a.tables = some ts)
    (hk : a.fks = some ks) (he : enc.json (.tables ts) = none) (hf : enc.json (.fks ks) = none) :
    printColumns enc b!"json" false a = ([], true) ∧ printFks enc b!"json" a = ([], false) := by
  constructor
  · simp [printColumns, hp, ht, object, he]
  · simp [printFks, hp, hk, object, hf]

/-- **C81 fails** for `columns --views`: the tables are already printed when the views cannot be listed. -/
theorem C81_columns_partial_output (enc : Enc) (o : Bytes) (a : Answers) (ts : List GTable) (hp : a.provider = true) (ht : a.tables = some ts) (hv : a.views = none) :
    printColumns enc o true a = ((object enc o (.tables ts)).1, false) := by
  simp [printColumns, hp, ht, hv]

/-- The rows of all tables in an output. -/
def Spec.rowsOf (header : List Bytes) (l : List Piece) : List (List (List Bytes)) :=
  l.filterMap fun | .table h rows => if h = header then some rows else none | .text _ => none

/-- **C82**: in table format every column of every listed table has its row, in order, under its table: position, name, types, whether it accepts NULL, its maximal length,
whether it is indexed, and the column it refers to. -/
theorem C82_one_row_per_column (enc : Enc) (o : Bytes) (ho : o ≠ b!"json" ∧ o ≠ b!"yaml") (a : Answers) (hp : a.provider = true) (ts : List GTable) (ht : a.tables = some ts) :
    (printColumns enc o false a).2 = true
    ∧ Spec.rowsOf [b!"Ord", b!"Name", b!"Type", b!"UDT", b!"NULL", b!"Max", b!"Index", b!"Ref"] (printColumns enc o false a).1
      = ts.map (fun t => t.columns.map fun c =>
        [Num.dec c.position.toNat, c.name, c.type, c.udtType, if c.nullable then b!"YES" else b!"", if c.maxLength = 0 then b!"" else Num.dec c.maxLength.toNat,
          if c.indexes = [] then b!"" else b!"YES", match c.ref with | some fk => fk.refSchema ++ b!"." ++ fk.refTable ++ b!"." ++ fk.refColumn | none => b!""]) := by
  have e : printColumns enc o false a = (ts.flatMap schemaTable, true) := by
    simp [printColumns, hp, ht, object, ho.1, ho.2, printVal]
  rw [e]
  refine ⟨rfl, ?_⟩
  have hrow : ∀ c : Column, columnRow c = [Num.dec c.position.toNat, c.name, c.type, c.udtType, if c.nullable then b!"YES" else b!"",
      if c.maxLength = 0 then b!"" else Num.dec c.maxLength.toNat, if c.indexes = [] then b!"" else b!"YES",
      match c.ref with | some fk => fk.refSchema ++ b!"." ++ fk.refTable ++ b!"." ++ fk.refColumn | none => b!""] := by
    intro c
    have hz : (c.maxLength > 0) ↔ ¬ c.maxLength = 0 := by
      rw [← UInt32.toNat_inj]
      show (0 : UInt32) < c.maxLength ↔ _
      rw [UInt32.lt_iff_toNat_lt]; simp; omega
    have hl : (c.indexes.length > 0) ↔ ¬ c.indexes = [] := by rw [gt_iff_lt, List.length_pos_iff]
    unfold columnRow
    simp only [hz, hl, yes]
    have h1 : (if ¬c.maxLength = 0 then Num.dec c.maxLength.toNat else []) = if c.maxLength = 0 then b!"" else Num.dec c.maxLength.toNat := by
      by_cases h : c.maxLength = 0 <;> simp [h]
    have h2 : (if decide (¬ c.indexes = []) = true then b!"YES" else []) = if c.indexes = [] then b!"" else b!"YES" := by
      by_cases h : c.indexes = [] <;> simp [h]
    rw [h1, h2]
    cases c.ref <;> simp [ForeignKey.refColumnSchemaName]
  have hap : ∀ (x y : List Piece), Spec.rowsOf [b!"Ord", b!"Name", b!"Type", b!"UDT", b!"NULL", b!"Max", b!"Index", b!"Ref"] (x ++ y)
      = Spec.rowsOf [b!"Ord", b!"Name", b!"Type", b!"UDT", b!"NULL", b!"Max", b!"Index", b!"Ref"] x
        ++ Spec.rowsOf [b!"Ord", b!"Name", b!"Type", b!"UDT", b!"NULL", b!"Max", b!"Index", b!"Ref"] y := by
    intro x y; simp [Spec.rowsOf, List.filterMap_append]
  have hone : ∀ t : GTable, Spec.rowsOf [b!"Ord", b!"Name", b!"Type", b!"UDT", b!"NULL", b!"Max", b!"Index", b!"Ref"] (schemaTable t) = [t.columns.map columnRow] := by
    intro t
    unfold schemaTable
    rw [hap]
    split
    · simp [Spec.rowsOf, schemaIndexes]
    · simp [Spec.rowsOf]
  clear ht e
  induction ts with
  | nil => rfl
  | cons t ts ih =>
    rw [List.flatMap_cons, hap, hone, ih, List.map_cons, List.singleton_append]
    rw [List.map_congr_left (fun c _ => hrow c)]

/-- **C82**: `foreign-keys` in table format prints one row per foreign key, in order, with its name and both ends. -/
theorem C82_one_row_per_foreign_key (enc : Enc) (o : Bytes) (ho : o ≠ b!"json" ∧ o ≠ b!"yaml") (a : Answers) (hp : a.provider = true) (ks : List ForeignKey)
    (hk : a.fks = some ks) :
    (printFks enc o a).2 = true
    ∧ Spec.rowsOf [b!"Name", b!"Schema", b!"Table", b!"Column", b!"FK Schema", b!"FK Table", b!"FK Column"] (printFks enc o a).1
      = [ks.map fun k => [k.name, k.schema, k.table, k.column, k.refSchema, k.refTable, k.refColumn]] := by
  have e : printFks enc o a = (schemaFks ks, true) := by simp [printFks, hp, hk, object, ho.1, ho.2, printVal]
  rw [e]
  exact ⟨rfl, by simp [Spec.rowsOf, schemaFks]⟩

theorem joinNames_eq : ∀ l : List Bytes, joinNames l = (b!", ").intercalate l
  | [] => rfl
  | [a] => by simp [joinNames, List.intercalate]
  | a :: b :: l => by
    have := joinNames_eq (b :: l)
    simp only [joinNames, List.intercalate, List.intersperse_cons_cons, List.flatten_cons] at this ⊢
    rw [this]; simp

/-- **C82**: the indexes of every table that has any are listed under it, one row each, in order. -/
theorem C82_one_row_per_index (enc : Enc) (o : Bytes) (ho : o ≠ b!"json" ∧ o ≠ b!"yaml") (a : Answers) (hp : a.provider = true) (ts : List GTable) (ht : a.tables = some ts) :
    Spec.rowsOf [b!"Name", b!"Primary", b!"Unique", b!"Columns"] (printColumns enc o false a).1
      = (ts.filter (fun t => t.indexes ≠ [])).map (fun t => t.indexes.map fun i =>
        [i.name, if i.isPrimary then b!"YES" else b!"", if i.isUnique then b!"YES" else b!"", (b!", ").intercalate i.columnNames]) := by
  have e : printColumns enc o false a = (ts.flatMap schemaTable, true) := by
    simp [printColumns, hp, ht, object, ho.1, ho.2, printVal]
  rw [e]
  have hap : ∀ (x y : List Piece), Spec.rowsOf [b!"Name", b!"Primary", b!"Unique", b!"Columns"] (x ++ y)
      = Spec.rowsOf [b!"Name", b!"Primary", b!"Unique", b!"Columns"] x ++ Spec.rowsOf [b!"Name", b!"Primary", b!"Unique", b!"Columns"] y := by
    intro x y; simp [Spec.rowsOf, List.filterMap_append]
  have hone : ∀ t : GTable, Spec.rowsOf [b!"Name", b!"Primary", b!"Unique", b!"Columns"] (schemaTable t)
      = if t.indexes = [] then [] else [t.indexes.map fun i => [i.name, if i.isPrimary then b!"YES" else b!"", if i.isUnique then b!"YES" else b!"", (b!", ").intercalate i.columnNames]] := by
    intro t
    unfold schemaTable
    rw [hap]
    by_cases h : t.indexes = []
    · simp [h, Spec.rowsOf]
    · have : t.indexes.length > 0 := List.length_pos_iff.2 h
      simp [h, this, Spec.rowsOf, schemaIndexes, yes, joinNames_eq]
  clear ht e
  induction ts with
  | nil => rfl
  | cons t ts ih =>
    simp only [List.flatMap_cons, hap, hone, ih, List.filter_cons]
    by_cases h : t.indexes = [] <;> simp [h]

/-! ### Concrete runs -/

/-- The titled tables of an output: each text that is directly followed by a table with the given header, with that table's rows. -/
def Spec.titled (header : List Bytes) : List Piece → List (Bytes × List (List Bytes))
  | .text s :: .table h rows :: l => if h = header then (s, rows) :: Spec.titled header l else Spec.titled header l
  | _ :: l => Spec.titled header l
  | [] => []

theorem titled_schemaTable (t : GTable) (l : List Piece) (hl : ∀ h rows m, l ≠ .table h rows :: m) :
    Spec.titled [b!"Ord", b!"Name", b!"Type", b!"UDT", b!"NULL", b!"Max", b!"Index", b!"Ref"] (schemaTable t ++ l)
      = (b!"Schema: " ++ t.schema ++ b!"\nTable: " ++ t.name ++ b!"\n\n", t.columns.map columnRow)
        :: Spec.titled [b!"Ord", b!"Name", b!"Type", b!"UDT", b!"NULL", b!"Max", b!"Index", b!"Ref"] l := by
  have h1 : ∀ s, Spec.titled [b!"Ord", b!"Name", b!"Type", b!"UDT", b!"NULL", b!"Max", b!"Index", b!"Ref"] (.text s :: l)
      = Spec.titled [b!"Ord", b!"Name", b!"Type", b!"UDT", b!"NULL", b!"Max", b!"Index", b!"Ref"] l := by
    intro s
    cases l with
    | nil => rfl
    | cons p l =>
      cases p with
      | text s' => rfl
      | table h rows => exact absurd rfl (hl h rows l)
  unfold schemaTable
  split
  · simp only [schemaIndexes, List.cons_append, List.nil_append, Spec.titled, if_true]
    rw [if_neg (by decide), h1]
  · simp only [List.cons_append, List.nil_append, Spec.titled, if_true, h1]

/-- **C82**: in table format, `columns` prints for every listed table, in order, and with `--views` also for every listed view, a heading with its schema and name, directly
followed by the rows of its columns. -/
theorem C82_headings (enc : Enc) (o : Bytes) (ho : o ≠ b!"json" ∧ o ≠ b!"yaml") (a : Answers) (hp : a.provider = true) (ts vs : List GTable) (ht : a.tables = some ts)
    (hv : a.views = some vs) (withViews : Bool) :
    (printColumns enc o withViews a).2 = true
    ∧ Spec.titled [b!"Ord", b!"Name", b!"Type", b!"UDT", b!"NULL", b!"Max", b!"Index", b!"Ref"] (printColumns enc o withViews a).1
      = (ts ++ if withViews then vs else []).map (fun t => (b!"Schema: " ++ t.schema ++ b!"\nTable: " ++ t.name ++ b!"\n\n", t.columns.map columnRow)) := by
  have hobj : ∀ v, object enc o v = (printVal v, true) := by
    intro v; simp [object, ho.1, ho.2]
  have hflat : ∀ ts : List GTable, (∀ h rows m, ts.flatMap schemaTable ≠ .table h rows :: m)
      ∧ Spec.titled [b!"Ord", b!"Name", b!"Type", b!"UDT", b!"NULL", b!"Max", b!"Index", b!"Ref"] (ts.flatMap schemaTable)
        = ts.map (fun t => (b!"Schema: " ++ t.schema ++ b!"\nTable: " ++ t.name ++ b!"\n\n", t.columns.map columnRow)) := by
    intro ts
    induction ts with
    | nil => exact ⟨by simp, rfl⟩
    | cons t ts ih =>
      refine ⟨?_, ?_⟩
      · intro h rows m; simp [schemaTable]
      · rw [List.flatMap_cons, titled_schemaTable t _ ih.1, ih.2]; rfl
  have hout : (printColumns enc o withViews a) = ((ts ++ if withViews then vs else []).flatMap schemaTable, true) := by
    cases withViews with
    | false => simp [printColumns, hp, ht, hobj, printVal]
    | true =>
      simp only [printColumns, hp, if_true, ht, hv, hobj, printVal, List.flatMap_append]
      cases vs with
      | nil => rfl
      | cons v vs => rfl
  rw [hout]
  exact ⟨rfl, (hflat _).2⟩

/-- **C81**: with `-O json` or `-O yaml` the commands print exactly the encoding of everything listed (json followed by a line break), and `tables`, `views` and `foreign-keys`
fail and print nothing when it cannot be encoded. -/
theorem C81_encoded (enc : Enc) (a : Answers) (hp : a.provider = true) (ts vs : List GTable) (ks : List ForeignKey) (ht : a.tables = some ts) (hv : a.views = some vs)
    (hk : a.fks = some ks) :
    let json := fun (v : Val) => match enc.json v with | some b => (some (b ++ b!"\n"), true) | none => (some [], false)
    let yaml := fun (v : Val) => match enc.yaml v with | some b => (some b, true) | none => (some [], false)
    let out := fun (r : List Piece × Bool) => (Spec.textOf r.1, r.2)
    out (printTables enc b!"json" false a) = json (.tables ts) ∧ out (printTables enc b!"yaml" false a) = yaml (.tables ts)
    ∧ out (printTables enc b!"json" true a) = json (.tables (ts ++ vs)) ∧ out (printTables enc b!"yaml" true a) = yaml (.tables (ts ++ vs))
    ∧ out (printViews enc b!"json" a) = json (.tables vs) ∧ out (printViews enc b!"yaml" a) = yaml (.tables vs)
    ∧ out (printFks enc b!"json" a) = json (.fks ks) ∧ out (printFks enc b!"yaml" a) = yaml (.fks ks)
    ∧ Spec.textOf (printColumns enc b!"json" false a).1 = (json (.tables ts)).1 ∧ Spec.textOf (printColumns enc b!"yaml" false a).1 = (yaml (.tables ts)).1 := by
  have hy : ∀ v, (Spec.textOf (object enc b!"yaml" v).1, (object enc b!"yaml" v).2) = (match enc.yaml v with | some b => (some b, true) | none => (some [], false)) := by
    intro v
    unfold object
    rw [if_pos rfl]
    cases enc.yaml v <;> simp [Spec.textOf]
  have hj : ∀ v, (Spec.textOf (object enc b!"json" v).1, (object enc b!"json" v).2) = (match enc.json v with | some b => (some (b ++ b!"\n"), true) | none => (some [], false)) := by
    intro v
    unfold object
    rw [if_neg (by decide), if_pos rfl]
    cases enc.json v <;> simp [Spec.textOf]
  have hl : ∀ o v, o = b!"json" ∨ o = b!"yaml" → listing enc o v = object enc o (.tables v) := by
    intro o v h; unfold listing; rw [if_pos h]
  simp only [printTables, printViews, printFks, printColumns, hp, ht, hv, hk, if_true, Bool.false_eq_true, if_false, hl _ _ (.inl rfl), hl _ _ (.inr rfl)]
  refine ⟨hj _, hy _, hj _, hy _, hj _, hy _, hj _, hy _, ?_, ?_⟩
  · rw [← hj]
  · rw [← hy]

/-- A value can be printed in the format: always in table format, otherwise if the encoder accepts it. -/
def Spec.Printable (enc : Enc) (o : Bytes) (v : Val) : Prop :=
  (o = b!"json" → enc.json v ≠ none) ∧ (o = b!"yaml" → enc.yaml v ≠ none)

theorem object_ok (enc : Enc) (o : Bytes) (v : Val) : (object enc o v).2 = true ↔ Spec.Printable enc o v := by
  unfold object Spec.Printable
  by_cases hy : o = b!"yaml"
  · subst hy
    rw [if_pos rfl]
    cases enc.yaml v <;> simp
  · rw [if_neg hy]
    by_cases hj : o = b!"json"
    · subst hj
      rw [if_pos rfl]
      cases enc.json v <;> simp
    · rw [if_neg hj]; simp [hy, hj]

theorem listing_ok (enc : Enc) (o : Bytes) (ts : List GTable) : (listing enc o ts).2 = true ↔ Spec.Printable enc o (.tables ts) := by
  unfold listing
  by_cases h : o = b!"json" ∨ o = b!"yaml"
  · rw [if_pos h]; exact object_ok enc o _
  · rw [if_neg h]
    simp only [not_or] at h
    simp [Spec.Printable, h.1, h.2]

/-- **C81, exactly**: when each printing command reports success, for every format, encoder and answer.  `tables`, `views` and `foreign-keys` succeed iff what was asked for could be
listed and encoded; `columns` iff it could be listed, encoded or not. -/
theorem C81_success_iff (enc : Enc) (o : Bytes) (a : Answers) :
    ((printTables enc o false a).2 = true ↔ a.provider = true ∧ ∃ ts, a.tables = some ts ∧ Spec.Printable enc o (.tables ts))
    ∧ ((printTables enc o true a).2 = true ↔ a.provider = true ∧ ∃ ts vs, a.tables = some ts ∧ a.views = some vs ∧ Spec.Printable enc o (.tables (ts ++ vs)))
    ∧ ((printViews enc o a).2 = true ↔ a.provider = true ∧ ∃ vs, a.views = some vs ∧ Spec.Printable enc o (.tables vs))
    ∧ ((printFks enc o a).2 = true ↔ a.provider = true ∧ ∃ ks, a.fks = some ks ∧ Spec.Printable enc o (.fks ks))
    ∧ ((printColumns enc o false a).2 = true ↔ a.provider = true ∧ a.tables ≠ none)
    ∧ ((printColumns enc o true a).2 = true ↔ a.provider = true ∧ a.tables ≠ none ∧ a.views ≠ none) := by
  obtain ⟨pr, tb, vw, fk⟩ := a
  unfold printTables printViews printFks printColumns
  cases pr with
  | false => simp
  | true =>
    refine ⟨?_, ?_, ?_, ?_, ?_, ?_⟩
    · cases tb <;> simp [listing_ok]
    · cases tb <;> cases vw <;> simp [listing_ok]
    · cases vw <;> simp [listing_ok]
    · cases fk <;> simp [object_ok]
    · cases tb <;> simp
    · cases tb <;> cases vw <;> simp

/-- **C81, exactly**: a failing command has printed something only in one case: `columns --views` of a database whose views cannot be listed. -/
theorem C81_output_of_failures (enc : Enc) (o : Bytes) (v : Bool) (a : Answers) :
    ((printTables enc o v a).2 = false → (printTables enc o v a).1 = [])
    ∧ ((printViews enc o a).2 = false → (printViews enc o a).1 = [])
    ∧ ((printFks enc o a).2 = false → (printFks enc o a).1 = [])
    ∧ ((printColumns enc o v a).2 = false → (printColumns enc o v a).1 ≠ [] →
        v = true ∧ a.views = none ∧ ∃ ts, a.tables = some ts ∧ (printColumns enc o v a).1 = (printColumns enc o false a).1) := by
  have hob : ∀ w, (object enc o w).2 = false → (object enc o w).1 = [] := by
    intro w
    unfold object
    split
    · cases enc.yaml w <;> simp
    · split
      · cases enc.json w <;> simp
      · simp
  have hli : ∀ ts, (listing enc o ts).2 = false → (listing enc o ts).1 = [] := by
    intro ts
    unfold listing
    split
    · exact hob _
    · simp
  obtain ⟨pr, tb, vw, fk⟩ := a
  unfold printTables printViews printFks printColumns
  cases pr with
  | false => simp
  | true =>
    refine ⟨?_, ?_, ?_, ?_⟩
    · cases tb <;> cases v <;> cases vw <;> simp <;> exact hli _
    · cases vw <;> simp; exact hli _
    · cases fk <;> simp; exact hob _
    · cases tb <;> cases v <;> cases vw <;> simp

/-- Two tables and their answers. -/
def toyAnswers : Answers := ⟨true, some toyRes, some [], some []⟩

example : Spec.textOf (printTables ⟨fun _ => none, fun _ => none⟩ b!"table" true toyAnswers).1 = some b!"app.users\naudit.logs\napp.roles\n" := by decide +kernel
example : ∀ x ∈ toyRes.map (fun t => (t.schema, t.name)), (46 : UInt8) ∉ x.1 ∧ (10 : UInt8) ∉ x.2 := by decide
example : columnRow ownerColumn = [b!"3", b!"owner_id", b!"bigint", b!"int8", b!"YES", b!"64", b!"YES", b!"public.user.id"] := by decide +kernel

end Cli
