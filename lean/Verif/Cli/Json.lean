import Verif.Types.GoJsonIndent
import Verif.Cli.Print
set_option linter.unusedSimpArgs false
set_option linter.unusedVariables false
/-!
The output of the printing commands with `-O json` (pkg/print/print.go:14-22 `JSON`), with Go's encoder in place of the parameter.  C105.
A pointer or slice is `none` when it is nil; the elements of `[]*Table`, `[]*Index`, `[]*ForeignKey` are never nil, those of `[]*Column` neither.
Fields tagged `json:"-"` (schema.go:117-121, 144-151, 226-227, 266-267) are not printed.
-/
namespace Cli
open Types.GoJson Schema

/-- schema.go:133-152: the printed fields of a `Column`. -/
structure JColumn where
  name : Bytes
  type : Bytes
  udtType : Bytes
  nullable : Bool
  maxLength : UInt32
  position : UInt32
  deriving DecidableEq, Repr

/-- schema.go:220-228: the printed fields of an `Index`. -/
structure JIndex where
  name : Bytes
  isPrimary : Bool
  isUnique : Bool
  columnNames : Option (List Bytes)
  deriving DecidableEq, Repr

/-- schema.go:105-122: the printed fields of a `Table`. -/
structure JTable where
  schema : Bytes
  name : Bytes
  type : Bytes
  isView : Bool
  columns : Option (List JColumn)
  indexes : Option (List JIndex)
  primaryKey : Option JColumn
  deriving DecidableEq, Repr

/-- schema.go:255-268: the printed fields of a `ForeignKey`. -/
structure JKey where
  name : Bytes
  schema : Bytes
  table : Bytes
  column : Bytes
  refSchema : Bytes
  refTable : Bytes
  refColumn : Bytes
  deriving DecidableEq, Repr

/-! ### Writing: `json.MarshalIndent(v, "", "  ")`; structs are objects with their fields in order of declaration, `k` is the depth. -/

/-- A slice (encode.go `sliceEncoder`). -/
def sliceText (k : Nat) : Option (List Bytes) → Bytes
  | none => b!"null"
  | some l => arrText k l

/-- schema.go:133-139. -/
def columnText (k : Nat) (c : JColumn) : Bytes :=
  objText k [(b!"Name", quote c.name), (b!"Type", quote c.type), (b!"UdtType", quote c.udtType), (b!"Nullable", boolText c.nullable),
    (b!"MaxLength", Num.dec c.maxLength.toNat), (b!"Position", Num.dec c.position.toNat)]

/-- schema.go:220-224. -/
def indexText (k : Nat) (i : JIndex) : Bytes :=
  objText k [(b!"Name", quote i.name), (b!"IsPrimary", boolText i.isPrimary), (b!"IsUnique", boolText i.isUnique),
    (b!"ColumnNames", sliceText (k + 1) (i.columnNames.map (·.map quote)))]

/-- schema.go:105-113; a pointer is `null` or what it points to (encode.go `ptrEncoder`). -/
def tableText (k : Nat) (t : JTable) : Bytes :=
  objText k [(b!"Schema", quote t.schema), (b!"Name", quote t.name), (b!"Type", quote t.type), (b!"IsView", boolText t.isView),
    (b!"Columns", sliceText (k + 1) (t.columns.map (·.map (columnText (k + 2))))), (b!"Indexes", sliceText (k + 1) (t.indexes.map (·.map (indexText (k + 2))))),
    (b!"PrimaryKey", match t.primaryKey with | none => b!"null" | some c => columnText (k + 1) c)]

/-- schema.go:255-264. -/
def keyText (k : Nat) (f : JKey) : Bytes :=
  objText k [(b!"Name", quote f.name), (b!"Schema", quote f.schema), (b!"Table", quote f.table), (b!"Column", quote f.column), (b!"RefSchema", quote f.refSchema),
    (b!"RefTable", quote f.refTable), (b!"RefColumn", quote f.refColumn)]

/-- `json.MarshalIndent` of `schema.Tables`. -/
def tablesJson (ts : Option (List JTable)) : Bytes := sliceText 0 (ts.map (·.map (tableText 1)))
/-- `json.MarshalIndent` of `schema.ForeignKeys`. -/
def keysJson (ks : Option (List JKey)) : Bytes := sliceText 0 (ks.map (·.map (keyText 1)))

/-! ### Specification: the document, as a tree -/

namespace Spec

/-- An array, `null` for nil. -/
def arr {α : Type} (f : α → JV) : Option (List α) → JV
  | none => .null
  | some l => .arr (l.map f)

/-- A number is its decimal text. -/
def num (n : UInt32) : JV := .num (Num.dec n.toNat)

def columnDoc (c : JColumn) : JV :=
  .obj [(b!"Name", .str c.name), (b!"Type", .str c.type), (b!"UdtType", .str c.udtType), (b!"Nullable", .bool c.nullable),
    (b!"MaxLength", num c.maxLength), (b!"Position", num c.position)]

def indexDoc (i : JIndex) : JV :=
  .obj [(b!"Name", .str i.name), (b!"IsPrimary", .bool i.isPrimary), (b!"IsUnique", .bool i.isUnique), (b!"ColumnNames", arr .str i.columnNames)]

def tableDoc (t : JTable) : JV :=
  .obj [(b!"Schema", .str t.schema), (b!"Name", .str t.name), (b!"Type", .str t.type), (b!"IsView", .bool t.isView), (b!"Columns", arr columnDoc t.columns),
    (b!"Indexes", arr indexDoc t.indexes), (b!"PrimaryKey", match t.primaryKey with | none => .null | some c => columnDoc c)]

def keyDoc (f : JKey) : JV :=
  .obj [(b!"Name", .str f.name), (b!"Schema", .str f.schema), (b!"Table", .str f.table), (b!"Column", .str f.column), (b!"RefSchema", .str f.refSchema),
    (b!"RefTable", .str f.refTable), (b!"RefColumn", .str f.refColumn)]

/-! Values with their texts made well-formed UTF-8: every bad byte replaced by U+FFFD. -/

def cleanColumn (c : JColumn) : JColumn := { c with name := sanitize c.name, type := sanitize c.type, udtType := sanitize c.udtType }
def cleanIndex (i : JIndex) : JIndex := { i with name := sanitize i.name, columnNames := i.columnNames.map (·.map sanitize) }
def cleanTable (t : JTable) : JTable :=
  { schema := sanitize t.schema, name := sanitize t.name, type := sanitize t.type, isView := t.isView, columns := t.columns.map (·.map cleanColumn)
    indexes := t.indexes.map (·.map cleanIndex), primaryKey := t.primaryKey.map cleanColumn }
def cleanKey (f : JKey) : JKey :=
  ⟨sanitize f.name, sanitize f.schema, sanitize f.table, sanitize f.column, sanitize f.refSchema, sanitize f.refTable, sanitize f.refColumn⟩

/-- All texts are well-formed UTF-8 (`Types.GoJson.Spec.Utf8`: a sequence of encoded code points). -/
def Utf8Column (c : JColumn) : Prop := Types.GoJson.Spec.Utf8 c.name ∧ Types.GoJson.Spec.Utf8 c.type ∧ Types.GoJson.Spec.Utf8 c.udtType
def Utf8Index (i : JIndex) : Prop := Types.GoJson.Spec.Utf8 i.name ∧ ∀ l, i.columnNames = some l → ∀ s ∈ l, Types.GoJson.Spec.Utf8 s
def Utf8Table (t : JTable) : Prop :=
  Types.GoJson.Spec.Utf8 t.schema ∧ Types.GoJson.Spec.Utf8 t.name ∧ Types.GoJson.Spec.Utf8 t.type ∧ (∀ l, t.columns = some l → ∀ c ∈ l, Utf8Column c)
    ∧ (∀ l, t.indexes = some l → ∀ i ∈ l, Utf8Index i) ∧ ∀ c, t.primaryKey = some c → Utf8Column c
def Utf8Key (f : JKey) : Prop :=
  Types.GoJson.Spec.Utf8 f.name ∧ Types.GoJson.Spec.Utf8 f.schema ∧ Types.GoJson.Spec.Utf8 f.table ∧ Types.GoJson.Spec.Utf8 f.column ∧ Types.GoJson.Spec.Utf8 f.refSchema
    ∧ Types.GoJson.Spec.Utf8 f.refTable ∧ Types.GoJson.Spec.Utf8 f.refColumn

end Spec

/-! ### Proofs -/

theorem shown_slice {α : Type} {d : Nat} (hd : d < maxDepth) (k : Nat) (text : α → Bytes) (doc : α → JV) (l : Option (List α)) (h : ∀ a, Shown (d + 1) (text a) (doc a)) :
    Shown d (sliceText k (l.map (·.map text))) (Spec.arr doc l) := by
  cases l with
  | none => exact shown_null d
  | some l =>
    have := shown_arr hd k (l.map fun a => (text a, doc a)) (by
      intro p hp
      obtain ⟨a, -, rfl⟩ := List.mem_map.1 hp
      exact h a)
    rw [List.map_map, List.map_map] at this
    exact this

theorem keyNames : sanitize b!"Name" = b!"Name" ∧ sanitize b!"Type" = b!"Type" ∧ sanitize b!"UdtType" = b!"UdtType" ∧ sanitize b!"Nullable" = b!"Nullable"
    ∧ sanitize b!"MaxLength" = b!"MaxLength" ∧ sanitize b!"Position" = b!"Position" ∧ sanitize b!"IsPrimary" = b!"IsPrimary" ∧ sanitize b!"IsUnique" = b!"IsUnique"
    ∧ sanitize b!"ColumnNames" = b!"ColumnNames" ∧ sanitize b!"Schema" = b!"Schema" ∧ sanitize b!"IsView" = b!"IsView" ∧ sanitize b!"Columns" = b!"Columns"
    ∧ sanitize b!"Indexes" = b!"Indexes" ∧ sanitize b!"PrimaryKey" = b!"PrimaryKey" ∧ sanitize b!"Table" = b!"Table" ∧ sanitize b!"Column" = b!"Column"
    ∧ sanitize b!"RefSchema" = b!"RefSchema" ∧ sanitize b!"RefTable" = b!"RefTable" ∧ sanitize b!"RefColumn" = b!"RefColumn" := by decide +kernel

theorem shown_column {d : Nat} (hd : d < maxDepth) (k : Nat) (c : JColumn) : Shown d (columnText k c) (Spec.columnDoc (Spec.cleanColumn c)) := by
  obtain ⟨k1, k2, k3, k4, k5, k6, -⟩ := keyNames
  have := shown_obj hd k [(b!"Name", quote c.name, .str (sanitize c.name)), (b!"Type", quote c.type, .str (sanitize c.type)), (b!"UdtType", quote c.udtType, .str (sanitize c.udtType)),
    (b!"Nullable", boolText c.nullable, .bool c.nullable), (b!"MaxLength", Num.dec c.maxLength.toNat, .num (Num.dec c.maxLength.toNat)),
    (b!"Position", Num.dec c.position.toNat, .num (Num.dec c.position.toNat))] (by
      simp only [List.forall_mem_cons, List.not_mem_nil, false_imp_iff, implies_true, and_true]
      exact ⟨shown_quote _ _, shown_quote _ _, shown_quote _ _, shown_bool _ _, shown_nat _ _, shown_nat _ _⟩)
  simp only [List.map_cons, List.map_nil, k1, k2, k3, k4, k5, k6] at this
  exact this

theorem shown_index {d : Nat} (hd : d + 1 < maxDepth) (k : Nat) (i : JIndex) : Shown d (indexText k i) (Spec.indexDoc (Spec.cleanIndex i)) := by
  obtain ⟨k1, -, -, -, -, -, k7, k8, k9, -⟩ := keyNames
  have hs : Shown (d + 1) (sliceText (k + 1) (i.columnNames.map (·.map quote))) (Spec.arr .str (i.columnNames.map (·.map sanitize))) := by
    have := shown_slice hd (k + 1) quote (fun s => .str (sanitize s)) i.columnNames (fun s => shown_quote _ s)
    cases hc : i.columnNames with
    | none => rw [hc] at this; exact this
    | some l =>
      rw [hc] at this
      simp only [Spec.arr, Option.map_some, List.map_map] at this ⊢
      exact this
  have := shown_obj (by omega : d < maxDepth) k [(b!"Name", quote i.name, .str (sanitize i.name)), (b!"IsPrimary", boolText i.isPrimary, .bool i.isPrimary),
    (b!"IsUnique", boolText i.isUnique, .bool i.isUnique), (b!"ColumnNames", sliceText (k + 1) (i.columnNames.map (·.map quote)), Spec.arr .str (i.columnNames.map (·.map sanitize)))] (by
      simp only [List.forall_mem_cons, List.not_mem_nil, false_imp_iff, implies_true, and_true]
      exact ⟨shown_quote _ _, shown_bool _ _, shown_bool _ _, hs⟩)
  simp only [List.map_cons, List.map_nil, k1, k7, k8, k9] at this
  exact this

theorem arr_clean {α : Type} (doc : α → JV) (clean : α → α) (l : Option (List α)) : Spec.arr (fun a => doc (clean a)) l = Spec.arr doc (l.map (·.map clean)) := by
  cases l with
  | none => rfl
  | some l => simp [Spec.arr, List.map_map, Function.comp_def]

theorem shown_table {d : Nat} (hd : d + 3 < maxDepth) (k : Nat) (t : JTable) : Shown d (tableText k t) (Spec.tableDoc (Spec.cleanTable t)) := by
  obtain ⟨k1, k2, -, -, -, -, -, -, -, k10, k11, k12, k13, k14, -⟩ := keyNames
  have hc := shown_slice (by omega : d + 1 < maxDepth) (k + 1) (columnText (k + 2)) (fun c => Spec.columnDoc (Spec.cleanColumn c)) t.columns
    (fun c => shown_column (by omega) _ c)
  have hi := shown_slice (by omega : d + 1 < maxDepth) (k + 1) (indexText (k + 2)) (fun c => Spec.indexDoc (Spec.cleanIndex c)) t.indexes
    (fun c => shown_index (by omega) _ c)
  rw [arr_clean] at hc hi
  have hp : Shown (d + 1) (match t.primaryKey with | none => b!"null" | some c => columnText (k + 1) c)
      (match t.primaryKey.map Spec.cleanColumn with | none => .null | some c => Spec.columnDoc c) := by
    cases t.primaryKey with
    | none => exact shown_null _
    | some c => exact shown_column (by omega) _ c
  have := shown_obj (by omega : d < maxDepth) k [(b!"Schema", quote t.schema, .str (sanitize t.schema)), (b!"Name", quote t.name, .str (sanitize t.name)),
    (b!"Type", quote t.type, .str (sanitize t.type)), (b!"IsView", boolText t.isView, .bool t.isView),
    (b!"Columns", sliceText (k + 1) (t.columns.map (·.map (columnText (k + 2)))), Spec.arr Spec.columnDoc (t.columns.map (·.map Spec.cleanColumn))),
    (b!"Indexes", sliceText (k + 1) (t.indexes.map (·.map (indexText (k + 2)))), Spec.arr Spec.indexDoc (t.indexes.map (·.map Spec.cleanIndex))),
    (b!"PrimaryKey", (match t.primaryKey with | none => b!"null" | some c => columnText (k + 1) c),
      (match t.primaryKey.map Spec.cleanColumn with | none => .null | some c => Spec.columnDoc c))] (by
      simp only [List.forall_mem_cons, List.not_mem_nil, false_imp_iff, implies_true, and_true]
      exact ⟨shown_quote _ _, shown_quote _ _, shown_quote _ _, shown_bool _ _, hc, hi, hp⟩)
  simp only [List.map_cons, List.map_nil, k1, k2, k10, k11, k12, k13, k14] at this
  exact this

theorem shown_key {d : Nat} (hd : d < maxDepth) (k : Nat) (f : JKey) : Shown d (keyText k f) (Spec.keyDoc (Spec.cleanKey f)) := by
  obtain ⟨k1, -, -, -, -, -, -, -, -, k10, -, -, -, -, k15, k16, k17, k18, k19⟩ := keyNames
  have := shown_obj hd k [(b!"Name", quote f.name, .str (sanitize f.name)), (b!"Schema", quote f.schema, .str (sanitize f.schema)), (b!"Table", quote f.table, .str (sanitize f.table)),
    (b!"Column", quote f.column, .str (sanitize f.column)), (b!"RefSchema", quote f.refSchema, .str (sanitize f.refSchema)), (b!"RefTable", quote f.refTable, .str (sanitize f.refTable)),
    (b!"RefColumn", quote f.refColumn, .str (sanitize f.refColumn))] (by
      simp only [List.forall_mem_cons, List.not_mem_nil, false_imp_iff, implies_true, and_true]
      exact ⟨shown_quote _ _, shown_quote _ _, shown_quote _ _, shown_quote _ _, shown_quote _ _, shown_quote _ _, shown_quote _ _⟩)
  simp only [List.map_cons, List.map_nil, k1, k10, k15, k16, k17, k18, k19] at this
  exact this

/-- **C105**: what `-O json` prints (the encoding and a line break) is a JSON document, for all tables and all keys, and it says what was listed: an object per table with its schema, name,
type, kind, columns, indexes and primary key, all texts as they are up to bytes that are not UTF-8. -/
theorem C105_json_document (ts : Option (List JTable)) (ks : Option (List JKey)) :
    parse (tablesJson ts ++ b!"\n") = some (Spec.arr Spec.tableDoc (ts.map (·.map Spec.cleanTable)))
    ∧ parse (keysJson ks ++ b!"\n") = some (Spec.arr Spec.keyDoc (ks.map (·.map Spec.cleanKey))) := by
  rw [← arr_clean, ← arr_clean]
  exact ⟨(shown_slice (by decide) 0 (tableText 1) _ ts (fun t => shown_table (by decide) 1 t)).document,
    (shown_slice (by decide) 0 (keyText 1) _ ks (fun t => shown_key (by decide) 1 t)).document⟩

/-! #### The document determines the value -/

theorem arr_inj {α : Type} {doc : α → JV} (h : ∀ a b, doc a = doc b → a = b) {l m : Option (List α)} (e : Spec.arr doc l = Spec.arr doc m) : l = m := by
  cases l with
  | none => cases m with
    | none => rfl
    | some m => cases e
  | some l => cases m with
    | none => cases e
    | some m =>
      simp only [Spec.arr, JV.arr.injEq] at e
      have : ∀ l m : List α, l.map doc = m.map doc → l = m := by
        intro l
        induction l with
        | nil => intro m e; cases m with
          | nil => rfl
          | cons b m => cases e
        | cons a l ih => intro m e; cases m with
          | nil => cases e
          | cons b m =>
            simp only [List.map_cons, List.cons.injEq] at e
            rw [h a b e.1, ih m e.2]
      rw [this l m e]

theorem num_inj {a b : UInt32} (h : Spec.num a = Spec.num b) : a = b := by
  simp only [Spec.num, JV.num.injEq] at h
  exact UInt32.toNat_inj.1 (Num.fmtNat_inj 10 (by decide) (by decide) h)

theorem columnDoc_inj (a b : JColumn) (h : Spec.columnDoc a = Spec.columnDoc b) : a = b := by
  obtain ⟨a1, a2, a3, a4, a5, a6⟩ := a
  obtain ⟨b1, b2, b3, b4, b5, b6⟩ := b
  simp only [Spec.columnDoc, JV.obj.injEq, List.cons.injEq, Prod.mk.injEq, JV.str.injEq, JV.bool.injEq, true_and, and_true] at h
  obtain ⟨h1, h2, h3, h4, h5, h6⟩ := h
  rw [h1, h2, h3, h4, num_inj h5, num_inj h6]

theorem indexDoc_inj (a b : JIndex) (h : Spec.indexDoc a = Spec.indexDoc b) : a = b := by
  obtain ⟨a1, a2, a3, a4⟩ := a
  obtain ⟨b1, b2, b3, b4⟩ := b
  simp only [Spec.indexDoc, JV.obj.injEq, List.cons.injEq, Prod.mk.injEq, JV.str.injEq, JV.bool.injEq, true_and, and_true] at h
  obtain ⟨h1, h2, h3, h4⟩ := h
  rw [h1, h2, h3, arr_inj (fun a b e => JV.str.inj e) h4]

theorem tableDoc_inj (a b : JTable) (h : Spec.tableDoc a = Spec.tableDoc b) : a = b := by
  obtain ⟨a1, a2, a3, a4, a5, a6, a7⟩ := a
  obtain ⟨b1, b2, b3, b4, b5, b6, b7⟩ := b
  simp only [Spec.tableDoc, JV.obj.injEq, List.cons.injEq, Prod.mk.injEq, JV.str.injEq, JV.bool.injEq, true_and, and_true] at h
  obtain ⟨h1, h2, h3, h4, h5, h6, h7⟩ := h
  have h7' : a7 = b7 := by
    cases a7 with
    | none => cases b7 with
      | none => rfl
      | some c => exact (nomatch h7)
    | some c => cases b7 with
      | none => exact (nomatch h7)
      | some c' => rw [columnDoc_inj c c' h7]
  rw [h1, h2, h3, h4, arr_inj columnDoc_inj h5, arr_inj indexDoc_inj h6, h7']

theorem keyDoc_inj (a b : JKey) (h : Spec.keyDoc a = Spec.keyDoc b) : a = b := by
  obtain ⟨a1, a2, a3, a4, a5, a6, a7⟩ := a
  obtain ⟨b1, b2, b3, b4, b5, b6, b7⟩ := b
  simp only [Spec.keyDoc, JV.obj.injEq, List.cons.injEq, Prod.mk.injEq, JV.str.injEq, JV.bool.injEq, true_and, and_true] at h
  obtain ⟨h1, h2, h3, h4, h5, h6, h7⟩ := h
  rw [h1, h2, h3, h4, h5, h6, h7]

/-! #### Clean values -/

theorem cleanColumn_eq {c : JColumn} (h : Spec.Utf8Column c) : Spec.cleanColumn c = c := by
  obtain ⟨a1, a2, a3, a4, a5, a6⟩ := c
  simp only [Spec.cleanColumn, (sanitize_eq_iff _).2 h.1, (sanitize_eq_iff _).2 h.2.1, (sanitize_eq_iff _).2 h.2.2]

theorem map_clean {α : Type} {clean : α → α} {ok : α → Prop} (h : ∀ a, ok a → clean a = a) (l : Option (List α)) (hl : ∀ x, l = some x → ∀ a ∈ x, ok a) :
    l.map (·.map clean) = l := by
  cases l with
  | none => rfl
  | some l =>
    simp only [Option.map_some, Option.some.injEq]
    have := hl l rfl
    conv => rhs; rw [← List.map_id l]
    exact List.map_congr_left fun a ha => h a (this a ha)

theorem cleanIndex_eq {i : JIndex} (h : Spec.Utf8Index i) : Spec.cleanIndex i = i := by
  obtain ⟨a1, a2, a3, a4⟩ := i
  simp only [Spec.cleanIndex, (sanitize_eq_iff _).2 h.1, map_clean (fun s => (sanitize_eq_iff s).2) a4 h.2]

theorem cleanTable_eq {t : JTable} (h : Spec.Utf8Table t) : Spec.cleanTable t = t := by
  obtain ⟨a1, a2, a3, a4, a5, a6, a7⟩ := t
  obtain ⟨h1, h2, h3, h4, h5, h6⟩ := h
  have h7 : a7.map Spec.cleanColumn = a7 := by
    cases a7 with
    | none => rfl
    | some c => simp only [Option.map_some]; rw [cleanColumn_eq (h6 c rfl)]
  simp only [Spec.cleanTable, (sanitize_eq_iff _).2 h1, (sanitize_eq_iff _).2 h2, (sanitize_eq_iff _).2 h3, map_clean (fun c => cleanColumn_eq) a5 h4,
    map_clean (fun c => cleanIndex_eq) a6 h5, h7]

theorem cleanKey_eq {f : JKey} (h : Spec.Utf8Key f) : Spec.cleanKey f = f := by
  obtain ⟨a1, a2, a3, a4, a5, a6, a7⟩ := f
  obtain ⟨h1, h2, h3, h4, h5, h6, h7⟩ := h
  simp only [Spec.cleanKey, (sanitize_eq_iff _).2 h1, (sanitize_eq_iff _).2 h2, (sanitize_eq_iff _).2 h3, (sanitize_eq_iff _).2 h4, (sanitize_eq_iff _).2 h5,
    (sanitize_eq_iff _).2 h6, (sanitize_eq_iff _).2 h7]

/-- **C105**: the output determines what was listed: if all texts are UTF-8, two different lists of tables (or of keys) are never printed the same. -/
theorem C105_output_determines_the_tables (a b : Option (List JTable)) (ha : ∀ l, a = some l → ∀ t ∈ l, Spec.Utf8Table t) (hb : ∀ l, b = some l → ∀ t ∈ l, Spec.Utf8Table t)
    (h : tablesJson a = tablesJson b) : a = b := by
  have h1 := (C105_json_document a none).1
  have h2 := (C105_json_document b none).1
  rw [h, h2, map_clean (fun t => cleanTable_eq) a ha, map_clean (fun t => cleanTable_eq) b hb] at h1
  exact (arr_inj tableDoc_inj (Option.some.inj h1)).symm

theorem C105_output_determines_the_keys (a b : Option (List JKey)) (ha : ∀ l, a = some l → ∀ t ∈ l, Spec.Utf8Key t) (hb : ∀ l, b = some l → ∀ t ∈ l, Spec.Utf8Key t)
    (h : keysJson a = keysJson b) : a = b := by
  have h1 := (C105_json_document none a).2
  have h2 := (C105_json_document none b).2
  rw [h, h2, map_clean (fun t => cleanKey_eq) a ha, map_clean (fun t => cleanKey_eq) b hb] at h1
  exact (arr_inj keyDoc_inj (Option.some.inj h1)).symm

/-! ### The commands -/

/-- What the encoder sees of a column. -/
def shownColumn (c : Column) : JColumn := ⟨c.name, c.type, c.udtType, c.nullable, c.maxLength, c.position⟩
/-- What the encoder sees of an index (provider.go:256-259: its names are never nil, `strings.Split` returns at least one). -/
def shownIndex (i : Index) : JIndex := ⟨i.name, i.isPrimary, i.isUnique, some i.columnNames⟩
/-- What the encoder sees of a key. -/
def shownKey (f : ForeignKey) : JKey := ⟨f.name, f.schema, f.table, f.column, f.refSchema, f.refTable, f.refColumn⟩

/-- The fields of a table the printing model (`Gen.GTable`) does not have: its type, whether it is a view, and whether its indexes are nil (views and dependencies: provider.go:173-179, 363-368). -/
structure Rest where
  type : Gen.GTable → Bytes
  isView : Gen.GTable → Bool
  nilIndexes : Gen.GTable → Bool

/-- What the encoder sees of a table. -/
def shownTable (r : Rest) (t : Gen.GTable) : JTable :=
  { schema := t.schema, name := t.name, type := r.type t, isView := r.isView t, columns := some (t.columns.map shownColumn)
    indexes := if r.nilIndexes t ∧ t.indexes = [] then none else some (t.indexes.map shownIndex), primaryKey := t.primaryKey.map shownColumn }

/-- Go's JSON encoder in place of the parameter (provider.go:73, 188, 286, 346: the lists are never nil); it has no way to fail for these types. -/
def goEnc (r : Rest) (yaml : Val → Option Bytes) : Enc :=
  { json := fun v => some (match v with | .tables ts => tablesJson (some (ts.map (shownTable r))) | .fks ks => keysJson (some (ks.map shownKey)))
    yaml := yaml }

namespace Spec

/-! The documents of what was listed, member by member. -/

/-- A text, every byte that is not UTF-8 replaced by U+FFFD. -/
def str (s : Bytes) : JV := .str (sanitize s)

def listedColumn (c : Column) : JV :=
  .obj [(b!"Name", str c.name), (b!"Type", str c.type), (b!"UdtType", str c.udtType), (b!"Nullable", .bool c.nullable), (b!"MaxLength", num c.maxLength),
    (b!"Position", num c.position)]

def listedIndex (i : Index) : JV :=
  .obj [(b!"Name", str i.name), (b!"IsPrimary", .bool i.isPrimary), (b!"IsUnique", .bool i.isUnique), (b!"ColumnNames", .arr (i.columnNames.map str))]

def listedTable (r : Rest) (t : Gen.GTable) : JV :=
  .obj [(b!"Schema", str t.schema), (b!"Name", str t.name), (b!"Type", str (r.type t)), (b!"IsView", .bool (r.isView t)), (b!"Columns", .arr (t.columns.map listedColumn)),
    (b!"Indexes", if r.nilIndexes t = true ∧ t.indexes = [] then .null else .arr (t.indexes.map listedIndex)),
    (b!"PrimaryKey", match t.primaryKey with | none => .null | some c => listedColumn c)]

def listedKey (k : ForeignKey) : JV :=
  .obj [(b!"Name", str k.name), (b!"Schema", str k.schema), (b!"Table", str k.table), (b!"Column", str k.column), (b!"RefSchema", str k.refSchema), (b!"RefTable", str k.refTable),
    (b!"RefColumn", str k.refColumn)]

end Spec

theorem listedColumn_eq (c : Column) : Spec.columnDoc (Spec.cleanColumn (shownColumn c)) = Spec.listedColumn c := rfl

theorem listedTable_eq (r : Rest) (t : Gen.GTable) : Spec.tableDoc (Spec.cleanTable (shownTable r t)) = Spec.listedTable r t := by
  have hi : Spec.arr Spec.indexDoc ((shownTable r t).indexes.map (·.map Spec.cleanIndex))
      = (if r.nilIndexes t = true ∧ t.indexes = [] then JV.null else .arr (t.indexes.map Spec.listedIndex)) := by
    unfold shownTable
    split
    · rfl
    · simp only [Option.map_some, Spec.arr, List.map_map]
      congr 1
      refine List.map_congr_left fun i _ => ?_
      simp only [Function.comp, Spec.indexDoc, Spec.cleanIndex, shownIndex, Spec.listedIndex, Option.map_some, Spec.arr, List.map_map]
      rfl
  have hc : Spec.arr Spec.columnDoc ((shownTable r t).columns.map (·.map Spec.cleanColumn)) = .arr (t.columns.map Spec.listedColumn) := by
    simp only [shownTable, Option.map_some, Spec.arr, List.map_map]
    rfl
  have hk : (match (shownTable r t).primaryKey.map Spec.cleanColumn with | none => JV.null | some c => Spec.columnDoc c)
      = (match t.primaryKey with | none => .null | some c => Spec.listedColumn c) := by
    unfold shownTable
    cases t.primaryKey <;> rfl
  unfold Spec.tableDoc Spec.cleanTable Spec.listedTable
  simp only
  rw [hi, hc, hk]
  rfl

/-- **C105, the commands**: `tables -O json` succeeds exactly when the listing does, and prints one JSON document: the array of everything listed, each table with its columns and indexes;
likewise `views`, `foreign-keys` and `columns`. -/
theorem C105_commands_print_documents (r : Rest) (yaml : Val → Option Bytes) (a : Answers) (hp : a.provider = true) (ts vs : List Gen.GTable) (ks : List ForeignKey)
    (ht : a.tables = some ts) (hv : a.views = some vs) (hk : a.fks = some ks) :
    let shows := fun (out : List Piece × Bool) (doc : JV) => out.2 = true ∧ ∃ text, Spec.textOf out.1 = some text ∧ parse text = some doc
    let tables := fun (l : List Gen.GTable) => JV.arr (l.map (Spec.listedTable r))
    shows (printTables (goEnc r yaml) b!"json" false a) (tables ts)
    ∧ shows (printTables (goEnc r yaml) b!"json" true a) (tables (ts ++ vs))
    ∧ shows (printViews (goEnc r yaml) b!"json" a) (tables vs)
    ∧ shows (printColumns (goEnc r yaml) b!"json" false a) (tables ts)
    ∧ shows (printFks (goEnc r yaml) b!"json" a) (JV.arr (ks.map Spec.listedKey)) := by
  intro shows tables
  have htab : ∀ l : List Gen.GTable, parse (tablesJson (some (l.map (shownTable r))) ++ b!"\n") = some (tables l) := by
    intro l
    rw [(C105_json_document _ none).1]
    simp only [Spec.arr, Option.map_some, List.map_map, tables]
    congr 2
    exact List.map_congr_left fun t _ => listedTable_eq r t
  have hkey : ∀ l : List ForeignKey, parse (keysJson (some (l.map shownKey)) ++ b!"\n") = some (JV.arr (l.map Spec.listedKey)) := by
    intro l
    rw [(C105_json_document none _).2]
    simp only [Spec.arr, Option.map_some, List.map_map]
    rfl
  have hobj : ∀ v, object (goEnc r yaml) b!"json" v = ([.text (match v with | .tables ts => tablesJson (some (ts.map (shownTable r))) | .fks ks => keysJson (some (ks.map shownKey))), .text b!"\n"], true) := by
    intro v
    unfold object
    rw [if_neg (by decide), if_pos rfl]
    rfl
  have hlist : ∀ l, listing (goEnc r yaml) b!"json" l = ([.text (tablesJson (some (l.map (shownTable r)))), .text b!"\n"], true) := by
    intro l
    unfold listing
    rw [if_pos (Or.inl rfl), hobj]
  have hshow : ∀ x doc, parse (x ++ b!"\n") = some doc → shows ([.text x, .text b!"\n"], true) doc := by
    intro x doc h
    exact ⟨rfl, x ++ b!"\n", by simp [Spec.textOf], h⟩
  simp only [printTables, printViews, printColumns, printFks, hp, ht, hv, hk, hlist, hobj, if_true, Bool.false_eq_true, if_false]
  exact ⟨hshow _ _ (htab ts), hshow _ _ (htab (ts ++ vs)), hshow _ _ (htab vs), hshow _ _ (htab ts), hshow _ _ (hkey ks)⟩

/-- Something follows the document on the same output: it is not a JSON text any more. -/
theorem two_documents {x y : Bytes} {v w : JV} (hx : Shown 0 x v) (hy : Shown 0 y w) : parse (x ++ b!"\n" ++ (y ++ b!"\n")) = none := by
  cases hp : parse (x ++ b!"\n" ++ (y ++ b!"\n")) with
  | none => rfl
  | some u =>
    obtain ⟨f, r, hf, hr⟩ := (parse_iff _ _).1 hp
    obtain ⟨g, hg⟩ := hx.reads
    have h1 := hg (max f g) (by omega) (b!"\n" ++ (y ++ b!"\n")) (Or.inr rfl)
    have h2 := (fuel_mono f).1 _ _ _ hf (max f g) (by omega)
    rw [List.append_assoc] at h2
    rw [h1] at h2
    simp only [Option.some.injEq, Prod.mk.injEq] at h2
    obtain ⟨b, t, hb, hsp, -⟩ := hy.start
    rw [← h2.2, List.cons_append, skip, if_pos (by decide), List.nil_append, hb, List.cons_append, skip, if_neg (by simp [hsp])] at hr
    cases hr

/-- **C105 fails** for `columns --views -O json`: when there are views, two documents are printed one after the other, and the output as a whole is not JSON. -/
theorem C105_columns_with_views_is_not_json (r : Rest) (yaml : Val → Option Bytes) (a : Answers) (hp : a.provider = true) (ts vs : List Gen.GTable)
    (ht : a.tables = some ts) (hv : a.views = some vs) :
    ∃ text, Spec.textOf (printColumns (goEnc r yaml) b!"json" true a).1 = some text ∧ (printColumns (goEnc r yaml) b!"json" true a).2 = true
      ∧ (parse text = none ↔ vs ≠ []) := by
  have hsh : ∀ l : List Gen.GTable, Shown 0 (tablesJson (some (l.map (shownTable r)))) (Spec.arr (fun t => Spec.tableDoc (Spec.cleanTable t)) (some (l.map (shownTable r)))) :=
    fun l => shown_slice (by decide) 0 (tableText 1) _ _ (fun t => shown_table (by decide) 1 t)
  have hobj : ∀ l, object (goEnc r yaml) b!"json" (.tables l) = ([.text (tablesJson (some (l.map (shownTable r)))), .text b!"\n"], true) := by
    intro l
    unfold object
    rw [if_neg (by decide), if_pos rfl]
    rfl
  simp only [printColumns, hp, ht, hv, hobj, if_true]
  cases vs with
  | nil =>
    refine ⟨tablesJson (some (ts.map (shownTable r))) ++ b!"\n", by simp [Spec.textOf], trivial, ?_⟩
    rw [(hsh ts).document]
    simp
  | cons v vs =>
    refine ⟨tablesJson (some (ts.map (shownTable r))) ++ b!"\n" ++ (tablesJson (some ((v :: vs).map (shownTable r))) ++ b!"\n"), ?_, trivial, ?_⟩
    · simp [Spec.textOf]
    · rw [two_documents (hsh ts) (hsh (v :: vs))]
      simp

/-! ### Witnesses -/

/-- A table as listed. -/
def demoJTable : JTable :=
  { schema := b!"public", name := b!"a\"b", type := b!"BASE TABLE", isView := false, columns := some [⟨b!"id", b!"bigint", b!"int8", false, 0, 1⟩], indexes := some []
    primaryKey := none }

example : tablesJson (some [demoJTable]) = b!"[\n  {\n    \"Schema\": \"public\",\n    \"Name\": \"a\\\"b\",\n    \"Type\": \"BASE TABLE\",\n    \"IsView\": false,\n    \"Columns\": [\n      {\n        \"Name\": \"id\",\n        \"Type\": \"bigint\",\n        \"UdtType\": \"int8\",\n        \"Nullable\": false,\n        \"MaxLength\": 0,\n        \"Position\": 1\n      }\n    ],\n    \"Indexes\": [],\n    \"PrimaryKey\": null\n  }\n]" := by decide +kernel
example : tablesJson none = b!"null" := rfl
example : tablesJson (some []) = b!"[]" := rfl
example : Spec.Utf8Table demoJTable := by
  have h : ∀ s : Bytes, sanitize s = s → Types.GoJson.Spec.Utf8 s := fun s => (sanitize_eq_iff s).1
  refine ⟨h _ (by decide +kernel), h _ (by decide +kernel), h _ (by decide +kernel), ?_, ?_, by intro c hc; cases hc⟩
  · intro l hl c hc
    cases hl
    rw [List.mem_singleton.1 hc]
    exact ⟨h _ (by decide +kernel), h _ (by decide +kernel), h _ (by decide +kernel)⟩
  · intro l hl i hi
    cases hl
    cases hi

end Cli
