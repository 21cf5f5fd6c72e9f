import Verif.Util
import Verif.Query.Params
import Verif.Types.IdArray
set_option linter.unusedVariables false
/-!
Model of `schema.SQLServerProvider` (schema/provider.go): `ListTables`, `ListViews`, `ListForeignKeys` and dependency discovery.

The database is a catalogue: what each of the dialect's five queries returns (the SQL texts are modelled in `Verif.Catalog`).  A query either
fails or returns rows; a row is a value or a scan failure; after the rows there may be an error (`rows.Err()`).
`*Column` pointers are indices into a heap, because the columns of a table are reached both through the table and through the provider's map.
`slices.ContainsStringEqualFold` is `any` of a parameter `eqFold` (Go's `strings.EqualFold`).
`sort.Slice` is `Util.sort`; ties are discussed at the theorems.
-/
namespace Schema

/-- A `*sql.Rows`: rows (`none`: scanning it fails), and whether `rows.Err()` is set after the last one. -/
structure Rows (ρ : Type) where
  items : List (Option ρ)
  endErr : Bool
  deriving Repr

/-- Row of `QueryTables`. -/
structure TableRow where
  schema : Bytes
  name : Bytes
  type : Bytes
  deriving DecidableEq, Repr

/-- Row of `QueryColumns`. -/
structure ColRow where
  name : Bytes
  type : Bytes
  udt : Bytes
  nullable : Bytes
  maxLen : Option Int
  ordinal : Int
  deriving DecidableEq, Repr

/-- Row of `QueryIndexes`. -/
structure IdxRow where
  name : Bytes
  isPrimary : Bool
  isUnique : Bool
  columnNames : Bytes
  deriving DecidableEq, Repr

/-- Row of `QueryForeignKeys`. -/
structure FkRow where
  name : Bytes
  schema : Bytes
  table : Bytes
  column : Bytes
  refSchema : Bytes
  refTable : Bytes
  refColumn : Bytes
  deriving DecidableEq, Repr

/-- What the database answers; `none`: the query fails. -/
structure Catalogue where
  tables : Option (Rows TableRow)
  columns : Bytes → Bytes → Option (Rows ColRow)
  indexes : Bytes → Bytes → Option (Rows IdxRow)
  fkeys : Option (Rows FkRow)
  views : Option (Rows (Bytes × Bytes × ColRow))

/-- schema.go:220-228 `Index`. -/
structure Index where
  name : Bytes
  isPrimary : Bool
  isUnique : Bool
  columnNames : List Bytes
  schemaName : Bytes
  deriving DecidableEq, Repr

/-- schema.go:255-268 `ForeignKey`. -/
structure ForeignKey where
  name : Bytes
  schema : Bytes
  table : Bytes
  column : Bytes
  refSchema : Bytes
  refTable : Bytes
  refColumn : Bytes
  schemaName : Bytes
  deriving DecidableEq, Repr

/-- schema.go:133-152 `Column`. -/
structure Column where
  name : Bytes
  type : Bytes
  udtType : Bytes
  nullable : Bool
  maxLength : UInt32
  position : UInt32
  schemaName : Bytes
  ref : Option ForeignKey
  indexes : List Index
  deriving DecidableEq, Repr

/-- schema.go:105-122 `Table`; columns and primary key are pointers. -/
structure Table where
  schema : Bytes
  name : Bytes
  type : Bytes
  isView : Bool
  columns : List Nat
  indexes : List Index
  primaryKey : Option Nat
  schemaName : Bytes
  deriving DecidableEq, Repr

/-- `fmt.Sprintf("%s.%s", a, b)`. -/
def dot2 (a b : Bytes) : Bytes := a ++ 46 :: b
/-- `fmt.Sprintf("%s.%s.%s", a, b, c)`. -/
def dot3 (a b c : Bytes) : Bytes := a ++ 46 :: b ++ 46 :: c

/-- A Go map. -/
def put {β : Type} (m : List (Bytes × β)) (k : Bytes) (v : β) : List (Bytes × β) := (k, v) :: m.filter (fun e => e.1 != k)

/-- provider.go:25-34: the provider's caches (the map of indexes is never read), the heap of columns, and the number of `*sql.Rows` left open. -/
structure Prov where
  heap : List Column
  columns : List (Bytes × Nat)
  tables : List (Bytes × Table)
  fkeys : List (Bytes × ForeignKey)
  leaked : Nat

/-- provider.go:37-57 `NewProvider`. -/
def Prov.new : Prov := ⟨[], [], [], [], 0⟩

/-- Outcome of a call. -/
inductive Out (α : Type) where
  | ok (a : α)
  | err
  | panic       -- nil pointer dereference
  | diverge     -- out of fuel
  deriving DecidableEq, Repr

/-- provider.go:400-405 `maxLength`: `uint32(*v)`, 0 for nil. -/
def maxLength (v : Option Int) : UInt32 := match v with | none => 0 | some n => UInt32.ofInt n

/-- `len(l) > 0 && !ContainsStringEqualFold(l, s)` is the negation of this. -/
def passes (eqFold : Bytes → Bytes → Bool) (l : List Bytes) (s : Bytes) : Bool := l.isEmpty || l.any (fun x => eqFold x s)

/-- provider.go:203 `nullableVals`. -/
def nullableVals : List Bytes := [b!"YES", b!"TRUE", b!"NULL"]

/-- provider.go:213-224: a column from a row. -/
def mkColumn (eqFold : Bytes → Bytes → Bool) (schema table : Bytes) (r : ColRow) : Column :=
  { name := r.name, type := r.type, udtType := r.udt, nullable := nullableVals.any (fun x => eqFold x r.nullable)
    maxLength := maxLength r.maxLen, position := UInt32.ofInt r.ordinal, schemaName := dot3 schema table r.name, ref := none, indexes := [] }

/-- A new column object, entered in the provider's map. -/
def newColumn (p : Prov) (c : Column) : Prov :=
  { p with heap := p.heap ++ [c], columns := put p.columns c.schemaName p.heap.length }

/-- The rows stay open: the function returns without reading to the end or closing them. -/
def leak (p : Prov) : Prov := { p with leaked := p.leaked + 1 }

/-- provider.go:211-232: the loop over the rows. -/
def colLoop (eqFold : Bytes → Bytes → Bool) (schema table : Bytes) (endErr : Bool) : List (Option ColRow) → List Nat → Prov → Out (List Nat) × Prov
  | [], acc, p => if endErr then (.err, p) else (.ok acc, p)
  | none :: _, _, p => (.err, leak p)
  | some r :: rest, acc, p => colLoop eqFold schema table endErr rest (acc ++ [p.heap.length]) (newColumn p (mkColumn eqFold schema table r))

/-- Position of a column object. -/
def posOf (heap : List Column) (i : Nat) : UInt32 := match heap[i]? with | some c => c.position | none => 0

/-- provider.go:205-239 `readColumnsSchema`. -/
def readColumns (eqFold : Bytes → Bytes → Bool) (cat : Catalogue) (schema table : Bytes) (p : Prov) : Out (List Nat) × Prov :=
  match cat.columns schema table with
  | none => (.err, p)
  | some rows =>
    match colLoop eqFold schema table rows.endErr rows.items [] p with
    | (.ok cc, p') => (.ok (Util.sort (fun a b => posOf p'.heap a ≤ posOf p'.heap b) cc), p')
    | r => r

/-- provider.go:250-262: an index from a row (`Types.splitComma` is `strings.Split(s, ",")`). -/
def mkIndex (schema table : Bytes) (r : IdxRow) : Index :=
  { name := r.name, isPrimary := r.isPrimary, isUnique := r.isUnique, columnNames := Types.splitComma r.columnNames
    schemaName := dot3 schema table r.name }

/-- provider.go:247-273. -/
def idxLoop (schema table : Bytes) (endErr : Bool) : List (Option IdxRow) → List Index → Prov → Out (List Index) × Prov
  | [], acc, p => if endErr then (.err, p) else (.ok acc, p)
  | none :: _, _, p => (.err, leak p)
  | some r :: rest, acc, p => idxLoop schema table endErr rest (acc ++ [mkIndex schema table r]) p

/-- provider.go:240-278 `readIndexesSchema` (the second result is not used by any caller). -/
def readIndexes (cat : Catalogue) (schema table : Bytes) (p : Prov) : Out (List Index) × Prov :=
  match cat.indexes schema table with
  | none => (.err, p)
  | some rows => idxLoop schema table rows.endErr rows.items [] p

/-- Change a column object. -/
def modCol (p : Prov) (i : Nat) (f : Column → Column) : Prov := { p with heap := p.heap.modify i f }

/-- provider.go:103-110: the columns of one index; `none`: nil dereference. -/
def applyIndex (tn : Bytes) (idx : Index) : List Bytes → Option Nat → Prov → Option (Option Nat × Prov)
  | [], pk, p => some (pk, p)
  | cn :: cns, pk, p =>
    match p.columns.lookup (dot2 tn cn) with
    | none => none
    | some i =>
      applyIndex tn idx cns (if idx.isPrimary ∧ idx.columnNames.length = 1 then some i else pk)
        (modCol p i (fun c => { c with indexes := c.indexes ++ [idx] }))

/-- provider.go:102-111: all indexes. -/
def applyIndexes (tn : Bytes) : List Index → Option Nat → Prov → Option (Option Nat × Prov)
  | [], pk, p => some (pk, p)
  | idx :: rest, pk, p =>
    match applyIndex tn idx idx.columnNames pk p with
    | none => none
    | some (pk', p') => applyIndexes tn rest pk' p'

/-- provider.go:88-113: one table that passed the filters. -/
def addTable (eqFold : Bytes → Bytes → Bool) (cat : Catalogue) (r : TableRow) (p : Prov) : Out Table × Prov :=
  match readColumns eqFold cat r.schema r.name p with
  | (.ok cc, p1) =>
    match readIndexes cat r.schema r.name p1 with
    | (.ok ii, p2) =>
      match applyIndexes (dot2 r.schema r.name) ii none p2 with
      | none => (.panic, p2)
      | some (pk, p3) =>
        let t : Table := { schema := r.schema, name := r.name, type := r.type, isView := false, columns := cc, indexes := ii, primaryKey := pk
                           schemaName := dot2 r.schema r.name }
        (.ok t, { p3 with tables := put p3.tables t.schemaName t })
    | (.panic, p2) => (.panic, p2)
    | (.diverge, p2) => (.diverge, p2)
    | (.err, p2) => (.err, p2)
  | (.panic, p1) => (.panic, p1)
  | (.diverge, p1) => (.diverge, p1)
  | (.err, p1) => (.err, p1)

/-- provider.go:73-119: the loop over the rows of `QueryTables`; when a table fails the rows stay open. -/
def tableLoop (eqFold : Bytes → Bytes → Bool) (cat : Catalogue) (schemas tables : List Bytes) (endErr : Bool) :
    List (Option TableRow) → List Table → Prov → Out (List Table) × Prov
  | [], acc, p => if endErr then (.err, p) else (.ok acc, p)
  | none :: _, _, p => (.err, leak p)
  | some r :: rest, acc, p =>
    if passes eqFold schemas r.schema && passes eqFold tables r.name then
      match addTable eqFold cat r p with
      | (.ok t, p') => tableLoop eqFold cat schemas tables endErr rest (acc ++ [t]) p'
      | (.panic, p') => (.panic, leak p')
      | (.diverge, p') => (.diverge, leak p')
      | (.err, p') => (.err, leak p')
    else tableLoop eqFold cat schemas tables endErr rest acc p

/-- provider.go:309-312, schema.go:259-264: a key from a row, and its `ColumnSchemaName`. -/
def mkFk (r : FkRow) : ForeignKey :=
  { name := r.name, schema := r.schema, table := r.table, column := r.column, refSchema := r.refSchema, refTable := r.refTable
    refColumn := r.refColumn, schemaName := dot3 r.schema r.table r.name }

def ForeignKey.columnSchemaName (k : ForeignKey) : Bytes := dot3 k.schema k.table k.column

/-- provider.go:287-319. -/
def fkLoop (eqFold : Bytes → Bytes → Bool) (schemas tables : List Bytes) (endErr : Bool) :
    List (Option FkRow) → List ForeignKey → Prov → Out (List ForeignKey) × Prov
  | [], acc, p => if endErr then (.err, p) else (.ok acc, p)
  | none :: _, _, p => (.err, leak p)
  | some r :: rest, acc, p =>
    if passes eqFold schemas r.schema && passes eqFold tables r.table then
      fkLoop eqFold schemas tables endErr rest (acc ++ [mkFk r]) { p with fkeys := put p.fkeys (mkFk r).columnSchemaName (mkFk r) }
    else fkLoop eqFold schemas tables endErr rest acc p

/-- provider.go:281-322 `ListForeignKeys`. -/
def listForeignKeys (eqFold : Bytes → Bytes → Bool) (cat : Catalogue) (schemas tables : List Bytes) (p : Prov) : Out (List ForeignKey) × Prov :=
  match cat.fkeys with
  | none => (.err, p)
  | some rows => fkLoop eqFold schemas tables rows.endErr rows.items [] p

/-- provider.go:373-385: follow the foreign keys of the columns of a new table. -/
def followCols (go : Bytes → Bytes → Prov → Out Unit × Prov) : List Nat → Prov → Out Unit × Prov
  | [], p => (.ok (), p)
  | i :: rest, p =>
    match p.heap[i]? with
    | none => (.panic, p)
    | some c =>
      match p.fkeys.lookup c.schemaName with
      | none => followCols go rest p
      | some fk =>
        match go fk.refSchema fk.refTable (modCol p i (fun c => { c with ref := some fk })) with
        | (.ok _, p') => followCols go rest p'
        | r => r

/-- provider.go:354-388 `discoverTable`; the recursion is given fuel. -/
def discoverTable (eqFold : Bytes → Bytes → Bool) (cat : Catalogue) : Nat → Bytes → Bytes → Prov → Out Unit × Prov
  | 0, _, _, p => (.diverge, p)
  | fuel + 1, schema, table, p =>
    match p.tables.lookup (dot2 schema table) with
    | some _ => (.ok (), p)
    | none =>
      match readColumns eqFold cat schema table p with
      | (.ok cc, p1) =>
        let t : Table := { schema := schema, name := table, type := [], isView := false, columns := cc, indexes := [], primaryKey := none
                           schemaName := dot2 schema table }
        followCols (discoverTable eqFold cat fuel) cc { p1 with tables := put p1.tables t.schemaName t }
      | (.panic, p1) => (.panic, p1)
      | (.diverge, p1) => (.diverge, p1)
      | (.err, p1) => (.err, p1)

/-- provider.go:331-343: the loop over the map of columns, in the order `ks`. Go visits every entry present at the start once; entries added during
the loop may or may not be visited. -/
def discoverLoop (eqFold : Bytes → Bytes → Bool) (cat : Catalogue) (fuel : Nat) : List Bytes → Prov → Out Unit × Prov
  | [], p => (.ok (), p)
  | n :: rest, p =>
    match p.columns.lookup n with
    | none => discoverLoop eqFold cat fuel rest p
    | some i =>
      match p.fkeys.lookup n with
      | none => discoverLoop eqFold cat fuel rest p
      | some fk =>
        match discoverTable eqFold cat fuel fk.refSchema fk.refTable (modCol p i (fun c => { c with ref := some fk })) with
        | (.ok _, p') => discoverLoop eqFold cat fuel rest p'
        | r => r

/-- provider.go:325-352 `discover`; `ks` is the order in which the map of columns is visited. -/
def discover (eqFold : Bytes → Bytes → Bool) (cat : Catalogue) (fuel : Nat) (ks : List Bytes) (p : Prov) : Out (List Table) × Prov :=
  match listForeignKeys eqFold cat [] [] p with
  | (.ok _, p1) =>
    match discoverLoop eqFold cat fuel ks p1 with
    | (.ok _, p2) => (.ok (p2.tables.map (·.2)), p2)
    | (.panic, p2) => (.panic, p2)
    | (.diverge, p2) => (.diverge, p2)
    | (.err, p2) => (.err, p2)
  | (.panic, p1) => (.panic, p1)
  | (.diverge, p1) => (.diverge, p1)
  | (.err, p1) => (.err, p1)

/-- provider.go:129-131. -/
def sortTables (tt : List Table) : List Table := Util.sort (fun a b => Query.leBytes a.schemaName b.schemaName) tt

/-- provider.go:67-134 `ListTables`. -/
def listTables (eqFold : Bytes → Bytes → Bool) (cat : Catalogue) (schemas tables : List Bytes) (withDeps : Bool) (fuel : Nat) (ks : List Bytes)
    (p : Prov) : Out (List Table) × Prov :=
  match cat.tables with
  | none => (.err, p)
  | some rows =>
    match tableLoop eqFold cat schemas tables rows.endErr rows.items [] p with
    | (.ok tt, p1) =>
      if withDeps then
        match discover eqFold cat fuel ks p1 with
        | (.ok tt', p2) => (.ok (sortTables tt'), p2)
        | r => r
      else (.ok (sortTables tt), p1)
    | r => r

/-- provider.go:171-182: enter a column in its view, creating the view if there is none of that name. -/
def enterView (s n : Bytes) (i : Nat) (m : List (Bytes × Table)) : List (Bytes × Table) :=
  let t : Table := match m.lookup (dot2 s n) with
    | some t => t
    | none => { schema := s, name := n, type := [], isView := true, columns := [], indexes := [], primaryKey := none, schemaName := dot2 s n }
  put m (dot2 s n) { t with columns := t.columns ++ [i] }

/-- provider.go:145-186: the loop over the rows of `QueryViews`. -/
def viewLoop (eqFold : Bytes → Bytes → Bool) (schemas tables : List Bytes) (endErr : Bool) :
    List (Option (Bytes × Bytes × ColRow)) → List (Bytes × Table) → Prov → Out (List (Bytes × Table)) × Prov
  | [], m, p => if endErr then (.err, p) else (.ok m, p)
  | none :: _, _, p => (.err, leak p)
  | some (s, n, r) :: rest, m, p =>
    if passes eqFold schemas s && passes eqFold tables n then
      viewLoop eqFold schemas tables endErr rest (enterView s n p.heap.length m) (newColumn p (mkColumn eqFold s n r))
    else viewLoop eqFold schemas tables endErr rest m p

/-- provider.go:139-201 `ListViews`; `ord` is the order in which Go iterates over the map of views. -/
def listViews (eqFold : Bytes → Bytes → Bool) (cat : Catalogue) (schemas tables : List Bytes) (ord : List Table → List Table) (p : Prov) : Out (List Table) × Prov :=
  match cat.views with
  | none => (.err, p)
  | some rows =>
    match viewLoop eqFold schemas tables rows.endErr rows.items [] p with
    | (.ok m, p') =>
      (.ok (sortTables ((ord (m.map (·.2))).map (fun t => { t with columns := Util.sort (fun a b => posOf p'.heap a ≤ posOf p'.heap b) t.columns }))), p')
    | (.panic, p') => (.panic, p')
    | (.diverge, p') => (.diverge, p')
    | (.err, p') => (.err, p')

end Schema
