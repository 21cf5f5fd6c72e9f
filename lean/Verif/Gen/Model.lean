import Verif.Gen.Types
import Verif.Schema.Tag
set_option linter.unusedVariables false
/-!
Model of the code generator `GenerateCmd.generate` (internal/cli/schema/schema.go:282-471) and its templates (template.go).

Generated files are modelled by the declarations they contain, not by their text: the templates list the columns in loops, and what those loops print is
what is recorded here.  `gofmt` (`format.Source`) is a test on the file that may fail.  The naming libraries (strcase, pluralize) are parameters.
A table function that panics inside a template makes `Execute` return an error (text/template recovers panics of functions).
-/
namespace Gen
open Schema

/-- `schema.Table` with its columns and primary key (pointers followed). -/
structure GTable where
  schema : Bytes
  name : Bytes
  schemaName : Bytes
  columns : List Column
  indexes : List Index
  primaryKey : Option Column
  deriving DecidableEq, Repr

/-- Outcome of the command. -/
inductive Res where
  | ok | err | panic
  deriving DecidableEq, Repr

/-- Library functions: `strcase.ToGoPascal`, `pluralize.Singular`, `strings.EqualFold`; whether a file can be opened for writing. -/
structure Lib where
  pascal : Bytes → Bytes
  singular : Bytes → Bytes
  eqFold : Bytes → Bytes → Bool
  canOpen : Bytes → Bool

/-- The command's flags (schema.go:158-172) and the maps filled from the types definition file (schema.go:301-323).
`modelPkg` and `schemaPkg` are the package names after defaulting (schema.go:286-287). -/
structure Cfg where
  db : Bytes
  provider : Bytes
  modelPkg : Bytes
  schemaPkg : Bytes
  outModel : Bytes
  outSchema : Bytes
  structSuffix : Bytes
  useSchema : Bool
  types : Bytes → Option Bytes
  fields : Bytes → Option Bytes
  tables : Bytes → Option Bytes
  withCache : Bytes → Bool
  drop : Bytes → Bool

/-- A field of a generated model struct (template.go:95-99): its name, its Go type, the column it represents, and the tag written between back quotes. -/
structure Field where
  name : Bytes
  type : Bytes
  column : Bytes
  tag : Bytes
  deriving DecidableEq, Repr

/-- What codeModelTemplateText prints for a table (template.go:82-158): the struct, `ScanRow` with the list of fields it scans into, and `GetTableInfo`. -/
structure ModelDecl where
  structName : Bytes
  schema : Bytes
  table : Bytes
  fields : List Field
  scan : List Bytes
  infoRef : Bytes
  withCache : Bool
  deriving DecidableEq, Repr

/-- A `TableInfo` variable in the schema file (template.go:177-189). -/
structure InfoDecl where
  var : Bytes
  schemaName : Bytes
  schema : Bytes
  name : Bytes
  primaryKey : Bytes
  columns : List Bytes
  indexes : List Bytes
  dialect : Bytes
  deriving DecidableEq, Repr

/-- The column definitions of a table in the schema file (template.go:55-80). -/
structure DefDecl where
  var : Bytes
  infoRef : Bytes
  fields : List (Bytes × Column)
  deriving DecidableEq, Repr

/-- A generated file. -/
inductive File where
  | model (dialectVar : Option Bytes) (decls : List ModelDecl)
  | schema (dialectVar : Bytes) (infos : List InfoDecl) (mapVar : Bytes) (entries : List (Bytes × Bytes)) (defs : List DefDecl)
  deriving DecidableEq, Repr

/-- Where output goes: a file, or the command's writer. -/
inductive Target where
  | path (p : Bytes)
  | stdout
  deriving DecidableEq, Repr

/-- What the command does to the outside: open (and truncate) a file, write a file's contents. -/
inductive Event where
  | open_ (t : Target)
  | write (t : Target) (f : File)
  deriving DecidableEq, Repr

/-- schema.go:205-212 `goName`; `none`: index out of range on the empty string. -/
def goName (L : Lib) : Bytes → Option Bytes
  | [] => none
  | c :: s => some (L.pascal (if c = 95 then 88 :: s else c :: s))

/-- schema.go:214-221 `tableStructName`. -/
def tableStructName (L : Lib) (cfg : Cfg) (name schemaName : Bytes) : Option Bytes :=
  match cfg.tables schemaName with
  | some r => some (r ++ b!"Table")
  | none => (goName L (L.singular name)).map (· ++ b!"Table")

/-- schema.go:223-230 `tableInfoStructName`. -/
def tableInfoStructName (L : Lib) (cfg : Cfg) (name schemaName : Bytes) : Option Bytes :=
  match cfg.tables schemaName with
  | some r => some (r ++ b!"TableInfo")
  | none => (goName L (L.singular name)).map (· ++ b!"TableInfo")

/-- schema.go:232-239 `columnStructName`. -/
def columnStructName (L : Lib) (cfg : Cfg) (c : Column) : Option Bytes :=
  match cfg.fields c.schemaName with
  | some r => some r
  | none => goName L c.name

/-- schema.go:262-270 `filterColumnNames`. -/
def filterColumnNames (drop : Bytes → Bool) : List Bytes → List Bytes
  | [] => []
  | c :: cs => if !drop c then c :: filterColumnNames drop cs else filterColumnNames drop cs

/-- schema.go:272-280 `filterColumns`. -/
def filterColumns (drop : Bytes → Bool) : List Column → List Column
  | [] => []
  | c :: cs => if !drop c.name then c :: filterColumns drop cs else filterColumns drop cs

/-- schema.go:291-299: the name of the dialect variable. -/
def dialectOf (provider : Bytes) : Bytes :=
  if provider = b!"postgres" then b!"xsql.Postgres" else if provider = b!"sqlserver" then b!"xsql.SQLServer" else b!"xsql.NoDialect"

/-- template.go:7-22 `tableDefinition`: the fields the templates use. -/
structure TableDef where
  structName : Bytes
  schema : Bytes
  tableName : Bytes
  tableStructName : Bytes
  columns : List Column
  schemaPackage : Bytes
  withCache : Bool
  deriving DecidableEq, Repr

/-- schema.go:374-381: the table info of a table (without its variable name). -/
def mkInfo (cfg : Cfg) (t : GTable) : InfoDecl :=
  { var := [], schemaName := t.schemaName, schema := t.schema, name := t.name
    primaryKey := match t.primaryKey with | some c => c.name | none => []
    columns := filterColumnNames cfg.drop (t.columns.map (·.name)), indexes := t.indexes.map (·.name), dialect := [] }

/-- schema.go:367-408: the definition of a table; `none`: `tableStructName` panics. -/
def mkDef (L : Lib) (cfg : Cfg) (schemaName : Bytes) (t : GTable) : Option TableDef :=
  let structName := L.pascal (L.singular t.name) ++ (if cfg.structSuffix ≠ [] then L.pascal cfg.structSuffix else [])
  let pre := if cfg.useSchema ∧ ¬ [b!"dbo", b!"public"].any (fun x => L.eqFold x schemaName) then L.pascal schemaName else []
  (tableStructName L cfg t.name t.schemaName).map fun tsn =>
    { structName := match cfg.tables t.schemaName with | some r => r | none => pre ++ structName
      schema := t.schema, tableName := t.name, tableStructName := tsn
      columns := filterColumns cfg.drop t.columns
      schemaPackage := if cfg.modelPkg ≠ cfg.schemaPkg then cfg.schemaPkg ++ b!"." else []
      withCache := cfg.withCache t.schemaName }

/-- codeModelTemplateText: the fields (template.go:95-99). -/
def execFields (L : Lib) (cfg : Cfg) : List Column → Option (List Field)
  | [] => some []
  | c :: cs => do
    let n ← columnStructName L cfg c
    let ty ← toGoType L.eqFold cfg.types c
    let rest ← execFields L cfg cs
    return ⟨n, ty, c.name, c.tag⟩ :: rest

/-- codeModelTemplateText: the arguments of `rows.Scan` (template.go:121-124). -/
def execScan (L : Lib) (cfg : Cfg) : List Column → Option (List Bytes)
  | [] => some []
  | c :: cs => do
    let n ← columnStructName L cfg c
    let rest ← execScan L cfg cs
    return n :: rest

/-- codeModelTemplateText (template.go:82-158) for one table. -/
def execModel (L : Lib) (cfg : Cfg) (td : TableDef) : Option ModelDecl := do
  let fields ← execFields L cfg td.columns
  let scan ← execScan L cfg td.columns
  return { structName := td.structName, schema := td.schema, table := td.tableName, fields := fields, scan := scan
           infoRef := td.schemaPackage ++ td.tableStructName ++ b!"Info", withCache := td.withCache }

/-- The table infos of codeSchemaHeaderTemplateText (template.go:177-189). -/
def execInfos (L : Lib) (cfg : Cfg) : List InfoDecl → Option (List InfoDecl)
  | [] => some []
  | i :: is => do
    let v ← tableInfoStructName L cfg i.name i.schemaName
    let rest ← execInfos L cfg is
    return { i with var := v, dialect := dialectOf cfg.provider } :: rest

/-- The map of codeSchemaHeaderTemplateText (template.go:192-196). -/
def execEntries (L : Lib) (cfg : Cfg) : List InfoDecl → Option (List (Bytes × Bytes))
  | [] => some []
  | i :: is => do
    let v ← tableInfoStructName L cfg i.name i.schemaName
    let rest ← execEntries L cfg is
    return (i.name, v) :: rest

/-- schema/schema.go:155-163 `StructString`: the literal mentions these fields; the others are zero in the generated code. -/
def _root_.Schema.Column.lit (c : Column) : Column := { c with schemaName := [], ref := none, indexes := [] }

/-- The fields of codeTableSchemaTemplateText with their literals (template.go:70-78, schema/schema.go:155-163 `StructString`). -/
def execDefFields (L : Lib) (cfg : Cfg) : List Column → Option (List (Bytes × Column))
  | [] => some []
  | c :: cs => do
    let n ← columnStructName L cfg c
    let rest ← execDefFields L cfg cs
    return (n, c.lit) :: rest

/-- codeTableSchemaTemplateText for the tables defined so far (schema.go:458-463). -/
def execDefs (L : Lib) (cfg : Cfg) : List TableDef → Option (List DefDecl)
  | [] => some []
  | td :: tds => do
    let fields ← execDefFields L cfg td.columns
    let rest ← execDefs L cfg tds
    return { var := td.structName, infoRef := td.tableStructName ++ b!"Info", fields := fields } :: rest

/-- The schema file (schema.go:445-463). -/
def execSchema (L : Lib) (cfg : Cfg) (infos : List InfoDecl) (defs : List TableDef) : Option File := do
  let is ← execInfos L cfg infos
  let mapName ← goName L cfg.db
  let es ← execEntries L cfg infos
  let ds ← execDefs L cfg defs
  return .schema (dialectOf cfg.provider) is (mapName ++ b!"Tables") es ds

/-- schema.go:368-415: the tables of one schema; accumulates declarations, table infos and definitions. -/
def tableLoop (L : Lib) (cfg : Cfg) (schemaName : Bytes) : List GTable → List ModelDecl → List InfoDecl → List TableDef →
    Except Res (List ModelDecl × List InfoDecl × List TableDef)
  | [], ds, infos, defs => .ok (ds, infos, defs)
  | t :: ts, ds, infos, defs =>
    match mkDef L cfg schemaName t with
    | none => .error .panic
    | some td =>
      match execModel L cfg td with
      | none => .error .err
      | some d => tableLoop L cfg schemaName ts (ds ++ [d]) (infos ++ [mkInfo cfg t]) (defs ++ [td])

/-- schema.go:338-353, 429-444: where a file of the given kind goes. -/
def target (dir : Bytes) (multi : Bool) (schemaName kind : Bytes) : Target :=
  if dir = [] then .stdout
  else .path (dir ++ b!"/" ++ (if multi then schemaName ++ b!"_" ++ kind else kind) ++ b!".gen.go")

/-- Opening a target: nothing to do for the writer. -/
def openEvents : Target → List Event
  | .stdout => []
  | .path p => [.open_ (.path p)]

/-- A file that cannot be opened makes the command fail (schema.go:345-348). -/
def openable (L : Lib) : Target → Bool
  | .stdout => true
  | .path p => L.canOpen p

/-- schema.go:359-361: the model file declares the dialect variable only if it is a package of its own. -/
def modelDialect (cfg : Cfg) : Option Bytes := if cfg.modelPkg ≠ cfg.schemaPkg then some (dialectOf cfg.provider) else none

/-- schema.go:334-470: the loop over the schemas, in the order `order` in which Go iterates over the map.
`byName s` are the tables collected for schema `s`; `infos` and `defs` are declared outside the loop (schema.go:331-332).  Errors of `w.Write` are ignored. -/
def schemaLoop (L : Lib) (cfg : Cfg) (fmtOK : File → Bool) (multi : Bool) (byName : Bytes → List GTable) :
    List Bytes → List InfoDecl → List TableDef → List Event → List Event × Res
  | [], _, _, evs => (evs, .ok)
  | s :: ss, infos, defs, evs =>
    let mt := target cfg.outModel multi s b!"model"
    if !openable L mt then (evs, .err) else
    let evs := evs ++ openEvents mt
    match tableLoop L cfg s (byName s) [] infos defs with
    | .error r => (evs, r)
    | .ok (ds, infos, defs) =>
      let mf : File := .model (modelDialect cfg) ds
      if !fmtOK mf then (evs, .err) else
      let evs := evs ++ [.write mt mf]
      let st := target cfg.outSchema multi s b!"schema"
      if !openable L st then (evs, .err) else
      let evs := evs ++ openEvents st
      match execSchema L cfg infos defs with
      | none => (evs, .err)
      | some sf =>
        if !fmtOK sf then (evs, .err) else
        schemaLoop L cfg fmtOK multi byName ss infos defs (evs ++ [.write st sf])

/-- schema.go:325-328: the tables of a schema, in the order given. -/
def tablesOf (res : List GTable) (s : Bytes) : List GTable := res.filter (fun t => t.schema = s)

/-- schema.go:282-471 `generate`.  `order` is the iteration order over the schemas. -/
def generate (L : Lib) (cfg : Cfg) (fmtOK : File → Bool) (res : List GTable) (order : List Bytes) : List Event × Res :=
  schemaLoop L cfg fmtOK (decide (1 < order.length)) (tablesOf res) order [] [] []

/-- The possible iteration orders: each schema of the tables once. -/
def IsOrder (res : List GTable) (order : List Bytes) : Prop := order.Nodup ∧ ∀ s, s ∈ order ↔ ∃ t ∈ res, t.schema = s

end Gen
