import Verif.Gen.GoLex
import Verif.Gen.Spec
set_option linter.unusedVariables false
/-!
What a generated file must say to a Go compiler, as tokens: Go text in pieces, with names, types and tags as tokens of their own.
-/
namespace Gen
open Schema Go
namespace Spec

/-- The tokens of a piece of Go text. -/
abbrev T (g : Bytes) : List Tok := codeToks g

/-- `Name type` and the tag. -/
def fieldToks (f : Field) : List Tok := [.word f.name] ++ T f.type ++ [.raw f.tag] ++ T b!";"

/-- The declarations for a table in a model file. -/
def modelToks (d : ModelDecl) : List Tok :=
  let S := d.structName
  T b!"type" ++ [.word S] ++ T b!"struct {" ++ d.fields.flatMap fieldToks
  ++ (if d.withCache then T b!"cachedProps values.MapAny `json:\"-\"`;" else [])
  ++ T b!"};"
  ++ (if d.withCache then
      T b!"func (m *" ++ [.word S] ++ T b!") Cached() values.MapAny { if m.cachedProps == nil { m.cachedProps = values.MapAny{}; }; return m.cachedProps; };" else [])
  ++ T b!"func (m *" ++ [.word S] ++ T b!") ScanRow(rows xdb.Row) error { err := rows.Scan("
  ++ d.scan.flatMap (fun n => T b!"&m." ++ [.word n] ++ T b!",")
  ++ T b!"); if err != nil { return errors.WithStack(err); }; return nil; };"
  ++ T b!"type" ++ [.word (S ++ b!"Slice")] ++ T b!"[]*" ++ [.word S] ++ T b!";"
  ++ T b!"type" ++ [.word (S ++ b!"Result")] ++ T b!"struct { Rows" ++ [.word (S ++ b!"Slice")] ++ T b!"; NextOffset uint32; HasNextPage bool; Cursor string; };"
  ++ T b!"func (p *" ++ [.word (S ++ b!"Result")] ++ T b!") SetResult(rows []*" ++ [.word S]
  ++ T b!", hasNextPage bool, nextOffset uint32) { p.Rows = rows; p.NextOffset = nextOffset; p.HasNextPage = hasNextPage; };"
  ++ T b!"func (p *" ++ [.word (S ++ b!"Result")] ++ T b!") SetResultWithCursor(rows []*" ++ [.word S] ++ T b!", hasNextPage bool, cursor func(lastRow *" ++ [.word S]
  ++ T b!") string) { p.Rows = rows; p.HasNextPage = hasNextPage; if hasNextPage && len(rows) > 0 { p.Cursor = cursor(rows[len(rows)-1]); }; };"
  ++ T b!"func (p *" ++ [.word (S ++ b!"Result")] ++ T b!") GetTableInfo() *xdbschema.TableInfo { return &" ++ T d.infoRef ++ T b!"; };"

/-- An import. -/
def importToks (i : Bytes) : List Tok := [.str i] ++ T b!";"

/-- A table info. -/
def infoToks (i : InfoDecl) : List Tok :=
  T b!"var" ++ [.word i.var] ++ T b!"= xdbschema.TableInfo{ SchemaName:" ++ [.str i.schemaName] ++ T b!", Schema:" ++ [.str i.schema] ++ T b!", Name:" ++ [.str i.name]
  ++ T b!", PrimaryKey:" ++ [.str i.primaryKey]
  ++ T b!", Columns: []string{" ++ i.columns.flatMap (fun s => [.str s] ++ T b!",") ++ T b!"}, Indexes: []string{" ++ i.indexes.flatMap (fun s => [.str s] ++ T b!",")
  ++ T b!"}, Dialect:" ++ T i.dialect ++ T b!", };"

/-- The literal of a column. -/
def columnToks (c : Column) : List Tok :=
  T b!"xdbschema.Column{ Name:" ++ [.str c.name] ++ T b!", Position:" ++ [.word (Num.dec c.position.toNat)] ++ T b!", Type:" ++ [.str c.type] ++ T b!", UdtType:" ++ [.str c.udtType]
  ++ T b!", Nullable:" ++ (if c.nullable then T b!"true" else T b!"false")
  ++ (if c.maxLength > 0 then T b!", MaxLength:" ++ [.word (Num.dec c.maxLength.toNat)] else []) ++ T b!"}"

/-- The column definitions of a table. -/
def defToks (d : DefDecl) : List Tok :=
  T b!"var" ++ [.word d.var] ++ T b!"= struct { Table *xdbschema.TableInfo;" ++ d.fields.flatMap (fun f => [.word f.1] ++ T b!"xdbschema.Column;")
  ++ T b!"}{ Table: &" ++ [.word d.infoRef] ++ T b!"," ++ d.fields.flatMap (fun f => [.word f.1] ++ T b!":" ++ columnToks f.2 ++ T b!",") ++ T b!"};"

/-- A file. `imports` are the imports given to the command. -/
def fileToks (cfg : Cfg) (imports : List Bytes) : File → List Tok
  | .model dv ds =>
    T b!"package" ++ [.word cfg.modelPkg] ++ T b!"; import ( \"github.com/effective-security/xdb\"; xdbschema \"github.com/effective-security/xdb/schema\"; \"github.com/effective-security/x/values\"; \"github.com/cockroachdb/errors\";"
    ++ (imports ++ if cfg.provider = b!"postgres" then [b!"github.com/lib/pq"] else []).flatMap importToks ++ T b!");"
    ++ (match dv with | some d => T b!"var Dialect =" ++ T d ++ T b!";" | none => [])
    ++ ds.flatMap modelToks
  | .schema dv is mv es ds =>
    T b!"package" ++ [.word cfg.schemaPkg] ++ T b!"; import ( xdbschema \"github.com/effective-security/xdb/schema\";" ++ imports.flatMap importToks ++ T b!");"
    ++ T b!"var Dialect =" ++ T dv ++ T b!";"
    ++ is.flatMap infoToks
    ++ T b!"var" ++ [.word mv] ++ T b!"= map[string]*xdbschema.TableInfo{" ++ es.flatMap (fun e => [.str e.1] ++ T b!": &" ++ [.word e.2] ++ T b!",") ++ T b!"};"
    ++ ds.flatMap defToks

/-- Names that can be written where the generator writes them: no line breaks in comments; no double quotes, backslashes or line breaks in string literals; no back quotes
in tags; identifiers and types that are identifiers and types. -/
structure CleanTable (L : Lib) (cfg : Cfg) (t : GTable) : Prop where
  schema : StrOK t.schema
  name : StrOK t.name
  schemaName : StrOK t.schemaName
  primaryKey : ∀ c, t.primaryKey = some c → StrOK c.name
  indexes : ∀ i ∈ t.indexes, StrOK i.name ∧ ∀ c ∈ i.columnNames, StrOK c
  columns : ∀ c ∈ kept cfg t, StrOK c.name ∧ StrOK c.type ∧ StrOK c.udtType ∧ RawOK c.tag
  struct : WordOK (structName L cfg t)
  info : ∀ v, infoVar L cfg t = some v → WordOK v
  fields : ∀ c ∈ kept cfg t, ∀ n, columnStructName L cfg c = some n → WordOK n
  types : ∀ c ∈ kept cfg t, ∀ ty, toGoType L.eqFold cfg.types c = some ty → CodeOK ty

structure CleanCfg (L : Lib) (cfg : Cfg) (imports : List Bytes) : Prop where
  db : 10 ∉ cfg.db
  modelPkg : WordOK cfg.modelPkg
  schemaPkg : WordOK cfg.schemaPkg
  imports : ∀ i ∈ imports, StrOK i
  mapName : ∀ m, goName L cfg.db = some m → WordOK m

end Spec
end Gen
