import Verif.Gen.Tmpl
set_option maxRecDepth 20000
/-!
The four templates of internal/cli/schema/template.go, letter by letter (one literal per line), and what `template.Parse` makes of them.
-/
namespace Gen

/-- template.go:33-53 `codeHeaderTemplateText`. -/
def codeHeaderTemplateText : Bytes :=
  List.flatten [
    b!"// DO NOT EDIT!\n",
    b!"// This file is MACHINE GENERATED\n",
    b!"// DB: {{ .DB }}\n",
    b!"\n",
    b!"package {{ .Package }}\n",
    b!"\n",
    b!"import (\n",
    b!"\t\"github.com/effective-security/xdb\"\n",
    b!"\txdbschema \"github.com/effective-security/xdb/schema\"\n",
    b!"\t\"github.com/effective-security/x/values\"\n",
    b!"\t\"github.com/cockroachdb/errors\"\n",
    b!"\t{{range .Imports}}{{/*\n",
    b!"\t\t*/}}\"{{ . }}\"\n",
    b!"\t{{ end }}\n",
    b!")\n",
    b!"\n",
    b!"{{ if .Dialect }}\n",
    b!"// Dialect provides Dialect for {{ .DB }}\n",
    b!"var Dialect = {{ .Dialect }}\n",
    b!"{{ end }}\n"]

/-- template.go:55-80 `codeTableSchemaTemplateText`. -/
def codeTableSchemaTemplateText : Bytes :=
  List.flatten [
    b!"\n",
    b!"\n",
    b!"// {{ .StructName }} provides column definitions for table '{{ .SchemaName }}.{{ .TableName }}'.\n",
    b!"{{- if .PrimaryKey }}\n",
    b!"// Primary key: {{ .PrimaryKey.Name }}\n",
    b!"{{- end}}\n",
    b!"{{- if .Indexes }}\n",
    b!"// Indexes:\n",
    b!"{{- range .Indexes }}\n",
    b!"//   {{ .Name }}:{{if .IsPrimary }} PRIMARY{{end}}{{if .IsUnique }} UNIQUE{{end}} [{{ join .ColumnNames \",\" }}]\n",
    b!"{{- end }}\n",
    b!"{{- end }}\n",
    b!"var {{ .StructName }} = struct {\n",
    b!"\tTable *xdbschema.TableInfo\n",
    b!"\n",
    b!"{{- range .Columns }}\n",
    b!"\t{{columnStructName .}} xdbschema.Column // {{.Name}} {{.Type}}\n",
    b!"{{- end }}\n",
    b!"}{\n",
    b!"\tTable: &{{.TableStructName}}Info,\n",
    b!"\n",
    b!"\t{{- range .Columns }}\n",
    b!"\t{{ columnStructName .}}: xdbschema.Column{{.StructString}},\n",
    b!"\t{{- end }}\n",
    b!"}\n"]

/-- template.go:82-158 `codeModelTemplateText`. -/
def codeModelTemplateText : Bytes :=
  List.flatten [
    b!"\n",
    b!"\n",
    b!"// {{ .StructName }} represents one row from table '{{ .SchemaName }}.{{ .TableName }}'.\n",
    b!"{{- if .PrimaryKey }}\n",
    b!"// Primary key: {{ .PrimaryKey.Name }}\n",
    b!"{{- end}}\n",
    b!"{{- if .Indexes }}\n",
    b!"// Indexes:\n",
    b!"{{- range .Indexes }}\n",
    b!"//   {{ .Name }}:{{if .IsPrimary }} PRIMARY{{end}}{{if .IsUnique }} UNIQUE{{end}} [{{ join .ColumnNames \",\" }}]\n",
    b!"{{- end }}\n",
    b!"{{- end }}\n",
    b!"type {{ .StructName }} struct {\n",
    b!"{{- range .Columns }}\n",
    b!"{{- $fieldName := columnStructName . }}\n",
    b!"\t// {{$fieldName}} represents '{{.Name}}' column of '{{.Type}}'\n",
    b!"\t{{$fieldName}} {{ sqlToGoType . }} `{{ .Tag }}`\n",
    b!"{{- end }}\n",
    b!"{{- if .WithCache }}\n",
    b!"\n",
    b!"\t// cachedProps is used to store computed and cached properties of the model,\n",
    b!"\t// for example from JSON blobs\n",
    b!"\tcachedProps values.MapAny `json:\"-\"`\n",
    b!"{{- end }}\n",
    b!"}\n",
    b!"\n",
    b!"{{- if .WithCache }}\n",
    b!"\n",
    b!"// Cached returns cached properties of the model.\n",
    b!"func(m *{{ .StructName }}) Cached() values.MapAny {\n",
    b!"\tif m.cachedProps == nil {\n",
    b!"\t\tm.cachedProps = values.MapAny{}\n",
    b!"\t}\n",
    b!"\treturn m.cachedProps\n",
    b!"}\n",
    b!"{{- end }}\n",
    b!"\n",
    b!"// ScanRow scans one row for {{ .TableName }}.\n",
    b!"func(m *{{ .StructName }}) ScanRow(rows xdb.Row) error {\n",
    b!"\terr := rows.Scan(\n",
    b!"{{- range $i, $e := .Columns }}\n",
    b!"\t\t&m.{{ columnStructName $e }},\n",
    b!"{{- end }}\n",
    b!"\t)\n",
    b!"\tif err != nil {\n",
    b!"\t\treturn errors.WithStack(err)\n",
    b!"\t}\n",
    b!"\treturn nil\n",
    b!"}\n",
    b!"\n",
    b!"type {{ .StructName }}Slice []*{{ .StructName }}\n",
    b!"type {{ .StructName }}Result struct {\n",
    b!"\tRows        {{ .StructName }}Slice\n",
    b!"\tNextOffset  uint32\n",
    b!"\tHasNextPage bool\n",
    b!"\tCursor \tstring\n",
    b!"}\n",
    b!"\n",
    b!"func (p *{{ .StructName }}Result) SetResult(rows []*{{ .StructName }}, hasNextPage bool, nextOffset uint32) {\n",
    b!"\tp.Rows = rows\n",
    b!"\tp.NextOffset = nextOffset\n",
    b!"\tp.HasNextPage = hasNextPage\n",
    b!"}\n",
    b!"\n",
    b!"func (p *{{ .StructName }}Result) SetResultWithCursor(rows []*{{ .StructName }}, hasNextPage bool, cursor func(lastRow *{{ .StructName }}) string) {\n",
    b!"\tp.Rows = rows\n",
    b!"\tp.HasNextPage = hasNextPage\n",
    b!"\tif hasNextPage && len(rows) > 0 {\n",
    b!"\t\tp.Cursor = cursor(rows[len(rows)-1])\n",
    b!"    }\n",
    b!"}\n",
    b!"\n",
    b!"func (p *{{ .StructName }}Result) GetTableInfo() *xdbschema.TableInfo {\n",
    b!"\treturn &{{ .SchemaPackage }}{{ .TableStructName }}Info\n",
    b!"}\n",
    b!"\n"]

/-- template.go:160-197 `codeSchemaHeaderTemplateText`. -/
def codeSchemaHeaderTemplateText : Bytes :=
  List.flatten [
    b!"// DO NOT EDIT!\n",
    b!"// This file is MACHINE GENERATED\n",
    b!"// DB: {{ .DB }}\n",
    b!"\n",
    b!"package {{ .Package }}\n",
    b!"\n",
    b!"import (\n",
    b!"\txdbschema \"github.com/effective-security/xdb/schema\"\n",
    b!"\t{{range .Imports}}{{/*\n",
    b!"\t\t*/}}\"{{ . }}\"\n",
    b!"\t{{ end }}\n",
    b!")\n",
    b!"\n",
    b!"// Dialect provides Dialect for {{ .DB }}\n",
    b!"var Dialect = {{ .Dialect }}\n",
    b!"{{- $dialect := .Dialect }}\n",
    b!"\n",
    b!"{{ range .Tables }}\n",
    b!"{{- $tableName := tableInfoStructName . }}\n",
    b!"// {{ $tableName }} provides table info for '{{ .Name }}'\n",
    b!"var {{ $tableName }} = xdbschema.TableInfo{\n",
    b!"\tSchemaName : \"{{ .SchemaName }}\",\n",
    b!"\tSchema     : \"{{ .Schema }}\",\n",
    b!"\tName       : \"{{ .Name }}\",\n",
    b!"\tPrimaryKey : \"{{ .PrimaryKey }}\", \n",
    b!"\tColumns    : []string{ {{- range .Columns }}\"{{ . }}\", {{ end -}} },\n",
    b!"\tIndexes    : []string{ {{- range .Indexes }}\"{{ . }}\", {{ end -}} },\n",
    b!"\tDialect    : {{ $dialect }},\n",
    b!"}\n",
    b!"{{ end }}\n",
    b!"\n",
    b!"// {{ goName .DB }}Tables provides tables map for {{ .DB }}\n",
    b!"var {{ goName .DB }}Tables = map[string]*xdbschema.TableInfo{\n",
    b!"{{- range .Tables }}\n",
    b!" \t\"{{ .Name }}\": &{{ tableInfoStructName . }},\n",
    b!"{{- end }}\n",
    b!"}\n"]

/-- What `template.Parse` makes of it. -/
def headerTm : Tm :=
  .text b!"// DO NOT EDIT!\n// This file is MACHINE GENERATED\n// DB: " <|
  .print (.atom (.path [b!"DB"])) <|
  .text b!"\n\npackage " <|
  .print (.atom (.path [b!"Package"])) <|
  .text b!"\n\nimport (\n\t\"github.com/effective-security/xdb\"\n\txdbschema \"github.com/effective-security/xdb/schema\"\n\t\"github.com/effective-security/x/values\"\n\t\"github.com/cockroachdb/errors\"\n\t" <|
  .range [] (.atom (.path [b!"Imports"])) (
    .text b!"\"" <|
    .print (.atom (.path [])) <|
    .text b!"\"\n\t" <|
    .done) <|
  .text b!"\n)\n\n" <|
  .cond (.atom (.path [b!"Dialect"])) (
    .text b!"\n// Dialect provides Dialect for " <|
    .print (.atom (.path [b!"DB"])) <|
    .text b!"\nvar Dialect = " <|
    .print (.atom (.path [b!"Dialect"])) <|
    .text b!"\n" <|
    .done) <|
  .text b!"\n" <|
  .done

/-- What `template.Parse` makes of it. -/
def tableSchemaTm : Tm :=
  .text b!"\n\n// " <|
  .print (.atom (.path [b!"StructName"])) <|
  .text b!" provides column definitions for table '" <|
  .print (.atom (.path [b!"SchemaName"])) <|
  .text b!"." <|
  .print (.atom (.path [b!"TableName"])) <|
  .text b!"'." <|
  .cond (.atom (.path [b!"PrimaryKey"])) (
    .text b!"\n// Primary key: " <|
    .print (.atom (.path [b!"PrimaryKey", b!"Name"])) <|
    .done) <|
  .cond (.atom (.path [b!"Indexes"])) (
    .text b!"\n// Indexes:" <|
    .range [] (.atom (.path [b!"Indexes"])) (
      .text b!"\n//   " <|
      .print (.atom (.path [b!"Name"])) <|
      .text b!":" <|
      .cond (.atom (.path [b!"IsPrimary"])) (
        .text b!" PRIMARY" <|
        .done) <|
      .cond (.atom (.path [b!"IsUnique"])) (
        .text b!" UNIQUE" <|
        .done) <|
      .text b!" [" <|
      .print (.call b!"join" [.path [b!"ColumnNames"], .lit b!","]) <|
      .text b!"]" <|
      .done) <|
    .done) <|
  .text b!"\nvar " <|
  .print (.atom (.path [b!"StructName"])) <|
  .text b!" = struct {\n\tTable *xdbschema.TableInfo" <|
  .range [] (.atom (.path [b!"Columns"])) (
    .text b!"\n\t" <|
    .print (.call b!"columnStructName" [.path []]) <|
    .text b!" xdbschema.Column // " <|
    .print (.atom (.path [b!"Name"])) <|
    .text b!" " <|
    .print (.atom (.path [b!"Type"])) <|
    .done) <|
  .text b!"\n}{\n\tTable: &" <|
  .print (.atom (.path [b!"TableStructName"])) <|
  .text b!"Info," <|
  .range [] (.atom (.path [b!"Columns"])) (
    .text b!"\n\t" <|
    .print (.call b!"columnStructName" [.path []]) <|
    .text b!": xdbschema.Column" <|
    .print (.atom (.path [b!"StructString"])) <|
    .text b!"," <|
    .done) <|
  .text b!"\n}\n" <|
  .done

/-- What `template.Parse` makes of it. -/
def modelTm : Tm :=
  .text b!"\n\n// " <|
  .print (.atom (.path [b!"StructName"])) <|
  .text b!" represents one row from table '" <|
  .print (.atom (.path [b!"SchemaName"])) <|
  .text b!"." <|
  .print (.atom (.path [b!"TableName"])) <|
  .text b!"'." <|
  .cond (.atom (.path [b!"PrimaryKey"])) (
    .text b!"\n// Primary key: " <|
    .print (.atom (.path [b!"PrimaryKey", b!"Name"])) <|
    .done) <|
  .cond (.atom (.path [b!"Indexes"])) (
    .text b!"\n// Indexes:" <|
    .range [] (.atom (.path [b!"Indexes"])) (
      .text b!"\n//   " <|
      .print (.atom (.path [b!"Name"])) <|
      .text b!":" <|
      .cond (.atom (.path [b!"IsPrimary"])) (
        .text b!" PRIMARY" <|
        .done) <|
      .cond (.atom (.path [b!"IsUnique"])) (
        .text b!" UNIQUE" <|
        .done) <|
      .text b!" [" <|
      .print (.call b!"join" [.path [b!"ColumnNames"], .lit b!","]) <|
      .text b!"]" <|
      .done) <|
    .done) <|
  .text b!"\ntype " <|
  .print (.atom (.path [b!"StructName"])) <|
  .text b!" struct {" <|
  .range [] (.atom (.path [b!"Columns"])) (
    .decl b!"fieldName" (.call b!"columnStructName" [.path []]) <|
    .text b!"\n\t// " <|
    .print (.atom (.var b!"fieldName")) <|
    .text b!" represents '" <|
    .print (.atom (.path [b!"Name"])) <|
    .text b!"' column of '" <|
    .print (.atom (.path [b!"Type"])) <|
    .text b!"'\n\t" <|
    .print (.atom (.var b!"fieldName")) <|
    .text b!" " <|
    .print (.call b!"sqlToGoType" [.path []]) <|
    .text b!" `" <|
    .print (.atom (.path [b!"Tag"])) <|
    .text b!"`" <|
    .done) <|
  .cond (.atom (.path [b!"WithCache"])) (
    .text b!"\n\n\t// cachedProps is used to store computed and cached properties of the model,\n\t// for example from JSON blobs\n\tcachedProps values.MapAny `json:\"-\"`" <|
    .done) <|
  .text b!"\n}" <|
  .cond (.atom (.path [b!"WithCache"])) (
    .text b!"\n\n// Cached returns cached properties of the model.\nfunc(m *" <|
    .print (.atom (.path [b!"StructName"])) <|
    .text b!") Cached() values.MapAny {\n\tif m.cachedProps == nil {\n\t\tm.cachedProps = values.MapAny{}\n\t}\n\treturn m.cachedProps\n}" <|
    .done) <|
  .text b!"\n\n// ScanRow scans one row for " <|
  .print (.atom (.path [b!"TableName"])) <|
  .text b!".\nfunc(m *" <|
  .print (.atom (.path [b!"StructName"])) <|
  .text b!") ScanRow(rows xdb.Row) error {\n\terr := rows.Scan(" <|
  .range [b!"i", b!"e"] (.atom (.path [b!"Columns"])) (
    .text b!"\n\t\t&m." <|
    .print (.call b!"columnStructName" [.var b!"e"]) <|
    .text b!"," <|
    .done) <|
  .text b!"\n\t)\n\tif err != nil {\n\t\treturn errors.WithStack(err)\n\t}\n\treturn nil\n}\n\ntype " <|
  .print (.atom (.path [b!"StructName"])) <|
  .text b!"Slice []*" <|
  .print (.atom (.path [b!"StructName"])) <|
  .text b!"\ntype " <|
  .print (.atom (.path [b!"StructName"])) <|
  .text b!"Result struct {\n\tRows        " <|
  .print (.atom (.path [b!"StructName"])) <|
  .text b!"Slice\n\tNextOffset  uint32\n\tHasNextPage bool\n\tCursor \tstring\n}\n\nfunc (p *" <|
  .print (.atom (.path [b!"StructName"])) <|
  .text b!"Result) SetResult(rows []*" <|
  .print (.atom (.path [b!"StructName"])) <|
  .text b!", hasNextPage bool, nextOffset uint32) {\n\tp.Rows = rows\n\tp.NextOffset = nextOffset\n\tp.HasNextPage = hasNextPage\n}\n\nfunc (p *" <|
  .print (.atom (.path [b!"StructName"])) <|
  .text b!"Result) SetResultWithCursor(rows []*" <|
  .print (.atom (.path [b!"StructName"])) <|
  .text b!", hasNextPage bool, cursor func(lastRow *" <|
  .print (.atom (.path [b!"StructName"])) <|
  .text b!") string) {\n\tp.Rows = rows\n\tp.HasNextPage = hasNextPage\n\tif hasNextPage && len(rows) > 0 {\n\t\tp.Cursor = cursor(rows[len(rows)-1])\n    }\n}\n\nfunc (p *" <|
  .print (.atom (.path [b!"StructName"])) <|
  .text b!"Result) GetTableInfo() *xdbschema.TableInfo {\n\treturn &" <|
  .print (.atom (.path [b!"SchemaPackage"])) <|
  .print (.atom (.path [b!"TableStructName"])) <|
  .text b!"Info\n}\n\n" <|
  .done

/-- What `template.Parse` makes of it. -/
def schemaHeaderTm : Tm :=
  .text b!"// DO NOT EDIT!\n// This file is MACHINE GENERATED\n// DB: " <|
  .print (.atom (.path [b!"DB"])) <|
  .text b!"\n\npackage " <|
  .print (.atom (.path [b!"Package"])) <|
  .text b!"\n\nimport (\n\txdbschema \"github.com/effective-security/xdb/schema\"\n\t" <|
  .range [] (.atom (.path [b!"Imports"])) (
    .text b!"\"" <|
    .print (.atom (.path [])) <|
    .text b!"\"\n\t" <|
    .done) <|
  .text b!"\n)\n\n// Dialect provides Dialect for " <|
  .print (.atom (.path [b!"DB"])) <|
  .text b!"\nvar Dialect = " <|
  .print (.atom (.path [b!"Dialect"])) <|
  .decl b!"dialect" (.atom (.path [b!"Dialect"])) <|
  .text b!"\n\n" <|
  .range [] (.atom (.path [b!"Tables"])) (
    .decl b!"tableName" (.call b!"tableInfoStructName" [.path []]) <|
    .text b!"\n// " <|
    .print (.atom (.var b!"tableName")) <|
    .text b!" provides table info for '" <|
    .print (.atom (.path [b!"Name"])) <|
    .text b!"'\nvar " <|
    .print (.atom (.var b!"tableName")) <|
    .text b!" = xdbschema.TableInfo{\n\tSchemaName : \"" <|
    .print (.atom (.path [b!"SchemaName"])) <|
    .text b!"\",\n\tSchema     : \"" <|
    .print (.atom (.path [b!"Schema"])) <|
    .text b!"\",\n\tName       : \"" <|
    .print (.atom (.path [b!"Name"])) <|
    .text b!"\",\n\tPrimaryKey : \"" <|
    .print (.atom (.path [b!"PrimaryKey"])) <|
    .text b!"\", \n\tColumns    : []string{" <|
    .range [] (.atom (.path [b!"Columns"])) (
      .text b!"\"" <|
      .print (.atom (.path [])) <|
      .text b!"\", " <|
      .done) <|
    .text b!"},\n\tIndexes    : []string{" <|
    .range [] (.atom (.path [b!"Indexes"])) (
      .text b!"\"" <|
      .print (.atom (.path [])) <|
      .text b!"\", " <|
      .done) <|
    .text b!"},\n\tDialect    : " <|
    .print (.atom (.var b!"dialect")) <|
    .text b!",\n}\n" <|
    .done) <|
  .text b!"\n\n// " <|
  .print (.call b!"goName" [.path [b!"DB"]]) <|
  .text b!"Tables provides tables map for " <|
  .print (.atom (.path [b!"DB"])) <|
  .text b!"\nvar " <|
  .print (.call b!"goName" [.path [b!"DB"]]) <|
  .text b!"Tables = map[string]*xdbschema.TableInfo{" <|
  .range [] (.atom (.path [b!"Tables"])) (
    .text b!"\n \t\"" <|
    .print (.atom (.path [b!"Name"])) <|
    .text b!"\": &" <|
    .print (.call b!"tableInfoStructName" [.path []]) <|
    .text b!"," <|
    .done) <|
  .text b!"\n}\n" <|
  .done


theorem parse_header : parse codeHeaderTemplateText = some headerTm := by decide +kernel

theorem parse_tableSchema : parse codeTableSchemaTemplateText = some tableSchemaTm := by decide +kernel

theorem parse_model : parse codeModelTemplateText = some modelTm := by decide +kernel

theorem parse_schemaHeader : parse codeSchemaHeaderTemplateText = some schemaHeaderTm := by decide +kernel

end Gen
