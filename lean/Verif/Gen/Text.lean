import Verif.Gen.TmplText
import Verif.Gen.GoLex
set_option linter.unusedVariables false
set_option linter.unusedSimpArgs false
set_option linter.unusedTactic false
set_option linter.unreachableTactic false
/-!
The text of the generated files (schema.go:334-470, template.go), and what executing the templates gives.
-/
namespace Gen
open Schema

/-- `template.Must(template.New(..).Funcs(templateFuncMap).Parse(text))` and `Execute` (schema.go:283-284, 362, 410, 424-425, 453, 459); `none`: an error. -/
def exec (L : Lib) (cfg : Cfg) (text : Bytes) (v : Val) : Option Bytes := (parse text).bind fun t => t.exec L cfg v []

/-- schema.go:290-299: the imports of the model file. -/
def modelImports (cfg : Cfg) (imports : List Bytes) : List Bytes := imports ++ (if cfg.provider = b!"postgres" then [b!"github.com/lib/pq"] else [])

/-- schema.go:354-361 `modelDef`. -/
def headerDef (cfg : Cfg) (imports : List Bytes) : TDef :=
  { db := cfg.db, package := cfg.modelPkg, imports := modelImports cfg imports, dialect := (modelDialect cfg).getD []
    base := ⟨[], [], [], [], [], [], false⟩, indexes := [], primaryKey := none }

/-- schema.go:387-408 `td`: all fields. -/
def mkTDef (cfg : Cfg) (imports : List Bytes) (t : GTable) (td : TableDef) : TDef :=
  { db := cfg.db, package := cfg.modelPkg, imports := modelImports cfg imports, dialect := dialectOf cfg.provider, base := td
    indexes := t.indexes, primaryKey := t.primaryKey }

/-- schema.go:336, 354-417: the text of the model file of a schema, as handed to `format.Source`; `none`: a failure. -/
def modelText (L : Lib) (cfg : Cfg) (imports : List Bytes) (s : Bytes) (ts : List GTable) : Option Bytes :=
  (exec L cfg codeHeaderTemplateText (.tdef (headerDef cfg imports))).bind fun h =>
    (concatM (fun t => (mkDef L cfg s t).bind fun td => exec L cfg codeModelTemplateText (.tdef (mkTDef cfg imports t td))) ts).map (h ++ ·)

/-- schema.go:445-465: the text of a schema file; `ts` are the tables of the schemas so far, each with its definition. -/
def schemaText (L : Lib) (cfg : Cfg) (imports : List Bytes) (ts : List GTable) : Option Bytes :=
  (exec L cfg codeSchemaHeaderTemplateText (.sdef ⟨cfg.db, cfg.schemaPkg, imports, dialectOf cfg.provider, ts.map (mkInfo cfg)⟩)).bind fun h =>
    (concatM (fun (t : GTable) => (mkDef L cfg t.schema t).bind fun td => exec L cfg codeTableSchemaTemplateText (.tdef (mkTDef cfg imports t td))) ts).map (h ++ ·)

/-! ### What the templates print -/

theorem concatM_some {α : Type} (f : α → Option Bytes) (g : α → Bytes) : ∀ (l : List α), (∀ a ∈ l, f a = some (g a)) → concatM f l = some (l.flatMap g) := by
  intro l
  induction l with
  | nil => intro _; rfl
  | cons a l ih => intro h; rw [concatM, h a (by simp), ih (fun x hx => h x (by simp [hx]))]; rfl

theorem concatM_none {α : Type} (f : α → Option Bytes) : ∀ (l : List α), (∃ a ∈ l, f a = none) → concatM f l = none := by
  intro l
  induction l with
  | nil => rintro ⟨a, h, -⟩; cases h
  | cons a l ih =>
    rintro ⟨x, hx, h⟩
    rw [concatM]
    rcases List.mem_cons.1 hx with rfl | hx
    · rw [h]; rfl
    · rw [ih ⟨x, hx, h⟩]; cases f a <;> rfl

theorem concatM_number {α : Type} (f : Nat × Val → Option Bytes) (F : α → Val) (g : α → Option Bytes) (h : ∀ n a, f (n, F a) = g a) :
    ∀ (l : List α) (k : Nat), concatM f (number k (l.map F)) = concatM g l := by
  intro l
  induction l with
  | nil => intro k; rfl
  | cons a l ih => intro k; rw [List.map_cons, number, concatM, concatM, h, ih]

/-- A loop whose body always prints. -/
theorem range_some {α : Type} (f : Nat × Val → Option Bytes) (F : α → Val) (g : α → Bytes) (l : List α) (h : ∀ n, ∀ a ∈ l, f (n, F a) = some (g a)) :
    ∀ (k : Nat), concatM f (number k (l.map F)) = some (l.flatMap g) := by
  induction l with
  | nil => intro k; rfl
  | cons a l ih => intro k; rw [List.map_cons, number, concatM, h k a (by simp), ih (fun n x hx => h n x (by simp [hx]))]; rfl

/-- The comment lines about the primary key and the indexes (template.go:58-66, 85-93). -/
def idxText (i : Index) : Bytes :=
  b!"\n//   " ++ (i.name ++ (b!":" ++ ((if i.isPrimary then b!" PRIMARY" else []) ++ ((if i.isUnique then b!" UNIQUE" else []) ++ (b!" [" ++ (Xsql.joinBytes b!"," i.columnNames ++ b!"]"))))))

def commentText (t : TDef) : Bytes :=
  (match t.primaryKey with | some c => b!"\n// Primary key: " ++ c.name | none => []) ++ (if t.indexes = [] then [] else b!"\n// Indexes:" ++ t.indexes.flatMap idxText)

section
variable (L : Lib) (cfg : Cfg)

theorem ev_path0 (dot : Val) (env : List (Bytes × Val)) : Expr.eval L cfg dot env (.atom (.path [])) = some dot := rfl
theorem ev_path1 (dot : Val) (env : List (Bytes × Val)) (f : Bytes) : Expr.eval L cfg dot env (.atom (.path [f])) = dot.field f := by
  simp [Expr.eval, Atom.eval]
theorem ev_path2 (dot : Val) (env : List (Bytes × Val)) (f g : Bytes) : Expr.eval L cfg dot env (.atom (.path [f, g])) = (dot.field f).bind (·.field g) := by
  simp [Expr.eval, Atom.eval]
theorem ev_var (dot : Val) (env : List (Bytes × Val)) (x : Bytes) : Expr.eval L cfg dot env (.atom (.var x)) = env.lookup x := rfl
theorem ev_call (dot : Val) (env : List (Bytes × Val)) (f : Bytes) (args : List Atom) : Expr.eval L cfg dot env (.call f args) = (args.mapM (Atom.eval dot env)).bind (Val.apply L cfg f) := rfl

theorem f_col (c : Column) : (Val.col (some c)).field b!"Name" = some (.str c.name) ∧ (Val.col (some c)).field b!"Type" = some (.str c.type)
    ∧ (Val.col (some c)).field b!"Tag" = some (.str c.tag) ∧ (Val.col (some c)).field b!"StructString" = some (.str c.structString) := ⟨rfl, rfl, rfl, rfl⟩
theorem f_idx (i : Index) : (Val.idx i).field b!"Name" = some (.str i.name) ∧ (Val.idx i).field b!"IsPrimary" = some (.bool i.isPrimary)
    ∧ (Val.idx i).field b!"IsUnique" = some (.bool i.isUnique) ∧ (Val.idx i).field b!"ColumnNames" = some (.strs i.columnNames) := ⟨rfl, rfl, rfl, rfl⟩
theorem f_info (i : InfoDecl) : (Val.info i).field b!"SchemaName" = some (.str i.schemaName) ∧ (Val.info i).field b!"Schema" = some (.str i.schema)
    ∧ (Val.info i).field b!"Name" = some (.str i.name) ∧ (Val.info i).field b!"PrimaryKey" = some (.str i.primaryKey) ∧ (Val.info i).field b!"Columns" = some (.strs i.columns)
    ∧ (Val.info i).field b!"Indexes" = some (.strs i.indexes) := ⟨rfl, rfl, rfl, rfl, rfl, rfl⟩
theorem f_tdef (t : TDef) : (Val.tdef t).field b!"DB" = some (.str t.db) ∧ (Val.tdef t).field b!"Package" = some (.str t.package)
    ∧ (Val.tdef t).field b!"Imports" = some (.strs t.imports) ∧ (Val.tdef t).field b!"Dialect" = some (.str t.dialect)
    ∧ (Val.tdef t).field b!"StructName" = some (.str t.base.structName) ∧ (Val.tdef t).field b!"SchemaName" = some (.str t.base.schema)
    ∧ (Val.tdef t).field b!"TableName" = some (.str t.base.tableName) ∧ (Val.tdef t).field b!"TableStructName" = some (.str t.base.tableStructName)
    ∧ (Val.tdef t).field b!"Columns" = some (.cols t.base.columns) ∧ (Val.tdef t).field b!"Indexes" = some (.idxs t.indexes)
    ∧ (Val.tdef t).field b!"PrimaryKey" = some (.col t.primaryKey) ∧ (Val.tdef t).field b!"SchemaPackage" = some (.str t.base.schemaPackage)
    ∧ (Val.tdef t).field b!"WithCache" = some (.bool t.base.withCache) := ⟨rfl, rfl, rfl, rfl, rfl, rfl, rfl, rfl, rfl, rfl, rfl, rfl, rfl⟩
theorem f_sdef (s : SDef) : (Val.sdef s).field b!"DB" = some (.str s.db) ∧ (Val.sdef s).field b!"Package" = some (.str s.package)
    ∧ (Val.sdef s).field b!"Imports" = some (.strs s.imports) ∧ (Val.sdef s).field b!"Dialect" = some (.str s.dialect)
    ∧ (Val.sdef s).field b!"Tables" = some (.infos s.tables) := ⟨rfl, rfl, rfl, rfl, rfl⟩

theorem a_col (c : Column) : Val.apply L cfg b!"columnStructName" [.col (some c)] = (columnStructName L cfg c).map .str
    ∧ Val.apply L cfg b!"sqlToGoType" [.col (some c)] = (toGoType L.eqFold cfg.types c).map .str := ⟨rfl, rfl⟩
theorem a_info (i : InfoDecl) : Val.apply L cfg b!"tableInfoStructName" [.info i] = (tableInfoStructName L cfg i.name i.schemaName).map .str := rfl
theorem a_goName (s : Bytes) : Val.apply L cfg b!"goName" [.str s] = (goName L s).map .str := rfl
theorem a_join (l : List Bytes) (s : Bytes) : Val.apply L cfg b!"join" [.strs l, .str s] = some (.str (Xsql.joinBytes s l)) := rfl

/-- The text of an index line. -/
def idxTm : Tm :=
  .text b!"\n//   " <|
  .print (.atom (.path [b!"Name"])) <|
  .text b!":" <|
  .cond (.atom (.path [b!"IsPrimary"])) (
    .text b!" PRIMARY" <|
    .done) <|
  .cond (.atom (.path [b!"IsUnique"])) (
    .text b!" UNIQUE" <|
    .done) <|
  .text b!" [" <|
  .print (.call b!"join" [.path [b!"ColumnNames"], .lit b!","]) <|
  .text b!"]" <|
  .done

theorem idxTm_exec (i : Index) (env : List (Bytes × Val)) : idxTm.exec L cfg (.idx i) env = some (idxText i) := by
  obtain ⟨h1, h2, h3, h4⟩ := f_idx i
  simp only [idxTm, Tm.exec, ev_path1, ev_call, h1, h2, h3, Val.truth]
  have : ([Atom.path [b!"ColumnNames"], Atom.lit b!","].mapM (Atom.eval (.idx i) env)) = some [.strs i.columnNames, .str b!","] := by
    simp only [List.mapM_cons, List.mapM_nil, Atom.eval, List.foldlM_cons, List.foldlM_nil, h4]; rfl
  rw [this]
  simp only [Option.bind_some, a_join, Option.map_some, List.append_nil, idxText]
  cases i.isPrimary <;> cases i.isUnique <;> rfl

theorem x_text {s : Bytes} {next : Tm} {dot : Val} {env : List (Bytes × Val)} {r : Bytes} (h : next.exec L cfg dot env = some r) : (Tm.text s next).exec L cfg dot env = some (s ++ r) := by
  simp [Tm.exec, h]
theorem x_last {s : Bytes} {dot : Val} {env : List (Bytes × Val)} : (Tm.text s .done).exec L cfg dot env = some s := by
  simp [Tm.exec]
theorem x_print {e : Expr} {next : Tm} {dot : Val} {env : List (Bytes × Val)} {s r : Bytes} (he : e.eval L cfg dot env = some (.str s)) (h : next.exec L cfg dot env = some r) :
    (Tm.print e next).exec L cfg dot env = some (s ++ r) := by
  simp [Tm.exec, h, he]
theorem x_printlast {e : Expr} {dot : Val} {env : List (Bytes × Val)} {s : Bytes} (he : e.eval L cfg dot env = some (.str s)) :
    (Tm.print e .done).exec L cfg dot env = some s := by
  simp [Tm.exec, he]
theorem x_decl {x : Bytes} {e : Expr} {next : Tm} {dot v : Val} {env : List (Bytes × Val)} {r : Bytes} (he : e.eval L cfg dot env = some v)
    (h : next.exec L cfg dot ((x, v) :: env) = some r) : (Tm.decl x e next).exec L cfg dot env = some r := by
  simp [Tm.exec, h, he]
theorem x_cond {e : Expr} {body next : Tm} {dot v : Val} {env : List (Bytes × Val)} {c : Bool} {s r : Bytes} (he : e.eval L cfg dot env = some v) (hv : v.truth = c)
    (hb : body.exec L cfg dot env = some s) (h : next.exec L cfg dot env = some r) :
    (Tm.cond e body next).exec L cfg dot env = some ((if c then s else []) ++ r) := by
  simp only [Tm.exec, he, hv, hb, h]
  cases c <;> rfl
theorem x_range {α : Type} {e : Expr} {body next : Tm} {dot v : Val} {env : List (Bytes × Val)} {l : List α} {F : α → Val} {g : α → Bytes} {r : Bytes} (he : e.eval L cfg dot env = some v)
    (hv : v.elems = some (l.map F)) (hb : ∀ a ∈ l, body.exec L cfg (F a) env = some (g a)) (h : next.exec L cfg dot env = some r) :
    (Tm.range [] e body next).exec L cfg dot env = some (l.flatMap g ++ r) := by
  simp only [Tm.exec, he, Option.bind_some, hv, h]
  rw [range_some _ F g l (fun n a ha => hb a ha) 0]
  rfl
theorem x_range2 {α : Type} {i x : Bytes} {e : Expr} {body next : Tm} {dot v : Val} {env : List (Bytes × Val)} {l : List α} {F : α → Val} {g : α → Bytes} {r : Bytes}
    (he : e.eval L cfg dot env = some v) (hv : v.elems = some (l.map F)) (hb : ∀ n : Nat, ∀ a ∈ l, body.exec L cfg (F a) ((x, F a) :: (i, .num n) :: env) = some (g a))
    (h : next.exec L cfg dot env = some r) : (Tm.range [i, x] e body next).exec L cfg dot env = some (l.flatMap g ++ r) := by
  simp only [Tm.exec, he, Option.bind_some, hv, h]
  rw [range_some _ F g l (fun n a ha => hb n a ha) 0]
  rfl

theorem x_comment {t : TDef} {next : Tm} {r : Bytes} (h : next.exec L cfg (.tdef t) [] = some r) :
    (Tm.cond (.atom (.path [b!"PrimaryKey"])) (.text b!"\n// Primary key: " <| .print (.atom (.path [b!"PrimaryKey", b!"Name"])) <| .done) <|
      Tm.cond (.atom (.path [b!"Indexes"])) (.text b!"\n// Indexes:" <| .range [] (.atom (.path [b!"Indexes"])) idxTm <| .done) next).exec L cfg (.tdef t) []
    = some (commentText t ++ r) := by
  obtain ⟨-, -, -, -, -, -, -, -, -, h10, h11, -, -⟩ := f_tdef t
  have hr : concatM (fun (p : Nat × Val) => idxTm.exec L cfg p.2 []) (number 0 (t.indexes.map .idx)) = some (t.indexes.flatMap idxText) :=
    range_some _ _ _ _ (fun n a ha => idxTm_exec L cfg a []) 0
  simp only [Tm.exec, ev_path1, ev_path2, h10, h11, Option.bind_some, Val.elems, hr, Option.map_some, List.append_nil, Val.truth, h]
  unfold commentText
  cases hp : t.primaryKey with
  | none =>
    by_cases hi : t.indexes = []
    · simp [hi]
    · simp [hi]
  | some c =>
    simp only [f_col, Option.isSome_some, if_true, Option.map_some, Option.bind_some]
    by_cases hi : t.indexes = []
    · simp [hi]
    · simp [hi]

/-- A field of the struct (template.go:94-99). -/
def fieldText (cn gt : Column → Bytes) (c : Column) : Bytes :=
  b!"\n\t// " ++ (cn c ++ (b!" represents '" ++ (c.name ++ (b!"' column of '" ++ (c.type ++ (b!"'\n\t" ++ (cn c ++ (b!" " ++ (gt c ++ (b!" `" ++ (c.tag ++ b!"`")))))))))))

/-- An argument of `Scan` (template.go:122-124). -/
def scanText (cn : Column → Bytes) (c : Column) : Bytes := b!"\n\t\t&m." ++ (cn c ++ b!",")

/-- What codeModelTemplateText prints. -/
def modelBody (t : TDef) (cn gt : Column → Bytes) : Bytes :=
  let S := t.base.structName
  b!"\n\n// " ++ (S ++ (b!" represents one row from table '" ++ (t.base.schema ++ (b!"." ++ (t.base.tableName ++ (b!"'." ++ (commentText t ++ (b!"\ntype " ++ (S ++ (b!" struct {" ++
  (t.base.columns.flatMap (fieldText cn gt) ++
  ((if t.base.withCache then b!"\n\n\t// cachedProps is used to store computed and cached properties of the model,\n\t// for example from JSON blobs\n\tcachedProps values.MapAny `json:\"-\"`" else []) ++
  (b!"\n}" ++
  ((if t.base.withCache then b!"\n\n// Cached returns cached properties of the model.\nfunc(m *" ++ (S ++ b!") Cached() values.MapAny {\n\tif m.cachedProps == nil {\n\t\tm.cachedProps = values.MapAny{}\n\t}\n\treturn m.cachedProps\n}") else []) ++
  (b!"\n\n// ScanRow scans one row for " ++ (t.base.tableName ++ (b!".\nfunc(m *" ++ (S ++ (b!") ScanRow(rows xdb.Row) error {\n\terr := rows.Scan(" ++
  (t.base.columns.flatMap (scanText cn) ++
  (b!"\n\t)\n\tif err != nil {\n\t\treturn errors.WithStack(err)\n\t}\n\treturn nil\n}\n\ntype " ++ (S ++ (b!"Slice []*" ++ (S ++ (b!"\ntype " ++ (S ++
  (b!"Result struct {\n\tRows        " ++ (S ++ (b!"Slice\n\tNextOffset  uint32\n\tHasNextPage bool\n\tCursor \tstring\n}\n\nfunc (p *" ++ (S ++ (b!"Result) SetResult(rows []*" ++ (S ++
  (b!", hasNextPage bool, nextOffset uint32) {\n\tp.Rows = rows\n\tp.NextOffset = nextOffset\n\tp.HasNextPage = hasNextPage\n}\n\nfunc (p *" ++ (S ++
  (b!"Result) SetResultWithCursor(rows []*" ++ (S ++ (b!", hasNextPage bool, cursor func(lastRow *" ++ (S ++
  (b!") string) {\n\tp.Rows = rows\n\tp.HasNextPage = hasNextPage\n\tif hasNextPage && len(rows) > 0 {\n\t\tp.Cursor = cursor(rows[len(rows)-1])\n    }\n}\n\nfunc (p *" ++ (S ++
  (b!"Result) GetTableInfo() *xdbschema.TableInfo {\n\treturn &" ++ (t.base.schemaPackage ++ (t.base.tableStructName ++ b!"Info\n}\n\n")))))))))))))))))))))))))))))))))))))))))))

theorem mapM_dot (dot : Val) (env : List (Bytes × Val)) : [Atom.path []].mapM (Atom.eval dot env) = some [dot] := rfl

theorem c_name {c : Column} {n : Bytes} {env : List (Bytes × Val)} (h : columnStructName L cfg c = some n) :
    Expr.eval L cfg (.col (some c)) env (.call b!"columnStructName" [.path []]) = some (.str n) := by
  rw [ev_call, mapM_dot, Option.bind_some, (a_col L cfg c).1, h]; rfl
theorem c_type {c : Column} {n : Bytes} {env : List (Bytes × Val)} (h : toGoType L.eqFold cfg.types c = some n) :
    Expr.eval L cfg (.col (some c)) env (.call b!"sqlToGoType" [.path []]) = some (.str n) := by
  rw [ev_call, mapM_dot, Option.bind_some, (a_col L cfg c).2, h]; rfl

theorem model_exec (t : TDef) (cn gt : Column → Bytes) (hcn : ∀ c ∈ t.base.columns, columnStructName L cfg c = some (cn c))
    (hgt : ∀ c ∈ t.base.columns, toGoType L.eqFold cfg.types c = some (gt c)) : exec L cfg codeModelTemplateText (.tdef t) = some (modelBody t cn gt) := by
  unfold exec
  rw [parse_model, Option.bind_some]
  unfold modelTm modelBody
  simp only []
  iterate 3 (refine x_text L cfg (x_print L cfg rfl ?_))
  refine x_text L cfg (x_comment L cfg ?_)
  refine x_text L cfg (x_print L cfg rfl ?_)
  refine x_text L cfg (x_range L cfg (F := fun c => .col (some c)) rfl rfl ?_ ?_)
  · intro c hc
    unfold fieldText
    refine x_decl L cfg (c_name L cfg (hcn c hc)) ?_
    iterate 4 (refine x_text L cfg (x_print L cfg rfl ?_))
    refine x_text L cfg (x_print L cfg (c_type L cfg (hgt c hc)) ?_)
    refine x_text L cfg (x_print L cfg rfl ?_)
    exact x_last L cfg
  refine x_cond L cfg rfl rfl (x_last L cfg) ?_
  refine x_text L cfg (x_cond L cfg rfl rfl (x_text L cfg (x_print L cfg rfl (x_last L cfg))) ?_)
  iterate 2 (refine x_text L cfg (x_print L cfg rfl ?_))
  refine x_text L cfg (x_range2 L cfg (F := fun c => .col (some c)) rfl rfl ?_ ?_)
  · intro n c hc
    unfold scanText
    refine x_text L cfg (x_print L cfg ?_ (x_last L cfg))
    rw [ev_call]
    have : [Atom.var b!"e"].mapM (Atom.eval (.col (some c)) [(b!"e", .col (some c)), (b!"i", .num n)]) = some [.col (some c)] := rfl
    rw [this, Option.bind_some, (a_col L cfg c).1, hcn c hc]; rfl
  iterate 10 (refine x_text L cfg (x_print L cfg rfl ?_))
  refine x_text L cfg (x_print L cfg rfl (x_print L cfg rfl (x_last L cfg)))

/-- An import line (template.go:43-45, 168-170). -/
def importText (i : Bytes) : Bytes := b!"\"" ++ (i ++ b!"\"\n\t")

/-- What codeHeaderTemplateText prints. -/
def headerBody (t : TDef) : Bytes :=
  b!"// DO NOT EDIT!\n// This file is MACHINE GENERATED\n// DB: " ++ (t.db ++ (b!"\n\npackage " ++ (t.package ++
  (b!"\n\nimport (\n\t\"github.com/effective-security/xdb\"\n\txdbschema \"github.com/effective-security/xdb/schema\"\n\t\"github.com/effective-security/x/values\"\n\t\"github.com/cockroachdb/errors\"\n\t" ++
  (t.imports.flatMap importText ++ (b!"\n)\n\n" ++
  ((if decide (t.dialect ≠ []) then b!"\n// Dialect provides Dialect for " ++ (t.db ++ (b!"\nvar Dialect = " ++ (t.dialect ++ b!"\n"))) else []) ++ b!"\n")))))))

theorem header_exec (t : TDef) : exec L cfg codeHeaderTemplateText (.tdef t) = some (headerBody t) := by
  unfold exec
  rw [parse_header, Option.bind_some]
  unfold headerTm headerBody
  iterate 2 (refine x_text L cfg (x_print L cfg rfl ?_))
  refine x_text L cfg (x_range L cfg (F := .str) rfl rfl ?_ ?_)
  · intro i hi
    exact x_text L cfg (x_print L cfg rfl (x_last L cfg))
  refine x_text L cfg (x_cond L cfg rfl rfl ?_ (x_last L cfg))
  exact x_text L cfg (x_print L cfg rfl (x_text L cfg (x_print L cfg rfl (x_last L cfg))))

/-- A column of the struct of definitions, and of its value (template.go:70-72, 76-78). -/
def defText (cn : Column → Bytes) (c : Column) : Bytes := b!"\n\t" ++ (cn c ++ (b!" xdbschema.Column // " ++ (c.name ++ (b!" " ++ c.type))))
def valueText (cn : Column → Bytes) (c : Column) : Bytes := b!"\n\t" ++ (cn c ++ (b!": xdbschema.Column" ++ (c.structString ++ b!",")))

/-- What codeTableSchemaTemplateText prints. -/
def tableBody (t : TDef) (cn : Column → Bytes) : Bytes :=
  b!"\n\n// " ++ (t.base.structName ++ (b!" provides column definitions for table '" ++ (t.base.schema ++ (b!"." ++ (t.base.tableName ++ (b!"'." ++ (commentText t ++
  (b!"\nvar " ++ (t.base.structName ++ (b!" = struct {\n\tTable *xdbschema.TableInfo" ++ (t.base.columns.flatMap (defText cn) ++
  (b!"\n}{\n\tTable: &" ++ (t.base.tableStructName ++ (b!"Info," ++ (t.base.columns.flatMap (valueText cn) ++ b!"\n}\n")))))))))))))))

theorem table_exec (t : TDef) (cn : Column → Bytes) (hcn : ∀ c ∈ t.base.columns, columnStructName L cfg c = some (cn c)) :
    exec L cfg codeTableSchemaTemplateText (.tdef t) = some (tableBody t cn) := by
  unfold exec
  rw [parse_tableSchema, Option.bind_some]
  unfold tableSchemaTm tableBody
  iterate 3 (refine x_text L cfg (x_print L cfg rfl ?_))
  refine x_text L cfg (x_comment L cfg ?_)
  refine x_text L cfg (x_print L cfg rfl ?_)
  refine x_text L cfg (x_range L cfg (F := fun c => .col (some c)) rfl rfl ?_ ?_)
  · intro c hc
    refine x_text L cfg (x_print L cfg (c_name L cfg (hcn c hc)) ?_)
    exact x_text L cfg (x_print L cfg rfl (x_text L cfg (x_printlast L cfg rfl)))
  refine x_text L cfg (x_print L cfg rfl ?_)
  refine x_text L cfg (x_range L cfg (F := fun c => .col (some c)) rfl rfl ?_ (x_last L cfg))
  intro c hc
  refine x_text L cfg (x_print L cfg (c_name L cfg (hcn c hc)) ?_)
  exact x_text L cfg (x_print L cfg rfl (x_last L cfg))

/-- A string in a list of strings (template.go:186-187). -/
def elemText (s : Bytes) : Bytes := b!"\"" ++ (s ++ b!"\", ")

/-- A table info (template.go:177-189). -/
def infoText (d : Bytes) (v : InfoDecl → Bytes) (i : InfoDecl) : Bytes :=
  b!"\n// " ++ (v i ++ (b!" provides table info for '" ++ (i.name ++ (b!"'\nvar " ++ (v i ++ (b!" = xdbschema.TableInfo{\n\tSchemaName : \"" ++ (i.schemaName ++
  (b!"\",\n\tSchema     : \"" ++ (i.schema ++ (b!"\",\n\tName       : \"" ++ (i.name ++ (b!"\",\n\tPrimaryKey : \"" ++ (i.primaryKey ++
  (b!"\", \n\tColumns    : []string{" ++ (i.columns.flatMap elemText ++ (b!"},\n\tIndexes    : []string{" ++ (i.indexes.flatMap elemText ++
  (b!"},\n\tDialect    : " ++ (d ++ b!",\n}\n")))))))))))))))))))

/-- An entry of the map of tables (template.go:193-195). -/
def entryText (v : InfoDecl → Bytes) (i : InfoDecl) : Bytes := b!"\n \t\"" ++ (i.name ++ (b!"\": &" ++ (v i ++ b!",")))

/-- What codeSchemaHeaderTemplateText prints. -/
def schemaBody (s : SDef) (m : Bytes) (v : InfoDecl → Bytes) : Bytes :=
  b!"// DO NOT EDIT!\n// This file is MACHINE GENERATED\n// DB: " ++ (s.db ++ (b!"\n\npackage " ++ (s.package ++
  (b!"\n\nimport (\n\txdbschema \"github.com/effective-security/xdb/schema\"\n\t" ++ (s.imports.flatMap importText ++
  (b!"\n)\n\n// Dialect provides Dialect for " ++ (s.db ++ (b!"\nvar Dialect = " ++ (s.dialect ++ (b!"\n\n" ++ (s.tables.flatMap (infoText s.dialect v) ++
  (b!"\n\n// " ++ (m ++ (b!"Tables provides tables map for " ++ (s.db ++ (b!"\nvar " ++ (m ++ (b!"Tables = map[string]*xdbschema.TableInfo{" ++
  (s.tables.flatMap (entryText v) ++ b!"\n}\n")))))))))))))))))))

theorem i_name {i : InfoDecl} {n : Bytes} {env : List (Bytes × Val)} (h : tableInfoStructName L cfg i.name i.schemaName = some n) :
    Expr.eval L cfg (.info i) env (.call b!"tableInfoStructName" [.path []]) = some (.str n) := by
  rw [ev_call, mapM_dot, Option.bind_some, a_info, h]; rfl

theorem schema_exec (s : SDef) (m : Bytes) (v : InfoDecl → Bytes) (hm : goName L s.db = some m) (hv : ∀ i ∈ s.tables, tableInfoStructName L cfg i.name i.schemaName = some (v i)) :
    exec L cfg codeSchemaHeaderTemplateText (.sdef s) = some (schemaBody s m v) := by
  have hg : ∀ env, Expr.eval L cfg (.sdef s) env (.call b!"goName" [.path [b!"DB"]]) = some (.str m) := by
    intro env
    rw [ev_call]
    have : [Atom.path [b!"DB"]].mapM (Atom.eval (.sdef s) env) = some [.str s.db] := rfl
    rw [this, Option.bind_some, a_goName, hm]; rfl
  unfold exec
  rw [parse_schemaHeader, Option.bind_some]
  unfold schemaHeaderTm schemaBody
  iterate 2 (refine x_text L cfg (x_print L cfg rfl ?_))
  refine x_text L cfg (x_range L cfg (F := .str) rfl rfl ?_ ?_)
  · intro i hi
    exact x_text L cfg (x_print L cfg rfl (x_last L cfg))
  iterate 2 (refine x_text L cfg (x_print L cfg rfl ?_))
  refine x_decl L cfg rfl ?_
  refine x_text L cfg (x_range L cfg (F := .info) rfl rfl ?_ ?_)
  · intro i hi
    refine x_decl L cfg (i_name L cfg (hv i hi)) ?_
    iterate 7 (refine x_text L cfg (x_print L cfg rfl ?_))
    refine x_text L cfg (x_range L cfg (F := .str) rfl rfl ?_ ?_)
    · intro c hc
      exact x_text L cfg (x_print L cfg rfl (x_last L cfg))
    refine x_text L cfg (x_range L cfg (F := .str) rfl rfl ?_ ?_)
    · intro c hc
      exact x_text L cfg (x_print L cfg rfl (x_last L cfg))
    exact x_text L cfg (x_print L cfg rfl (x_last L cfg))
  refine x_text L cfg (x_print L cfg (hg _) ?_)
  refine x_text L cfg (x_print L cfg rfl ?_)
  refine x_text L cfg (x_print L cfg (hg _) ?_)
  refine x_text L cfg (x_range L cfg (F := .info) rfl rfl ?_ (x_last L cfg))
  intro i hi
  refine x_text L cfg (x_print L cfg rfl ?_)
  exact x_text L cfg (x_print L cfg (i_name L cfg (hv i hi)) (x_last L cfg))

end
end Gen
