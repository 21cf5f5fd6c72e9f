import Verif.Gen.Text
import Verif.Gen.TextSpec
import Verif.Xsql.DocLemmas
set_option linter.unusedVariables false
set_option linter.unusedSimpArgs false
/-! What a Go compiler reads in the texts of the templates. -/
namespace Gen
open Schema Go

/-! ### Comments -/

theorem run_cmt {s : Bytes} (h : (10 : UInt8) ∉ s) : run (.line false) (b!"\n// " ++ s) = some ([], .line false) := by
  have e : run (.line false) b!"\n// " = some ([], .line false) := by decide +kernel
  rw [run_append _ _ _ _ _ e, run_line _ _ h]
  rfl

theorem nl_of_str {s : Bytes} (h : StrOK s) : (10 : UInt8) ∉ s := fun hm => (h _ hm).2.2 rfl

theorem nl_join (sep : Bytes) (hs : (10 : UInt8) ∉ sep) : ∀ l : List Bytes, (∀ c ∈ l, (10 : UInt8) ∉ c) → (10 : UInt8) ∉ Xsql.joinBytes sep l := by
  intro l
  induction l with
  | nil => intro _; simp [Xsql.joinBytes]
  | cons a l ih =>
    intro h
    have h1 := h a (by simp)
    have h2 := ih (fun c hc => h c (by simp [hc]))
    cases l with
    | nil => simpa [Xsql.joinBytes] using h1
    | cons b l => simp only [Xsql.joinBytes, List.mem_append, not_or] at h2 ⊢; exact ⟨⟨h1, hs⟩, h2⟩

theorem run_idx (i : Index) (h1 : (10 : UInt8) ∉ i.name) (h2 : ∀ c ∈ i.columnNames, (10 : UInt8) ∉ c) : run (.line false) (idxText i) = some ([], .line false) := by
  have hj := nl_join b!"," (by decide) _ h2
  have e : idxText i = b!"\n// " ++ (b!"  " ++ (i.name ++ (b!":" ++ ((if i.isPrimary then b!" PRIMARY" else []) ++ ((if i.isUnique then b!" UNIQUE" else []) ++ (b!" [" ++ (Xsql.joinBytes b!"," i.columnNames ++ b!"]"))))))) := rfl
  rw [e]
  refine run_cmt ?_
  have hp : (10 : UInt8) ∉ (if i.isPrimary then b!" PRIMARY" else []) := by cases i.isPrimary <;> decide
  have hu : (10 : UInt8) ∉ (if i.isUnique then b!" UNIQUE" else []) := by cases i.isUnique <;> decide
  simp only [List.mem_append, not_or]
  exact ⟨by decide, h1, by decide, hp, hu, by decide, hj, by decide⟩

theorem run_comment (t : TDef) (hp : ∀ c, t.primaryKey = some c → StrOK c.name) (hi : ∀ i ∈ t.indexes, StrOK i.name ∧ ∀ c ∈ i.columnNames, StrOK c) :
    run (.line false) (commentText t) = some ([], .line false) := by
  unfold commentText
  have h1 : run (.line false) (match t.primaryKey with | some c => b!"\n// Primary key: " ++ c.name | none => []) = some ([], .line false) := by
    cases h : t.primaryKey with
    | none => rfl
    | some c =>
      have e : b!"\n// Primary key: " ++ c.name = b!"\n// " ++ (b!"Primary key: " ++ c.name) := rfl
      simp only [e]
      refine run_cmt ?_
      simp only [List.mem_append, not_or]
      exact ⟨by decide, nl_of_str (hp c h)⟩
  refine (run_append _ _ _ _ _ h1).trans ?_
  rw [prepend_nil]
  by_cases hn : t.indexes = []
  · rw [if_pos hn]; rfl
  · rw [if_neg hn]
    have e : run (.line false) b!"\n// Indexes:" = some ([], .line false) := by decide +kernel
    rw [run_append _ _ _ _ _ e, prepend_nil, run_items idxText (fun _ => []) _ _ (fun i hm => run_idx i (nl_of_str (hi i hm).1) (fun c hc => nl_of_str ((hi i hm).2 c hc)))]
    simp

/-! ### Model files -/

/-- Tokens of fixed text among named ones. -/
abbrev K (g : Bytes) : List STok := (codeToks g).map STok.tok

theorem refToks (sp pkg v : Bytes) (hv : WordOK v) (hsp : sp = [] ∨ (sp = pkg ++ b!"." ∧ WordOK pkg)) :
    run (.code false) (sp ++ (v ++ b!"\n}\n\n")) = some (Spec.T (sp ++ v) ++ Spec.T b!"; };", .code false) := by
  rcases hsp with rfl | ⟨rfl, hp⟩
  · have h1 := run_segs [v] [.word 0, .lit b!"\n}\n\n"] ([.word 0 []] ++ K b!"; };") (st := .code false) (st' := .code false) (by decide +kernel) (by simp [Seg.ok, nm, hv]) []
    have h2 : run (.code false) (v ++ b!" ") = some ([.word v], .code true) := by
      have := run_segs [v] [.word 0, .lit b!" "] [.word 0 []] (st := .code false) (st' := .code true) (by decide +kernel) (by simp [Seg.ok, nm, hv]) []
      simpa [segTextK, Seg.text, nm, run, prepend_some, STok.inst] using this
    have h3 : Spec.T v = [.word v] := by unfold Spec.T codeToks; rw [h2]
    simp only [List.nil_append, h3]
    have e : segTextK [v] [.word 0, .lit b!"\n}\n\n"] [] = v ++ b!"\n}\n\n" := by simp [segTextK, Seg.text, nm]
    rw [e] at h1
    rw [h1]
    simp only [run, prepend_some, List.append_nil, List.flatMap_append, flatMap_tok]
    simp [STok.inst, nm]
  · have h1 := run_segs [pkg, v] [.word 0, .lit b!".", .word 1, .lit b!"\n}\n\n"] ([.word 0 []] ++ K b!"." ++ [.word 1 []] ++ K b!"; };") (st := .code false) (st' := .code false)
      (by decide +kernel) (by simp [Seg.ok, nm, hv, hp]) []
    have h2 : run (.code false) ((pkg ++ b!"." ++ v) ++ b!" ") = some ([.word pkg] ++ Spec.T b!"." ++ [.word v], .code true) := by
      have := run_segs [pkg, v] [.word 0, .lit b!".", .word 1, .lit b!" "] ([.word 0 []] ++ K b!"." ++ [.word 1 []]) (st := .code false) (st' := .code true) (by decide +kernel)
        (by simp [Seg.ok, nm, hv, hp]) []
      have e : segTextK [pkg, v] [.word 0, .lit b!".", .word 1, .lit b!" "] [] = (pkg ++ b!"." ++ v) ++ b!" " := by simp [segTextK, Seg.text, nm]
      rw [e] at this
      rw [this]
      simp only [run, prepend_some, List.append_nil, List.flatMap_append, flatMap_tok]
      simp [STok.inst, nm]
    have h3 : Spec.T (pkg ++ b!"." ++ v) = [.word pkg] ++ Spec.T b!"." ++ [.word v] := by show codeToks _ = _; unfold codeToks; rw [h2]
    rw [h3]
    have e : segTextK [pkg, v] [.word 0, .lit b!".", .word 1, .lit b!"\n}\n\n"] [] = pkg ++ b!"." ++ (v ++ b!"\n}\n\n") := by simp [segTextK, Seg.text, nm]
    rw [← e, h1]
    simp only [run, prepend_some, List.append_nil, List.flatMap_append, flatMap_tok]
    simp [STok.inst, nm]

/-- A field. -/
theorem run_field (cn gt : Column → Bytes) (c : Column) (h1 : WordOK (cn c)) (h2 : CodeOK (gt c)) (h3 : RawOK c.tag) (h4 : (10 : UInt8) ∉ c.name) (h5 : (10 : UInt8) ∉ c.type)
    (h6 : (10 : UInt8) ∉ cn c) :
    ∃ f, fieldText cn gt c = 10 :: f ∧ run (.code false) f = some ([.word (cn c)] ++ Spec.T (gt c) ++ [.raw c.tag], .code true) := by
  refine ⟨segTextK [cn c, c.name, c.type, gt c, c.tag] [.lit b!"\t// ", .cmt 0, .lit b!" represents '", .cmt 1, .lit b!"' column of '", .cmt 2, .lit b!"'\n\t", .word 0, .lit b!" ", .code 3,
    .lit b!" `", .raw 4, .lit b!"`"] [], ?_, ?_⟩
  · simp [fieldText, segTextK, Seg.text, nm]
  · rw [run_segs _ _ ([.word 0 [], .code 3, .raw 4]) (st' := .code true) (by decide +kernel) (by simp [Seg.ok, nm, h1, h2, h3, h4, h5, h6])]
    simp [run, prepend_some, STok.inst, nm]

theorem run_scan (cn : Column → Bytes) (c : Column) (h1 : WordOK (cn c)) :
    ∃ f, scanText cn c = 10 :: f ∧ run (.code false) f = some (Spec.T b!"&m." ++ [.word (cn c)] ++ Spec.T b!",", .code false) := by
  refine ⟨segTextK [cn c] [.lit b!"\t\t&m.", .word 0, .lit b!","] [], ?_, ?_⟩
  · simp [scanText, segTextK, Seg.text, nm]
  · rw [run_segs _ _ (K b!"&m." ++ [.word 0 []] ++ K b!",") (st' := .code false) (by decide +kernel) (by simp [Seg.ok, nm, h1])]
    simp only [run, prepend_some, List.append_nil, List.flatMap_append, flatMap_tok]
    simp [STok.inst, nm]

/-- Lines. -/
theorem run_lines' {α : Type} (g : α → Bytes) (t : α → List Tok) (k k' : List Tok) (st st' : St) (hst : step st 10 = some (k, .code false))
    (hst' : step st' 10 = some (k', .code false)) (l : List α) (h : ∀ a ∈ l, ∃ f, g a = 10 :: f ∧ run (.code false) f = some (t a, st')) (rest : Bytes) :
    run st (l.flatMap g ++ 10 :: rest) = prepend (k ++ l.flatMap (fun a => t a ++ k')) (run (.code false) rest) := by
  have e : l.flatMap g = l.flatMap (fun a => 10 :: (g a).tail) := by
    clear hst hst'
    induction l with
    | nil => rfl
    | cons a l ih =>
      obtain ⟨f, hf, -⟩ := h a (by simp)
      rw [List.flatMap_cons, List.flatMap_cons, ih (fun x hx => h x (by simp [hx])), hf]
      rfl
  rw [e]
  refine run_lines (fun a => (g a).tail) t k k' st st' hst hst' l (fun a ha => ?_) rest
  obtain ⟨f, hf, hr⟩ := h a ha
  rw [hf]
  exact hr

/-- The declaration a table definition stands for. -/
def declOf (t : TDef) (cn gt : Column → Bytes) : ModelDecl :=
  { structName := t.base.structName, schema := t.base.schema, table := t.base.tableName, fields := t.base.columns.map (fun c => ⟨cn c, gt c, c.name, c.tag⟩), scan := t.base.columns.map cn
    infoRef := t.base.schemaPackage ++ (t.base.tableStructName ++ b!"Info"), withCache := t.base.withCache }

/-- The pieces before the comment, after it, between the fields and the scan list, and after the scan list. -/
def segA : List Seg := [.lit b!"\n\n// ", .cmt 0, .lit b!" represents one row from table '", .cmt 1, .lit b!".", .cmt 2, .lit b!"'."]
def segB : List Seg := [.lit b!"\ntype ", .word 0, .lit b!" struct {"]
def segC (cache : Bool) : List Seg :=
  (if cache then [.lit b!"\n\t// cachedProps is used to store computed and cached properties of the model,\n\t// for example from JSON blobs\n\tcachedProps values.MapAny `json:\"-\"`", .lit b!"\n}",
      .lit b!"\n\n// Cached returns cached properties of the model.\nfunc(m *", .word 0,
      .lit b!") Cached() values.MapAny {\n\tif m.cachedProps == nil {\n\t\tm.cachedProps = values.MapAny{}\n\t}\n\treturn m.cachedProps\n}"] else [.lit b!"}"])
  ++ [.lit b!"\n\n// ScanRow scans one row for ", .cmt 2, .lit b!".\nfunc(m *", .word 0, .lit b!") ScanRow(rows xdb.Row) error {\n\terr := rows.Scan("]
def segD : List Seg :=
  [.lit b!"\t)\n\tif err != nil {\n\t\treturn errors.WithStack(err)\n\t}\n\treturn nil\n}\n\ntype ", .word 0, .lit b!"Slice []*", .word 0, .lit b!"\ntype ", .word 0,
    .lit b!"Result struct {\n\tRows        ", .word 0, .lit b!"Slice\n\tNextOffset  uint32\n\tHasNextPage bool\n\tCursor \tstring\n}\n\nfunc (p *", .word 0,
    .lit b!"Result) SetResult(rows []*", .word 0,
    .lit b!", hasNextPage bool, nextOffset uint32) {\n\tp.Rows = rows\n\tp.NextOffset = nextOffset\n\tp.HasNextPage = hasNextPage\n}\n\nfunc (p *", .word 0,
    .lit b!"Result) SetResultWithCursor(rows []*", .word 0, .lit b!", hasNextPage bool, cursor func(lastRow *", .word 0,
    .lit b!") string) {\n\tp.Rows = rows\n\tp.HasNextPage = hasNextPage\n\tif hasNextPage && len(rows) > 0 {\n\t\tp.Cursor = cursor(rows[len(rows)-1])\n    }\n}\n\nfunc (p *", .word 0,
    .lit b!"Result) GetTableInfo() *xdbschema.TableInfo {\n\treturn &"]

theorem modelBody_eq (t : TDef) (cn gt : Column → Bytes) :
    modelBody t cn gt = segTextK [t.base.structName, t.base.schema, t.base.tableName] segA (commentText t ++ segTextK [t.base.structName, t.base.schema, t.base.tableName] segB
      (t.base.columns.flatMap (fieldText cn gt) ++ 10 :: segTextK [t.base.structName, t.base.schema, t.base.tableName] (segC t.base.withCache)
        (t.base.columns.flatMap (scanText cn) ++ 10 :: segTextK [t.base.structName, t.base.schema, t.base.tableName] segD
          (t.base.schemaPackage ++ ((t.base.tableStructName ++ b!"Info") ++ b!"\n}\n\n"))))) := by
  rw [List.append_assoc t.base.tableStructName]
  unfold modelBody segC
  cases t.base.withCache
  · rfl
  · simp only [if_true, List.append_assoc]; rfl

theorem run_model (t : TDef) (cn gt : Column → Bytes) (pkg : Bytes) (hS : WordOK t.base.structName) (hs : StrOK t.base.schema) (hn : StrOK t.base.tableName)
    (hp : ∀ c, t.primaryKey = some c → StrOK c.name) (hi : ∀ i ∈ t.indexes, StrOK i.name ∧ ∀ c ∈ i.columnNames, StrOK c)
    (hc : ∀ c ∈ t.base.columns, WordOK (cn c) ∧ CodeOK (gt c) ∧ RawOK c.tag ∧ StrOK c.name ∧ StrOK c.type)
    (hv : WordOK (t.base.tableStructName ++ b!"Info")) (hsp : t.base.schemaPackage = [] ∨ (t.base.schemaPackage = pkg ++ b!"." ∧ WordOK pkg)) :
    run (.code false) (modelBody t cn gt) = some (Spec.modelToks (declOf t cn gt), .code false) := by
  have hw : ∀ {w : Bytes}, WordOK w → (10 : UInt8) ∉ w := fun h hm => absurd (h.2.1 _ hm) (by decide)
  have hok : ∀ l : List Seg, (∀ x ∈ l, x ∈ segA ++ segB ++ segC true ++ segC false ++ segD) → ∀ x ∈ l, Seg.ok [t.base.structName, t.base.schema, t.base.tableName] x := by
    have : ∀ x ∈ segA ++ segB ++ segC true ++ segC false ++ segD, Seg.ok [t.base.structName, t.base.schema, t.base.tableName] x := by
      simp [segA, segB, segC, segD, Seg.ok, nm, hS, hw hS, nl_of_str hs, nl_of_str hn]
    exact fun l hl x hx => this x (hl x hx)
  rw [modelBody_eq, run_segs _ segA [] (st' := .line false) (by decide +kernel) (hok _ (by intro x hx; simp [hx])), List.flatMap_nil, prepend_nil,
    run_append _ _ _ _ _ (run_comment t hp hi), prepend_nil,
    run_segs _ segB (K b!"type" ++ [.word 0 []] ++ K b!"struct {") (st' := .code false) (by decide +kernel) (hok _ (by intro x hx; simp [hx])),
    run_lines' (fieldText cn gt) (fun c => [.word (cn c)] ++ Spec.T (gt c) ++ [.raw c.tag]) [] [.semi] (.code false) (.code true) rfl rfl _
      (fun c hm => by obtain ⟨h1, h2, h3, h4, h5⟩ := hc c hm; exact run_field cn gt c h1 h2 h3 (nl_of_str h4) (nl_of_str h5) (hw h1)), prepend_prepend,
    run_segs _ (segC t.base.withCache) ((if t.base.withCache then K b!"cachedProps values.MapAny `json:\"-\"`;" else []) ++ K b!"};" ++
      (if t.base.withCache then K b!"func (m *" ++ [.word 0 []] ++ K b!") Cached() values.MapAny { if m.cachedProps == nil { m.cachedProps = values.MapAny{}; }; return m.cachedProps; };" else [])
      ++ K b!"func (m *" ++ [.word 0 []] ++ K b!") ScanRow(rows xdb.Row) error { err := rows.Scan(") (st' := .code false) (by cases t.base.withCache <;> decide +kernel)
      (hok _ (by intro x hx; cases h : t.base.withCache <;> rw [h] at hx <;> simp [hx])), prepend_prepend,
    run_lines' (scanText cn) (fun c => Spec.T b!"&m." ++ [.word (cn c)] ++ Spec.T b!",") [] [] (.code false) (.code false) rfl rfl _ (fun c hm => run_scan cn c (hc c hm).1), prepend_prepend,
    run_segs _ segD (K b!"); if err != nil { return errors.WithStack(err); }; return nil; };"
      ++ K b!"type" ++ [.word 0 b!"Slice"] ++ K b!"[]*" ++ [.word 0 []] ++ K b!";"
      ++ K b!"type" ++ [.word 0 b!"Result"] ++ K b!"struct { Rows" ++ [.word 0 b!"Slice"] ++ K b!"; NextOffset uint32; HasNextPage bool; Cursor string; };"
      ++ K b!"func (p *" ++ [.word 0 b!"Result"] ++ K b!") SetResult(rows []*" ++ [.word 0 []]
      ++ K b!", hasNextPage bool, nextOffset uint32) { p.Rows = rows; p.NextOffset = nextOffset; p.HasNextPage = hasNextPage; };"
      ++ K b!"func (p *" ++ [.word 0 b!"Result"] ++ K b!") SetResultWithCursor(rows []*" ++ [.word 0 []] ++ K b!", hasNextPage bool, cursor func(lastRow *" ++ [.word 0 []]
      ++ K b!") string) { p.Rows = rows; p.HasNextPage = hasNextPage; if hasNextPage && len(rows) > 0 { p.Cursor = cursor(rows[len(rows)-1]); }; };"
      ++ K b!"func (p *" ++ [.word 0 b!"Result"] ++ K b!") GetTableInfo() *xdbschema.TableInfo { return &") (st' := .code false) (by decide +kernel) (hok _ (by intro x hx; simp [hx])), prepend_prepend,
    refToks _ pkg _ hv hsp, prepend_some]
  simp only [Option.some.injEq, Prod.mk.injEq, and_true]
  have hsemi : Spec.T b!";" = [.semi] := by decide +kernel
  unfold Spec.modelToks declOf
  have hc1 : ∀ (g : Bytes), (if t.base.withCache then K g else []).flatMap (STok.inst [t.base.structName, t.base.schema, t.base.tableName]) = if t.base.withCache then Spec.T g else [] := by
    intro g; cases t.base.withCache <;> simp [flatMap_tok]
  have hc2 : ∀ (g g' : Bytes), (if t.base.withCache then K g ++ [.word 0 []] ++ K g' else []).flatMap (STok.inst [t.base.structName, t.base.schema, t.base.tableName])
      = if t.base.withCache then Spec.T g ++ [.word t.base.structName] ++ Spec.T g' else [] := by
    intro g g'
    cases t.base.withCache
    · rfl
    · simp only [if_true, List.flatMap_append, flatMap_tok]
      simp [STok.inst, nm]
  simp only [List.flatMap_append, flatMap_tok, hc1, hc2]
  simp only [List.flatMap_map, Spec.fieldToks]
  simp only [List.flatMap_cons, List.flatMap_nil, STok.inst, nm, List.append_nil, List.getD_cons_zero, hsemi, List.nil_append, List.append_assoc]

/-! ### Headers -/

theorem run_import (i : Bytes) (h : StrOK i) : run (.code false) (importText i) = some (Spec.importToks i, .code false) := by
  have e : importText i = segTextK [i] [.lit b!"\"", .str 0, .lit b!"\"\n\t"] [] := by simp [importText, segTextK, Seg.text, nm]
  rw [e, run_segs _ _ ([.str 0] ++ K b!";") (st' := .code false) (by decide +kernel) (by simp [Seg.ok, nm, h])]
  simp only [run, prepend_some, List.append_nil, List.flatMap_append, flatMap_tok]
  simp [STok.inst, nm, Spec.importToks]

theorem dialect_split (p : Bytes) : ∃ n, dialectOf p = b!"xsql." ++ n ∧ WordOK n ∧ Spec.T (dialectOf p) = Spec.T b!"xsql." ++ [.word n] := by
  unfold dialectOf
  split
  · exact ⟨b!"Postgres", rfl, by decide +kernel, by decide +kernel⟩
  · split
    · exact ⟨b!"SQLServer", rfl, by decide +kernel, by decide +kernel⟩
    · exact ⟨b!"NoDialect", rfl, by decide +kernel, by decide +kernel⟩

/-- The tokens of a model file before its declarations. -/
def headToks (pkg : Bytes) (imports : List Bytes) (dv : Option Bytes) : List Tok :=
  Spec.T b!"package" ++ [.word pkg] ++ Spec.T b!"; import ( \"github.com/effective-security/xdb\"; xdbschema \"github.com/effective-security/xdb/schema\"; \"github.com/effective-security/x/values\"; \"github.com/cockroachdb/errors\";"
    ++ imports.flatMap Spec.importToks ++ Spec.T b!");"
    ++ (match dv with | some d => Spec.T b!"var Dialect =" ++ Spec.T d ++ Spec.T b!";" | none => [])

theorem run_header (t : TDef) (p : Bytes) (hdb : (10 : UInt8) ∉ t.db) (hp : WordOK t.package) (hi : ∀ i ∈ t.imports, StrOK i) (own : Bool)
    (hd : t.dialect = if own then dialectOf p else []) :
    run (.code false) (headerBody t) = some (headToks t.package t.imports (if own then some (dialectOf p) else none), .code false) := by
  obtain ⟨n, h1, h2, h3⟩ := dialect_split p
  have e : headerBody t = segTextK [t.db, t.package]
      [.lit b!"// DO NOT EDIT!\n// This file is MACHINE GENERATED\n// DB: ", .cmt 0, .lit b!"\n\npackage ", .word 1,
        .lit b!"\n\nimport (\n\t\"github.com/effective-security/xdb\"\n\txdbschema \"github.com/effective-security/xdb/schema\"\n\t\"github.com/effective-security/x/values\"\n\t\"github.com/cockroachdb/errors\"\n\t"]
      (t.imports.flatMap importText ++ (b!"\n)\n\n" ++ ((if decide (t.dialect ≠ []) then b!"\n// Dialect provides Dialect for " ++ (t.db ++ (b!"\nvar Dialect = " ++ (t.dialect ++ b!"\n"))) else []) ++ b!"\n"))) := rfl
  have hk : run (.code false) b!"\n)\n\n" = some (Spec.T b!");", .code false) := by decide +kernel
  have hk2 : run (.code false) b!"\n" = some ([], .code false) := by decide +kernel
  rw [e, run_segs _ _ (K b!"package" ++ [.word 1 []] ++ K b!"; import ( \"github.com/effective-security/xdb\"; xdbschema \"github.com/effective-security/xdb/schema\"; \"github.com/effective-security/x/values\"; \"github.com/cockroachdb/errors\";")
      (st' := .code false) (by decide +kernel) (by simp [Seg.ok, nm, hdb, hp]), run_append _ _ _ _ _ (run_items _ _ _ _ (fun i hm => run_import i (hi i hm))), run_append _ _ _ _ _ hk,
    prepend_prepend, prepend_prepend, hd]
  cases own with
  | false =>
    simp only [Bool.false_eq_true, if_false, ne_eq, not_true_eq_false, decide_false, List.nil_append, hk2, prepend_some, headToks]
    simp only [List.flatMap_append, flatMap_tok]
    simp [STok.inst, nm]
  | true =>
    have hdec : decide (dialectOf p ≠ []) = true := by rw [h1]; simp
    have e2 : (b!"\n// Dialect provides Dialect for " ++ (t.db ++ (b!"\nvar Dialect = " ++ (dialectOf p ++ b!"\n")))) ++ b!"\n" = segTextK [t.db, n]
      [.lit b!"\n// Dialect provides Dialect for ", .cmt 0, .lit b!"\nvar Dialect = xsql.", .word 1, .lit b!"\n\n"] [] := by rw [h1]; simp [segTextK, Seg.text, nm]
    simp only [if_true]
    rw [if_pos hdec]
    refine (congrArg (fun z => prepend _ (run (.code false) z)) e2).trans ?_
    simp only
    rw [run_segs _ _ (K b!"var Dialect =" ++ K b!"xsql." ++ [.word 1 []] ++ K b!";") (st' := .code false) (by decide +kernel) (by simp [Seg.ok, nm, hdb, h2])]
    simp only [run, prepend_prepend, prepend_some, headToks, h3, List.flatMap_append, flatMap_tok]
    simp [STok.inst, nm]

/-! ### Schema files -/

theorem wordOK_dec (n : Nat) : WordOK (Num.dec n) := by
  have hd : ∀ b ∈ Num.dec n, b ∈ ([48, 49, 50, 51, 52, 53, 54, 55, 56, 57] : List UInt8) := fun b hb => Classical.byContradiction fun hn => dec_digit hn n hb
  refine ⟨?_, ?_, ?_⟩
  · obtain ⟨d, ds, h, -⟩ := Xsql.dec_last_not_cut n
    intro e
    rw [e] at h
    cases h
  · intro b hb
    have := hd b hb
    revert this
    simp only [List.mem_cons, List.not_mem_nil, or_false]
    rintro (rfl | rfl | rfl | rfl | rfl | rfl | rfl | rfl | rfl | rfl) <;> decide
  · intro hk
    have : ∀ w ∈ keywords, ∃ b ∈ w, b ∉ ([48, 49, 50, 51, 52, 53, 54, 55, 56, 57] : List UInt8) := by decide +kernel
    obtain ⟨b, hb, hn⟩ := this _ hk
    exact hn (hd b hb)

theorem run_elem (s : Bytes) (h : StrOK s) : run (.code false) (elemText s) = some ([.str s] ++ Spec.T b!",", .code false) := by
  have e : elemText s = segTextK [s] [.lit b!"\"", .str 0, .lit b!"\", "] [] := by simp [elemText, segTextK, Seg.text, nm]
  rw [e, run_segs _ _ ([.str 0] ++ K b!",") (st' := .code false) (by decide +kernel) (by simp [Seg.ok, nm, h])]
  simp only [run, prepend_some, List.append_nil, List.flatMap_append, flatMap_tok]
  simp [STok.inst, nm]

theorem run_info (p : Bytes) (v : InfoDecl → Bytes) (i : InfoDecl) (hv : WordOK (v i)) (h1 : StrOK i.schemaName) (h2 : StrOK i.schema) (h3 : StrOK i.name) (h4 : StrOK i.primaryKey)
    (h5 : ∀ c ∈ i.columns, StrOK c) (h6 : ∀ c ∈ i.indexes, StrOK c) :
    run (.code false) (infoText (dialectOf p) v i) = some (Spec.infoToks { i with var := v i, dialect := dialectOf p }, .code false) := by
  obtain ⟨n, d1, d2, d3⟩ := dialect_split p
  have hw : (10 : UInt8) ∉ v i := fun hm => absurd (hv.2.1 _ hm) (by decide)
  have e : infoText (dialectOf p) v i = segTextK [v i, i.name, i.schemaName, i.schema, i.primaryKey]
      [.lit b!"\n// ", .cmt 0, .lit b!" provides table info for '", .cmt 1, .lit b!"'\nvar ", .word 0, .lit b!" = xdbschema.TableInfo{\n\tSchemaName : \"", .str 2,
        .lit b!"\",\n\tSchema     : \"", .str 3, .lit b!"\",\n\tName       : \"", .str 1, .lit b!"\",\n\tPrimaryKey : \"", .str 4, .lit b!"\", \n\tColumns    : []string{"]
      (i.columns.flatMap elemText ++ (b!"},\n\tIndexes    : []string{" ++ (i.indexes.flatMap elemText ++ segTextK [n] [.lit b!"},\n\tDialect    : xsql.", .word 0, .lit b!",\n}\n"] []))) := by
    simp [infoText, segTextK, Seg.text, nm, d1]
  have hk : run (.code false) b!"},\n\tIndexes    : []string{" = some (Spec.T b!"}, Indexes: []string{", .code false) := by decide +kernel
  rw [e, run_segs _ _ (K b!"var" ++ [.word 0 []] ++ K b!"= xdbschema.TableInfo{ SchemaName:" ++ [.str 2] ++ K b!", Schema:" ++ [.str 3] ++ K b!", Name:" ++ [.str 1] ++ K b!", PrimaryKey:"
      ++ [.str 4] ++ K b!", Columns: []string{") (st' := .code false) (by decide +kernel) (by simp [Seg.ok, nm, hv, hw, h1, h2, h3, h4, nl_of_str h3]),
    run_append _ _ _ _ _ (run_items _ _ _ _ (fun c hm => run_elem c (h5 c hm))), run_append _ _ _ _ _ hk,
    run_append _ _ _ _ _ (run_items _ _ _ _ (fun c hm => run_elem c (h6 c hm))),
    run_segs _ _ (K b!"}, Dialect:" ++ K b!"xsql." ++ [.word 0 []] ++ K b!", };") (st' := .code false) (by decide +kernel) (by simp [Seg.ok, nm, d2])]
  simp only [run, prepend_prepend, prepend_some, Spec.infoToks, d3, List.flatMap_append, flatMap_tok]
  simp [STok.inst, nm]

theorem run_entry (v : InfoDecl → Bytes) (i : InfoDecl) (hv : WordOK (v i)) (h : StrOK i.name) :
    ∃ f, entryText v i = 10 :: f ∧ run (.code false) f = some ([.str i.name] ++ Spec.T b!": &" ++ [.word (v i)] ++ Spec.T b!",", .code false) := by
  refine ⟨segTextK [v i, i.name] [.lit b!" \t\"", .str 1, .lit b!"\": &", .word 0, .lit b!","] [], ?_, ?_⟩
  · simp [entryText, segTextK, Seg.text, nm]
  · rw [run_segs _ _ ([.str 1] ++ K b!": &" ++ [.word 0 []] ++ K b!",") (st' := .code false) (by decide +kernel) (by simp [Seg.ok, nm, hv, h])]
    simp only [run, prepend_some, List.append_nil, List.flatMap_append, flatMap_tok]
    simp [STok.inst, nm]

/-- The tokens of a schema file before its column definitions. -/
def schemaHeadToks (pkg : Bytes) (imports : List Bytes) (dv : Bytes) (is : List InfoDecl) (mv : Bytes) (es : List (Bytes × Bytes)) : List Tok :=
  Spec.T b!"package" ++ [.word pkg] ++ Spec.T b!"; import ( xdbschema \"github.com/effective-security/xdb/schema\";" ++ imports.flatMap Spec.importToks ++ Spec.T b!");"
    ++ Spec.T b!"var Dialect =" ++ Spec.T dv ++ Spec.T b!";"
    ++ is.flatMap Spec.infoToks
    ++ Spec.T b!"var" ++ [.word mv] ++ Spec.T b!"= map[string]*xdbschema.TableInfo{" ++ es.flatMap (fun e => [.str e.1] ++ Spec.T b!": &" ++ [.word e.2] ++ Spec.T b!",") ++ Spec.T b!"};"

theorem run_schemaHead (s : SDef) (m : Bytes) (v : InfoDecl → Bytes) (p : Bytes) (hdb : (10 : UInt8) ∉ s.db) (hp : WordOK s.package) (hi : ∀ i ∈ s.imports, StrOK i)
    (hd : s.dialect = dialectOf p) (hm : WordOK m)
    (ht : ∀ i ∈ s.tables, WordOK (v i) ∧ StrOK i.schemaName ∧ StrOK i.schema ∧ StrOK i.name ∧ StrOK i.primaryKey ∧ (∀ c ∈ i.columns, StrOK c) ∧ ∀ c ∈ i.indexes, StrOK c) :
    run (.code false) (schemaBody s m v) = some (schemaHeadToks s.package s.imports (dialectOf p) (s.tables.map fun i => { i with var := v i, dialect := dialectOf p }) (m ++ b!"Tables")
      (s.tables.map fun i => (i.name, v i)), .code false) := by
  obtain ⟨n, d1, d2, d3⟩ := dialect_split p
  have hw : (10 : UInt8) ∉ m := fun hm' => absurd (hm.2.1 _ hm') (by decide)
  have e : schemaBody s m v = segTextK [s.db, s.package]
      [.lit b!"// DO NOT EDIT!\n// This file is MACHINE GENERATED\n// DB: ", .cmt 0, .lit b!"\n\npackage ", .word 1, .lit b!"\n\nimport (\n\txdbschema \"github.com/effective-security/xdb/schema\"\n\t"]
      (s.imports.flatMap importText ++ segTextK [s.db, n] [.lit b!"\n)\n\n// Dialect provides Dialect for ", .cmt 0, .lit b!"\nvar Dialect = xsql.", .word 1, .lit b!"\n\n"]
        (s.tables.flatMap (infoText s.dialect v) ++ segTextK [m, s.db] [.lit b!"\n\n// ", .cmt 0, .lit b!"Tables provides tables map for ", .cmt 1, .lit b!"\nvar ", .word 0,
          .lit b!"Tables = map[string]*xdbschema.TableInfo{"] (s.tables.flatMap (entryText v) ++ 10 :: b!"}\n"))) := by
    simp [schemaBody, segTextK, Seg.text, nm, hd, d1]
  have hk : run (.code false) b!"}\n" = some (Spec.T b!"};", .code false) := by decide +kernel
  rw [e, run_segs _ _ (K b!"package" ++ [.word 1 []] ++ K b!"; import ( xdbschema \"github.com/effective-security/xdb/schema\";") (st' := .code false) (by decide +kernel)
      (by simp [Seg.ok, nm, hdb, hp]), run_append _ _ _ _ _ (run_items _ _ _ _ (fun i hm => run_import i (hi i hm))),
    run_segs _ _ (K b!");" ++ K b!"var Dialect =" ++ K b!"xsql." ++ [.word 1 []] ++ K b!";") (st' := .code false) (by decide +kernel) (by simp [Seg.ok, nm, hdb, d2]), hd,
    run_append _ _ _ _ _ (run_items _ _ _ _ (fun i hm => by obtain ⟨h1, h2, h3, h4, h5, h6, h7⟩ := ht i hm; exact run_info p v i h1 h2 h3 h4 h5 h6 h7)),
    run_segs _ _ (K b!"var" ++ [.word 0 b!"Tables"] ++ K b!"= map[string]*xdbschema.TableInfo{") (st' := .code false) (by decide +kernel) (by simp [Seg.ok, nm, hdb, hm, hw]),
    run_lines' (entryText v) (fun i => [.str i.name] ++ Spec.T b!": &" ++ [.word (v i)] ++ Spec.T b!",") [] [] (.code false) (.code false) rfl rfl _
      (fun i hm => run_entry v i (ht i hm).1 (ht i hm).2.2.2.1), hk]
  simp only [prepend_prepend, prepend_some, schemaHeadToks, d3, List.flatMap_append, flatMap_tok, List.flatMap_map]
  simp [STok.inst, nm]

/-! ### Column definitions -/

theorem run_def (cn : Column → Bytes) (c : Column) (h1 : WordOK (cn c)) (h2 : (10 : UInt8) ∉ c.name) (h3 : (10 : UInt8) ∉ c.type) :
    ∃ f, defText cn c = 10 :: f ∧ run (.code false) f = some ([.word (cn c)] ++ Spec.T b!"xdbschema.Column", .line true) := by
  refine ⟨segTextK [cn c, c.name, c.type] [.lit b!"\t", .word 0, .lit b!" xdbschema.Column // ", .cmt 1, .lit b!" ", .cmt 2] [], ?_, ?_⟩
  · simp [defText, segTextK, Seg.text, nm]
  · rw [run_segs _ _ ([.word 0 []] ++ K b!"xdbschema.Column") (st' := .line true) (by decide +kernel) (by simp [Seg.ok, nm, h1, h2, h3])]
    simp only [run, prepend_some, List.append_nil, List.flatMap_append, flatMap_tok]
    simp [STok.inst, nm]

theorem run_value (cn : Column → Bytes) (c : Column) (h1 : WordOK (cn c)) (h2 : StrOK c.name) (h3 : StrOK c.type) (h4 : StrOK c.udtType) :
    ∃ f, valueText cn c = 10 :: f ∧ run (.code false) f = some ([.word (cn c)] ++ Spec.T b!":" ++ Spec.columnToks c ++ Spec.T b!",", .code false) := by
  refine ⟨segTextK [cn c, c.name, Num.dec c.position.toNat, c.type, c.udtType, Num.dec c.maxLength.toNat]
    ([.lit b!"\t", .word 0, .lit b!": xdbschema.Column{ Name: \"", .str 1, .lit b!"\", Position: ", .word 2, .lit b!", Type: \"", .str 3, .lit b!"\", UdtType: \"", .str 4, .lit b!"\", Nullable: "]
      ++ (if c.nullable then [.lit b!"true "] else [.lit b!"false "]) ++ (if c.maxLength > 0 then [.lit b!", MaxLength: ", .word 5, .lit b!" "] else []) ++ [.lit b!"},"]) [], ?_, ?_⟩
  · by_cases hm : c.maxLength > 0 <;> cases hn : c.nullable <;> simp [valueText, Column.structString, segTextK, Seg.text, nm, hm, hn]
  · rw [run_segs _ _ ([.word 0 []] ++ K b!":" ++ (K b!"xdbschema.Column{ Name:" ++ [.str 1] ++ K b!", Position:" ++ [.word 2 []] ++ K b!", Type:" ++ [.str 3] ++ K b!", UdtType:" ++ [.str 4]
      ++ K b!", Nullable:" ++ (if c.nullable then K b!"true" else K b!"false") ++ (if c.maxLength > 0 then K b!", MaxLength:" ++ [.word 5 []] else []) ++ K b!"}") ++ K b!",") (st' := .code false)
      (by by_cases hm : c.maxLength > 0 <;> cases hn : c.nullable <;> simp only [hm, if_true, if_false, Bool.false_eq_true] <;> decide +kernel)
      (by by_cases hm : c.maxLength > 0 <;> cases hn : c.nullable <;> simp [Seg.ok, nm, h1, h2, h3, h4, hm, wordOK_dec])]
    by_cases hm : c.maxLength > 0 <;> cases hn : c.nullable <;>
    · simp only [run, prepend_some, List.append_nil, List.flatMap_append, flatMap_tok, hm, hn, if_true, if_false, Bool.false_eq_true, Spec.columnToks]
      simp [STok.inst, nm]

theorem run_table (t : TDef) (cn : Column → Bytes) (hS : WordOK t.base.structName) (hs : StrOK t.base.schema) (hn : StrOK t.base.tableName)
    (hp : ∀ c, t.primaryKey = some c → StrOK c.name) (hi : ∀ i ∈ t.indexes, StrOK i.name ∧ ∀ c ∈ i.columnNames, StrOK c)
    (hc : ∀ c ∈ t.base.columns, WordOK (cn c) ∧ StrOK c.name ∧ StrOK c.type ∧ StrOK c.udtType) (hv : WordOK (t.base.tableStructName ++ b!"Info")) :
    run (.code false) (tableBody t cn)
      = some (Spec.defToks { var := t.base.structName, infoRef := t.base.tableStructName ++ b!"Info", fields := t.base.columns.map fun c => (cn c, c.lit) }, .code false) := by
  have hw : (10 : UInt8) ∉ t.base.structName := fun hm => absurd (hS.2.1 _ hm) (by decide)
  have e : tableBody t cn = segTextK [t.base.structName, t.base.schema, t.base.tableName]
      [.lit b!"\n\n// ", .cmt 0, .lit b!" provides column definitions for table '", .cmt 1, .lit b!".", .cmt 2, .lit b!"'."]
      (commentText t ++ segTextK [t.base.structName] [.lit b!"\nvar ", .word 0, .lit b!" = struct {\n\tTable *xdbschema.TableInfo"]
        (t.base.columns.flatMap (defText cn) ++ 10 :: segTextK [t.base.tableStructName ++ b!"Info"] [.lit b!"}{\n\tTable: &", .word 0, .lit b!","]
          (t.base.columns.flatMap (valueText cn) ++ 10 :: b!"}\n"))) := by
    simp [tableBody, segTextK, Seg.text, nm]
  have hk : run (.code false) b!"}\n" = some (Spec.T b!"};", .code false) := by decide +kernel
  have hT : (K b!"= struct { Table *xdbschema.").flatMap (STok.inst [t.base.structName]) ++ [.word b!"TableInfo", .semi] = Spec.T b!"= struct { Table *xdbschema.TableInfo;" := by
    rw [flatMap_tok]; decide +kernel
  have hC : Spec.T b!"xdbschema.Column;" = Spec.T b!"xdbschema.Column" ++ [.semi] := by decide +kernel
  rw [e, run_segs _ _ [] (st' := .line false) (by decide +kernel) (by simp [Seg.ok, nm, hw, nl_of_str hs, nl_of_str hn]), List.flatMap_nil, prepend_nil,
    run_append _ _ _ _ _ (run_comment t hp hi), prepend_nil,
    run_segs _ _ (K b!"var" ++ [.word 0 []] ++ K b!"= struct { Table *xdbschema.") (st' := .word b!"TableInfo") (by decide +kernel) (by simp [Seg.ok, nm, hS]),
    run_lines' (defText cn) (fun c => [.word (cn c)] ++ Spec.T b!"xdbschema.Column") [.word b!"TableInfo", .semi] [.semi] (.word b!"TableInfo") (.line true) (by decide +kernel) rfl _
      (fun c hm => by obtain ⟨h1, h2, h3, h4⟩ := hc c hm; exact run_def cn c h1 (nl_of_str h2) (nl_of_str h3)),
    run_segs _ _ (K b!"}{ Table: &" ++ [.word 0 []] ++ K b!",") (st' := .code false) (by decide +kernel) (by simp [Seg.ok, nm, hv]),
    run_lines' (valueText cn) (fun c => [.word (cn c)] ++ Spec.T b!":" ++ Spec.columnToks c ++ Spec.T b!",") [] [] (.code false) (.code false) rfl rfl _
      (fun c hm => by obtain ⟨h1, h2, h3, h4⟩ := hc c hm; exact run_value cn c h1 h2 h3 h4), hk]
  have hl : ∀ c : Column, Spec.columnToks c.lit = Spec.columnToks c := fun c => rfl
  simp only [prepend_prepend, prepend_some, Spec.defToks, List.flatMap_append, ← hT, hC, hl, flatMap_tok, List.flatMap_map]
  simp [STok.inst, nm]

end Gen
