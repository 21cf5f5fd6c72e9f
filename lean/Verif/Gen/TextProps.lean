import Verif.Gen.TextLex
import Verif.Gen.Props
set_option linter.unusedVariables false
set_option linter.unusedSimpArgs false
/-! C96: the text of the generated files says what the files are supposed to declare. -/
namespace Gen
open Schema Go

theorem dialect_unique {p d e : Bytes} (h : Spec.DialectFor p d) (h' : Spec.DialectFor p e) : d = e := by
  unfold Spec.DialectFor at h h'
  rcases h with ⟨p1, rfl⟩ | ⟨p1, rfl⟩ | ⟨p1, p2, rfl⟩ <;> rcases h' with ⟨q1, q⟩ | ⟨q1, q⟩ | ⟨q1, q2, q⟩ <;> rw [q] <;> simp_all

/-- The name of a field, and its type. -/
def fieldName (L : Lib) (cfg : Cfg) (c : Column) : Bytes := (columnStructName L cfg c).getD []
def fieldType (L : Lib) (cfg : Cfg) (c : Column) : Bytes := (toGoType L.eqFold cfg.types c).getD []

theorem fields_all {L : Lib} {cfg : Cfg} {cs : List Column} {fs : List Field} (h : List.Forall₂ (Spec.FieldFor L cfg) cs fs) :
    (∀ c ∈ cs, columnStructName L cfg c = some (fieldName L cfg c) ∧ toGoType L.eqFold cfg.types c = some (fieldType L cfg c))
      ∧ fs = cs.map (fun c => ⟨fieldName L cfg c, fieldType L cfg c, c.name, c.tag⟩) := by
  induction h with
  | nil => simp
  | cons h htl ih =>
    rename_i c f cs fs
    obtain ⟨h1, h2, h3, h4⟩ := h
    have e1 : fieldName L cfg c = f.name := by simp [fieldName, h1]
    have e2 : fieldType L cfg c = f.type := by simp [fieldType, h2]
    refine ⟨?_, ?_⟩
    · intro x hx
      rcases List.mem_cons.1 hx with rfl | hx
      · exact ⟨by rw [e1, h1], by rw [e2, h2]⟩
      · exact ih.1 x hx
    · rw [List.map_cons, ← ih.2, e1, e2, ← h3, ← h4]

/-- A table definition exists. -/
theorem mkDef_some {L : Lib} {cfg : Cfg} {t : GTable} {v : Bytes} (h : Spec.infoVar L cfg t = some v) : ∃ td, mkDef L cfg t.schema t = some td := by
  unfold Spec.infoVar tableInfoStructName at h
  unfold mkDef tableStructName
  cases ht : cfg.tables t.schemaName with
  | some r => exact ⟨_, rfl⟩
  | none =>
    rw [ht] at h
    simp only [Option.map_eq_some_iff] at h
    obtain ⟨a, ha, -⟩ := h
    simp only [ha, Option.map_some]
    exact ⟨_, rfl⟩

/-- A table's part of a model file. -/
theorem model_text {L : Lib} {cfg : Cfg} {imports : List Bytes} {t : GTable} {d : ModelDecl} (hc : Spec.CleanCfg L cfg imports) (ht : Spec.CleanTable L cfg t) (h : Spec.Describes L cfg t d) :
    ∃ td x, mkDef L cfg t.schema t = some td ∧ exec L cfg codeModelTemplateText (.tdef (mkTDef cfg imports t td)) = some x
      ∧ run (.code false) x = some (Spec.modelToks d, .code false) := by
  obtain ⟨v, hv, href⟩ := h.info
  obtain ⟨td, htd⟩ := mkDef_some hv
  obtain ⟨h1, h2, h3, h4, h5, h6, h7⟩ := mkDef_ok htd
  obtain ⟨hf, hfs⟩ := fields_all h.fields
  refine ⟨td, _, htd, model_exec L cfg (mkTDef cfg imports t td) (fieldName L cfg) (fieldType L cfg) (fun c hm => (hf c (h3 ▸ hm)).1) (fun c hm => (hf c (h3 ▸ hm)).2), ?_⟩
  have hvv : v = td.tableStructName ++ b!"Info" := by rw [hv] at h4; exact Option.some.inj h4
  have hd : d = declOf (mkTDef cfg imports t td) (fieldName L cfg) (fieldType L cfg) := by
    have := h.scan
    have e1 := h.schema; have e2 := h.table; have e3 := h.name; have e4 := h.cache
    obtain ⟨a1, a2, a3, a4, a5, a6, a7⟩ := d
    simp only at *
    simp only [declOf, mkTDef, h1, h2, h3, h5, h6, h7]
    rw [e1, e2, e3, e4, this, hfs, href, hvv]
    simp [List.map_map, Function.comp_def]
  rw [hd]
  refine run_model _ _ _ cfg.schemaPkg ?_ ?_ ?_ ht.primaryKey ht.indexes ?_ ?_ ?_
  · show WordOK td.structName; rw [h6]; exact ht.struct
  · show StrOK td.schema; rw [h1]; exact ht.schema
  · show StrOK td.tableName; rw [h2]; exact ht.name
  · intro c hm
    have hm : c ∈ Spec.kept cfg t := by rw [← h3]; exact hm
    obtain ⟨c1, c2, c3, c4⟩ := ht.columns c hm
    exact ⟨ht.fields c hm _ (hf c hm).1, ht.types c hm _ (hf c hm).2, c4, c1, c2⟩
  · show WordOK (td.tableStructName ++ b!"Info"); rw [← hvv]; exact ht.info v hv
  · show td.schemaPackage = [] ∨ _
    rw [h5]
    by_cases e : cfg.modelPkg = cfg.schemaPkg
    · exact .inl (by rw [if_pos e])
    · exact .inr ⟨by show td.schemaPackage = _; rw [h5, if_neg e], hc.schemaPkg⟩

theorem concat_run {α β : Type} (f : α → Option Bytes) (g : β → List Tok) (R : α → β → Prop) : ∀ (l : List α) (m : List β), List.Forall₂ R l m →
    (∀ a b, a ∈ l → R a b → ∃ x, f a = some x ∧ run (.code false) x = some (g b, .code false)) →
    ∃ x, concatM f l = some x ∧ run (.code false) x = some (m.flatMap g, .code false) := by
  intro l m h
  induction h with
  | nil => intro _; exact ⟨[], rfl, rfl⟩
  | cons h htl ih =>
    rename_i a b l m
    intro hR
    obtain ⟨x, hx, rx⟩ := hR a b (by simp) h
    obtain ⟨y, hy, ry⟩ := ih (fun a b ha hr => hR a b (by simp [ha]) hr)
    refine ⟨x ++ y, by rw [concatM, hx, hy]; rfl, ?_⟩
    rw [run_append _ _ _ _ _ rx, ry, prepend_some, List.flatMap_cons]

/-- **C96**, for model files: if the names can be written, the text made from the templates for a schema's tables is a Go program, and what a compiler reads in it is
exactly the package clause, the imports, the dialect variable and the declarations of the file. -/
theorem C96_model_text (L : Lib) (cfg : Cfg) (imports : List Bytes) (s : Bytes) (ts : List GTable) (f : File) (hs : ∀ t ∈ ts, t.schema = s) (hc : Spec.CleanCfg L cfg imports)
    (ht : ∀ t ∈ ts, Spec.CleanTable L cfg t) (hf : Spec.ModelFile L cfg ts f) (hd : Spec.DialectOK cfg f) :
    ∃ text, modelText L cfg imports s ts = some text ∧ lex text = some (Spec.fileToks cfg imports f) := by
  obtain ⟨dv, ds, rfl, hds⟩ := hf
  have hdv : dv = if decide (cfg.modelPkg ≠ cfg.schemaPkg) then some (dialectOf cfg.provider) else none := by
    by_cases e : cfg.modelPkg = cfg.schemaPkg
    · rw [hd.1 e, if_neg (by simp [e])]
    · obtain ⟨d, rfl, hp⟩ := hd.2 e
      rw [if_pos (by simp [e])]
      rw [dialect_unique hp (dialectOf_spec cfg.provider)]
  obtain ⟨x, hx, rx⟩ := concat_run (fun t => (mkDef L cfg s t).bind fun td => exec L cfg codeModelTemplateText (.tdef (mkTDef cfg imports t td))) Spec.modelToks _ ts ds hds (by
    intro t d hm hr
    obtain ⟨td, x, h1, h2, h3⟩ := model_text hc (ht t hm) hr
    exact ⟨x, by rw [← hs t hm, h1, Option.bind_some, h2], h3⟩)
  refine ⟨headerBody (headerDef cfg imports) ++ x, by rw [modelText, header_exec, Option.bind_some, hx]; rfl, ?_⟩
  have hi : ∀ i ∈ modelImports cfg imports, StrOK i := by
    intro i hm
    unfold modelImports at hm
    rcases List.mem_append.1 hm with hm | hm
    · exact hc.imports i hm
    · split at hm
      · rw [List.mem_singleton.1 hm]; decide +kernel
      · cases hm
  have hh := run_header (headerDef cfg imports) cfg.provider hc.db hc.modelPkg hi (decide (cfg.modelPkg ≠ cfg.schemaPkg)) (by
    show (modelDialect cfg).getD [] = _
    unfold modelDialect
    by_cases e : cfg.modelPkg = cfg.schemaPkg <;> simp [e])
  rw [lex, run_append _ _ _ _ _ hh, rx, prepend_some, ← hdv]
  show Option.map _ (finish (.code false)) = _
  simp only [finish, endLine, Bool.false_eq_true, if_false, Option.map_some, List.append_nil, Option.some.injEq, headToks, Spec.fileToks, headerDef, modelImports]
  cases dv <;> rfl

theorem infos_all {L : Lib} {cfg : Cfg} {ts : List GTable} {is : List InfoDecl} (h : List.Forall₂ (Spec.InfoFor L cfg) ts is) (hd : ∀ i ∈ is, i.dialect = dialectOf cfg.provider) :
    is = (ts.map (mkInfo cfg)).map (fun i => { i with var := (tableInfoStructName L cfg i.name i.schemaName).getD [], dialect := dialectOf cfg.provider }) := by
  induction h with
  | nil => rfl
  | cons h htl ih =>
    rename_i t i ts is
    rw [List.map_cons, List.map_cons, ← ih (fun j hj => hd j (by simp [hj]))]
    have h1 := h.var; have h2 := h.schemaName; have h3 := h.schema; have h4 := h.name; have h5 := h.primaryKey; have h6 := h.columns; have h7 := h.indexes
    have h8 := hd i (by simp)
    unfold Spec.infoVar at h1
    obtain ⟨a1, a2, a3, a4, a5, a6, a7, a8⟩ := i
    simp only at h1 h2 h3 h4 h5 h6 h7 h8
    simp only [mkInfo, h1, Option.getD_some, h2, h3, h4, h5, h6, h7, h8, filterColumnNames_eq]
    cases t.primaryKey <;> rfl

theorem entries_all {L : Lib} {cfg : Cfg} {ts : List GTable} {es : List (Bytes × Bytes)}
    (h : List.Forall₂ (fun (t : GTable) (e : Bytes × Bytes) => e.1 = t.name ∧ Spec.infoVar L cfg t = some e.2) ts es) :
    es = (ts.map (mkInfo cfg)).map (fun i => (i.name, (tableInfoStructName L cfg i.name i.schemaName).getD [])) := by
  induction h with
  | nil => rfl
  | cons h htl ih =>
    rename_i t e ts es
    rw [List.map_cons, List.map_cons, ← ih]
    obtain ⟨a, b⟩ := e
    obtain ⟨rfl, h2⟩ := h
    unfold Spec.infoVar at h2
    simp [mkInfo, h2]

theorem defFields_all {L : Lib} {cfg : Cfg} {cs : List Column} {fs : List (Bytes × Column)}
    (h : List.Forall₂ (fun (c : Column) (f : Bytes × Column) => columnStructName L cfg c = some f.1 ∧ f.2.name = c.name ∧ f.2.position = c.position
      ∧ f.2.type = c.type ∧ f.2.udtType = c.udtType ∧ f.2.nullable = c.nullable ∧ f.2.maxLength = c.maxLength
      ∧ f.2.schemaName = [] ∧ f.2.ref = none ∧ f.2.indexes = []) cs fs) :
    (∀ c ∈ cs, columnStructName L cfg c = some (fieldName L cfg c)) ∧ fs.map (fun f => (f.1, Spec.columnToks f.2)) = cs.map (fun c => (fieldName L cfg c, Spec.columnToks c)) := by
  induction h with
  | nil => simp
  | cons h htl ih =>
    rename_i c f cs fs
    obtain ⟨h1, h2, h3, h4, h5, h6, h7, -, -, -⟩ := h
    have e1 : fieldName L cfg c = f.1 := by simp [fieldName, h1]
    refine ⟨?_, ?_⟩
    · intro x hx
      rcases List.mem_cons.1 hx with rfl | hx
      · rw [e1, h1]
      · exact ih.1 x hx
    · rw [List.map_cons, List.map_cons, ih.2, e1]
      simp only [Spec.columnToks, h2, h3, h4, h5, h6, h7]

/-- A table's definitions in a schema file. -/
theorem def_text {L : Lib} {cfg : Cfg} {imports : List Bytes} {t : GTable} {d : DefDecl} (ht : Spec.CleanTable L cfg t) (h : Spec.DefFor L cfg t d) :
    ∃ td x, mkDef L cfg t.schema t = some td ∧ exec L cfg codeTableSchemaTemplateText (.tdef (mkTDef cfg imports t td)) = some x
      ∧ run (.code false) x = some (Spec.defToks d, .code false) := by
  have hv := h.info
  obtain ⟨td, htd⟩ := mkDef_some hv
  obtain ⟨h1, h2, h3, h4, h5, h6, h7⟩ := mkDef_ok htd
  obtain ⟨hf, hfs⟩ := defFields_all h.fields
  refine ⟨td, _, htd, table_exec L cfg (mkTDef cfg imports t td) (fieldName L cfg) (fun c hm => hf c (h3 ▸ hm)), ?_⟩
  have hvv : d.infoRef = td.tableStructName ++ b!"Info" := by rw [hv] at h4; exact Option.some.inj h4
  rw [run_table (mkTDef cfg imports t td) (fieldName L cfg) ?_ ?_ ?_ ht.primaryKey ht.indexes ?_ ?_]
  · have e : ∀ (fs : List (Bytes × Column)) (g : Bytes × List Tok → List Tok), fs.flatMap (fun f => g (f.1, Spec.columnToks f.2)) = (fs.map (fun f => (f.1, Spec.columnToks f.2))).flatMap g := by
      intro fs g; rw [List.flatMap_map]
    have e1 : d.fields.flatMap (fun f => [Tok.word f.1] ++ Spec.T b!"xdbschema.Column;") = td.columns.flatMap (fun c => [Tok.word (fieldName L cfg c)] ++ Spec.T b!"xdbschema.Column;") := by
      rw [e d.fields (fun f => [Tok.word f.1] ++ Spec.T b!"xdbschema.Column;"), hfs, h3, List.flatMap_map]
    have e2 : d.fields.flatMap (fun f => [Tok.word f.1] ++ Spec.T b!":" ++ Spec.columnToks f.2 ++ Spec.T b!",")
        = td.columns.flatMap (fun c => [Tok.word (fieldName L cfg c)] ++ Spec.T b!":" ++ Spec.columnToks c ++ Spec.T b!",") := by
      rw [e d.fields (fun f => [Tok.word f.1] ++ Spec.T b!":" ++ f.2 ++ Spec.T b!","), hfs, h3, List.flatMap_map]
    have hl : ∀ c : Column, Spec.columnToks c.lit = Spec.columnToks c := fun c => rfl
    simp only [Spec.defToks, e1, e2, h.name, hvv, List.flatMap_map, mkTDef, hl, h6]
  · show WordOK td.structName; rw [h6]; exact ht.struct
  · show StrOK td.schema; rw [h1]; exact ht.schema
  · show StrOK td.tableName; rw [h2]; exact ht.name
  · intro c hm
    have hm : c ∈ Spec.kept cfg t := by rw [← h3]; exact hm
    obtain ⟨c1, c2, c3, c4⟩ := ht.columns c hm
    exact ⟨ht.fields c hm _ (hf c hm), c1, c2, c3⟩
  · show WordOK (td.tableStructName ++ b!"Info"); rw [← hvv]; exact ht.info _ hv

/-- The map of tables is named after the database. -/
def Spec.MapOK (L : Lib) (cfg : Cfg) : File → Prop
  | .model _ _ => True
  | .schema _ _ mv _ _ => ∃ m, goName L cfg.db = some m ∧ mv = m ++ b!"Tables"

/-- **C96**, for schema files: the text is a Go program and a compiler reads in it exactly the package clause, the imports, the dialect variable, the table infos, the map of tables and
the column definitions of the file. -/
theorem C96_schema_text (L : Lib) (cfg : Cfg) (imports : List Bytes) (ts : List GTable) (f : File)
    (hc : Spec.CleanCfg L cfg imports) (ht : ∀ t ∈ ts, Spec.CleanTable L cfg t) (hf : Spec.SchemaFile L cfg ts f) (hd : Spec.DialectOK cfg f) (hm : Spec.MapOK L cfg f) :
    ∃ text, schemaText L cfg imports ts = some text ∧ lex text = some (Spec.fileToks cfg imports f) := by
  obtain ⟨dv, is, mv, es, ds, rfl, hI, hE, hD⟩ := hf
  obtain ⟨mn, hmn, rfl⟩ := hm
  obtain ⟨hd1, hd2⟩ := hd
  have hdv := dialect_unique hd1 (dialectOf_spec cfg.provider)
  subst hdv
  have hdial : ∀ i ∈ is, i.dialect = dialectOf cfg.provider := fun i hi => dialect_unique (hd2 i hi) (dialectOf_spec cfg.provider)
  obtain ⟨x, hx, rx⟩ := concat_run (fun (t : GTable) => (mkDef L cfg t.schema t).bind fun td => exec L cfg codeTableSchemaTemplateText (.tdef (mkTDef cfg imports t td))) Spec.defToks _ ts ds hD (by
    intro t d hm hr
    obtain ⟨td, x, h1, h2, h3⟩ := def_text (imports := imports) (ht t hm) hr
    exact ⟨x, by rw [h1, Option.bind_some, h2], h3⟩)
  have hv : ∀ t ∈ ts, ∃ v, Spec.infoVar L cfg t = some v := by
    intro t hm
    obtain ⟨i, -, hr⟩ := forall2_right hI t hm
    exact ⟨_, hr.var⟩
  let v : InfoDecl → Bytes := fun i => (tableInfoStructName L cfg i.name i.schemaName).getD []
  have hse := schema_exec L cfg ⟨cfg.db, cfg.schemaPkg, imports, dialectOf cfg.provider, ts.map (mkInfo cfg)⟩ mn v hmn (by
    intro i hm
    obtain ⟨t, htm, rfl⟩ := List.mem_map.1 hm
    obtain ⟨w, hw⟩ := hv t htm
    have hw : tableInfoStructName L cfg (mkInfo cfg t).name (mkInfo cfg t).schemaName = some w := hw
    show _ = some ((tableInfoStructName L cfg (mkInfo cfg t).name (mkInfo cfg t).schemaName).getD [])
    rw [hw]; rfl)
  refine ⟨_ ++ x, by rw [schemaText, hse, Option.bind_some, hx]; rfl, ?_⟩
  have hh := run_schemaHead ⟨cfg.db, cfg.schemaPkg, imports, dialectOf cfg.provider, ts.map (mkInfo cfg)⟩ mn v cfg.provider hc.db hc.schemaPkg hc.imports rfl (hc.mapName mn hmn) (by
    intro i hm
    obtain ⟨t, htm, rfl⟩ := List.mem_map.1 hm
    obtain ⟨w, hw⟩ := hv t htm
    have hw' : tableInfoStructName L cfg (mkInfo cfg t).name (mkInfo cfg t).schemaName = some w := hw
    have hcl := ht t htm
    refine ⟨?_, hcl.schemaName, hcl.schema, hcl.name, ?_, ?_, ?_⟩
    · show WordOK ((tableInfoStructName L cfg (mkInfo cfg t).name (mkInfo cfg t).schemaName).getD [])
      rw [hw']; exact hcl.info w hw
    · show StrOK (match t.primaryKey with | some c => c.name | none => [])
      cases hp : t.primaryKey with
      | none => intro b hb; cases hb
      | some c => exact hcl.primaryKey c hp
    · intro c hm
      have hm : c ∈ filterColumnNames cfg.drop (t.columns.map (·.name)) := hm
      rw [filterColumnNames_eq] at hm
      obtain ⟨c', hc', rfl⟩ := List.mem_map.1 hm
      exact (hcl.columns c' hc').1
    · intro c hm
      obtain ⟨c', hc', rfl⟩ := List.mem_map.1 hm
      exact (hcl.indexes c' hc').1)
  rw [lex, run_append _ _ _ _ _ hh, rx, prepend_some]
  have e1 := infos_all hI hdial
  have e2 := entries_all hE
  show Option.map _ (finish (.code false)) = _
  simp only [finish, endLine, Bool.false_eq_true, if_false, Option.map_some, List.append_nil, Option.some.injEq]
  rw [show Spec.fileToks cfg imports (.schema (dialectOf cfg.provider) is (mn ++ b!"Tables") es ds) = schemaHeadToks cfg.schemaPkg imports (dialectOf cfg.provider) is (mn ++ b!"Tables") es ++ ds.flatMap Spec.defToks by
    unfold Spec.fileToks schemaHeadToks; rfl]
  rw [e1, e2]

/-- What is written is a model file with the dialect of the configuration, or made by the schema template. -/
theorem schemaLoop_writes (L : Lib) (cfg : Cfg) (fmtOK : File → Bool) (multi : Bool) (byName : Bytes → List GTable) (P : File → Prop) (hmodel : ∀ ds, P (.model (modelDialect cfg) ds))
    (hsch : ∀ is ds f, execSchema L cfg is ds = some f → P f) : ∀ (order : List Bytes) (infos : List InfoDecl) (defs : List TableDef) (evs : List Event),
      (∀ t f, Event.write t f ∈ evs → P f) → ∀ t f, Event.write t f ∈ (schemaLoop L cfg fmtOK multi byName order infos defs evs).1 → P f := by
  intro order
  induction order with
  | nil => intro infos defs evs h; exact h
  | cons s ss ih =>
    intro infos defs evs h
    have hopen : ∀ (evs : List Event) (tg : Target), (∀ t f, Event.write t f ∈ evs → P f) → ∀ t f, Event.write t f ∈ evs ++ openEvents tg → P f := by
      intro evs tg h t f hm
      rcases List.mem_append.1 hm with hm | hm
      · exact h t f hm
      · cases tg <;> simp [openEvents] at hm
    have hwrite : ∀ (evs : List Event) (tg : Target) (g : File), P g → (∀ t f, Event.write t f ∈ evs → P f) → ∀ t f, Event.write t f ∈ evs ++ [.write tg g] → P f := by
      intro evs tg g hg h t f hm
      rcases List.mem_append.1 hm with hm | hm
      · exact h t f hm
      · rw [List.mem_singleton] at hm
        injection hm with _ e
        rw [e]; exact hg
    unfold schemaLoop
    simp only
    split
    · exact h
    · split
      · exact hopen _ _ h
      · rename_i ds infos' defs' hloop
        split
        · exact hopen _ _ h
        · split
          · exact hwrite _ _ _ (hmodel ds) (hopen _ _ h)
          · split
            · exact hopen _ _ (hwrite _ _ _ (hmodel ds) (hopen _ _ h))
            · rename_i sf hsf
              split
              · exact hopen _ _ (hwrite _ _ _ (hmodel ds) (hopen _ _ h))
              · exact ih _ _ _ (hwrite _ _ _ (hsch _ _ _ hsf) (hopen _ _ (hwrite _ _ _ (hmodel ds) (hopen _ _ h))))

/-- **C96**: in every successful generation, of any tables, in any order of the schemas, if the names can be written where the generator writes them: the text of every model
file and of every schema file is a Go program, and what a compiler reads in it is exactly what the file declares.  `rounds` lists the files that are written, schema by schema. -/
theorem C96_files (L : Lib) (cfg : Cfg) (imports : List Bytes) (fmtOK : File → Bool) (res : List GTable) (order : List Bytes) (evs : List Event) (hord : IsOrder res order)
    (h : generate L cfg fmtOK res order = (evs, .ok)) (hc : Spec.CleanCfg L cfg imports) (ht : ∀ t ∈ res, Spec.CleanTable L cfg t) :
    ∃ rounds : List (Bytes × File × File), rounds.map (·.1) = order ∧ evs = rounds.flatMap (Spec.round cfg (decide (1 < order.length)))
      ∧ ∀ (k : Nat) (r : Bytes × File × File), rounds[k]? = some r →
          (∃ text, modelText L cfg imports r.1 (res.filter (fun t => t.schema = r.1)) = some text ∧ lex text = some (Spec.fileToks cfg imports r.2.1))
          ∧ ∃ text, schemaText L cfg imports ((order.take (k + 1)).flatMap (fun s => res.filter (fun t => t.schema = s))) = some text ∧ lex text = some (Spec.fileToks cfg imports r.2.2) := by
  obtain ⟨rounds, h1, h2, h3⟩ := generate_rounds h
  refine ⟨rounds, h1, h2, fun k r hk => ?_⟩
  obtain ⟨h4, h5⟩ := h3 k r hk
  have hr : r ∈ rounds := List.mem_iff_getElem?.2 ⟨k, hk⟩
  have hw1 : Event.write (target cfg.outModel (decide (1 < order.length)) r.1 b!"model") r.2.1 ∈ (generate L cfg fmtOK res order).1 := by
    rw [h, h2]; exact List.mem_flatMap.2 ⟨r, hr, by simp [Spec.round]⟩
  have hw2 : Event.write (target cfg.outSchema (decide (1 < order.length)) r.1 b!"schema") r.2.2 ∈ (generate L cfg fmtOK res order).1 := by
    rw [h, h2]; exact List.mem_flatMap.2 ⟨r, hr, by simp [Spec.round]⟩
  refine ⟨C96_model_text L cfg imports r.1 _ _ (fun t hm => by simpa using (List.mem_filter.1 hm).2) hc (fun t hm => ht t (List.mem_filter.1 hm).1) h4 (C74_dialect L cfg fmtOK res order _ _ hw1),
    C96_schema_text L cfg imports _ _ hc (fun t hm => ?_) h5 (C74_dialect L cfg fmtOK res order _ _ hw2) ?_⟩
  · obtain ⟨s, -, hm⟩ := List.mem_flatMap.1 hm
    exact ht t (List.mem_filter.1 hm).1
  · refine schemaLoop_writes L cfg fmtOK _ _ (Spec.MapOK L cfg) (fun _ => trivial) ?_ order [] [] [] (by simp) _ _ hw2
    intro is ds f hf
    simp only [execSchema, Option.bind_eq_bind, Option.bind_eq_some_iff, Option.pure_def, Option.some.injEq] at hf
    obtain ⟨_, _, m, hm, _, _, _, _, rfl⟩ := hf
    exact ⟨m, hm, rfl⟩

/-! ### Concrete cases -/

theorem toy_clean : Spec.CleanCfg toyLib toyCfg [b!"github.com/effective-security/xdb/xsql"] where
  db := by decide
  modelPkg := by decide +kernel
  schemaPkg := by decide +kernel
  imports := by decide +kernel
  mapName := by
    intro m h
    have : goName toyLib toyCfg.db = some b!"App" := by decide +kernel
    rw [this] at h
    cases h
    decide +kernel

/-- The toy tables can be written; so `C96_files` applies to them. -/
theorem toy_clean_tables : ∀ t ∈ toyRes, Spec.CleanTable toyLib toyCfg t := by
  intro t ht
  have hw : ∀ (o : Option Bytes), (∃ w, o = some w ∧ WordOK w) → ∀ v, o = some v → WordOK v := by
    rintro o ⟨w, rfl, h⟩ v hv; cases hv; exact h
  have hk : ∀ (o : Option Bytes), (∃ w, o = some w ∧ CodeOK w) → ∀ v, o = some v → CodeOK v := by
    rintro o ⟨w, rfl, h⟩ v hv; cases hv; exact h
  have key : ∀ s n : Bytes, Spec.kept toyCfg (toyTable s n) = [toyCol b!"id" b!"int8", toyCol b!"name" b!"text"] := by
    intro s n; rfl
  have hcols : ∀ c ∈ [toyCol b!"id" b!"int8", toyCol b!"name" b!"text"], StrOK c.name ∧ StrOK c.type ∧ StrOK c.udtType ∧ RawOK c.tag := by decide +kernel
  have hnames : ∀ c ∈ [toyCol b!"id" b!"int8", toyCol b!"name" b!"text"], ∀ n, columnStructName toyLib toyCfg c = some n → WordOK n := by
    intro c hc
    simp only [List.mem_cons, List.not_mem_nil, or_false] at hc
    rcases hc with rfl | rfl
    · exact hw _ ⟨b!"Id", by decide +kernel, by decide +kernel⟩
    · exact hw _ ⟨b!"Name", by decide +kernel, by decide +kernel⟩
  have htypes : ∀ c ∈ [toyCol b!"id" b!"int8", toyCol b!"name" b!"text"], ∀ ty, toGoType toyLib.eqFold toyCfg.types c = some ty → CodeOK ty := by
    intro c hc
    simp only [List.mem_cons, List.not_mem_nil, or_false] at hc
    rcases hc with rfl | rfl
    · exact hk _ ⟨b!"xdb.ID", by decide +kernel, by decide +kernel⟩
    · exact hk _ ⟨b!"string", by decide +kernel, by decide +kernel⟩
  simp only [toyRes, List.mem_cons, List.not_mem_nil, or_false] at ht
  rcases ht with rfl | rfl | rfl
  · exact ⟨by decide +kernel, by decide +kernel, by decide +kernel, (by intro c h; cases h; decide +kernel), (by intro i h; cases h), by rw [key]; exact hcols, by decide +kernel,
      hw _ ⟨b!"UserTableInfo", by decide +kernel, by decide +kernel⟩, by rw [key]; exact hnames, by rw [key]; exact htypes⟩
  · exact ⟨by decide +kernel, by decide +kernel, by decide +kernel, (by intro c h; cases h; decide +kernel), (by intro i h; cases h), by rw [key]; exact hcols, by decide +kernel,
      hw _ ⟨b!"LogTableInfo", by decide +kernel, by decide +kernel⟩, by rw [key]; exact hnames, by rw [key]; exact htypes⟩
  · exact ⟨by decide +kernel, by decide +kernel, by decide +kernel, (by intro c h; cases h; decide +kernel), (by intro i h; cases h), by rw [key]; exact hcols, by decide +kernel,
      hw _ ⟨b!"RoleTableInfo", by decide +kernel, by decide +kernel⟩, by rw [key]; exact hnames, by rw [key]; exact htypes⟩

example : (generate toyLib toyCfg (fun _ => true) toyRes [b!"app", b!"audit"]).2 = .ok := by decide +kernel

/-- A table with the given indexes. -/
def idxTable (l : List Bytes) : GTable := { toyTable b!"app" b!"users" with indexes := l.map fun n => ⟨n, false, false, [b!"id"], b!"app." ++ n⟩ }

/-- The tokens of the schema file of a table, and of its model file. -/
def schemaOf (t : GTable) : Option (List Tok) := (schemaText toyLib toyCfg [] [t]).bind lex
def modelOf (t : GTable) : Option (List Tok) := (modelText toyLib toyCfg [] b!"app" [t]).bind lex

/-- A double quote in the name of an index: the generated code says that there are two indexes. -/
theorem C96_quote_in_a_name : schemaOf (idxTable [b!"a\", \"b"]) = schemaOf (idxTable [b!"a", b!"b"]) ∧ (schemaOf (idxTable [b!"a", b!"b"])).isSome = true := by decide +kernel

/-- A line break in the name of an index: the rest of the name is code, which runs when the generated package is imported. -/
theorem C96_line_break_in_a_name : ∃ l₁ l₂, modelOf (idxTable []) = some (l₁ ++ l₂)
    ∧ modelOf (idxTable [b!"a\nfunc init() { panic(1) }\n//"]) = some (l₁ ++ Spec.T b!"func init() { panic(1) };" ++ l₂) := by
  have h : ∀ (o o' : Option (List Tok)) (n : Nat) (m : List Tok), (∃ l, o = some l ∧ o' = some (l.take n ++ m ++ l.drop n)) → ∃ l₁ l₂, o = some (l₁ ++ l₂) ∧ o' = some (l₁ ++ m ++ l₂) := by
    rintro o o' n m ⟨l, rfl, h⟩
    exact ⟨l.take n, l.drop n, by rw [List.take_append_drop], h⟩
  refine h _ _ 25 _ ?_
  have e : (modelOf (idxTable [])).isSome = true
    ∧ modelOf (idxTable [b!"a\nfunc init() { panic(1) }\n//"]) = (modelOf (idxTable [])).map (fun l => l.take 25 ++ Spec.T b!"func init() { panic(1) };" ++ l.drop 25) := by decide +kernel
  obtain ⟨l, hl⟩ := Option.isSome_iff_exists.1 e.1
  exact ⟨l, hl, by rw [e.2, hl]; rfl⟩

/-- A name of a table that is not an identifier for the naming library: the text is not a Go program with that struct (here the two words of the name stand side by side). -/
theorem C96_space_in_a_name : ∃ l, modelOf { toyTable b!"app" b!"users" with name := b!"my users" } = some l ∧ Tok.word b!"My user" ∉ l ∧ [Tok.word b!"type", .word b!"My", .word b!"user"] <:+: l := by
  have e : (modelOf { toyTable b!"app" b!"users" with name := b!"my users" }).isSome = true
    ∧ ∀ l ∈ modelOf { toyTable b!"app" b!"users" with name := b!"my users" }, Tok.word b!"My user" ∉ l ∧ [Tok.word b!"type", .word b!"My", .word b!"user"] <:+: l := by decide +kernel
  obtain ⟨l, hl⟩ := Option.isSome_iff_exists.1 e.1
  have := e.2 l (by rw [hl]; rfl)
  exact ⟨l, hl, this⟩

/-- The schema file refers to package `xsql` and does not import it unless the user says so; the model file imports `values`, and without a cached table does not use it.
(Both are compile errors until `goimports` has corrected the imports.) -/
theorem C96_imports_are_not_those_used : ∃ l m, schemaOf (idxTable []) = some l ∧ Tok.word b!"xsql" ∈ l ∧ Tok.str b!"github.com/effective-security/xdb/xsql" ∉ l
    ∧ modelOf (idxTable []) = some m ∧ Tok.str b!"github.com/effective-security/x/values" ∈ m ∧ Tok.word b!"values" ∉ m := by
  have e : (schemaOf (idxTable [])).isSome = true ∧ (modelOf (idxTable [])).isSome = true
    ∧ (∀ l ∈ schemaOf (idxTable []), Tok.word b!"xsql" ∈ l ∧ Tok.str b!"github.com/effective-security/xdb/xsql" ∉ l)
    ∧ ∀ m ∈ modelOf (idxTable []), Tok.str b!"github.com/effective-security/x/values" ∈ m ∧ Tok.word b!"values" ∉ m := by decide +kernel
  obtain ⟨l, hl⟩ := Option.isSome_iff_exists.1 e.1
  obtain ⟨m, hm⟩ := Option.isSome_iff_exists.1 e.2.1
  have h1 := e.2.2.1 l (by rw [hl]; rfl)
  have h2 := e.2.2.2 m (by rw [hm]; rfl)
  exact ⟨l, m, hl, h1.1, h1.2, hm, h2.1, h2.2⟩

end Gen
