import Mathlib.Data.List.Forall2
import Verif.Gen.Model
/-! What the generated files should say about the tables, in terms of the tables alone. -/
namespace Gen
open Schema
namespace Spec

/-- The columns of a table that are kept. -/
def kept (cfg : Cfg) (t : GTable) : List Column := t.columns.filter (fun c => !cfg.drop c.name)

/-- A field of a struct belongs to a column: it is named after it, has the mapped type and represents it, and carries its tag. -/
def FieldFor (L : Lib) (cfg : Cfg) (c : Column) (f : Field) : Prop :=
  columnStructName L cfg c = some f.name ∧ toGoType L.eqFold cfg.types c = some f.type ∧ f.column = c.name ∧ f.tag = c.tag

/-- The variable that holds the table info of a table. -/
def infoVar (L : Lib) (cfg : Cfg) (t : GTable) : Option Bytes := tableInfoStructName L cfg t.name t.schemaName

/-- The name of the struct of a table: the override for the table if there is one; otherwise the singular of its name with the suffix, prefixed by the
schema with `--use-schema` unless that is the default schema. -/
def structName (L : Lib) (cfg : Cfg) (t : GTable) : Bytes :=
  (cfg.tables t.schemaName).getD
    ((if cfg.useSchema = true ∧ L.eqFold b!"dbo" t.schema = false ∧ L.eqFold b!"public" t.schema = false then L.pascal t.schema else [])
      ++ L.pascal (L.singular t.name) ++ (if cfg.structSuffix = [] then [] else L.pascal cfg.structSuffix))

/-- A model declaration is the right one for a table: it has the right name; the fields are those of the kept columns, in order; the scan list is the list of fields, in order;
and it refers to the table's own info variable. -/
structure Describes (L : Lib) (cfg : Cfg) (t : GTable) (d : ModelDecl) : Prop where
  schema : d.schema = t.schema
  table : d.table = t.name
  name : d.structName = structName L cfg t
  cache : d.withCache = cfg.withCache t.schemaName
  fields : List.Forall₂ (FieldFor L cfg) (kept cfg t) d.fields
  scan : d.scan = d.fields.map (·.name)
  info : ∃ v, infoVar L cfg t = some v ∧ d.infoRef = (if cfg.modelPkg = cfg.schemaPkg then [] else cfg.schemaPkg ++ b!".") ++ v

/-- A table info is the right one for a table. -/
structure InfoFor (L : Lib) (cfg : Cfg) (t : GTable) (i : InfoDecl) : Prop where
  var : infoVar L cfg t = some i.var
  schemaName : i.schemaName = t.schemaName
  schema : i.schema = t.schema
  name : i.name = t.name
  primaryKey : i.primaryKey = (t.primaryKey.map (·.name)).getD []
  columns : i.columns = (kept cfg t).map (·.name)
  indexes : i.indexes = t.indexes.map (·.name)

/-- A column definition struct is the right one for a table. -/
structure DefFor (L : Lib) (cfg : Cfg) (t : GTable) (d : DefDecl) : Prop where
  info : infoVar L cfg t = some d.infoRef
  name : d.var = structName L cfg t
  fields : List.Forall₂ (fun (c : Column) (f : Bytes × Column) => columnStructName L cfg c = some f.1 ∧ f.2.name = c.name ∧ f.2.position = c.position
    ∧ f.2.type = c.type ∧ f.2.udtType = c.udtType ∧ f.2.nullable = c.nullable ∧ f.2.maxLength = c.maxLength
    ∧ f.2.schemaName = [] ∧ f.2.ref = none ∧ f.2.indexes = []) (kept cfg t) d.fields

/-- A model file for a list of tables: one declaration each, in order. -/
def ModelFile (L : Lib) (cfg : Cfg) (ts : List GTable) (f : File) : Prop := ∃ dv ds, f = .model dv ds ∧ List.Forall₂ (Describes L cfg) ts ds

/-- A schema file for a list of tables: one info, one map entry and one definition each, in order. -/
def SchemaFile (L : Lib) (cfg : Cfg) (ts : List GTable) (f : File) : Prop :=
  ∃ dv is mv es ds, f = .schema dv is mv es ds ∧ List.Forall₂ (InfoFor L cfg) ts is
    ∧ List.Forall₂ (fun (t : GTable) (e : Bytes × Bytes) => e.1 = t.name ∧ infoVar L cfg t = some e.2) ts es
    ∧ List.Forall₂ (DefFor L cfg) ts ds

/-- What is done for one schema: the model file and the schema file are opened and written. -/
def round (cfg : Cfg) (multi : Bool) (r : Bytes × File × File) : List Event :=
  openEvents (target cfg.outModel multi r.1 b!"model") ++ [.write (target cfg.outModel multi r.1 b!"model") r.2.1]
    ++ openEvents (target cfg.outSchema multi r.1 b!"schema") ++ [.write (target cfg.outSchema multi r.1 b!"schema") r.2.2]

end Spec

/-! ### Lemmas -/

theorem filterColumns_eq (drop : Bytes → Bool) (cs : List Column) : filterColumns drop cs = cs.filter (fun c => !drop c.name) := by
  induction cs with
  | nil => rfl
  | cons c cs ih => simp only [filterColumns, ih, List.filter_cons]

theorem filterColumnNames_eq (drop : Bytes → Bool) (cs : List Column) :
    filterColumnNames drop (cs.map (·.name)) = (cs.filter (fun c => !drop c.name)).map (·.name) := by
  induction cs with
  | nil => rfl
  | cons c cs ih =>
    simp only [List.map_cons, filterColumnNames, ih, List.filter_cons]
    split <;> simp

theorem execFields_ok (L : Lib) (cfg : Cfg) : ∀ (cs : List Column) (fs : List Field), execFields L cfg cs = some fs → List.Forall₂ (Spec.FieldFor L cfg) cs fs := by
  intro cs
  induction cs with
  | nil => intro fs h; cases h; exact .nil
  | cons c cs ih =>
    intro fs h
    simp only [execFields, Option.bind_eq_bind, Option.bind_eq_some_iff, Option.pure_def, Option.some.injEq] at h
    obtain ⟨n, hn, ty, ht, rest, hr, rfl⟩ := h
    exact .cons ⟨hn, ht, rfl, rfl⟩ (ih _ hr)

theorem execScan_ok (L : Lib) (cfg : Cfg) : ∀ (cs : List Column) (fs : List Field) (l : List Bytes), execFields L cfg cs = some fs → execScan L cfg cs = some l →
    l = fs.map (·.name) := by
  intro cs
  induction cs with
  | nil => intro fs l h h'; cases h; cases h'; rfl
  | cons c cs ih =>
    intro fs l h h'
    simp only [execFields, Option.bind_eq_bind, Option.bind_eq_some_iff, Option.pure_def, Option.some.injEq] at h
    simp only [execScan, Option.bind_eq_bind, Option.bind_eq_some_iff, Option.pure_def, Option.some.injEq] at h'
    obtain ⟨n, hn, ty, ht, rest, hr, rfl⟩ := h
    obtain ⟨n', hn', rest', hr', rfl⟩ := h'
    rw [hn] at hn'
    cases hn'
    rw [ih _ _ hr hr']
    rfl

/-- The two naming functions agree: the model's reference is the name of the variable. -/
theorem info_name (L : Lib) (cfg : Cfg) (n sn v : Bytes) (h : tableStructName L cfg n sn = some v) : tableInfoStructName L cfg n sn = some (v ++ b!"Info") := by
  unfold tableStructName at h
  unfold tableInfoStructName
  cases ht : cfg.tables sn with
  | some r => rw [ht] at h; cases h; simp
  | none =>
    rw [ht] at h
    simp only [Option.map_eq_some_iff] at h ⊢
    obtain ⟨a, h1, rfl⟩ := h
    exact ⟨a, h1, by simp⟩

/-- What `mkDef` fixes. -/
theorem mkDef_ok {L : Lib} {cfg : Cfg} {t : GTable} {td : TableDef} (h : mkDef L cfg t.schema t = some td) :
    td.schema = t.schema ∧ td.tableName = t.name ∧ td.columns = Spec.kept cfg t ∧ Spec.infoVar L cfg t = some (td.tableStructName ++ b!"Info")
      ∧ td.schemaPackage = (if cfg.modelPkg = cfg.schemaPkg then [] else cfg.schemaPkg ++ b!".")
      ∧ td.structName = Spec.structName L cfg t ∧ td.withCache = cfg.withCache t.schemaName := by
  unfold mkDef at h
  simp only [Option.map_eq_some_iff] at h
  obtain ⟨v, hv, rfl⟩ := h
  refine ⟨rfl, rfl, filterColumns_eq _ _, info_name L cfg _ _ _ hv, ?_, ?_, rfl⟩
  · by_cases e : cfg.modelPkg = cfg.schemaPkg <;> simp [e]
  · unfold Spec.structName
    cases cfg.tables t.schemaName with
    | some r => rfl
    | none =>
      simp only [Option.getD_none]
      by_cases e : cfg.structSuffix = [] <;> by_cases e2 : L.eqFold b!"dbo" t.schema <;> by_cases e3 : L.eqFold b!"public" t.schema <;> simp [e, e2, e3, List.append_assoc]

theorem execModel_ok {L : Lib} {cfg : Cfg} {t : GTable} {td : TableDef} {d : ModelDecl} (h : mkDef L cfg t.schema t = some td) (h' : execModel L cfg td = some d) :
    Spec.Describes L cfg t d := by
  obtain ⟨h1, h2, h3, h4, h5, h6, h7⟩ := mkDef_ok h
  simp only [execModel, Option.bind_eq_bind, Option.bind_eq_some_iff, Option.pure_def, Option.some.injEq] at h'
  obtain ⟨fs, hf, sc, hs, rfl⟩ := h'
  refine ⟨h1, h2, h6, h7, ?_, execScan_ok L cfg _ _ _ hf hs, _, h4, ?_⟩
  · rw [← h3]; exact execFields_ok L cfg _ _ hf
  · rw [← h5, ← List.append_assoc]

/-- A table definition belongs to a table. -/
def DefOf (L : Lib) (cfg : Cfg) (t : GTable) (td : TableDef) : Prop := mkDef L cfg t.schema t = some td

theorem tableLoop_ok (L : Lib) (cfg : Cfg) (s : Bytes) : ∀ (ts : List GTable) (ds : List ModelDecl) (infos : List InfoDecl) (defs : List TableDef) ds' infos' defs',
    (∀ t ∈ ts, t.schema = s) → tableLoop L cfg s ts ds infos defs = .ok (ds', infos', defs') →
    ∃ more tds, ds' = ds ++ more ∧ infos' = infos ++ ts.map (mkInfo cfg) ∧ defs' = defs ++ tds ∧ List.Forall₂ (Spec.Describes L cfg) ts more ∧ List.Forall₂ (DefOf L cfg) ts tds := by
  intro ts
  induction ts with
  | nil => intro ds infos defs ds' infos' defs' hs h; cases h; exact ⟨[], [], by simp, by simp, by simp, .nil, .nil⟩
  | cons t ts ih =>
    intro ds infos defs ds' infos' defs' hs h
    have hts := hs t (by simp)
    simp only [tableLoop] at h
    cases h1 : mkDef L cfg s t with
    | none => rw [h1] at h; cases h
    | some td =>
      rw [h1] at h
      simp only at h
      cases h2 : execModel L cfg td with
      | none => rw [h2] at h; cases h
      | some d =>
        rw [h2] at h
        obtain ⟨more, tds, rfl, rfl, rfl, h3, h4⟩ := ih _ _ _ _ _ _ (fun t ht => hs t (by simp [ht])) h
        rw [← hts] at h1
        exact ⟨d :: more, td :: tds, by simp, by simp, by simp, .cons (execModel_ok h1 h2) h3, .cons h1 h4⟩

theorem execInfos_ok (L : Lib) (cfg : Cfg) : ∀ (ts : List GTable) (is : List InfoDecl), execInfos L cfg (ts.map (mkInfo cfg)) = some is → List.Forall₂ (Spec.InfoFor L cfg) ts is := by
  intro ts
  induction ts with
  | nil => intro is h; cases h; exact .nil
  | cons t ts ih =>
    intro is h
    simp only [List.map_cons, execInfos, Option.bind_eq_bind, Option.bind_eq_some_iff, Option.pure_def, Option.some.injEq] at h
    obtain ⟨v, hv, rest, hr, rfl⟩ := h
    refine .cons ⟨hv, rfl, rfl, rfl, ?_, filterColumnNames_eq _ _, rfl⟩ (ih _ hr)
    simp only [mkInfo]
    cases t.primaryKey <;> rfl

theorem execEntries_ok (L : Lib) (cfg : Cfg) : ∀ (ts : List GTable) (es : List (Bytes × Bytes)), execEntries L cfg (ts.map (mkInfo cfg)) = some es →
    List.Forall₂ (fun (t : GTable) (e : Bytes × Bytes) => e.1 = t.name ∧ Spec.infoVar L cfg t = some e.2) ts es := by
  intro ts
  induction ts with
  | nil => intro es h; cases h; exact .nil
  | cons t ts ih =>
    intro es h
    simp only [List.map_cons, execEntries, Option.bind_eq_bind, Option.bind_eq_some_iff, Option.pure_def, Option.some.injEq] at h
    obtain ⟨v, hv, rest, hr, rfl⟩ := h
    exact .cons ⟨rfl, hv⟩ (ih _ hr)

theorem execDefFields_ok (L : Lib) (cfg : Cfg) : ∀ (cs : List Column) (fs : List (Bytes × Column)), execDefFields L cfg cs = some fs →
    List.Forall₂ (fun (c : Column) (f : Bytes × Column) => columnStructName L cfg c = some f.1 ∧ f.2.name = c.name ∧ f.2.position = c.position
      ∧ f.2.type = c.type ∧ f.2.udtType = c.udtType ∧ f.2.nullable = c.nullable ∧ f.2.maxLength = c.maxLength
      ∧ f.2.schemaName = [] ∧ f.2.ref = none ∧ f.2.indexes = []) cs fs := by
  intro cs
  induction cs with
  | nil => intro fs h; cases h; exact .nil
  | cons c cs ih =>
    intro fs h
    simp only [execDefFields, Option.bind_eq_bind, Option.bind_eq_some_iff, Option.pure_def, Option.some.injEq] at h
    obtain ⟨n, hn, rest, hr, rfl⟩ := h
    exact .cons ⟨hn, rfl, rfl, rfl, rfl, rfl, rfl, rfl, rfl, rfl⟩ (ih _ hr)

theorem execDefs_ok (L : Lib) (cfg : Cfg) : ∀ (ts : List GTable) (tds : List TableDef) (ds : List DefDecl), List.Forall₂ (DefOf L cfg) ts tds → execDefs L cfg tds = some ds →
    List.Forall₂ (Spec.DefFor L cfg) ts ds := by
  intro ts
  induction ts with
  | nil => intro tds ds h h'; cases h; cases h'; exact .nil
  | cons t ts ih =>
    intro tds ds h h'
    cases h with
    | cons h1 h2 =>
      rename_i td tds
      simp only [execDefs, Option.bind_eq_bind, Option.bind_eq_some_iff, Option.pure_def, Option.some.injEq] at h'
      obtain ⟨fs, hf, rest, hr, rfl⟩ := h'
      obtain ⟨-, -, h3, h4, -, h5, -⟩ := mkDef_ok h1
      refine .cons ⟨h4, h5, ?_⟩ (ih _ _ h2 hr)
      rw [← h3]
      exact execDefFields_ok L cfg _ _ hf

theorem execSchema_ok {L : Lib} {cfg : Cfg} {ts : List GTable} {tds : List TableDef} {f : File} (h : List.Forall₂ (DefOf L cfg) ts tds)
    (h' : execSchema L cfg (ts.map (mkInfo cfg)) tds = some f) : Spec.SchemaFile L cfg ts f := by
  simp only [execSchema, Option.bind_eq_bind, Option.bind_eq_some_iff, Option.pure_def, Option.some.injEq] at h'
  obtain ⟨is, hi, mn, -, es, he, ds, hd, rfl⟩ := h'
  exact ⟨_, _, _, _, _, rfl, execInfos_ok L cfg _ _ hi, execEntries_ok L cfg _ _ he, execDefs_ok L cfg _ _ _ h hd⟩

theorem schemaLoop_ok (L : Lib) (cfg : Cfg) (fmtOK : File → Bool) (multi : Bool) (byName : Bytes → List GTable) (hby : ∀ s, ∀ t ∈ byName s, t.schema = s) :
    ∀ (order : List Bytes) (seen : List GTable) (defs : List TableDef) (evs evs' : List Event), List.Forall₂ (DefOf L cfg) seen defs →
    schemaLoop L cfg fmtOK multi byName order (seen.map (mkInfo cfg)) defs evs = (evs', .ok) →
    ∃ rounds : List (Bytes × File × File), rounds.map (·.1) = order ∧ evs' = evs ++ rounds.flatMap (Spec.round cfg multi)
      ∧ ∀ (k : Nat) (r : Bytes × File × File), rounds[k]? = some r → Spec.ModelFile L cfg (byName r.1) r.2.1 ∧ Spec.SchemaFile L cfg (seen ++ (order.take (k + 1)).flatMap byName) r.2.2
          ∧ fmtOK r.2.1 = true ∧ fmtOK r.2.2 = true := by
  intro order
  induction order with
  | nil =>
    intro seen defs evs evs' hd h
    cases h
    exact ⟨[], rfl, by simp, by simp⟩
  | cons s ss ih =>
    intro seen defs evs evs' hd h
    simp only [schemaLoop] at h
    split at h
    · simp at h
    · split at h
      · rename_i r hr
        simp only [Prod.mk.injEq] at h
        exfalso
        have : ∀ (ts : List GTable) ds infos defs, tableLoop L cfg s ts ds infos defs ≠ .error .ok := by
          intro ts
          induction ts with
          | nil => intro ds infos defs e; cases e
          | cons t ts ih =>
            intro ds infos defs e
            simp only [tableLoop] at e
            split at e
            · cases e
            · split at e
              · cases e
              · exact ih _ _ _ e
        exact this _ _ _ _ (by rw [hr, h.2])
      · rename_i ds infos' defs' hr
        obtain ⟨more, tds, hds, rfl, rfl, h1, h2⟩ := tableLoop_ok L cfg s _ _ _ _ _ _ _ (hby s) hr
        rw [List.nil_append] at hds
        subst hds
        rw [← List.map_append] at h
        have hall : List.Forall₂ (DefOf L cfg) (seen ++ byName s) (defs ++ tds) := List.rel_append hd h2
        split at h
        · simp at h
        · rename_i hf1
          split at h
          · simp at h
          · split at h
            · simp at h
            · rename_i sf hsf
              split at h
              · simp at h
              · rename_i hf2
                obtain ⟨rounds, h3, h4, h5⟩ := ih _ _ _ _ hall h
                refine ⟨(s, File.model (modelDialect cfg) ds, sf) :: rounds, by simp [h3], ?_, ?_⟩
                · rw [h4]
                  simp [Spec.round, List.append_assoc]
                · intro k r hk
                  cases k with
                  | zero =>
                    simp only [List.getElem?_cons_zero, Option.some.injEq] at hk
                    subst hk
                    refine ⟨⟨_, _, rfl, h1⟩, ?_, by simpa using hf1, by simpa using hf2⟩
                    have := execSchema_ok hall hsf
                    simpa using this
                  | succ k =>
                    obtain ⟨h6, h7, h8⟩ := h5 k r (by simpa using hk)
                    refine ⟨h6, ?_, h8⟩
                    simpa [List.append_assoc] using h7

end Gen
