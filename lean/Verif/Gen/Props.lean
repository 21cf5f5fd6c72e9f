import Verif.Gen.Spec
set_option linter.unusedVariables false
set_option linter.unusedSimpArgs false
/-! C56, C58, C74, C75: the generated files. -/
namespace Gen
open Schema

/-- A successful run is a sequence of rounds, one per schema in iteration order; each writes a model file for the schema's own tables and a schema file
for the tables of this schema and of those processed before it. -/
theorem generate_rounds {L : Lib} {cfg : Cfg} {fmtOK : File → Bool} {res : List GTable} {order : List Bytes} {evs : List Event}
    (h : generate L cfg fmtOK res order = (evs, .ok)) :
    ∃ rounds : List (Bytes × File × File), rounds.map (·.1) = order ∧ evs = rounds.flatMap (Spec.round cfg (decide (1 < order.length)))
      ∧ ∀ (k : Nat) (r : Bytes × File × File), rounds[k]? = some r → Spec.ModelFile L cfg (res.filter (fun t => t.schema = r.1)) r.2.1
          ∧ Spec.SchemaFile L cfg ((order.take (k + 1)).flatMap (fun s => res.filter (fun t => t.schema = s))) r.2.2 := by
  obtain ⟨rounds, h1, h2, h3⟩ := schemaLoop_ok L cfg fmtOK _ (tablesOf res) (fun s t ht => by simpa using (List.mem_filter.1 ht).2) order [] [] [] evs .nil h
  refine ⟨rounds, h1, by simpa using h2, ?_⟩
  intro k r hk
  obtain ⟨h4, h5, -⟩ := h3 k r hk
  exact ⟨h4, h5⟩

theorem forall2_left {α β : Type} {R : α → β → Prop} {l : List α} {m : List β} (h : List.Forall₂ R l m) : ∀ b ∈ m, ∃ a ∈ l, R a b := by
  induction h with
  | nil => intro b hb; cases hb
  | cons h _ ih =>
    intro b hb
    rcases List.mem_cons.1 hb with rfl | hb
    · exact ⟨_, by simp, h⟩
    · obtain ⟨a, ha, hr⟩ := ih b hb
      exact ⟨a, by simp [ha], hr⟩

theorem forall2_right {α β : Type} {R : α → β → Prop} {l : List α} {m : List β} (h : List.Forall₂ R l m) : ∀ a ∈ l, ∃ b ∈ m, R a b := by
  induction h with
  | nil => intro b hb; cases hb
  | cons h _ ih =>
    intro b hb
    rcases List.mem_cons.1 hb with rfl | hb
    · exact ⟨_, by simp, h⟩
    · obtain ⟨a, ha, hr⟩ := ih b hb
      exact ⟨a, by simp [ha], hr⟩

theorem forall2_map {α β γ : Type} {R : α → β → Prop} {f : α → γ} {g : β → γ} (hR : ∀ a b, R a b → f a = g b) {l : List α} {m : List β} (h : List.Forall₂ R l m) :
    l.map f = m.map g := by
  induction h with
  | nil => rfl
  | cons h _ ih => simp [hR _ _ h, ih]

/-- **C56**: in every successful generation, of any number of schemas, with any overrides and dropped columns: for every table there are a struct and a table info,
the `i`-th field of the struct, the `i`-th target of its `ScanRow` and the `i`-th entry of the `Columns` of the table info it refers to (and of the column definitions)
all belong to the `i`-th column that is kept; so scanning a row of `SELECT AllColumns()` puts every value into its own field. -/
theorem C56_columns_agree (L : Lib) (cfg : Cfg) (fmtOK : File → Bool) (res : List GTable) (order : List Bytes) (hord : IsOrder res order) (evs : List Event)
    (h : generate L cfg fmtOK res order = (evs, .ok)) (t : GTable) (ht : t ∈ res) :
    ∃ (mt st : Target) (dv : Option Bytes) (decls : List ModelDecl) (dv' mv : Bytes) (infos : List InfoDecl) (es : List (Bytes × Bytes)) (defs : List DefDecl),
      Event.write mt (.model dv decls) ∈ evs ∧ Event.write st (.schema dv' infos mv es defs) ∈ evs ∧
      ∃ d ∈ decls, ∃ i ∈ infos, ∃ f ∈ defs,
        d.table = t.name ∧ d.schema = t.schema ∧ i.name = t.name ∧ i.schema = t.schema
        ∧ d.infoRef = (if cfg.modelPkg = cfg.schemaPkg then [] else cfg.schemaPkg ++ b!".") ++ i.var ∧ f.infoRef = i.var
        ∧ d.fields.map (·.column) = (t.columns.filter (fun c => !cfg.drop c.name)).map (·.name)
        ∧ d.scan = d.fields.map (·.name)
        ∧ i.columns = d.fields.map (·.column)
        ∧ f.fields.map (fun x => x.1) = d.scan ∧ f.fields.map (fun x => x.2.name) = i.columns
        ∧ d.fields.map (fun x => some x.type) = (t.columns.filter (fun c => !cfg.drop c.name)).map (toGoType L.eqFold cfg.types) := by
  obtain ⟨rounds, h1, h2, h3⟩ := generate_rounds h
  obtain ⟨k, hk⟩ := List.mem_iff_getElem?.1 ((hord.2 t.schema).2 ⟨t, ht, rfl⟩)
  have hr : ∃ r, rounds[k]? = some r ∧ r.1 = t.schema := by
    rw [← h1, List.getElem?_map] at hk
    cases hg : rounds[k]? with
    | none => rw [hg] at hk; cases hk
    | some r => rw [hg] at hk; exact ⟨r, rfl, by simpa using hk⟩
  obtain ⟨r, hrk, hrs⟩ := hr
  obtain ⟨⟨dv, ds, e1, hd⟩, ⟨dv', is, mv, es, defs, e2, hi, he, hf⟩⟩ := h3 k r hrk
  have hmem : r ∈ rounds := List.mem_of_getElem? hrk
  have hin : t ∈ (order.take (k + 1)).flatMap (fun s => res.filter (fun t => t.schema = s)) := by
    refine List.mem_flatMap.2 ⟨t.schema, ?_, by simp [ht]⟩
    rw [List.mem_iff_getElem?]
    exact ⟨k, by rw [List.getElem?_take]; simp [hk]⟩
  obtain ⟨d, hdm, hdd⟩ := forall2_right hd t (by rw [hrs]; simp [ht])
  obtain ⟨i, him, hii⟩ := forall2_right hi t hin
  obtain ⟨f, hfm, hff⟩ := forall2_right hf t hin
  refine ⟨target cfg.outModel (decide (1 < order.length)) r.1 b!"model", target cfg.outSchema (decide (1 < order.length)) r.1 b!"schema", dv, ds, dv', mv, is, es, defs, ?_, ?_, d, hdm, i, him, f, hfm, hdd.table, hdd.schema, hii.name, hii.schema, ?_, ?_, ?_, hdd.scan, ?_, ?_, ?_, ?_⟩
  · rw [h2]
    exact List.mem_flatMap.2 ⟨r, hmem, by simp [Spec.round, e1]⟩
  · rw [h2]
    exact List.mem_flatMap.2 ⟨r, hmem, by simp [Spec.round, e2]⟩
  · obtain ⟨v, hv, hv'⟩ := hdd.info
    have := hii.var
    rw [hv] at this
    cases this
    exact hv'
  · have h1 := hff.info
    rw [hii.var] at h1
    exact (Option.some.inj h1).symm
  · exact (forall2_map (fun c f h => h.2.2.1.symm) hdd.fields).symm
  · rw [hii.columns]
    exact forall2_map (fun c f h => h.2.2.1.symm) hdd.fields
  · rw [hdd.scan]
    have a1 := forall2_map (f := columnStructName L cfg) (g := fun f : Field => some f.name) (fun c f h => h.1) hdd.fields
    have a2 := forall2_map (f := columnStructName L cfg) (g := fun f : Bytes × Column => some f.1) (fun c f h => h.1) hff.fields
    have a3 := a2.symm.trans a1
    have : (f.fields.map (fun x => x.1)).map some = (d.fields.map (·.name)).map some := by simpa [List.map_map, Function.comp_def] using a3
    exact List.map_inj_right (fun a b h => by simpa using h) |>.1 this
  · rw [hii.columns]
    exact (forall2_map (fun c f h => h.2.1.symm) hff.fields).symm
  · exact (forall2_map (fun c f h => h.2.1) hdd.fields).symm

/-- The dialect that belongs to a provider name. -/
def Spec.DialectFor (provider d : Bytes) : Prop :=
  (provider = b!"postgres" ∧ d = b!"xsql.Postgres") ∨ (provider = b!"sqlserver" ∧ d = b!"xsql.SQLServer")
    ∨ (provider ≠ b!"postgres" ∧ provider ≠ b!"sqlserver" ∧ d = b!"xsql.NoDialect")

/-- A generated file uses only the dialect of the provider, and a model file declares it exactly when it is a package of its own. -/
def Spec.DialectOK (cfg : Cfg) : File → Prop
  | .model dv _ => (cfg.modelPkg = cfg.schemaPkg → dv = none) ∧ (cfg.modelPkg ≠ cfg.schemaPkg → ∃ d, dv = some d ∧ Spec.DialectFor cfg.provider d)
  | .schema dv is _ _ _ => Spec.DialectFor cfg.provider dv ∧ ∀ i ∈ is, Spec.DialectFor cfg.provider i.dialect

theorem dialectOf_spec (p : Bytes) : Spec.DialectFor p (dialectOf p) := by
  unfold Spec.DialectFor dialectOf
  by_cases h1 : p = b!"postgres"
  · simp [h1]
  · by_cases h2 : p = b!"sqlserver"
    · simp [h2]
    · simp [h1, h2]

theorem execInfos_dialect (L : Lib) (cfg : Cfg) : ∀ (is out : List InfoDecl), execInfos L cfg is = some out → ∀ i ∈ out, Spec.DialectFor cfg.provider i.dialect := by
  intro is
  induction is with
  | nil => intro out h; cases h; intro i hi; cases hi
  | cons a is ih =>
    intro out h
    simp only [execInfos, bind, Option.bind_eq_some_iff] at h
    obtain ⟨v, hv, rest, hr, he⟩ := h
    cases he
    intro i hi
    rcases List.mem_cons.1 hi with rfl | hi
    · exact dialectOf_spec _
    · exact ih rest hr i hi

theorem schemaLoop_dialect (L : Lib) (cfg : Cfg) (fmtOK : File → Bool) (multi : Bool) (byName : Bytes → List GTable) :
    ∀ (order : List Bytes) (infos : List InfoDecl) (defs : List TableDef) (evs : List Event),
      (∀ t f, Event.write t f ∈ evs → Spec.DialectOK cfg f) →
      ∀ t f, Event.write t f ∈ (schemaLoop L cfg fmtOK multi byName order infos defs evs).1 → Spec.DialectOK cfg f := by
  intro order
  induction order with
  | nil => intro infos defs evs h; exact h
  | cons s ss ih =>
    intro infos defs evs h
    have hopen : ∀ (evs : List Event) (tg : Target), (∀ t f, Event.write t f ∈ evs → Spec.DialectOK cfg f) →
        ∀ t f, Event.write t f ∈ evs ++ openEvents tg → Spec.DialectOK cfg f := by
      intro evs tg h t f hm
      rcases List.mem_append.1 hm with hm | hm
      · exact h t f hm
      · cases tg <;> simp [openEvents] at hm
    have hwrite : ∀ (evs : List Event) (tg : Target) (g : File), Spec.DialectOK cfg g → (∀ t f, Event.write t f ∈ evs → Spec.DialectOK cfg f) →
        ∀ t f, Event.write t f ∈ evs ++ [.write tg g] → Spec.DialectOK cfg f := by
      intro evs tg g hg h t f hm
      rcases List.mem_append.1 hm with hm | hm
      · exact h t f hm
      · rw [List.mem_singleton] at hm
        injection hm with _ e
        rw [e]; exact hg
    have hmodel : ∀ ds, Spec.DialectOK cfg (.model (modelDialect cfg) ds) := by
      intro ds
      refine ⟨fun e => by simp [modelDialect, e], fun e => ⟨dialectOf cfg.provider, by simp [modelDialect, e], dialectOf_spec _⟩⟩
    unfold schemaLoop
    simp only
    split
    · exact h
    · split
      · exact hopen _ _ h
      · rename_i ds infos' defs' hloop
        split
        · exact hopen _ _ h
        · split
          · exact hwrite _ _ _ (hmodel ds) (hopen _ _ h)
          · split
            · exact hopen _ _ (hwrite _ _ _ (hmodel ds) (hopen _ _ h))
            · rename_i sf hsf
              have hs : Spec.DialectOK cfg sf := by
                simp only [execSchema, bind, Option.bind_eq_some_iff] at hsf
                obtain ⟨is, h1, mn, h2, es, h3, ds', h4, he⟩ := hsf
                cases he
                exact ⟨dialectOf_spec _, execInfos_dialect L cfg _ _ h1⟩
              split
              · exact hopen _ _ (hwrite _ _ _ (hmodel ds) (hopen _ _ h))
              · exact ih _ _ _ (hwrite _ _ _ hs (hopen _ _ (hwrite _ _ _ (hmodel ds) (hopen _ _ h))))

/-- **C74**: in every run, successful or not, every written file uses the dialect that belongs to the provider (in the dialect variable and in every table info), and a
model file declares the dialect variable exactly when model and schema are different packages. -/
theorem C74_dialect (L : Lib) (cfg : Cfg) (fmtOK : File → Bool) (res : List GTable) (order : List Bytes) (t : Target) (f : File)
    (hw : Event.write t f ∈ (generate L cfg fmtOK res order).1) : Spec.DialectOK cfg f :=
  schemaLoop_dialect L cfg fmtOK _ _ order [] [] [] (by simp) t f hw

/-- **C58**, for model files, whatever the order: the `k`-th model file declares exactly the tables of the `k`-th schema, in listing order. -/
theorem C58_model_files (L : Lib) (cfg : Cfg) (fmtOK : File → Bool) (res : List GTable) (order : List Bytes) (evs : List Event)
    (h : generate L cfg fmtOK res order = (evs, .ok)) (t : Target) (f : File) (hw : Event.write t f ∈ evs) :
    (∃ s ∈ order, t = target cfg.outModel (decide (1 < order.length)) s b!"model" ∧ ∃ dv ds, f = .model dv ds
        ∧ ds.map (fun d => (d.schema, d.table)) = (res.filter (fun t => t.schema = s)).map (fun t => (t.schema, t.name)))
    ∨ ∃ s ∈ order, t = target cfg.outSchema (decide (1 < order.length)) s b!"schema" ∧ ∃ dv is mv es ds, f = .schema dv is mv es ds := by
  obtain ⟨rounds, h1, h2, h3⟩ := generate_rounds h
  rw [h2] at hw
  obtain ⟨r, hr, hw⟩ := List.mem_flatMap.1 hw
  obtain ⟨k, hk⟩ := List.mem_iff_getElem?.1 hr
  obtain ⟨⟨dv, ds, e1, hd⟩, ⟨dv', is, mv, es, defs, e2, -⟩⟩ := h3 k r hk
  have hs : r.1 ∈ order := by rw [← h1]; exact List.mem_map.2 ⟨r, hr, rfl⟩
  have ho : ∀ t', Event.write t f ∉ openEvents t' := by intro t'; cases t' <;> simp [openEvents]
  simp only [Spec.round, List.mem_append, List.mem_singleton, ho, false_or, or_false, Event.write.injEq] at hw
  rcases hw with ⟨rfl, rfl⟩ | ⟨rfl, rfl⟩
  · refine .inl ⟨r.1, hs, rfl, dv, ds, e1, ?_⟩
    exact (forall2_map (fun t d (h : Spec.Describes L cfg t d) => by rw [h.schema, h.table]) hd).symm
  · exact .inr ⟨r.1, hs, rfl, dv', is, mv, es, defs, e2⟩

/-- **C58**, for schema files: the file of the `k`-th schema contains the tables of the first `k` schemas; so it contains its own schema's tables only when it is the first.
With a single schema that is the whole property. Missing: more than one schema (`C58_schema_file_contains_other_schemas`). -/
theorem C58_schema_files_partial (L : Lib) (cfg : Cfg) (fmtOK : File → Bool) (res : List GTable) (s : Bytes) (evs : List Event) (hord : IsOrder res [s])
    (h : generate L cfg fmtOK res [s] = (evs, .ok)) (t : Target) (dv : Bytes) (is : List InfoDecl) (mv : Bytes) (es : List (Bytes × Bytes)) (ds : List DefDecl)
    (hw : Event.write t (.schema dv is mv es ds) ∈ evs) :
    is.map (fun i => (i.schema, i.name)) = res.map (fun t => (t.schema, t.name)) ∧ es.map (·.1) = res.map (·.name) ∧ ds.length = res.length ∧ ∀ i ∈ is, i.schema = s := by
  obtain ⟨rounds, h1, h2, h3⟩ := generate_rounds h
  rw [h2] at hw
  obtain ⟨r, hr, hw⟩ := List.mem_flatMap.1 hw
  obtain ⟨k, hk⟩ := List.mem_iff_getElem?.1 hr
  obtain ⟨⟨dv1, ds1, e1, hd⟩, ⟨dv', is', mv', es', defs', e2, hi, he, hf⟩⟩ := h3 k r hk
  have hall : ∀ t ∈ res, t.schema = s := fun t ht => by simpa using (hord.2 t.schema).2 ⟨t, ht, rfl⟩
  have hres : ([s].take (k + 1)).flatMap (fun s => res.filter (fun t => t.schema = s)) = res := by
    simp only [List.take_succ_cons, List.take_nil, List.flatMap_cons, List.flatMap_nil, List.append_nil]
    rw [List.filter_eq_self]
    intro t ht
    simpa using hall t ht
  rw [hres] at hi he hf
  have ho : ∀ t', Event.write t (File.schema dv is mv es ds) ∉ openEvents t' := by intro t'; cases t' <;> simp [openEvents]
  simp only [Spec.round, List.mem_append, List.mem_singleton, ho, false_or, or_false, Event.write.injEq] at hw
  rcases hw with ⟨-, hw⟩ | ⟨-, hw⟩
  · rw [e1] at hw; cases hw
  · rw [e2] at hw
    cases hw
    refine ⟨(forall2_map (fun t i (h : Spec.InfoFor L cfg t i) => by rw [h.schema, h.name]) hi).symm, (forall2_map (fun t e h => h.1.symm) he).symm,
      hf.length_eq.symm, ?_⟩
    intro i hm
    obtain ⟨t, ht, hti⟩ := forall2_left hi i hm
    rw [hti.schema]
    exact hall t ht

/-! ### Concrete runs -/

/-- Toy library: names are capitalised and a final `s` is dropped. -/
def toyLib : Lib where
  pascal s := match s with | [] => [] | c :: r => (if 97 ≤ c ∧ c ≤ 122 then c - 32 else c) :: r
  singular s := if s.getLast? = some 115 then s.dropLast else s
  eqFold a b := a == b
  canOpen _ := true

/-- Flags: two packages, no overrides. -/
def toyCfg : Cfg where
  db := b!"app"
  provider := b!"postgres"
  modelPkg := b!"model"
  schemaPkg := b!"schema"
  outModel := b!"out/model"
  outSchema := b!"out/schema"
  structSuffix := []
  useSchema := false
  types _ := none
  fields _ := none
  tables _ := none
  withCache _ := false
  drop n := n == b!"secret"

/-- A column of the toy tables. -/
def toyCol (n : Bytes) (ty : Bytes) : Column := ⟨n, ty, ty, false, 0, 1, b!"s.t." ++ n, none, []⟩

/-- A table in a schema. -/
def toyTable (s n : Bytes) : GTable :=
  ⟨s, n, s ++ b!"." ++ n, [toyCol b!"id" b!"int8", toyCol b!"secret" b!"text", toyCol b!"name" b!"text"], [], some (toyCol b!"id" b!"int8")⟩

/-- Two schemas. -/
def toyRes : List GTable := [toyTable b!"app" b!"users", toyTable b!"audit" b!"logs", toyTable b!"app" b!"roles"]

theorem toy_order : IsOrder toyRes [b!"app", b!"audit"] := by
  refine ⟨by decide, ?_⟩
  intro s
  simp only [toyRes, List.mem_cons, List.not_mem_nil, or_false]
  constructor
  · rintro (rfl | rfl)
    · exact ⟨_, .inl rfl, rfl⟩
    · exact ⟨_, .inr (.inl rfl), rfl⟩
  · rintro ⟨t, rfl | rfl | rfl, rfl⟩ <;> decide

/-- The run succeeds: the hypotheses of C56 and C58 are met. -/
example : (generate toyLib toyCfg (fun _ => true) toyRes [b!"app", b!"audit"]).2 = .ok := by decide +kernel
example : (generate toyLib toyCfg (fun _ => true) [toyTable b!"app" b!"users"] [b!"app"]).2 = .ok := by decide +kernel

/-- The tables a schema file contains. -/
def File.tables : File → List (Bytes × Bytes)
  | .model _ ds => ds.map (fun d => (d.schema, d.table))
  | .schema _ is _ _ _ => is.map (fun i => (i.schema, i.name))

/-- The file written last to a path. -/
def lastWrite (evs : List Event) (p : Bytes) : Option File :=
  (evs.filterMap (fun | .write (.path q) f => if q = p then some f else none | _ => none)).getLast?

/-- **C58 fails** for schema files: with two schemas the file of the schema that happens to come second contains the other schema's tables as well;
which one that is depends on Go's map iteration order. -/
theorem C58_schema_file_contains_other_schemas :
    (lastWrite (generate toyLib toyCfg (fun _ => true) toyRes [b!"app", b!"audit"]).1 b!"out/schema/audit_schema.gen.go").map File.tables
        = some [(b!"app", b!"users"), (b!"app", b!"roles"), (b!"audit", b!"logs")]
    ∧ (lastWrite (generate toyLib toyCfg (fun _ => true) toyRes [b!"audit", b!"app"]).1 b!"out/schema/audit_schema.gen.go").map File.tables
        = some [(b!"audit", b!"logs")] := by
  constructor <;> decide +kernel

/-- **C56, a limit**: dropping a column that is the primary key leaves a table info whose primary key is not among its columns. -/
theorem C56_dropped_primary_key :
    let cfg := { toyCfg with drop := fun n => n == b!"id" }
    (lastWrite (generate toyLib cfg (fun _ => true) [toyTable b!"app" b!"users"] [b!"app"]).1 b!"out/schema/schema.gen.go").map
      (fun | .schema _ is _ _ _ => is.map (fun i => (i.primaryKey, i.columns)) | _ => [])
      = some [(b!"id", [b!"secret", b!"name"])] := by decide +kernel

/-! ### C74: names declared at package level -/

/-- Package-level names a file declares (template.go:33-53, 67, 94, 130-131, 172, 180, 192). -/
def File.names : File → List Bytes
  | .model dv ds => (if dv.isSome then [b!"Dialect"] else []) ++ ds.flatMap (fun d => [d.structName, d.structName ++ b!"Slice", d.structName ++ b!"Result"])
  | .schema _ is mv _ ds => b!"Dialect" :: (is.map (·.var) ++ [mv] ++ ds.map (·.var))

/-- **C74 fails** with more than one schema: every schema file declares `Dialect`, so two of them in one package do not compile.
This is so for every set of tables and every configuration. -/
theorem C74_two_schemas_redeclare (L : Lib) (cfg : Cfg) (fmtOK : File → Bool) (res : List GTable) (s1 s2 : Bytes) (more : List Bytes) (evs : List Event)
    (hne : s1 ≠ s2) (hout : cfg.outSchema ≠ []) (h : generate L cfg fmtOK res (s1 :: s2 :: more) = (evs, .ok)) :
    ∃ p1 p2 f1 f2, p1 ≠ p2 ∧ Event.write (.path (cfg.outSchema ++ b!"/" ++ p1)) f1 ∈ evs ∧ Event.write (.path (cfg.outSchema ++ b!"/" ++ p2)) f2 ∈ evs
      ∧ b!"Dialect" ∈ f1.names ∧ b!"Dialect" ∈ f2.names := by
  obtain ⟨rounds, h1, h2, h3⟩ := generate_rounds h
  have key : ∀ (k : Nat) (s : Bytes), (s1 :: s2 :: more)[k]? = some s →
      ∃ f, Event.write (.path (cfg.outSchema ++ b!"/" ++ (s ++ b!"_schema.gen.go"))) f ∈ evs ∧ b!"Dialect" ∈ f.names := by
    intro k s hk
    rw [← h1, List.getElem?_map] at hk
    cases hg : rounds[k]? with
    | none => rw [hg] at hk; cases hk
    | some r =>
      rw [hg] at hk
      simp only [Option.map_some, Option.some.injEq] at hk
      subst hk
      obtain ⟨-, ⟨dv', is, mv, es, defs, e2, -⟩⟩ := h3 k r hg
      refine ⟨r.2.2, ?_, by rw [e2]; simp [File.names]⟩
      rw [h2]
      refine List.mem_flatMap.2 ⟨r, List.mem_of_getElem? hg, ?_⟩
      simp [Spec.round, target, hout]
  obtain ⟨f1, hf1, hn1⟩ := key 0 s1 rfl
  obtain ⟨f2, hf2, hn2⟩ := key 1 s2 rfl
  exact ⟨_, _, f1, f2, (fun e => hne (List.append_cancel_right e)), hf1, hf2, hn1, hn2⟩

/-- A definition struct is named like the model struct: the names a `TableDef` gives. -/
theorem schemaLoop_names (L : Lib) (cfg : Cfg) : ∀ (tds : List TableDef) (ds : List DefDecl), execDefs L cfg tds = some ds → ds.map (·.var) = tds.map (·.structName) := by
  intro tds
  induction tds with
  | nil => intro ds h; cases h; rfl
  | cons td tds ih =>
    intro ds h
    simp only [execDefs, Option.bind_eq_bind, Option.bind_eq_some_iff, Option.pure_def, Option.some.injEq] at h
    obtain ⟨fs, hf, rest, hr, rfl⟩ := h
    simp [ih _ hr]

theorem tableLoop_names (L : Lib) (cfg : Cfg) (s : Bytes) : ∀ (ts : List GTable) (ds : List ModelDecl) (infos : List InfoDecl) (defs : List TableDef) ds' infos' defs',
    tableLoop L cfg s ts ds infos defs = .ok (ds', infos', defs') → ds.map (·.structName) = defs.map (·.structName) → ds'.map (·.structName) = defs'.map (·.structName) := by
  intro ts
  induction ts with
  | nil => intro ds infos defs ds' infos' defs' h e; cases h; exact e
  | cons t ts ih =>
    intro ds infos defs ds' infos' defs' h e
    simp only [tableLoop] at h
    cases h1 : mkDef L cfg s t with
    | none => rw [h1] at h; cases h
    | some td =>
      rw [h1] at h
      simp only at h
      cases h2 : execModel L cfg td with
      | none => rw [h2] at h; cases h
      | some d =>
        rw [h2] at h
        refine ih _ _ _ _ _ _ h ?_
        have : d.structName = td.structName := by
          simp only [execModel, Option.bind_eq_bind, Option.bind_eq_some_iff, Option.pure_def, Option.some.injEq] at h2
          obtain ⟨fs, hf, sc, hs, rfl⟩ := h2
          rfl
        simp [e, this]

/-- **C74 fails** when model and schema go to one package: the struct and the column definitions of a table have the same name, so the package does not compile.
This is so for every (single) schema, table and configuration. -/
theorem C74_same_package_redeclares (L : Lib) (cfg : Cfg) (fmtOK : File → Bool) (res : List GTable) (s : Bytes) (evs : List Event)
    (h : generate L cfg fmtOK res [s] = (evs, .ok)) :
    ∃ mf sf ds defs dv dv' is mv es, evs = openEvents (target cfg.outModel false s b!"model") ++ [.write (target cfg.outModel false s b!"model") mf]
        ++ openEvents (target cfg.outSchema false s b!"schema") ++ [.write (target cfg.outSchema false s b!"schema") sf]
      ∧ mf = .model dv ds ∧ sf = .schema dv' is mv es defs ∧ ds.map (·.structName) = defs.map (·.var) := by
  unfold generate at h
  simp only [List.length_singleton, Nat.lt_irrefl, decide_false, schemaLoop, List.nil_append] at h
  split at h
  · simp at h
  · split at h
    · rename_i r hr
      simp only [Prod.mk.injEq] at h
      exfalso
      have : ∀ (ts : List GTable) ds infos defs, tableLoop L cfg s ts ds infos defs ≠ .error .ok := by
        intro ts
        induction ts with
        | nil => intro ds infos defs e; cases e
        | cons t ts ih =>
          intro ds infos defs e
          simp only [tableLoop] at e
          split at e
          · cases e
          · split at e
            · cases e
            · exact ih _ _ _ e
      exact this _ _ _ _ (by rw [hr, h.2])
    · rename_i ds infos' defs' hr
      have hn := tableLoop_names L cfg s _ _ _ _ _ _ _ hr rfl
      split at h
      · simp at h
      · split at h
        · simp at h
        · split at h
          · simp at h
          · rename_i sf hsf
            split at h
            · simp at h
            · simp only [Prod.mk.injEq, and_true] at h
              simp only [execSchema, Option.bind_eq_bind, Option.bind_eq_some_iff, Option.pure_def, Option.some.injEq] at hsf
              obtain ⟨is, hi, mn, -, es, he, dds, hd, rfl⟩ := hsf
              exact ⟨_, _, ds, dds, modelDialect cfg, _, is, _, es, h.symm, rfl, rfl, by rw [hn, schemaLoop_names L cfg _ _ hd]⟩

/-- **C74 fails** for tables whose names differ only in number, even with one schema and two packages. -/
theorem C74_singular_and_plural_collide :
    (lastWrite (generate toyLib toyCfg (fun _ => true) [toyTable b!"app" b!"user", toyTable b!"app" b!"users"] [b!"app"]).1 b!"out/model/model.gen.go").map
      (fun f => decide f.names.Nodup) = some false := by decide +kernel

/-! ### C75: failures -/

/-- What a path holds after the events: `none`: untouched, `some none`: truncated and empty, `some (some f)`: the file `f`. -/
def content (p : Bytes) : List Event → Option (Option File) → Option (Option File)
  | [], c => c
  | .open_ (.path q) :: es, c => content p es (if q = p then some none else c)
  | .write (.path q) f :: es, c => content p es (if q = p then some (some f) else c)
  | _ :: es, c => content p es c

theorem content_append (p : Bytes) (a b : List Event) (c : Option (Option File)) : content p (a ++ b) c = content p b (content p a c) := by
  induction a generalizing c with
  | nil => rfl
  | cons e a ih =>
    rw [List.cons_append]
    cases e with
    | open_ t => cases t <;> simp only [content, ih]
    | write t f => cases t <;> simp only [content, ih]

/-- **C75**, when the command succeeds: no file is left empty. Missing: failures (`C75_failure_destroys_the_old_file`). -/
theorem C75_success_leaves_no_empty_file_partial (L : Lib) (cfg : Cfg) (fmtOK : File → Bool) (res : List GTable) (order : List Bytes) (evs : List Event)
    (h : generate L cfg fmtOK res order = (evs, .ok)) (p : Bytes) : content p evs none ≠ some none := by
  obtain ⟨rounds, h1, h2, h3⟩ := generate_rounds h
  rw [h2]
  clear h h1 h2 h3
  have hpair : ∀ (t : Target) (f : File) (c : Option (Option File)), c ≠ some none → content p (openEvents t ++ [.write t f]) c ≠ some none := by
    intro t f c hc
    cases t with
    | stdout => simpa [openEvents, content] using hc
    | path q =>
      simp only [openEvents, List.cons_append, List.nil_append, content]
      by_cases e : q = p <;> simp [e, hc]
  have key : ∀ (rs : List (Bytes × File × File)) (c : Option (Option File)), c ≠ some none →
      content p (rs.flatMap (Spec.round cfg (decide (1 < order.length)))) c ≠ some none := by
    intro rs
    induction rs with
    | nil => intro c hc; simpa [content] using hc
    | cons r rs ih =>
      intro c hc
      rw [List.flatMap_cons, content_append]
      apply ih
      unfold Spec.round
      rw [List.append_assoc (openEvents (target cfg.outModel _ _ _) ++ _), content_append]
      exact hpair _ _ _ (hpair _ _ _ hc)
  exact key rounds none (by simp)

/-- **C75 fails**: a column type the mapper does not know, in any table, makes the command fail after it has truncated the existing model file. -/
theorem C75_failure_destroys_the_old_file :
    let res := [toyTable b!"app" b!"users", ⟨b!"app", b!"shapes", b!"app.shapes", [toyCol b!"area" b!"polygon"], [], none⟩]
    (generate toyLib toyCfg (fun _ => true) res [b!"app"]).2 = .err
    ∧ content b!"out/model/model.gen.go" (generate toyLib toyCfg (fun _ => true) res [b!"app"]).1 none = some none := by decide +kernel

end Gen
