import Verif.Gen.Exact58
import Verif.Gen.TextProps
set_option linter.unusedSimpArgs false
set_option linter.unusedVariables false
/-! C74, exactly: when the generated packages declare no name twice. -/
namespace Gen
open Schema

namespace Spec

/-- The Go name made from a database name (an initial underscore becomes `X`). -/
def goWord (L : Lib) : Bytes → Bytes
  | [] => L.pascal []
  | c :: s => L.pascal (if c = c!"_" then c!"X" :: s else c :: s)

/-- The field of a column: the override for it, or else its Go name. -/
def fieldName (L : Lib) (cfg : Cfg) (c : Column) : Bytes := (cfg.fields c.schemaName).getD (goWord L c.name)

/-- The variable of a table's info: from the override for the table, or else from the singular of its name. -/
def infoName (L : Lib) (cfg : Cfg) (t : GTable) : Bytes := (cfg.tables t.schemaName).getD (goWord L (L.singular t.name)) ++ b!"TableInfo"

/-- Fields and methods of a model struct (Go allows no method with the name of a field). -/
def members (d : ModelDecl) : List Bytes := d.fields.map (·.name) ++ b!"ScanRow" :: (if d.withCache then [b!"cachedProps", b!"Cached"] else [])

/-- Fields of a struct of column definitions. -/
def defMembers (d : DefDecl) : List Bytes := b!"Table" :: d.fields.map (·.1)

/-- No name is declared twice: neither at package level nor in a struct. -/
def Distinct (f : File) : Prop := f.names.Nodup ∧ match f with
  | .model _ ds => ∀ d ∈ ds, (members d).Nodup
  | .schema _ _ _ _ ds => ∀ d ∈ ds, (defMembers d).Nodup

end Spec

theorem columnStructName_fieldName {L : Lib} {cfg : Cfg} {c : Column} {n : Bytes} (h : columnStructName L cfg c = some n) : n = Spec.fieldName L cfg c := by
  unfold columnStructName at h
  unfold Spec.fieldName
  split at h
  · rename_i r hr; rw [hr]; exact (Option.some.inj h).symm
  · rename_i hr
    rw [hr]
    unfold goName at h
    split at h
    · cases h
    · rename_i hc; rw [hc]; exact (Option.some.inj h).symm

theorem infoVar_infoName {L : Lib} {cfg : Cfg} {t : GTable} {n : Bytes} (h : Spec.infoVar L cfg t = some n) : n = Spec.infoName L cfg t := by
  unfold Spec.infoVar tableInfoStructName at h
  unfold Spec.infoName
  split at h
  · rename_i r hr; rw [hr]; exact (Option.some.inj h).symm
  · rename_i hr
    rw [hr]
    simp only [Option.map_eq_some_iff] at h
    obtain ⟨m, hm, rfl⟩ := h
    unfold goName at hm
    split at hm
    · cases hm
    · rename_i hc; rw [hc]
      have := (Option.some.inj hm).symm
      rw [this]; rfl

theorem forall2_map_eq {α β γ : Type} {R : α → β → Prop} {f : α → γ} {g : β → γ} (hR : ∀ a b, R a b → g b = f a) {l : List α} {m : List β} (h : List.Forall₂ R l m) : m.map g = l.map f := by
  induction h with
  | nil => rfl
  | cons h _ ih => rw [List.map_cons, List.map_cons, hR _ _ h, ih]

theorem forall2_all {α β : Type} {R : α → β → Prop} {P : α → Prop} {Q : β → Prop} (hR : ∀ a b, R a b → (Q b ↔ P a)) {l : List α} {m : List β} (h : List.Forall₂ R l m) :
    (∀ b ∈ m, Q b) ↔ ∀ a ∈ l, P a := by
  induction h with
  | nil => simp
  | cons h _ ih => simp [hR _ _ h, ih]

theorem model_distinct (L : Lib) (cfg : Cfg) (ts : List GTable) (dv : Option Bytes) (ds : List ModelDecl) (hd : List.Forall₂ (Spec.Describes L cfg) ts ds) :
    Spec.Distinct (.model dv ds) ↔
      ((if dv.isSome then [b!"Dialect"] else []) ++ ts.flatMap fun t => [Spec.structName L cfg t, Spec.structName L cfg t ++ b!"Slice", Spec.structName L cfg t ++ b!"Result"]).Nodup
      ∧ ∀ t ∈ ts, ((Spec.kept cfg t).map (Spec.fieldName L cfg) ++ b!"ScanRow" :: (if cfg.withCache t.schemaName then [b!"cachedProps", b!"Cached"] else [])).Nodup := by
  unfold Spec.Distinct File.names
  have h1 : ds.flatMap (fun d => [d.structName, d.structName ++ b!"Slice", d.structName ++ b!"Result"])
      = ts.flatMap fun t => [Spec.structName L cfg t, Spec.structName L cfg t ++ b!"Slice", Spec.structName L cfg t ++ b!"Result"] := by
    rw [List.flatMap_def, List.flatMap_def]
    congr 1
    exact forall2_map_eq (fun t d h => by rw [h.name]) hd
  simp only [h1]
  refine and_congr Iff.rfl ?_
  refine forall2_all (fun t d h => ?_) hd
  unfold Spec.members
  have hf : d.fields.map (·.name) = (Spec.kept cfg t).map (Spec.fieldName L cfg) := forall2_map_eq (fun c f hh => columnStructName_fieldName hh.1) h.fields
  rw [hf, h.cache]

theorem schema_distinct (L : Lib) (cfg : Cfg) (ts : List GTable) (dv mv : Bytes) (is : List InfoDecl) (es : List (Bytes × Bytes)) (ds : List DefDecl)
    (hi : List.Forall₂ (Spec.InfoFor L cfg) ts is) (hd : List.Forall₂ (Spec.DefFor L cfg) ts ds) :
    Spec.Distinct (.schema dv is mv es ds) ↔
      (b!"Dialect" :: (ts.map (Spec.infoName L cfg) ++ [mv] ++ ts.map (Spec.structName L cfg))).Nodup
      ∧ ∀ t ∈ ts, (b!"Table" :: (Spec.kept cfg t).map (Spec.fieldName L cfg)).Nodup := by
  unfold Spec.Distinct File.names
  have h1 : is.map (·.var) = ts.map (Spec.infoName L cfg) := forall2_map_eq (fun t i h => infoVar_infoName h.var) hi
  have h2 : ds.map (·.var) = ts.map (Spec.structName L cfg) := forall2_map_eq (fun t d h => h.name) hd
  simp only [h1, h2]
  refine and_congr Iff.rfl ?_
  refine forall2_all (fun t d h => ?_) hd
  unfold Spec.defMembers
  have hf : d.fields.map (·.1) = (Spec.kept cfg t).map (Spec.fieldName L cfg) := forall2_map_eq (fun c f hh => columnStructName_fieldName hh.1) h.fields
  rw [hf]

/-- **C74, exactly**, for one schema with models and schema in packages of their own: which names the two files declare and when none of them is declared twice, in terms of the tables: the
structs of the tables must have different names (also after adding `Slice` and `Result`), the columns of a table different field names, none of them `ScanRow` (nor `cachedProps` and `Cached` in a
table with cache) or `Table`, and no struct may be called like the info of a table, the map of tables, or `Dialect`. -/
theorem C74_declared_once_iff (L : Lib) (cfg : Cfg) (fmtOK : File → Bool) (res : List GTable) (s : Bytes) (evs : List Event) (hall : ∀ t ∈ res, t.schema = s) (hp : cfg.modelPkg ≠ cfg.schemaPkg)
    (h : generate L cfg fmtOK res [s] = (evs, .ok)) :
    ∃ mf sf, evs = Spec.round cfg false (s, mf, sf)
      ∧ (Spec.Distinct mf ↔
          (b!"Dialect" :: res.flatMap fun t => [Spec.structName L cfg t, Spec.structName L cfg t ++ b!"Slice", Spec.structName L cfg t ++ b!"Result"]).Nodup
          ∧ ∀ t ∈ res, ((Spec.kept cfg t).map (Spec.fieldName L cfg) ++ b!"ScanRow" :: (if cfg.withCache t.schemaName then [b!"cachedProps", b!"Cached"] else [])).Nodup)
      ∧ (Spec.Distinct sf ↔
          (b!"Dialect" :: (res.map (Spec.infoName L cfg) ++ [Spec.goWord L cfg.db ++ b!"Tables"] ++ res.map (Spec.structName L cfg))).Nodup
          ∧ ∀ t ∈ res, (b!"Table" :: (Spec.kept cfg t).map (Spec.fieldName L cfg)).Nodup) := by
  have hdial := C74_dialect L cfg fmtOK res [s]
  obtain ⟨rounds, h1, h2, h3⟩ := generate_rounds h
  have hflt : res.filter (fun t => t.schema = s) = res := List.filter_eq_self.2 fun t ht => by simpa using hall t ht
  match rounds, h1 with
  | [r], h1 =>
    simp only [List.map_cons, List.map_nil, List.cons.injEq, and_true] at h1
    obtain ⟨r1, mf, sf⟩ := r
    simp only at h1
    subst h1
    obtain ⟨⟨dv, ds, e1, hd⟩, ⟨dv', is, mv, es, defs, e2, hi, -, hf⟩⟩ := h3 0 _ rfl
    simp only [List.take_succ_cons, List.take_zero, List.flatMap_cons, List.flatMap_nil, List.append_nil, hflt] at hd hi hf
    simp only [hflt] at e1 e2
    subst e1 e2
    simp only [List.flatMap_cons, List.flatMap_nil, List.append_nil, List.length_singleton, Nat.lt_irrefl, decide_false] at h2
    have hdv : dv.isSome = true := by
      have := hdial (target cfg.outModel false r1 b!"model") (.model dv ds) (by rw [h, h2]; simp [Spec.round])
      obtain ⟨d, rfl, -⟩ := this.2 hp
      rfl
    have hmv : mv = Spec.goWord L cfg.db ++ b!"Tables" := by
      have : Spec.MapOK L cfg (.schema dv' is mv es defs) := by
        refine schemaLoop_writes L cfg fmtOK false (tablesOf res) (Spec.MapOK L cfg) (fun _ => trivial) ?_ [r1] [] [] [] (by simp) (target cfg.outSchema false r1 b!"schema") _ ?_
        · intro is ds f hf
          simp only [execSchema, Option.bind_eq_bind, Option.bind_eq_some_iff, Option.pure_def, Option.some.injEq] at hf
          obtain ⟨_, _, m, hm, _, _, _, _, rfl⟩ := hf
          exact ⟨m, hm, rfl⟩
        · have h' : schemaLoop L cfg fmtOK false (tablesOf res) [r1] [] [] [] = (evs, .ok) := h
          rw [h', h2]; simp [Spec.round]
      obtain ⟨m, hm, rfl⟩ := this
      unfold goName at hm
      split at hm
      · cases hm
      · rename_i hc; rw [hc]; rw [← Option.some.inj hm]; rfl
    subst hmv
    refine ⟨_, _, h2, ?_, schema_distinct L cfg res dv' _ is es defs hi hf⟩
    have := model_distinct L cfg res dv ds hd
    rw [hdv] at this
    exact this

/-- **C74 fails** for every table with a column whose field is called `Table` (a column `table`), whatever else there is: the schema file declares that field twice. -/
theorem C74_column_named_table (L : Lib) (cfg : Cfg) (fmtOK : File → Bool) (res : List GTable) (s : Bytes) (evs : List Event) (hall : ∀ t ∈ res, t.schema = s) (hp : cfg.modelPkg ≠ cfg.schemaPkg)
    (h : generate L cfg fmtOK res [s] = (evs, .ok)) (t : GTable) (ht : t ∈ res) (c : Column) (hc : c ∈ Spec.kept cfg t) (hn : Spec.fieldName L cfg c = b!"Table") :
    ∃ mf sf, evs = Spec.round cfg false (s, mf, sf) ∧ ¬ Spec.Distinct sf := by
  obtain ⟨mf, sf, h1, -, h3⟩ := C74_declared_once_iff L cfg fmtOK res s evs hall hp h
  refine ⟨mf, sf, h1, fun hd => ?_⟩
  have := ((h3.1 hd).2 t ht)
  rw [List.nodup_cons] at this
  exact this.1 (List.mem_map.2 ⟨c, hc, hn⟩)

instance (f : File) : Decidable (Spec.Distinct f) := by unfold Spec.Distinct; cases f <;> infer_instance

-- tables for which both files declare every name once, and one with a column `table`
example : (lastWrite (generate toyLib toyCfg (fun _ => true) [toyTable b!"app" b!"users", toyTable b!"app" b!"roles"] [b!"app"]).1 b!"out/model/model.gen.go").map (fun f => decide (Spec.Distinct f)) = some true
    ∧ (lastWrite (generate toyLib toyCfg (fun _ => true) [toyTable b!"app" b!"users", toyTable b!"app" b!"roles"] [b!"app"]).1 b!"out/schema/schema.gen.go").map (fun f => decide (Spec.Distinct f)) = some true := by
  decide +kernel
example : let t := { toyTable b!"app" b!"users" with columns := [toyCol b!"id" b!"int8", toyCol b!"table" b!"text"] }
    (generate toyLib toyCfg (fun _ => true) [t] [b!"app"]).2 = .ok
    ∧ (lastWrite (generate toyLib toyCfg (fun _ => true) [t] [b!"app"]).1 b!"out/schema/schema.gen.go").map (fun f => decide (Spec.Distinct f)) = some false := by decide +kernel

end Gen
