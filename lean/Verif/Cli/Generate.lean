import Verif.Cli.Print
import Mathlib.Data.List.TakeWhile
set_option linter.unusedVariables false
set_option linter.unusedSimpArgs false
/-!
Model of `GenerateCmd.Run` (internal/cli/schema/schema.go:175-203) and of the first part of `generate` (schema.go:282-323): listing, package names, type definition file.
C83.
-/
namespace Cli
open Schema Gen

/-- `path.Base` (standard library). -/
def baseName (p : Bytes) : Bytes :=
  if p = [] then b!"."
  else
    if (p.reverse.dropWhile (· = 47)).takeWhile (· ≠ 47) = [] then b!"/"
    else ((p.reverse.dropWhile (· = 47)).takeWhile (· ≠ 47)).reverse

/-- schema.go:197-203 `packageName`. -/
def packageName (folder : Bytes) : Bytes :=
  if baseName folder = [] ∨ baseName folder = b!"." ∨ baseName folder = b!"/" then b!"model" else baseName folder

/-- schema.go:286-287 `values.StringsCoalesce(a.PkgModel, packageName(a.OutModel))`. -/
def pkgOf (flag folder : Bytes) : Bytes := if flag ≠ [] then flag else packageName folder

/-- schema.go:252-258 `override`: the contents of a types definition file. -/
structure Defs where
  tables : List (Bytes × Bytes)
  fields : List (Bytes × Bytes)
  types : List (Bytes × Bytes)
  withCache : List Bytes
  drop : List Bytes

/-- types.go:11-14: the package-level maps. -/
structure Maps where
  types : Bytes → Option Bytes
  fields : Bytes → Option Bytes
  tables : Bytes → Option Bytes
  withCache : Bytes → Bool

/-- The maps when the program starts. -/
def Maps.start : Maps := ⟨fun _ => none, fun _ => none, fun _ => none, fun _ => false⟩

/-- `m[k] = v` for all entries of a Go map (the order of iteration does not matter: keys are distinct). -/
def putAll (m : Bytes → Option Bytes) (l : List (Bytes × Bytes)) (k : Bytes) : Option Bytes :=
  match l.lookup k with
  | some v => some v
  | none => m k

/-- schema.go:308-322: the definitions are added to the package-level maps. -/
def Maps.add (m : Maps) (d : Defs) : Maps :=
  { types := putAll m.types d.types, fields := putAll m.fields d.fields, tables := putAll m.tables d.tables,
    withCache := fun k => d.withCache.contains k || m.withCache k }

/-- The flags of `generate` (schema.go:158-172); `typesDef` says what loading the file gave: no file, an error, or its contents. -/
structure Flags where
  db : Bytes
  views : List Bytes
  outModel : Bytes
  outSchema : Bytes
  pkgModel : Bytes
  pkgSchema : Bytes
  structSuffix : Bytes
  useSchema : Bool
  typesDef : Option (Option Defs)

/-- schema.go:282-323: the configuration the rest of `generate` runs with. -/
def cfgOf (f : Flags) (provider : Bytes) (m : Maps) (drop : List Bytes) : Cfg where
  db := f.db
  provider := provider
  modelPkg := pkgOf f.pkgModel f.outModel
  schemaPkg := pkgOf f.pkgSchema f.outSchema
  outModel := f.outModel
  outSchema := f.outSchema
  structSuffix := f.structSuffix
  useSchema := f.useSchema
  types := m.types
  fields := m.fields
  tables := m.tables
  withCache := m.withCache
  drop := fun n => drop.contains n

/-- schema.go:175-195 `Run`: the listed tables and views; `none`: a listing failed. -/
def listed (f : Flags) (a : Answers) : Option (List GTable) :=
  if a.provider then
    match a.tables with
    | none => none
    | some ts =>
      if f.views.length > 0 then a.views.map (fun vs => ts ++ vs) else some ts
  else none

/-- schema.go:172-323 `Run` and `generate`: new contents of the package-level maps, what is done to files, and the outcome.
`order`: the iteration order of the map of schemas. -/
def runGenerate (L : Lib) (fmtOK : File → Bool) (f : Flags) (provider : Bytes) (m : Maps) (a : Answers) (order : List Bytes) : Maps × List Event × Res :=
  match listed f a with
  | none => (m, [], .err)
  | some res =>
    match f.typesDef with
    | some none => (m, [], .err)
    | none => (m, generate L (cfgOf f provider m []) fmtOK res order)
    | some (some d) => (m.add d, generate L (cfgOf f provider (m.add d) d.drop) fmtOK res order)

/-! ### Properties -/

/-- **C83**: if the database cannot be reached, a listing fails or the definition file cannot be read, the command fails and no file is touched. -/
theorem C83_failure_touches_nothing (L : Lib) (fmtOK : File → Bool) (f : Flags) (provider : Bytes) (m : Maps) (a : Answers) (order : List Bytes)
    (h : a.provider = false ∨ a.tables = none ∨ (f.views ≠ [] ∧ a.views = none) ∨ f.typesDef = some none) :
    (runGenerate L fmtOK f provider m a order).2 = ([], .err) := by
  have hl : (a.provider = false ∨ a.tables = none ∨ (f.views ≠ [] ∧ a.views = none)) → listed f a = none := by
    rintro (h | h | ⟨h, h'⟩)
    · simp [listed, h]
    · unfold listed; split <;> simp [h]
    · have : f.views.length > 0 := List.length_pos_iff.2 h
      unfold listed
      split
      · split <;> simp [this, h']
      · rfl
  unfold runGenerate
  rcases h with h | h | h | h
  · rw [hl (.inl h)]
  · rw [hl (.inr (.inl h))]
  · rw [hl (.inr (.inr h))]
  · split
    · rfl
    · rw [h]

/-- **C83**: a successful run generates exactly for what was listed: for every table of the table listing, and with `--view` every view of the view listing, there are
a model struct whose `i`-th field belongs to its `i`-th kept column and a table info, and there is nothing for tables that were not listed. -/
theorem C83_generates_what_was_listed (L : Lib) (fmtOK : File → Bool) (f : Flags) (provider : Bytes) (m : Maps) (a : Answers) (order : List Bytes) (m' : Maps) (evs : List Event)
    (ts vs : List GTable) (hp : a.provider = true) (ht : a.tables = some ts) (hv : f.views ≠ [] → a.views = some vs)
    (drop : List Bytes) (hd : f.typesDef = none ∧ drop = [] ∨ ∃ d, f.typesDef = some (some d) ∧ drop = d.drop)
    (hord : IsOrder (ts ++ (if f.views = [] then [] else vs)) order)
    (h : runGenerate L fmtOK f provider m a order = (m', evs, .ok)) :
    (∀ t ∈ ts ++ (if f.views = [] then [] else vs), ∃ mt st dv decls dv' infos mv es defs,
      Event.write mt (.model dv decls) ∈ evs ∧ Event.write st (.schema dv' infos mv es defs) ∈ evs
      ∧ (∃ d ∈ decls, d.table = t.name ∧ d.schema = t.schema ∧ d.fields.map (·.column) = (t.columns.filter (fun c => !drop.contains c.name)).map (·.name))
      ∧ (∃ i ∈ infos, i.name = t.name ∧ i.schema = t.schema ∧ i.columns = (t.columns.filter (fun c => !drop.contains c.name)).map (·.name)))
    ∧ (∀ mt dv decls, Event.write mt (.model dv decls) ∈ evs → ∀ d ∈ decls, ∃ t ∈ ts ++ (if f.views = [] then [] else vs), d.table = t.name ∧ d.schema = t.schema) := by
  have hl : listed f a = some (ts ++ (if f.views = [] then [] else vs)) := by
    unfold listed
    rw [if_pos hp, ht]
    by_cases hv0 : f.views = []
    · simp [hv0]
    · have : f.views.length > 0 := List.length_pos_iff.2 hv0
      simp [this, hv hv0, hv0]
  have hg : ∃ mm : Maps, generate L (cfgOf f provider mm drop) fmtOK (ts ++ (if f.views = [] then [] else vs)) order = (evs, .ok) := by
    unfold runGenerate at h
    rw [hl] at h
    rcases hd with ⟨h1, rfl⟩ | ⟨d, h1, rfl⟩
    · rw [h1] at h
      exact ⟨m, by simpa using congrArg Prod.snd h⟩
    · rw [h1] at h
      exact ⟨m.add d, by simpa using congrArg Prod.snd h⟩
  obtain ⟨mm, hg⟩ := hg
  constructor
  · intro t htm
    obtain ⟨mt, st, dv, decls, dv', mv, infos, es, defs, w1, w2, d, hdm, i, him, -, -, a1, a2, a3, a4, -, -, a5, -, a6, -⟩ :=
      C56_columns_agree L (cfgOf f provider mm drop) fmtOK _ order hord evs hg t htm
    refine ⟨mt, st, dv, decls, dv', infos, mv, es, defs, w1, w2, ⟨d, hdm, a1, a2, a5⟩, ⟨i, him, a3, a4, ?_⟩⟩
    rw [a6]; exact a5
  · intro mt dv decls hw d hdm
    rcases C58_model_files L _ fmtOK _ order evs hg mt (.model dv decls) hw with ⟨s, hs, -, dv2, ds, e, hm⟩ | ⟨s, hs, -, dv2, is, mv, es, ds, e⟩
    · cases e
      have : (d.schema, d.table) ∈ decls.map (fun d => (d.schema, d.table)) := List.mem_map.2 ⟨d, hdm, rfl⟩
      rw [hm] at this
      obtain ⟨t, ht1, ht2⟩ := List.mem_map.1 this
      simp only [Prod.mk.injEq] at ht2
      exact ⟨t, (List.mem_filter.1 ht1).1, ht2.2.symm, ht2.1.symm⟩
    · cases e

/-- **C83**: the package name is the last element of the output folder, whatever number of slashes ends it. -/
theorem C83_package_is_last_element (dir last : Bytes) (n : Nat) (hl : last ≠ []) (hs : (47 : UInt8) ∉ last) (hd : last ≠ b!".") :
    packageName (dir ++ b!"/" ++ last ++ List.replicate n 47) = last ∧ packageName (last ++ List.replicate n 47) = last := by
  have hs' : ∀ x ∈ last.reverse, (decide (x ≠ 47)) = true := fun x hx => by
    simp only [ne_eq, decide_not, Bool.not_eq_eq_eq_not, Bool.not_true, decide_eq_false_iff_not]
    rintro rfl; exact hs (List.mem_reverse.1 hx)
  have hr : last.reverse ≠ [] := by simpa using hl
  have h0 : ∀ t : Bytes, (last.reverse ++ t).dropWhile (fun x => decide (x = 47)) = last.reverse ++ t := by
    intro t
    cases hx : last.reverse with
    | nil => exact absurd hx hr
    | cons x xs =>
      have := hs' x (by rw [hx]; simp)
      rw [List.cons_append, List.dropWhile_cons_of_neg]
      simpa using this
  have hdw : ∀ t : Bytes, (List.replicate n 47 ++ t).dropWhile (fun x : UInt8 => decide (x = 47)) = t.dropWhile (fun x => decide (x = 47)) := by
    intro t
    rw [List.dropWhile_append_of_pos]
    intro x hx
    simp [List.eq_of_mem_replicate hx]
  have base : ∀ p, p ≠ [] → (p.reverse.dropWhile (fun x => decide (x = 47))).takeWhile (fun x => decide (x ≠ 47)) = last.reverse → baseName p = last := by
    intro p hp h
    unfold baseName
    rw [if_neg hp, h, if_neg hr, List.reverse_reverse]
  have fin : ∀ p, baseName p = last → packageName p = last := by
    intro p h
    unfold packageName
    rw [h, if_neg]
    rintro (h | h | h)
    · exact hl h
    · exact hd h
    · rw [h] at hs; exact hs (by decide)
  constructor
  · apply fin; apply base
    · simp [hl]
    · rw [List.reverse_append, List.reverse_append, List.reverse_replicate, hdw, h0,
        List.takeWhile_append_of_pos hs']
      simp [show (b!"/").reverse = [47] from rfl]
  · apply fin; apply base
    · simp [hl]
    · have := h0 []
      rw [List.append_nil] at this
      rw [List.reverse_append, List.reverse_replicate, hdw, this, List.takeWhile_eq_self_iff.2 hs']

/-- **C83**: a folder without a name of its own (empty, `.`, `/`, `//`, ...) gives the package name `model`; the package name is never empty and never contains a slash. -/
theorem C83_package_default (folder : Bytes) :
    (∀ n, packageName (List.replicate n 47) = b!"model") ∧ packageName b!"." = b!"model" ∧ packageName b!"./" = b!"model"
    ∧ packageName folder ≠ [] ∧ (47 : UInt8) ∉ packageName folder := by
  refine ⟨?_, by decide, by decide, ?_, ?_⟩
  · intro n
    have : baseName (List.replicate n 47) = b!"." ∨ baseName (List.replicate n 47) = b!"/" := by
      unfold baseName
      cases n with
      | zero => exact .inl rfl
      | succ n =>
        right
        rw [if_neg (by simp [List.replicate_succ]), if_pos]
        have : (List.replicate (n+1) (47 : UInt8)).dropWhile (fun x => decide (x = 47)) = [] := by
          rw [List.dropWhile_eq_nil_iff]
          intro x hx
          simp [List.eq_of_mem_replicate hx]
        rw [List.reverse_replicate, this]; rfl
    unfold packageName
    rw [if_pos]
    rcases this with h | h <;> rw [h] <;> decide
  · unfold packageName
    split
    · decide
    · next h => exact fun e => h (.inl e)
  · unfold packageName
    split
    · decide
    · next h =>
      unfold baseName at h ⊢
      split
      · decide
      · split
        · next h1 h2 => rw [if_neg h1, if_pos h2] at h; exact absurd (.inr (.inr rfl)) h
        · intro hm
          have := List.mem_takeWhile_imp (List.mem_reverse.1 hm)
          simp at this

/-- **C83**: an explicit package flag is used as it is. -/
theorem C83_package_flag (flag folder : Bytes) :
    (flag ≠ [] → pkgOf flag folder = flag) ∧ (flag = [] → pkgOf flag folder = packageName folder) := by
  unfold pkgOf
  exact ⟨fun h => by rw [if_pos h], fun h => by rw [if_neg (by simp [h])]⟩

/-- **C83**, second run in one process: the overrides of an earlier definition file are still in force, except where the new file gives its own; the list of dropped columns is not kept. -/
theorem C83_overrides_persist (L : Lib) (fmtOK : File → Bool) (f1 f2 : Flags) (provider : Bytes) (m : Maps) (a1 a2 : Answers) (o1 o2 : List Bytes) (d : Defs) (res1 res2 : List GTable)
    (h1 : listed f1 a1 = some res1) (ht : f1.typesDef = some (some d)) (h2 : listed f2 a2 = some res2) (ht2 : f2.typesDef = none) :
    let m1 := (runGenerate L fmtOK f1 provider m a1 o1).1
    (∀ k v, d.types.lookup k = some v → m1.types k = some v) ∧ (∀ k v, d.fields.lookup k = some v → m1.fields k = some v)
    ∧ (∀ k v, d.tables.lookup k = some v → m1.tables k = some v) ∧ (∀ k ∈ d.withCache, m1.withCache k = true)
    ∧ (∀ k, d.types.lookup k = none → m1.types k = m.types k) ∧ (∀ k, d.fields.lookup k = none → m1.fields k = m.fields k)
    ∧ (∀ k, d.tables.lookup k = none → m1.tables k = m.tables k) ∧ (∀ k, k ∉ d.withCache → m1.withCache k = m.withCache k)
    ∧ runGenerate L fmtOK f2 provider m1 a2 o2 = (m1, generate L (cfgOf f2 provider m1 []) fmtOK res2 o2) := by
  have : (runGenerate L fmtOK f1 provider m a1 o1).1 = m.add d := by
    unfold runGenerate; rw [h1, ht]
  simp only [this]
  refine ⟨?_, ?_, ?_, ?_, ?_, ?_, ?_, ?_, ?_⟩
  · intro k v h; simp [Maps.add, putAll, h]
  · intro k v h; simp [Maps.add, putAll, h]
  · intro k v h; simp [Maps.add, putAll, h]
  · intro k h; simp [Maps.add, h]
  · intro k h; simp [Maps.add, putAll, h]
  · intro k h; simp [Maps.add, putAll, h]
  · intro k h; simp [Maps.add, putAll, h]
  · intro k h; simp [Maps.add, h]
  · unfold runGenerate; rw [h2, ht2]

/-- The file a declaration goes to: in the folder given (or the standard output), named after the schema only if there are several. -/
def Spec.place (folder : Bytes) (order : List Bytes) (s kind : Bytes) : Target :=
  if folder = [] then .stdout else .path (folder ++ b!"/" ++ (if order.length ≤ 1 then kind else s ++ b!"_" ++ kind) ++ b!".gen.go")

/-- A field has the overridden name and type where the definitions give one; the type for a column name comes first. -/
def Spec.Overridden (m : Maps) (c : Column) (f : Field) : Prop :=
  f.column = c.name ∧ (∀ r, m.fields c.schemaName = some r → f.name = r) ∧ (∀ r, m.types c.name = some r → f.type = r)
    ∧ (m.types c.name = none → ∀ r, m.types c.schemaName = some r → f.type = r)

/-- **C83**: the flags and the overrides in force (those of the definition file, and of earlier runs) are applied: every listed table has its struct in the model file of its
schema in the model folder and its table info in the schema file in the schema folder; the struct has the overridden name, or else the name made from the table name and the
suffix; it has a cache field exactly if the table is among those with a cache; every kept column has its field with the overridden name and type. -/
theorem C83_overrides_apply (L : Lib) (fmtOK : File → Bool) (f : Flags) (provider : Bytes) (m : Maps) (a : Answers) (order : List Bytes) (m' : Maps) (evs : List Event)
    (res : List GTable) (hl : listed f a = some res) (drop : List Bytes) (hd : f.typesDef = none ∧ drop = [] ∨ ∃ d, f.typesDef = some (some d) ∧ drop = d.drop)
    (hord : IsOrder res order) (h : runGenerate L fmtOK f provider m a order = (m', evs, .ok)) (t : GTable) (ht : t ∈ res) :
    (∃ dv decls, Event.write (Spec.place f.outModel order t.schema b!"model") (.model dv decls) ∈ evs ∧ ∃ d ∈ decls, d.table = t.name ∧ d.schema = t.schema
      ∧ (∀ r, m'.tables t.schemaName = some r → d.structName = r)
      ∧ (m'.tables t.schemaName = none → (f.useSchema = false ∨ L.eqFold b!"public" t.schema = true ∨ L.eqFold b!"dbo" t.schema = true) → d.structName = L.pascal (L.singular t.name) ++ (if f.structSuffix = [] then [] else L.pascal f.structSuffix))
      ∧ (m'.tables t.schemaName = none → f.useSchema = true → L.eqFold b!"public" t.schema = false → L.eqFold b!"dbo" t.schema = false →
          d.structName = L.pascal t.schema ++ L.pascal (L.singular t.name) ++ (if f.structSuffix = [] then [] else L.pascal f.structSuffix))
      ∧ (d.withCache = true ↔ m'.withCache t.schemaName = true)
      ∧ List.Forall₂ (Spec.Overridden m') (t.columns.filter (fun c => !drop.contains c.name)) d.fields)
    ∧ (∃ dv infos mv es defs, Event.write (Spec.place f.outSchema order t.schema b!"schema") (.schema dv infos mv es defs) ∈ evs ∧ ∃ i ∈ infos, i.name = t.name ∧ i.schema = t.schema) := by
  have hg : generate L (cfgOf f provider m' drop) fmtOK res order = (evs, .ok) := by
    unfold runGenerate at h
    rw [hl] at h
    rcases hd with ⟨h1, rfl⟩ | ⟨d, h1, rfl⟩
    · rw [h1] at h
      simp only [Prod.mk.injEq] at h
      obtain ⟨rfl, h⟩ := h
      exact h
    · rw [h1] at h
      simp only [Prod.mk.injEq] at h
      obtain ⟨rfl, h⟩ := h
      exact h
  have place : ∀ folder s kind, target folder (decide (1 < order.length)) s kind = Spec.place folder order s kind := by
    intro folder s kind
    unfold target Spec.place
    by_cases e : order.length ≤ 1
    · simp [e, Nat.not_lt.2 e]
    · simp [e, Nat.lt_of_not_le e]
  obtain ⟨rounds, h1, h2, h3⟩ := generate_rounds hg
  obtain ⟨k, hk⟩ := List.mem_iff_getElem?.1 ((hord.2 t.schema).2 ⟨t, ht, rfl⟩)
  have hr : ∃ r, rounds[k]? = some r ∧ r.1 = t.schema := by
    rw [← h1, List.getElem?_map] at hk
    cases hg : rounds[k]? with
    | none => rw [hg] at hk; cases hk
    | some r => rw [hg] at hk; exact ⟨r, rfl, by simpa using hk⟩
  obtain ⟨r, hrk, hrs⟩ := hr
  obtain ⟨⟨dv, ds, e1, hdd⟩, ⟨dv', is, mv, es, defs, e2, hi, -, -⟩⟩ := h3 k r hrk
  have hmem : r ∈ rounds := List.mem_of_getElem? hrk
  have hin : t ∈ (order.take (k + 1)).flatMap (fun s => res.filter (fun t => t.schema = s)) := by
    refine List.mem_flatMap.2 ⟨t.schema, ?_, by simp [ht]⟩
    rw [List.mem_iff_getElem?]
    exact ⟨k, by rw [List.getElem?_take]; simp [hk]⟩
  obtain ⟨d, hdm, hds⟩ := forall2_right hdd t (by rw [hrs]; simp [ht])
  obtain ⟨i, him, hii⟩ := forall2_right hi t hin
  constructor
  · refine ⟨dv, ds, ?_, d, hdm, hds.table, hds.schema, ?_, ?_, ?_, ?_, ?_⟩
    · rw [h2]
      exact List.mem_flatMap.2 ⟨r, hmem, by rw [← e1, ← hrs, ← place]; simp [Spec.round, Gen.Spec.round, cfgOf]⟩
    · intro r hr
      rw [hds.name]
      simp [Gen.Spec.structName, cfgOf, hr]
    · intro hr hu
      rw [hds.name]
      rcases hu with hu | hu | hu <;> simp [Gen.Spec.structName, cfgOf, hr, hu]
    · intro hr hu u1 u2
      rw [hds.name]
      simp [Gen.Spec.structName, cfgOf, hr, hu, u1, u2]
    · rw [hds.cache]; rfl
    · refine hds.fields.imp ?_
      rintro c x ⟨n1, n2, n3, -⟩
      refine ⟨n3, ?_, ?_, ?_⟩
      · intro r hr
        unfold columnStructName at n1
        simp only [cfgOf, hr] at n1
        exact (Option.some.inj n1).symm
      · intro r hr
        unfold toGoType at n2
        simp only [cfgOf, hr] at n2
        exact (Option.some.inj n2).symm
      · intro h0 r hr
        unfold toGoType at n2
        simp only [cfgOf, h0, hr] at n2
        exact (Option.some.inj n2).symm
  · refine ⟨dv', is, mv, es, defs, ?_, i, him, hii.name, hii.schema⟩
    rw [h2]
    exact List.mem_flatMap.2 ⟨r, hmem, by rw [← e2, ← hrs, ← place]; simp [Spec.round, Gen.Spec.round, cfgOf]⟩

/-- **C83**: the models refer to the table infos by the package of the schema folder (or the package flag), and without package when both are in one package. -/
theorem C83_model_refers_to_schema_package (L : Lib) (fmtOK : File → Bool) (f : Flags) (provider : Bytes) (m : Maps) (a : Answers) (order : List Bytes) (m' : Maps)
    (evs : List Event) (res : List GTable) (hl : listed f a = some res) (hd : f.typesDef ≠ some none)
    (hord : IsOrder res order) (h : runGenerate L fmtOK f provider m a order = (m', evs, .ok)) (t : GTable) (ht : t ∈ res) :
    let mp := if f.pkgModel = [] then packageName f.outModel else f.pkgModel
    let sp := if f.pkgSchema = [] then packageName f.outSchema else f.pkgSchema
    ∃ mt st dv decls dv' infos mv es defs, Event.write mt (.model dv decls) ∈ evs ∧ Event.write st (.schema dv' infos mv es defs) ∈ evs
      ∧ ∃ d ∈ decls, ∃ i ∈ infos, d.table = t.name ∧ d.schema = t.schema ∧ i.name = t.name ∧ i.schema = t.schema
        ∧ (mp = sp → d.infoRef = i.var) ∧ (mp ≠ sp → d.infoRef = sp ++ b!"." ++ i.var) := by
  intro mp sp
  have hg : ∃ drop, generate L (cfgOf f provider m' drop) fmtOK res order = (evs, .ok) := by
    unfold runGenerate at h
    rw [hl] at h
    cases hx : f.typesDef with
    | none =>
      rw [hx] at h
      simp only [Prod.mk.injEq] at h
      obtain ⟨rfl, h⟩ := h
      exact ⟨_, h⟩
    | some x =>
      cases x with
      | none => exact absurd hx hd
      | some d =>
        rw [hx] at h
        simp only [Prod.mk.injEq] at h
        obtain ⟨rfl, h⟩ := h
        exact ⟨_, h⟩
  obtain ⟨drop, hg⟩ := hg
  obtain ⟨mt, st, dv, decls, dv', mv, infos, es, defs, w1, w2, d, hdm, i, him, -, -, a1, a2, a3, a4, a5, -⟩ :=
    C56_columns_agree L (cfgOf f provider m' drop) fmtOK _ order hord evs hg t ht
  have e1 : (cfgOf f provider m' drop).modelPkg = mp := by
    show pkgOf f.pkgModel f.outModel = mp
    unfold pkgOf
    by_cases e : f.pkgModel = [] <;> simp [mp, e]
  have e2 : (cfgOf f provider m' drop).schemaPkg = sp := by
    show pkgOf f.pkgSchema f.outSchema = sp
    unfold pkgOf
    by_cases e : f.pkgSchema = [] <;> simp [sp, e]
  rw [e1, e2] at a5
  refine ⟨mt, st, dv, decls, dv', infos, mv, es, defs, w1, w2, d, hdm, i, him, a1, a2, a3, a4, ?_, ?_⟩
  · intro e; rw [a5, if_pos e]; rfl
  · intro e; rw [a5, if_neg e]

/-! ### Concrete cases -/

def toyFlags : Flags := ⟨b!"db", [], b!"out/model", b!"out/schema/", [], [], [], false, some (some ⟨[], [], [(b!"app.users.id", b!"int64")], [b!"app.users"], [b!"secret"]⟩)⟩

example : (runGenerate toyLib (fun _ => true) toyFlags b!"postgres" Maps.start toyAnswers [b!"app", b!"audit"]).2.2 = .ok := by decide +kernel
example : listed toyFlags toyAnswers = some toyRes := by decide +kernel
example : (cfgOf toyFlags b!"postgres" Maps.start []).modelPkg = b!"model" ∧ (cfgOf toyFlags b!"postgres" Maps.start []).schemaPkg = b!"schema" := by decide +kernel
example : packageName b!"/srv/app/dbmodel//" = b!"dbmodel" := by decide +kernel
example : (runGenerate toyLib (fun _ => true) { toyFlags with views := [b!"v"] } b!"postgres" Maps.start { toyAnswers with views := none } [b!"app", b!"audit"]).2 = ([], .err) :=
  C83_failure_touches_nothing _ _ _ _ _ _ _ (.inr (.inr (.inl ⟨by decide, rfl⟩)))

end Cli
