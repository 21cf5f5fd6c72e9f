import Verif.Catalog.PgViews
set_option linter.unusedVariables false
set_option linter.unusedSimpArgs false
/-! `ListForeignKeys` of a Postgres database: C88. -/
namespace Catalog.Pg
open Schema (Rows TableRow ColRow IdxRow FkRow Catalogue Table Prov listForeignKeys)

variable {db : Db} {cat : Catalogue}

theorem flatMap_only {α β : Type} (f : α → List β) (x : α) : ∀ l : List α, l.Nodup → x ∈ l → (∀ y ∈ l, y ≠ x → f y = []) → l.flatMap f = f x := by
  intro l
  induction l with
  | nil => intro _ h; cases h
  | cons y ys ih =>
    intro hnd hx hf
    rw [List.nodup_cons] at hnd
    rw [List.flatMap_cons]
    rcases List.mem_cons.1 hx with rfl | hx
    · rw [flatMap_none f ys, List.append_nil]
      intro z hz
      exact hf z (by simp [hz]) (by rintro rfl; exact hnd.1 hz)
    · rw [hf y (by simp) (by rintro rfl; exact hnd.1 hx), List.nil_append]
      exact ih hnd.2 hx (fun z hz => hf z (by simp [hz]))

theorem WF.nodup (h : WF db) : db.Nodup := List.Nodup.of_map _ h.names

/-- A join by constraint name that meets only one constraint. -/
theorem only_con {β : Type} (h : WF db) (F : Rel → Con → List β) {r : Rel} (hr : r ∈ db) {c : Con} (hc : c ∈ r.cons)
    (hF : ∀ r' ∈ db, ∀ c' ∈ r'.cons, F r' c' ≠ [] → r' = r ∧ c' = c) : db.flatMap (fun r => r.cons.flatMap (F r)) = F r c := by
  rw [flatMap_only (fun r : Rel => r.cons.flatMap (F r)) r db h.nodup hr, flatMap_only (F r) c r.cons (List.Nodup.of_map _ (h.conNames r hr)) hc]
  · intro c' hc' hne
    by_contra hh
    exact hne (hF r hr c' hc' hh).2
  · intro r' hr' hne
    apply flatMap_none
    intro c' hc'
    by_contra hh
    exact hne (hF r' hr' c' hc' hh).1

/-- The rows of a constraint with a name of its own: every column with every column referred to. -/
def pairRows (r : Rel) (c : Con) : List FkRow := c.cols.flatMap (fun n => c.refCols.map (fun m => ⟨c.name, r.schema, r.name, n, c.refSchema, c.refTable, m⟩))

theorem queryForeignKeys_eq (h : WF db) (ho : PgSpec.ownKeyNames db) :
    queryForeignKeys db = db.flatMap (fun r => (r.cons.filter (fun c => c.kind = .foreign)).flatMap (pairRows r)) := by
  unfold queryForeignKeys tableConstraints
  rw [List.flatMap_assoc]
  apply flatMap_congr
  intro r hr
  rw [List.flatMap_map]
  have hfil : (r.cons.filter (fun c => c.kind = .foreign)).flatMap (pairRows r) = r.cons.flatMap (fun c => if c.kind = .foreign then pairRows r c else []) := by
    generalize r.cons = l
    induction l with
    | nil => rfl
    | cons c cs ih =>
      by_cases hk : c.kind = .foreign
      · rw [List.filter_cons_of_pos (by simpa using hk), List.flatMap_cons, List.flatMap_cons, ih, if_pos hk]
      · rw [List.filter_cons_of_neg (by simpa using hk), List.flatMap_cons, ih, if_neg hk, List.nil_append]
  rw [hfil]
  apply flatMap_congr
  intro c hc
  by_cases hk : c.kind = .foreign
  · rw [if_pos hk]
    simp only [hk, decide_true, and_true]
    have hown := ho r hr c hc hk
    have hccu : ∀ n : Bytes, (constraintColumnUsage db).flatMap (fun ccu => if ccu.1 = c.name
        then [(⟨c.name, r.schema, r.name, n, ccu.2.1, ccu.2.2.1, ccu.2.2.2⟩ : FkRow)] else [])
        = c.refCols.map (fun m => ⟨c.name, r.schema, r.name, n, c.refSchema, c.refTable, m⟩) := by
      intro n
      unfold constraintColumnUsage
      rw [List.flatMap_assoc]
      have := only_con (β := FkRow) h (fun r' c' => (if c'.kind = .foreign then c'.refCols.map (fun m => (c'.name, c'.refSchema, c'.refTable, m)) else c'.cols.map (fun m => (c'.name, r'.schema, r'.name, m))).flatMap
        (fun ccu => if ccu.1 = c.name then [(⟨c.name, r.schema, r.name, n, ccu.2.1, ccu.2.2.1, ccu.2.2.2⟩ : FkRow)] else [])) hr hc ?_
      · simp only [List.flatMap_assoc]
        rw [this]
        simp only [if_pos hk, List.flatMap_map, if_pos]
        generalize c.refCols = l
        induction l with
        | nil => rfl
        | cons m ms ih => rw [List.flatMap_cons, ih]; rfl
      · intro r' hr' c' hc' hne
        refine hown r' hr' c' hc' ?_
        by_contra hnn
        apply hne
        apply flatMap_none
        intro x hx
        have : x.1 = c'.name := by
          split at hx
          · obtain ⟨m, -, rfl⟩ := List.mem_map.1 hx; rfl
          · obtain ⟨m, -, rfl⟩ := List.mem_map.1 hx; rfl
        rw [if_neg (by rw [this]; exact hnn)]
    have hin : ∀ kcu : Bytes × Bytes × Bytes, (constraintColumnUsage db).flatMap (fun ccu => if c.name = kcu.2.1 ∧ r.schema = kcu.1 ∧ ccu.1 = c.name
        then [(⟨c.name, r.schema, r.name, kcu.2.2, ccu.2.1, ccu.2.2.1, ccu.2.2.2⟩ : FkRow)] else [])
        = if c.name = kcu.2.1 ∧ r.schema = kcu.1 then c.refCols.map (fun m => ⟨c.name, r.schema, r.name, kcu.2.2, c.refSchema, c.refTable, m⟩) else [] := by
      intro kcu
      by_cases he : c.name = kcu.2.1 ∧ r.schema = kcu.1
      · rw [if_pos he, ← hccu]
        apply flatMap_congr
        intro x _
        simp only [he.1.symm, he.2.symm, true_and]
      · rw [if_neg he]
        apply flatMap_none
        intro x _
        rw [if_neg (fun hh => he ⟨hh.1, hh.2.1⟩)]
    simp only [hin]
    unfold keyColumnUsage
    rw [List.flatMap_assoc]
    have := only_con (β := FkRow) h (fun r' c' => (if c'.kind = .check then [] else c'.cols.map (fun n => (r'.schema, c'.name, n))).flatMap
        (fun kcu => if c.name = kcu.2.1 ∧ r.schema = kcu.1 then c.refCols.map (fun m => (⟨c.name, r.schema, r.name, kcu.2.2, c.refSchema, c.refTable, m⟩ : FkRow)) else [])) hr hc ?_
    · simp only [List.flatMap_assoc]
      rw [this]
      have hnc : c.kind ≠ .check := by rw [hk]; decide
      simp only [if_neg hnc, List.flatMap_map, and_self, if_true]
      rfl
    · intro r' hr' c' hc' hne
      refine hown r' hr' c' hc' ?_
      by_contra hnn
      apply hne
      apply flatMap_none
      intro x hx
      have : x.2.1 = c'.name := by
        split at hx
        · cases hx
        · obtain ⟨m, -, rfl⟩ := List.mem_map.1 hx; rfl
      rw [if_neg (by rw [this]; exact fun hh => hnn hh.1.symm)]
  · rw [if_neg hk]
    apply flatMap_none
    intro kcu _
    apply flatMap_none
    intro ccu _
    simp [hk]

/-- **C88**: with foreign key names used once, `ListForeignKeys` returns, for every foreign key constraint of a table that passes the filters, every column of the key with every
column it refers to, and nothing else. -/
theorem C88_every_column_with_every_column (eqFold : Bytes → Bytes → Bool) (db : Db) (cat : Catalogue) (h : WF db) (ha : Answers db cat) (schemas tables : List Bytes) (p : Prov)
    (ho : PgSpec.ownKeyNames db) :
    ∃ l p', listForeignKeys eqFold cat schemas tables p = (.ok l, p') ∧ p'.leaked = p.leaked ∧
      l.Perm ((db.filter (fun r => PgSpec.asked eqFold schemas tables r)).flatMap (fun r => (r.cons.filter (fun c => c.kind = .foreign)).flatMap (fun c =>
        c.cols.flatMap (fun n => c.refCols.map (fun m => PgSpec.key r c n m))))) := by
  obtain ⟨hfine, hperm⟩ := answer_fine ha.fkeys
  obtain ⟨h1, h2⟩ := (Schema.C70_exactly_the_matching_foreign_keys eqFold cat schemas tables p).1 hfine
  refine ⟨_, _, Prod.ext h1 rfl, h2, ?_⟩
  unfold Schema.Spec.foreignKeys
  rw [queryForeignKeys_eq h ho] at hperm
  refine ((hperm.filter _).map _).trans (List.Perm.of_eq ?_)
  clear h1 h2 hperm hfine ha ho h
  induction db with
  | nil => rfl
  | cons r rs ih =>
    rw [List.flatMap_cons, List.filter_append, List.map_append, ih]
    by_cases hask : PgSpec.asked eqFold schemas tables r
    · rw [List.filter_cons_of_pos (by simpa using hask), List.flatMap_cons]
      congr 1
      rw [List.filter_eq_self.2]
      · simp only [List.map_flatMap, pairRows, List.map_map]
        rfl
      · intro x hx
        obtain ⟨c, -, hx⟩ := List.mem_flatMap.1 hx
        obtain ⟨n, -, hx⟩ := List.mem_flatMap.1 hx
        obtain ⟨m, -, rfl⟩ := List.mem_map.1 hx
        exact decide_eq_true hask
    · rw [List.filter_cons_of_neg (by simpa using hask), List.filter_eq_nil_iff.2, List.map_nil, List.nil_append]
      intro x hx
      obtain ⟨c, -, hx⟩ := List.mem_flatMap.1 hx
      obtain ⟨n, -, hx⟩ := List.mem_flatMap.1 hx
      obtain ⟨m, -, rfl⟩ := List.mem_map.1 hx
      simp only [decide_eq_true_eq]
      exact hask

/-- **C88**: with foreign key names used once and keys of a single column, `ListForeignKeys` returns exactly the foreign keys of the tables that pass the filters. -/
theorem C88_exactly_the_foreign_keys_partial (eqFold : Bytes → Bytes → Bool) (db : Db) (cat : Catalogue) (h : WF db) (ha : Answers db cat) (schemas tables : List Bytes) (p : Prov)
    (ho : PgSpec.ownKeyNames db) (hone : ∀ r ∈ db, ∀ c ∈ r.cons, c.kind = .foreign → c.cols.length = 1 ∧ c.refCols.length = 1) :
    ∃ l p', listForeignKeys eqFold cat schemas tables p = (.ok l, p') ∧ p'.leaked = p.leaked ∧ l.Perm (PgSpec.foreignKeys eqFold db schemas tables) := by
  obtain ⟨l, p', h1, h2, h3⟩ := C88_every_column_with_every_column eqFold db cat h ha schemas tables p ho
  refine ⟨l, p', h1, h2, h3.trans (List.Perm.of_eq ?_)⟩
  unfold PgSpec.foreignKeys
  apply flatMap_congr
  intro r hr
  apply flatMap_congr
  intro c hc
  obtain ⟨hc, hk⟩ := List.mem_filter.1 hc
  obtain ⟨e1, e2⟩ := hone r (List.mem_filter.1 hr).1 c hc (of_decide_eq_true hk)
  obtain ⟨n, e1⟩ := List.length_eq_one_iff.1 e1
  obtain ⟨m, e2⟩ := List.length_eq_one_iff.1 e2
  simp [PgSpec.keysOf, e1, e2]

/-! ### Witnesses, and where it stops -/

instance (db : Db) : Decidable (PgSpec.ownKeyNames db) := by unfold PgSpec.ownKeyNames; infer_instance

example : PgSpec.ownKeyNames shop ∧ (∀ r ∈ shop, ∀ c ∈ r.cons, c.kind = .foreign → c.cols.length = 1 ∧ c.refCols.length = 1)
    ∧ (PgSpec.foreignKeys Schema.eqB shop [] []).map (fun k => (k.table, k.column, k.refTable, k.refColumn)) = [(b!"orders", b!"user_id", b!"users", b!"id")] := by decide +kernel

/-- A key of two columns. -/
def composite : Db := [
  ⟨1, b!"a", b!"t", .table, [att 1 b!"x", att 2 b!"y"], [], [⟨b!"t_pkey", .primary, [b!"x", b!"y"], [], [], []⟩]⟩,
  ⟨2, b!"a", b!"u", .table, [att 1 b!"tx", att 2 b!"ty"], [], [⟨b!"u_fk", .foreign, [b!"tx", b!"ty"], b!"a", b!"t", [b!"x", b!"y"]⟩]⟩]

/-- **C88 fails** for a key of two columns: four keys are reported, two of which do not exist. -/
theorem C88_composite_key_is_a_cross_product : WF composite ∧ PgSpec.ownKeyNames composite
    ∧ (PgSpec.foreignKeys Schema.eqB composite [] []).map (fun k => (k.column, k.refColumn)) = [(b!"tx", b!"x"), (b!"ty", b!"y")]
    ∧ ∃ l, (listForeignKeys Schema.eqB (ask composite) [] [] Prov.new).1 = .ok l
      ∧ l.map (fun k => (k.column, k.refColumn)) = [(b!"tx", b!"x"), (b!"tx", b!"y"), (b!"ty", b!"x"), (b!"ty", b!"y")] := by
  refine ⟨WF_of _ (by decide +kernel) (by decide +kernel) (by decide +kernel) (by decide +kernel) (by decide +kernel) (by decide +kernel), by decide +kernel, by decide +kernel, _, rfl, by decide +kernel⟩

/-- Two tables of a schema whose keys have the same name (Postgres wants them distinct per table only). -/
def sameKeyName : Db := [
  ⟨1, b!"a", b!"t", .table, [att 1 b!"id"], [], []⟩, ⟨2, b!"a", b!"u", .table, [att 1 b!"id"], [], []⟩,
  ⟨3, b!"a", b!"v", .table, [att 1 b!"t_id"], [], [⟨b!"owner_fk", .foreign, [b!"t_id"], b!"a", b!"t", [b!"id"]⟩]⟩,
  ⟨4, b!"a", b!"w", .table, [att 1 b!"u_id"], [], [⟨b!"owner_fk", .foreign, [b!"u_id"], b!"a", b!"u", [b!"id"]⟩]⟩]

/-- **C88 fails** when two tables have keys of the same name: `v.t_id`, which refers to `t`, is also reported to refer to `u`, and `v` is reported with a column of `w`. -/
theorem C88_same_key_name_mixes_tables : WF sameKeyName ∧ ∃ l, (listForeignKeys Schema.eqB (ask sameKeyName) [] [] Prov.new).1 = .ok l ∧ l.length = 8
    ∧ (b!"v", b!"t_id", b!"u") ∈ l.map (fun k => (k.table, k.column, k.refTable)) ∧ (b!"v", b!"u_id", b!"u") ∈ l.map (fun k => (k.table, k.column, k.refTable)) := by
  refine ⟨WF_of _ (by decide +kernel) (by decide +kernel) (by decide +kernel) (by decide +kernel) (by decide +kernel) (by decide +kernel), _, rfl, by decide +kernel, by decide +kernel, by decide +kernel⟩

end Catalog.Pg
