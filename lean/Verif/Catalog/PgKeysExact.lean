import Verif.Catalog.PgKeys
import Mathlib.Tactic.Ring
set_option linter.unusedVariables false
set_option linter.unusedSimpArgs false
/-! C88, exactly: what `ListForeignKeys` reports about a Postgres database, for any constraint names, and when that is right. -/
namespace Catalog.PgSpec
open Pg

/-- All constraints of the database, with their tables. -/
def allCons (db : Db) : List (Rel × Con) := db.flatMap fun r => r.cons.map fun c => (r, c)

/-- The columns of all primary, unique and foreign keys of that name in that schema. -/
def columnsOfName (db : Db) (schema name : Bytes) : List Bytes :=
  (allCons db).flatMap fun x => if x.1.schema = schema ∧ x.2.name = name ∧ x.2.kind ≠ .check then x.2.cols else []

/-- The columns that constraints of that name, anywhere in the database, refer to (foreign keys) or are about (all others): schema, table, column. -/
def usedByName (db : Db) (name : Bytes) : List (Bytes × Bytes × Bytes) :=
  (allCons db).flatMap fun x => if x.2.name = name then
    (if x.2.kind = .foreign then x.2.refCols.map fun m => (x.2.refSchema, x.2.refTable, m) else x.2.cols.map fun n => (x.1.schema, x.1.name, n)) else []

/-- What is reported for a foreign key constraint: all these columns with all those. -/
def mixedKeys (db : Db) (r : Rel) (c : Con) : List Schema.ForeignKey :=
  (columnsOfName db r.schema c.name).flatMap fun n => (usedByName db c.name).map fun u =>
    { name := c.name, schema := r.schema, table := r.name, column := n, refSchema := u.1, refTable := u.2.1, refColumn := u.2.2
      schemaName := r.schema ++ b!"." ++ r.name ++ b!"." ++ c.name }

end Catalog.PgSpec

namespace Catalog.Pg
open Schema (Rows TableRow ColRow IdxRow FkRow Catalogue Table Prov listForeignKeys)

variable {db : Db} {cat : Catalogue}

theorem mem_allCons {r : Rel} {c : Con} : (r, c) ∈ PgSpec.allCons db ↔ r ∈ db ∧ c ∈ r.cons := by
  unfold PgSpec.allCons
  rw [List.mem_flatMap]
  constructor
  · rintro ⟨r', hr', h⟩
    obtain ⟨c', hc', e⟩ := List.mem_map.1 h
    simp only [Prod.mk.injEq] at e
    obtain ⟨rfl, rfl⟩ := e
    exact ⟨hr', hc'⟩
  · rintro ⟨hr, hc⟩
    exact ⟨r, hr, List.mem_map_of_mem hc⟩

theorem allCons_nodup (h : WF db) : (PgSpec.allCons db).Nodup := by
  unfold PgSpec.allCons
  rw [List.nodup_flatMap]
  constructor
  · intro r hr
    exact (List.Nodup.of_map _ (h.conNames r hr)).map (fun a b e => by simpa using e)
  · have := h.nodup
    refine List.Pairwise.imp ?_ this
    intro a b hne x hx hy
    obtain ⟨c, -, rfl⟩ := List.mem_map.1 hx
    obtain ⟨c', -, e⟩ := List.mem_map.1 hy
    simp only [Prod.mk.injEq] at e
    exact hne e.1.symm

theorem tableConstraints_eq (db : Db) : tableConstraints db = (PgSpec.allCons db).map (fun x => (x.1.schema, x.1.name, x.2.name, decide (x.2.kind = .foreign))) := by
  unfold tableConstraints PgSpec.allCons
  rw [List.map_flatMap]
  simp only [List.map_map, Function.comp_def]

theorem keyColumnUsage_eq (db : Db) : keyColumnUsage db = (PgSpec.allCons db).flatMap (fun x => if x.2.kind = .check then [] else x.2.cols.map (fun n => (x.1.schema, x.2.name, n))) := by
  unfold keyColumnUsage PgSpec.allCons
  rw [List.flatMap_assoc]
  simp only [List.flatMap_map]

theorem constraintColumnUsage_eq (db : Db) : constraintColumnUsage db = (PgSpec.allCons db).flatMap (fun x =>
    if x.2.kind = .foreign then x.2.refCols.map (fun n => (x.2.name, x.2.refSchema, x.2.refTable, n)) else x.2.cols.map (fun n => (x.2.name, x.1.schema, x.1.name, n))) := by
  unfold constraintColumnUsage PgSpec.allCons
  rw [List.flatMap_assoc]
  simp only [List.flatMap_map]

theorem flatMap_single {α β : Type} (f : α → β) (l : List α) : l.flatMap (fun x => [f x]) = l.map f := by
  induction l with
  | nil => rfl
  | cons x l ih => rw [List.flatMap_cons, ih]; rfl

/-- The rows for one constraint. -/
def mixedRows (db : Db) (r : Rel) (c : Con) : List FkRow :=
  (PgSpec.columnsOfName db r.schema c.name).flatMap fun n => (PgSpec.usedByName db c.name).map fun u => ⟨c.name, r.schema, r.name, n, u.1, u.2.1, u.2.2⟩

theorem queryForeignKeys_exactly (db : Db) : queryForeignKeys db = db.flatMap (fun r => (r.cons.filter (fun c => c.kind = .foreign)).flatMap (mixedRows db r)) := by
  unfold queryForeignKeys tableConstraints
  rw [List.flatMap_assoc]
  apply flatMap_congr
  intro r hr
  rw [List.flatMap_map]
  have hfil : (r.cons.filter (fun c => c.kind = .foreign)).flatMap (mixedRows db r) = r.cons.flatMap (fun c => if c.kind = .foreign then mixedRows db r c else []) := by
    generalize r.cons = l
    induction l with
    | nil => rfl
    | cons c cs ih =>
      by_cases hk : c.kind = .foreign
      · rw [List.filter_cons_of_pos (by simpa using hk), List.flatMap_cons, List.flatMap_cons, ih, if_pos hk]
      · rw [List.filter_cons_of_neg (by simpa using hk), List.flatMap_cons, ih, if_neg hk, List.nil_append]
  rw [hfil]
  apply flatMap_congr
  intro c hc
  by_cases hk : c.kind = .foreign
  · rw [if_pos hk]
    simp only [hk, decide_true, and_true]
    have hin : ∀ kcu : Bytes × Bytes × Bytes, (constraintColumnUsage db).flatMap (fun ccu => if c.name = kcu.2.1 ∧ r.schema = kcu.1 ∧ ccu.1 = c.name
        then [(⟨c.name, r.schema, r.name, kcu.2.2, ccu.2.1, ccu.2.2.1, ccu.2.2.2⟩ : FkRow)] else [])
        = if c.name = kcu.2.1 ∧ r.schema = kcu.1 then (PgSpec.usedByName db c.name).map (fun u => ⟨c.name, r.schema, r.name, kcu.2.2, u.1, u.2.1, u.2.2⟩) else [] := by
      intro kcu
      by_cases he : c.name = kcu.2.1 ∧ r.schema = kcu.1
      · rw [if_pos he, constraintColumnUsage_eq, List.flatMap_assoc, PgSpec.usedByName, List.map_flatMap]
        apply flatMap_congr
        intro x _
        by_cases hn : x.2.name = c.name
        · rw [if_pos hn]
          split
          · rw [List.flatMap_map, List.map_map, ← flatMap_single]
            apply flatMap_congr
            intro m _
            rw [if_pos ⟨he.1, he.2, hn⟩]
            rfl
          · rw [List.flatMap_map, List.map_map, ← flatMap_single]
            apply flatMap_congr
            intro m _
            rw [if_pos ⟨he.1, he.2, hn⟩]
            rfl
        · rw [if_neg hn, List.map_nil]
          apply flatMap_none
          intro y hy
          have : y.1 = x.2.name := by
            split at hy
            · obtain ⟨m, -, rfl⟩ := List.mem_map.1 hy; rfl
            · obtain ⟨m, -, rfl⟩ := List.mem_map.1 hy; rfl
          rw [if_neg (fun hh => hn (by rw [← this]; exact hh.2.2))]
      · rw [if_neg he]
        apply flatMap_none
        intro x _
        rw [if_neg (fun hh => he ⟨hh.1, hh.2.1⟩)]
    simp only [hin]
    rw [keyColumnUsage_eq, List.flatMap_assoc, mixedRows, PgSpec.columnsOfName, List.flatMap_assoc]
    apply flatMap_congr
    intro x _
    by_cases hx : x.1.schema = r.schema ∧ x.2.name = c.name ∧ x.2.kind ≠ .check
    · rw [if_pos hx, if_neg hx.2.2, List.flatMap_map]
      apply flatMap_congr
      intro n _
      rw [if_pos ⟨hx.2.1.symm, hx.1.symm⟩]
    · rw [if_neg hx, List.flatMap_nil]
      apply flatMap_none
      intro y hy
      split at hy
      · cases hy
      · rename_i hch
        obtain ⟨n, -, rfl⟩ := List.mem_map.1 hy
        rw [if_neg (fun hh => hx ⟨hh.2.symm, hh.1.symm, hch⟩)]
  · rw [if_neg hk]
    apply flatMap_none
    intro kcu _
    apply flatMap_none
    intro ccu _
    simp [hk]

/-- **C88, what is reported, exactly**: whatever the constraints are called, `ListForeignKeys` returns for every foreign key constraint of a table that passes the filters: every column of every
(primary, unique or foreign) key of that name in that schema, with every column that any constraint of that name refers to. -/
theorem C88_reported_keys_exactly (eqFold : Bytes → Bytes → Bool) (db : Db) (cat : Catalogue) (ha : Answers db cat) (schemas tables : List Bytes) (p : Prov) :
    ∃ l p', listForeignKeys eqFold cat schemas tables p = (.ok l, p') ∧ p'.leaked = p.leaked ∧
      l.Perm ((db.filter (fun r => PgSpec.asked eqFold schemas tables r)).flatMap (fun r => (r.cons.filter (fun c => c.kind = .foreign)).flatMap (PgSpec.mixedKeys db r))) := by
  obtain ⟨hfine, hperm⟩ := answer_fine ha.fkeys
  obtain ⟨h1, h2⟩ := (Schema.C70_exactly_the_matching_foreign_keys eqFold cat schemas tables p).1 hfine
  refine ⟨_, _, Prod.ext h1 rfl, h2, ?_⟩
  unfold Schema.Spec.foreignKeys
  rw [queryForeignKeys_exactly] at hperm
  refine ((hperm.filter _).map _).trans (List.Perm.of_eq ?_)
  clear h1 h2 hperm hfine ha
  have key : ∀ rs : List Rel, ((rs.flatMap (fun r => (r.cons.filter (fun c => c.kind = .foreign)).flatMap (mixedRows db r))).filter
        (fun k : FkRow => decide (Schema.Spec.matchesFilter eqFold schemas k.schema ∧ Schema.Spec.matchesFilter eqFold tables k.table))).map
        (fun k : FkRow => ({ name := k.name, schema := k.schema, table := k.table, column := k.column, refSchema := k.refSchema, refTable := k.refTable, refColumn := k.refColumn
                             schemaName := k.schema ++ b!"." ++ k.table ++ b!"." ++ k.name } : Schema.ForeignKey))
      = (rs.filter (fun r => PgSpec.asked eqFold schemas tables r)).flatMap (fun r => (r.cons.filter (fun c => c.kind = .foreign)).flatMap (PgSpec.mixedKeys db r)) := by
    intro rs
    induction rs with
    | nil => rfl
    | cons r rs ih =>
      rw [List.flatMap_cons, List.filter_append, List.map_append, ih]
      by_cases hask : PgSpec.asked eqFold schemas tables r
      · rw [List.filter_cons_of_pos (by simpa using hask), List.flatMap_cons]
        congr 1
        rw [List.filter_eq_self.2]
        · simp only [List.map_flatMap, mixedRows, List.map_map]
          rfl
        · intro x hx
          obtain ⟨c, -, hx⟩ := List.mem_flatMap.1 hx
          obtain ⟨n, -, hx⟩ := List.mem_flatMap.1 hx
          obtain ⟨m, -, rfl⟩ := List.mem_map.1 hx
          exact decide_eq_true hask
      · rw [List.filter_cons_of_neg (by simpa using hask), List.filter_eq_nil_iff.2, List.map_nil, List.nil_append]
        intro x hx
        obtain ⟨c, -, hx⟩ := List.mem_flatMap.1 hx
        obtain ⟨n, -, hx⟩ := List.mem_flatMap.1 hx
        obtain ⟨m, -, rfl⟩ := List.mem_map.1 hx
        simp only [decide_eq_true_eq]
        exact hask
  exact key db

/-! ### When that is right -/

theorem length_le_flatMap {α β : Type} [DecidableEq α] (f : α → List β) {l : List α} {x : α} (hx : x ∈ l) : (f x).length ≤ (l.flatMap f).length := by
  rw [(List.Perm.flatMap_right f (List.perm_cons_erase hx)).length_eq, List.flatMap_cons, List.length_append]
  omega

theorem length_le_flatMap₂ {α β : Type} [DecidableEq α] (f : α → List β) {l : List α} {x y : α} (hx : x ∈ l) (hy : y ∈ l) (hne : y ≠ x) :
    (f x).length + (f y).length ≤ (l.flatMap f).length := by
  rw [(List.Perm.flatMap_right f (List.perm_cons_erase hx)).length_eq, List.flatMap_cons, List.length_append]
  have := length_le_flatMap f ((List.mem_erase_of_ne hne).2 hy)
  omega

theorem length_product {α β γ : Type} (f : α → β → γ) (as : List α) (bs : List β) : (as.flatMap fun a => bs.map (f a)).length = as.length * bs.length := by
  induction as with
  | nil => simp
  | cons a as ih => rw [List.flatMap_cons, List.length_append, ih, List.length_map, List.length_cons]; ring

/-- The keys of one constraint, picked out of a listing by the names in them. -/
theorem pick_con (h : WF db) (eqFold : Bytes → Bytes → Bool) (schemas tables : List Bytes) (F : Rel → Con → List Schema.ForeignKey)
    (hF : ∀ r c, ∀ x ∈ F r c, x.schema = r.schema ∧ x.table = r.name ∧ x.name = c.name) {r : Rel} (hr : r ∈ db) (hask : PgSpec.asked eqFold schemas tables r) {c : Con} (hc : c ∈ r.cons)
    (hk : c.kind = .foreign) :
    ((db.filter (fun r => PgSpec.asked eqFold schemas tables r)).flatMap (fun r => (r.cons.filter (fun c => c.kind = .foreign)).flatMap (F r))).filter
      (fun x => x.schema = r.schema ∧ x.table = r.name ∧ x.name = c.name) = F r c := by
  rw [List.filter_flatMap, flatMap_only _ r _ (h.nodup.filter _) (List.mem_filter.2 ⟨hr, by simpa using hask⟩),
    List.filter_flatMap, flatMap_only _ c _ ((List.Nodup.of_map _ (h.conNames r hr)).filter _) (List.mem_filter.2 ⟨hc, by simpa using hk⟩), List.filter_eq_self.2]
  · intro x hx
    simpa using hF r c x hx
  · intro c' hc' hne
    rw [List.filter_eq_nil_iff]
    intro x hx
    obtain ⟨-, -, e⟩ := hF r c' x hx
    simp only [decide_eq_true_eq, not_and]
    intro _ _ e'
    exact hne (List.inj_on_of_nodup_map (h.conNames r hr) (List.mem_filter.1 hc').1 hc (by rw [← e, e']))
  · intro r' hr' hne
    rw [List.filter_eq_nil_iff]
    intro x hx
    obtain ⟨c', -, hx⟩ := List.mem_flatMap.1 hx
    obtain ⟨e1, e2, -⟩ := hF r' c' x hx
    simp only [decide_eq_true_eq, not_and]
    intro g1 g2
    exact absurd (h.name_inj (List.mem_filter.1 hr').1 hr (by rw [← e1, g1]) (by rw [← e2, g2])) hne

/-- **C88, when it is right, exactly**: the keys returned are the foreign keys of the tables that pass the filters if and only if every foreign key constraint of these tables has a single column, and no
other constraint of its name, wherever in the database, has a column. -/
theorem C88_exact_iff (eqFold : Bytes → Bytes → Bool) (db : Db) (cat : Catalogue) (h : WF db) (ha : Answers db cat) (schemas tables : List Bytes) (p : Prov)
    (hfk : ∀ r ∈ db, ∀ c ∈ r.cons, c.kind = .foreign → c.cols ≠ [] ∧ c.refCols.length = c.cols.length) :
    (∃ l p', listForeignKeys eqFold cat schemas tables p = (.ok l, p') ∧ l.Perm (PgSpec.foreignKeys eqFold db schemas tables))
      ↔ ∀ r ∈ db, PgSpec.asked eqFold schemas tables r → ∀ c ∈ r.cons, c.kind = .foreign →
          c.cols.length = 1 ∧ ∀ r' ∈ db, ∀ c' ∈ r'.cons, c'.name = c.name → (r' = r ∧ c' = c) ∨ c'.cols = [] := by
  obtain ⟨l, p', h1, -, h3⟩ := C88_reported_keys_exactly eqFold db cat ha schemas tables p
  have hleft : (∃ l p', listForeignKeys eqFold cat schemas tables p = (.ok l, p') ∧ l.Perm (PgSpec.foreignKeys eqFold db schemas tables))
      ↔ ((db.filter (fun r => PgSpec.asked eqFold schemas tables r)).flatMap (fun r => (r.cons.filter (fun c => c.kind = .foreign)).flatMap (PgSpec.mixedKeys db r))).Perm
          (PgSpec.foreignKeys eqFold db schemas tables) := by
    constructor
    · rintro ⟨l', q, g1, g2⟩
      rw [h1] at g1
      simp only [Prod.mk.injEq, Schema.Out.ok.injEq] at g1
      rw [← g1.1] at g2
      exact h3.symm.trans g2
    · intro g
      exact ⟨l, p', h1, h3.trans g⟩
  rw [hleft]
  have hmk : ∀ r c, ∀ x ∈ PgSpec.mixedKeys db r c, x.schema = r.schema ∧ x.table = r.name ∧ x.name = c.name := by
    intro r c x hx
    obtain ⟨n, -, hx⟩ := List.mem_flatMap.1 hx
    obtain ⟨u, -, rfl⟩ := List.mem_map.1 hx
    exact ⟨rfl, rfl, rfl⟩
  have hko : ∀ r c, ∀ x ∈ PgSpec.keysOf r c, x.schema = r.schema ∧ x.table = r.name ∧ x.name = c.name := by
    intro r c x hx
    obtain ⟨q, -, rfl⟩ := List.mem_map.1 hx
    exact ⟨rfl, rfl, rfl⟩
  -- what the other constraints of the name contribute
  let gA : Rel → Con → Rel × Con → List Bytes := fun r c x => if x.1.schema = r.schema ∧ x.2.name = c.name ∧ x.2.kind ≠ .check then x.2.cols else []
  let gB : Con → Rel × Con → List (Bytes × Bytes × Bytes) := fun c x => if x.2.name = c.name then
    (if x.2.kind = .foreign then x.2.refCols.map fun m => (x.2.refSchema, x.2.refTable, m) else x.2.cols.map fun n => (x.1.schema, x.1.name, n)) else []
  have hA : ∀ r c, PgSpec.columnsOfName db r.schema c.name = (PgSpec.allCons db).flatMap (gA r c) := fun r c => rfl
  have hB : ∀ c, PgSpec.usedByName db c.name = (PgSpec.allCons db).flatMap (gB c) := fun c => rfl
  have hgA : ∀ r c, c.kind = .foreign → gA r c (r, c) = c.cols := by
    intro r c hk
    show (if _ then _ else _) = _
    rw [if_pos ⟨rfl, rfl, by rw [hk]; decide⟩]
  have hgB : ∀ r c, c.kind = .foreign → gB c (r, c) = c.refCols.map fun m => (c.refSchema, c.refTable, m) := by
    intro r c hk
    show (if _ then _ else _) = _
    rw [if_pos rfl, if_pos hk]
  constructor
  · intro hperm r hr hask c hc hk
    obtain ⟨hne, hlen⟩ := hfk r hr c hc hk
    have hp := hperm.filter (fun x => decide (x.schema = r.schema ∧ x.table = r.name ∧ x.name = c.name))
    unfold PgSpec.foreignKeys at hp
    rw [pick_con h eqFold schemas tables (PgSpec.mixedKeys db) hmk hr hask hc hk, pick_con h eqFold schemas tables PgSpec.keysOf hko hr hask hc hk] at hp
    have hlen' := hp.length_eq
    unfold PgSpec.mixedKeys PgSpec.keysOf at hlen'
    rw [length_product, List.length_map, List.length_zip, hlen, Nat.min_self, hA, hB] at hlen'
    have hm : (r, c) ∈ PgSpec.allCons db := mem_allCons.2 ⟨hr, hc⟩
    have ha1 := length_le_flatMap (gA r c) hm
    have hb1 := length_le_flatMap (gB c) hm
    rw [hgA r c hk] at ha1
    rw [hgB r c hk, List.length_map, hlen] at hb1
    have hpos : 0 < c.cols.length := List.length_pos_of_ne_nil hne
    have hone : c.cols.length = 1 ∧ ((PgSpec.allCons db).flatMap (gB c)).length = 1 := by
      have e1 : c.cols.length * ((PgSpec.allCons db).flatMap (gB c)).length ≤ c.cols.length * 1 := by
        rw [Nat.mul_one]
        calc c.cols.length * ((PgSpec.allCons db).flatMap (gB c)).length ≤ ((PgSpec.allCons db).flatMap (gA r c)).length * ((PgSpec.allCons db).flatMap (gB c)).length :=
              Nat.mul_le_mul_right _ ha1
          _ = c.cols.length := hlen'
      have e2 := Nat.le_of_mul_le_mul_left e1 hpos
      omega
    refine ⟨hone.1, ?_⟩
    intro r' hr' c' hc' hname
    by_cases hsame : (r', c') = (r, c)
    · simp only [Prod.mk.injEq] at hsame
      exact Or.inl hsame
    · right
      have h2 := length_le_flatMap₂ (gB c) hm (mem_allCons.2 ⟨hr', hc'⟩) hsame
      rw [hgB r c hk, List.length_map, hlen, hone.1, hone.2] at h2
      have h0 : (gB c (r', c')).length = 0 := by omega
      have hb : gB c (r', c') = (if c'.kind = .foreign then c'.refCols.map fun m => (c'.refSchema, c'.refTable, m) else c'.cols.map fun n => (r'.schema, r'.name, n)) := by
        show (if _ then _ else _) = _
        rw [if_pos hname]
      rw [hb] at h0
      split at h0
      · rename_i hk'
        obtain ⟨g1, g2⟩ := hfk r' hr' c' hc' hk'
        rw [List.length_map, g2] at h0
        exact List.length_eq_zero_iff.1 h0
      · rw [List.length_map] at h0
        exact List.length_eq_zero_iff.1 h0
  · intro hall
    refine List.Perm.of_eq ?_
    unfold PgSpec.foreignKeys
    apply flatMap_congr
    intro r hr
    obtain ⟨hr, hask⟩ := List.mem_filter.1 hr
    apply flatMap_congr
    intro c hc
    obtain ⟨hc, hk⟩ := List.mem_filter.1 hc
    have hk := of_decide_eq_true hk
    obtain ⟨hone, hoth⟩ := hall r hr (of_decide_eq_true hask) c hc hk
    obtain ⟨hne, hlen⟩ := hfk r hr c hc hk
    have hm : (r, c) ∈ PgSpec.allCons db := mem_allCons.2 ⟨hr, hc⟩
    have hAe : PgSpec.columnsOfName db r.schema c.name = c.cols := by
      rw [hA, flatMap_only (gA r c) (r, c) _ (allCons_nodup h) hm, hgA r c hk]
      rintro ⟨r', c'⟩ hy hne'
      obtain ⟨hr', hc'⟩ := mem_allCons.1 hy
      show (if _ then _ else _) = _
      split
      · rename_i hh
        rcases hoth r' hr' c' hc' hh.2.1 with g | g
        · exact absurd (by rw [g.1, g.2]) hne'
        · exact g
      · rfl
    have hBe : PgSpec.usedByName db c.name = c.refCols.map fun m => (c.refSchema, c.refTable, m) := by
      rw [hB, flatMap_only (gB c) (r, c) _ (allCons_nodup h) hm, hgB r c hk]
      rintro ⟨r', c'⟩ hy hne'
      obtain ⟨hr', hc'⟩ := mem_allCons.1 hy
      show (if _ then _ else _) = _
      split
      · rename_i hh
        rcases hoth r' hr' c' hc' hh with g | g
        · exact absurd (by rw [g.1, g.2]) hne'
        · split
          · rename_i hk'
            exact absurd g (hfk r' hr' c' hc' hk').1
          · show c'.cols.map _ = []
            rw [g]
            rfl
      · rfl
    unfold PgSpec.mixedKeys PgSpec.keysOf
    rw [hAe, hBe]
    obtain ⟨n, e1⟩ := List.length_eq_one_iff.1 hone
    obtain ⟨m, e2⟩ := List.length_eq_one_iff.1 (hlen.trans hone)
    rw [e1, e2]
    rfl

/-! ### Witnesses -/

example : ∃ l p', listForeignKeys Schema.eqB (ask shop) [] [] Prov.new = (.ok l, p') ∧ l.Perm (PgSpec.foreignKeys Schema.eqB shop [] []) :=
  (C88_exact_iff Schema.eqB shop (ask shop) shop_wf (ask_answers _) [] [] Prov.new (by decide +kernel)).2 (by decide +kernel)

example : PgSpec.foreignKeys Schema.eqB shop [] [] ≠ [] := by decide +kernel

example : ¬ ∃ l p', listForeignKeys Schema.eqB (ask sameKeyName) [] [] Prov.new = (.ok l, p') ∧ l.Perm (PgSpec.foreignKeys Schema.eqB sameKeyName [] []) := by
  rw [C88_exact_iff Schema.eqB sameKeyName (ask sameKeyName) C88_same_key_name_mixes_tables.1 (ask_answers _) [] [] Prov.new (by decide +kernel)]
  decide +kernel

end Catalog.Pg
