import Verif.Catalog.MsSpec
import Verif.Catalog.PgKeys
set_option linter.unusedVariables false
set_option linter.unusedSimpArgs false
/-! Joins over the system views of a well-formed SQL Server database. -/
namespace Catalog.Ms
open Schema (Rows TableRow ColRow IdxRow FkRow Catalogue)
open Pg (flatMap_only)

variable {db : Db} {cat : Catalogue}

theorem lookup_of_mem {β : Type} : ∀ (l : List (Nat × β)), (l.map (·.1)).Nodup → ∀ x ∈ l, l.lookup x.1 = some x.2 := by
  intro l
  induction l with
  | nil => intro _ x hx; cases hx
  | cons y ys ih =>
    intro hnd x hx
    rw [List.map_cons, List.nodup_cons] at hnd
    obtain ⟨k, v⟩ := y
    rcases List.mem_cons.1 hx with rfl | hx
    · simp [List.lookup_cons]
    · have hne : x.1 ≠ k := fun e => hnd.1 (List.mem_map.2 ⟨x, hx, e⟩)
      rw [List.lookup_cons]
      have : (x.1 == k) = false := by simpa using hne
      rw [this]
      exact ih hnd.2 x hx

theorem WF.schema_mem (h : WF db) {r : Rel} (hr : r ∈ db.rels) : (r.schemaId, schemaName db r.schemaId) ∈ db.schemas := by
  obtain ⟨x, hx, e⟩ := List.mem_map.1 (h.hasSchema r hr)
  have := lookup_of_mem _ h.schemaIds x hx
  unfold schemaName
  rw [← e, this]
  exact hx

theorem WF.schema_inj (h : WF db) {r r' : Rel} (hr : r ∈ db.rels) (hr' : r' ∈ db.rels) (e : schemaName db r.schemaId = schemaName db r'.schemaId) : r.schemaId = r'.schemaId := by
  have := List.inj_on_of_nodup_map h.schemaNames (h.schema_mem hr) (h.schema_mem hr') e
  simpa using congrArg Prod.fst this

theorem WF.oid_nodup (h : WF db) : (db.rels.map (·.oid)).Nodup := (List.nodup_append.1 h.oids).1
theorem WF.nodup (h : WF db) : db.rels.Nodup := List.Nodup.of_map _ h.names

theorem WF.oid_inj (h : WF db) {r r' : Rel} (hr : r ∈ db.rels) (hr' : r' ∈ db.rels) (e : r.oid = r'.oid) : r = r' :=
  List.inj_on_of_nodup_map h.oid_nodup hr hr' e

theorem WF.name_inj (h : WF db) {r r' : Rel} (hr : r ∈ db.rels) (hr' : r' ∈ db.rels) (e1 : schemaName db r.schemaId = schemaName db r'.schemaId) (e2 : r.name = r'.name) : r = r' :=
  List.inj_on_of_nodup_map h.names hr hr' (by simp [h.schema_inj hr hr' e1, e2])

theorem WF.fullnames (h : WF db) : (db.rels.map (fun r => (schemaName db r.schemaId, r.name))).Nodup := by
  rw [List.Nodup, List.pairwise_map]
  refine List.Pairwise.imp_of_mem ?_ h.nodup
  intro a b ha hb hne e
  simp only [Prod.mk.injEq] at e
  exact hne (h.name_inj ha hb e.1 e.2)

/-- Joining with `sys.schemas`. -/
theorem join_schema {β : Type} (h : WF db) {r : Rel} (hr : r ∈ db.rels) (f : Nat × Bytes → List β) :
    db.schemas.flatMap (fun s => if s.1 = r.schemaId then f s else []) = f (r.schemaId, schemaName db r.schemaId) := by
  rw [flatMap_only _ (r.schemaId, schemaName db r.schemaId) db.schemas (List.Nodup.of_map _ h.schemaIds) (h.schema_mem hr)]
  · simp
  · intro y hy hne
    rw [if_neg]
    intro e
    exact hne (List.inj_on_of_nodup_map h.schemaIds hy (h.schema_mem hr) e)

def tableRow (db : Db) (r : Rel) : TableRow := ⟨schemaName db r.schemaId, r.name, b!"USER_TABLE"⟩

def colRow (c : Col) : ColRow := ⟨c.name, c.type, c.type, if c.nullable then b!"YES" else b!"NO", c.maxLen, c.ordinal⟩

theorem queryTables_eq (h : WF db) : queryTables db = (db.rels.filter (fun r => MsSpec.isTable r)).flatMap (fun r => List.replicate (MsSpec.times db r) (tableRow db r)) := by
  have hfil : (db.rels.filter (fun r => MsSpec.isTable r)).flatMap (fun r => List.replicate (MsSpec.times db r) (tableRow db r))
      = (sysTables db).flatMap (fun r => if r.shipped = false then List.replicate (MsSpec.times db r) (tableRow db r) else []) := by
    unfold sysTables
    generalize List.replicate = rep
    generalize db.rels = l
    induction l with
    | nil => rfl
    | cons x xs ih =>
      by_cases hk : x.kind = .table
      · rw [List.filter_cons_of_pos (p := fun r : Rel => decide (r.kind = Kind.table)) (by simpa using hk), List.flatMap_cons, ← ih]
        by_cases hs : x.shipped = false
        · rw [List.filter_cons_of_pos (by simp [MsSpec.isTable, hk, hs]), List.flatMap_cons, if_pos hs]
        · rw [List.filter_cons_of_neg (by simp [MsSpec.isTable, hk, hs]), if_neg hs, List.nil_append]
      · rw [List.filter_cons_of_neg (p := fun r : Rel => decide (r.kind = Kind.table)) (by simpa using hk), List.filter_cons_of_neg (by simp [MsSpec.isTable, hk]), ih]
  rw [hfil]
  unfold queryTables
  apply flatMap_congr
  intro r hr
  rw [join_schema h (List.mem_filter.1 hr).1]
  have hrep : ∀ l : List (Option ExtProp), (l.flatMap (fun ep => if r.shipped = false ∧ propOk ep = true then [tableRow db r] else []))
      = if r.shipped = false then List.replicate (l.filter propOk).length (tableRow db r) else [] := by
    intro l
    by_cases hs : r.shipped = false
    · rw [if_pos hs]
      induction l with
      | nil => rfl
      | cons x xs ih =>
        rw [List.flatMap_cons, ih]
        by_cases hx : propOk x = true
        · rw [if_pos ⟨hs, hx⟩, List.filter_cons_of_pos hx]; rfl
        · rw [if_neg (fun hh => hx hh.2), List.filter_cons_of_neg hx]; rfl
    · rw [if_neg hs]
      apply flatMap_none
      intro x _
      rw [if_neg (fun hh => hs hh.1)]
  have := hrep (leftJoin db.props (fun e => e.major = r.oid))
  unfold tableRow at this
  rw [this]
  have hn : ((leftJoin db.props (fun e => e.major = r.oid)).filter propOk).length = MsSpec.times db r := by
    unfold leftJoin MsSpec.times MsSpec.propsOf
    by_cases he : db.props.filter (fun e => e.major = r.oid) = []
    · rw [if_pos he, if_pos he]; rfl
    · rw [if_neg he, if_neg he, List.filter_map, List.length_map]
      congr 1
  rw [hn]
  rfl

theorem infoColumns_of (h : WF db) {r : Rel} (hr : r ∈ db.rels) :
    (infoColumns db).filter (fun c => c.1 = schemaName db r.schemaId ∧ c.2.1 = r.name) = r.cols.map (fun c => (schemaName db r.schemaId, r.name, colRow c)) := by
  have hx := flatMap_key (fun r : Rel => (schemaName db r.schemaId, r.name)) (fun r : Rel => r.cols.map (fun c => (schemaName db r.schemaId, r.name, colRow c))) r db.rels h.fullnames hr
  rw [← hx]
  unfold infoColumns
  rw [List.filter_flatMap]
  apply flatMap_congr
  intro x _
  by_cases hn : (schemaName db x.schemaId, x.name) = (schemaName db r.schemaId, r.name)
  · rw [if_pos hn, List.filter_eq_self.2]
    · rfl
    · intro c hc
      obtain ⟨a, -, rfl⟩ := List.mem_map.1 hc
      simpa using hn
  · rw [if_neg hn, List.filter_eq_nil_iff.2]
    intro c hc
    obtain ⟨a, -, rfl⟩ := List.mem_map.1 hc
    simpa using hn

theorem queryColumns_eq (h : WF db) {r : Rel} (hr : r ∈ db.rels) : queryColumns db (schemaName db r.schemaId) r.name = r.cols.map colRow := by
  unfold queryColumns
  rw [infoColumns_of h hr, List.map_map]
  rfl

/-! ### Indexes -/

theorem indexJoin_perm (h : WF db) {r : Rel} (hr : r ∈ db.rels) {i : Idx} (hi : i ∈ r.idxs) :
    ((sysIndexColumns db).flatMap (fun ic => (sysColumns db).flatMap (fun col =>
      if ic.1 = col.1 ∧ ic.2.2 = col.2.1 ∧ ic.1 = r.oid ∧ ic.2.1 = i.id then [(col.2.1, col.2.2)] else []))).Perm
        ((r.cols.filter (fun c => c.id ∈ i.key ++ i.included)).map (fun c => (c.id, c.name))) := by
  have hcol : ∀ cid : Nat, ∀ f : Nat × Nat × Bytes → List (Nat × Bytes), (sysColumns db).flatMap (fun col => if r.oid = col.1 ∧ cid = col.2.1 then f col else [])
      = r.cols.flatMap (fun c => if cid = c.id then f (r.oid, c.id, c.name) else []) := by
    intro cid f
    unfold sysColumns
    rw [List.flatMap_assoc, flatMap_only _ r db.rels h.nodup hr]
    · rw [List.flatMap_map]
      apply flatMap_congr
      intro c _
      simp
    · intro y hy hne
      rw [List.flatMap_map]
      apply flatMap_none
      intro c _
      rw [if_neg]
      rintro ⟨e, -⟩
      exact hne (h.oid_inj hy hr e.symm)
  have hJ : (sysIndexColumns db).flatMap (fun ic => (sysColumns db).flatMap (fun col =>
      if ic.1 = col.1 ∧ ic.2.2 = col.2.1 ∧ ic.1 = r.oid ∧ ic.2.1 = i.id then [(col.2.1, col.2.2)] else []))
      = (i.key ++ i.included).flatMap (fun cid => r.cols.flatMap (fun c => if cid = c.id then [(c.id, c.name)] else [])) := by
    unfold sysIndexColumns
    rw [List.flatMap_assoc, flatMap_only _ r db.rels h.nodup hr]
    · rw [List.flatMap_assoc, flatMap_only _ i r.idxs (List.Nodup.of_map _ (h.idxIds r hr)) hi]
      · rw [List.flatMap_map]
        apply flatMap_congr
        intro cid _
        rw [← hcol cid (fun col => [(col.2.1, col.2.2)])]
        apply flatMap_congr
        intro col _
        simp
      · intro j hj hne
        rw [List.flatMap_map]
        apply flatMap_none
        intro cid _
        apply flatMap_none
        intro col _
        rw [if_neg]
        rintro ⟨-, -, -, e⟩
        exact hne (List.inj_on_of_nodup_map (h.idxIds r hr) hj hi e)
    · intro y hy hne
      rw [List.flatMap_assoc]
      apply flatMap_none
      intro j _
      rw [List.flatMap_map]
      apply flatMap_none
      intro cid _
      apply flatMap_none
      intro col _
      rw [if_neg]
      rintro ⟨-, -, e, -⟩
      exact hne (h.oid_inj hy hr e)
  rw [hJ]
  have hfst : ∀ l : List Nat, ((l.flatMap (fun cid => r.cols.flatMap (fun c => if cid = c.id then [(c.id, c.name)] else []))).map (·.1)) = l.filter (fun cid => cid ∈ r.cols.map (·.id)) := by
    intro l
    induction l with
    | nil => rfl
    | cons x xs ih =>
      rw [List.flatMap_cons, List.map_append, ih]
      by_cases hx : x ∈ r.cols.map (·.id)
      · obtain ⟨c, hc, rfl⟩ := List.mem_map.1 hx
        rw [List.filter_cons_of_pos (by simpa using hx)]
        have : r.cols.flatMap (fun c' => if c.id = c'.id then [(c'.id, c'.name)] else []) = [(c.id, c.name)] := by
          rw [← flatMap_key (fun c : Col => c.id) (fun c : Col => [(c.id, c.name)]) c r.cols (h.colIds r hr) hc]
          apply flatMap_congr
          intro y _
          simp only [eq_comm]
        rw [this]; rfl
      · rw [List.filter_cons_of_neg (by simpa using hx), flatMap_none]
        · rfl
        · intro c hc
          rw [if_neg]
          rintro rfl
          exact hx (List.mem_map_of_mem hc)
  rw [List.perm_ext_iff_of_nodup]
  · intro x
    simp only [List.mem_flatMap, List.mem_map, List.mem_filter, decide_eq_true_eq]
    constructor
    · rintro ⟨cid, hcid, c, hc, hx⟩
      split at hx
      · rename_i e
        rw [List.mem_singleton] at hx
        exact ⟨c, ⟨hc, by rw [← e]; exact hcid⟩, hx.symm⟩
      · cases hx
    · rintro ⟨c, ⟨hc, hm⟩, rfl⟩
      exact ⟨c.id, hm, c, hc, by simp⟩
  · refine List.Nodup.of_map (fun x : Nat × Bytes => x.1) ?_
    rw [hfst]
    exact (h.idxOnce r hr i hi).filter _
  · refine List.Nodup.of_map (fun x : Nat × Bytes => x.1) ?_
    rw [List.map_map]
    exact (h.colIds r hr).sublist (List.Sublist.map _ List.filter_sublist)

theorem indexColumns_perm (h : WF db) {r : Rel} (hr : r ∈ db.rels) {i : Idx} (hi : i ∈ r.idxs) :
    (indexColumns db r.oid i.id).Perm ((r.cols.filter (fun c => c.id ∈ i.key ++ i.included)).map (fun c => (c.id, c.name))) :=
  (Util.sort_perm _ _).trans (indexJoin_perm h hr hi)

/-- They come ordered by identifier. -/
theorem indexColumns_order (h : WF db) {r : Rel} (hr : r ∈ db.rels) {i : Idx} (hi : i ∈ r.idxs) :
    ∃ cs : List Col, cs.Perm (r.cols.filter (fun c => c.id ∈ i.key ++ i.included)) ∧ cs.Pairwise (fun a b => a.id < b.id) ∧ indexColumns db r.oid i.id = cs.map (fun c => (c.id, c.name)) := by
  have hnd : ((r.cols.filter (fun c => c.id ∈ i.key ++ i.included)).map (·.id)).Nodup := (h.colIds r hr).sublist (List.Sublist.map _ List.filter_sublist)
  have hp := Util.sort_perm (fun a b : Col => decide (a.id ≤ b.id)) (r.cols.filter (fun c => c.id ∈ i.key ++ i.included))
  refine ⟨_, hp, ?_, ?_⟩
  · have hs := Util.sort_sorted (fun a b : Col => decide (a.id ≤ b.id)) (by intro a b c; simp only [decide_eq_true_eq]; omega) (by intro a b; rw [Bool.or_eq_true, decide_eq_true_eq, decide_eq_true_eq]; omega)
      (r.cols.filter (fun c => c.id ∈ i.key ++ i.included))
    have hnd' := (hp.map (fun c : Col => c.id)).nodup_iff.2 hnd
    rw [List.Nodup, List.pairwise_map] at hnd'
    refine (hs.and hnd').imp ?_
    intro a b hab
    have := of_decide_eq_true hab.1
    have := hab.2
    omega
  · unfold indexColumns
    rw [Schema.sort_perm_eq (fun x : Nat × Bytes => x.1) (fun a b => decide (a ≤ b)) (by intro a b c; simp only [decide_eq_true_eq]; omega) (by intro a b; rw [Bool.or_eq_true, decide_eq_true_eq, decide_eq_true_eq]; omega)
      (by intro a b; simp only [decide_eq_true_eq]; omega) _ _ (indexJoin_perm h hr hi)]
    · exact (Schema.sort_map (fun c : Col => (c.id, c.name)) (fun a b : Col => decide (a.id ≤ b.id)) (fun a b : Nat × Bytes => decide (a.1 ≤ b.1)) _ (fun _ _ _ _ => rfl)).symm
    · rw [((indexJoin_perm h hr hi).map (fun x : Nat × Bytes => x.1)).nodup_iff, List.map_map]
      exact hnd

theorem dropLast_comma : ∀ l : List Bytes, l ≠ [] → (l.flatMap (fun n => n ++ [c!","])).dropLast = Types.joinComma l := by
  intro l
  induction l with
  | nil => intro h; exact absurd rfl h
  | cons x xs ih =>
    intro _
    cases xs with
    | nil => simp [Types.joinComma]
    | cons y ys =>
      have := ih (by simp)
      rw [List.flatMap_cons, List.dropLast_append_of_ne_nil (by simp), this, Types.joinComma]
      simp

theorem xmlText_plain (s : Bytes) (h : c!"&" ∉ s ∧ c!"<" ∉ s ∧ c!">" ∉ s ∧ 13 ∉ s) : xmlText s = s := by
  unfold xmlText
  induction s with
  | nil => rfl
  | cons b bs ih =>
    simp only [List.mem_cons, not_or] at h
    rw [List.flatMap_cons, ih ⟨h.1.2, h.2.1.2, h.2.2.1.2, h.2.2.2.2⟩]
    have : xmlByte b = [b] := by
      unfold xmlByte
      rw [if_neg (Ne.symm h.1.1), if_neg (Ne.symm h.2.1.1), if_neg (Ne.symm h.2.2.1.1), if_neg (Ne.symm h.2.2.2.1)]
    rw [this]; rfl

/-- The text of an index: the names of its columns, ordered by column identifier. -/
theorem indexText_eq (h : WF db) {r : Rel} (hr : r ∈ db.rels) (hn : MsSpec.PlainNames db r) {i : Idx} (hi : i ∈ r.idxs) (hpos : 0 < i.id) :
    ∃ l, l ≠ [] ∧ l.Nodup ∧ (∀ n, n ∈ l ↔ MsSpec.over r i n) ∧ MsSpec.inTableOrder r i l ∧ indexText (indexColumns db r.oid i.id) = some (Types.joinComma l) := by
  have hp := indexColumns_perm h hr hi
  refine ⟨(indexColumns db r.oid i.id).map (·.2), ?_, ?_, ?_, ?_, ?_⟩
  · obtain ⟨c, hc, hm⟩ := h.idxCols r hr i hi hpos
    intro e
    rw [List.map_eq_nil_iff] at e
    rw [e] at hp
    have : (c.id, c.name) ∈ ([] : List (Nat × Bytes)) := hp.mem_iff.2 (List.mem_map.2 ⟨c, List.mem_filter.2 ⟨hc, decide_eq_true hm⟩, rfl⟩)
    cases this
  · refine ((hp.map (fun x : Nat × Bytes => x.2)).nodup_iff).2 ?_
    rw [List.map_map]
    exact (h.colNames r hr).sublist (List.Sublist.map _ List.filter_sublist)
  · intro n
    rw [(hp.map (fun x : Nat × Bytes => x.2)).mem_iff, List.map_map, List.mem_map]
    constructor
    · rintro ⟨c, hc, rfl⟩
      obtain ⟨hc, hm⟩ := List.mem_filter.1 hc
      exact ⟨c, hc, of_decide_eq_true hm, rfl⟩
    · rintro ⟨c, hc, hm, rfl⟩
      exact ⟨c, List.mem_filter.2 ⟨hc, decide_eq_true hm⟩, rfl⟩
  · obtain ⟨cs, c1, c2, c3⟩ := indexColumns_order h hr hi
    refine ⟨cs, c1, c2, ?_⟩
    rw [c3, List.map_map]
    rfl
  · unfold indexText
    have hne : indexColumns db r.oid i.id ≠ [] := by
      obtain ⟨c, hc, hm⟩ := h.idxCols r hr i hi hpos
      intro e
      rw [e] at hp
      have : (c.id, c.name) ∈ ([] : List (Nat × Bytes)) := hp.mem_iff.2 (List.mem_map.2 ⟨c, List.mem_filter.2 ⟨hc, decide_eq_true hm⟩, rfl⟩)
      cases this
    rw [if_neg hne]
    congr 1
    rw [← dropLast_comma _ (by simpa using hne), List.flatMap_map]
    congr 1
    apply flatMap_congr
    intro x hx
    obtain ⟨c, hc, rfl⟩ := List.mem_map.1 (hp.mem_iff.1 hx)
    obtain ⟨hc, -⟩ := List.mem_filter.1 hc
    have hpl := hn.cols c hc
    show xmlText (c.name ++ [c!","]) = c.name ++ [c!","]
    apply xmlText_plain
    refine ⟨?_, ?_, ?_, ?_⟩ <;> simp only [List.mem_append, List.mem_singleton, not_or]
    · exact ⟨hpl.2.1, by decide⟩
    · exact ⟨hpl.2.2.1, by decide⟩
    · exact ⟨hpl.2.2.2.1, by decide⟩
    · exact ⟨hpl.2.2.2.2, by decide⟩

end Catalog.Ms
