import Verif.Catalog.Pg
import Mathlib.Tactic.Tauto
import Mathlib.Data.List.Nodup
set_option linter.unusedVariables false
set_option linter.unusedSimpArgs false
/-! Joins over the system relations of a well-formed database. -/
namespace Catalog

/-- Joining on a key. -/
theorem flatMap_key {α β κ : Type} [DecidableEq κ] (key : α → κ) (f : α → List β) (x : α) : ∀ l : List α, (l.map key).Nodup → x ∈ l →
    l.flatMap (fun y => if key y = key x then f y else []) = f x := by
  intro l
  induction l with
  | nil => intro _ h; cases h
  | cons y ys ih =>
    intro hnd hx
    rw [List.map_cons, List.nodup_cons] at hnd
    rw [List.flatMap_cons]
    rcases List.mem_cons.1 hx with rfl | hx
    · rw [if_pos rfl]
      have : ys.flatMap (fun y => if key y = key x then f y else []) = [] := by
        rw [List.flatMap_eq_nil_iff]
        intro z hz
        rw [if_neg]
        intro e
        exact hnd.1 (by rw [← e]; exact List.mem_map_of_mem hz)
      rw [this, List.append_nil]
    · rw [if_neg, List.nil_append]
      · exact ih hnd.2 hx
      · intro e
        exact hnd.1 (by rw [e]; exact List.mem_map_of_mem hx)

theorem flatMap_none {α β : Type} (f : α → List β) : ∀ l : List α, (∀ x ∈ l, f x = []) → l.flatMap f = [] := by
  intro l h
  rw [List.flatMap_eq_nil_iff]
  exact h

theorem flatMap_congr {α β : Type} {f g : α → List β} : ∀ {l : List α}, (∀ x ∈ l, f x = g x) → l.flatMap f = l.flatMap g := by
  intro l
  induction l with
  | nil => intro _; rfl
  | cons x xs ih =>
    intro h
    rw [List.flatMap_cons, List.flatMap_cons, h x (by simp), ih (fun y hy => h y (by simp [hy]))]

/-- Testing membership by a join. -/
theorem flatMap_mem {α β : Type} [DecidableEq α] (c : α) (v : List β) (l : List α) [Decidable (c ∈ l)] (h : l.Nodup) :
    l.flatMap (fun x => if x = c then v else []) = if c ∈ l then v else [] := by
  by_cases hc : c ∈ l
  · rw [if_pos hc]
    exact flatMap_key id (fun _ => v) c l (by simpa using h) hc
  · rw [if_neg hc]
    apply flatMap_none
    intro x hx
    rw [if_neg]
    rintro rfl
    exact hc hx

theorem map_flatMap' {α β γ : Type} (f : β → γ) (g : α → List β) (l : List α) : (l.flatMap g).map f = l.flatMap (fun x => (g x).map f) := by
  rw [List.map_flatMap]

namespace Pg

variable {db : Db}

theorem WF.oid_nodup (h : WF db) : (db.map (·.oid)).Nodup := (List.nodup_append.1 h.oids).1

/-- Object identifiers identify relations. -/
theorem WF.oid_inj (h : WF db) {r r' : Rel} (hr : r ∈ db) (hr' : r' ∈ db) (e : r.oid = r'.oid) : r = r' :=
  List.inj_on_of_nodup_map h.oid_nodup hr hr' e

theorem WF.name_inj (h : WF db) {r r' : Rel} (hr : r ∈ db) (hr' : r' ∈ db) (e1 : r.schema = r'.schema) (e2 : r.name = r'.name) : r = r' :=
  List.inj_on_of_nodup_map h.names hr hr' (by simp [e1, e2])

theorem pgClass_oids (db : Db) : (pgClass db).map (·.1) = db.map (·.oid) ++ db.flatMap (fun r => r.idxs.map (·.oid)) := by
  simp [pgClass, List.map_flatMap, Function.comp_def]

theorem WF.class_nodup (h : WF db) : ((pgClass db).map (·.1)).Nodup := by rw [pgClass_oids]; exact h.oids

theorem mem_class_rel {r : Rel} (hr : r ∈ db) : (r.oid, r.name, relkind r.kind) ∈ pgClass db :=
  List.mem_append_left _ (List.mem_map_of_mem (f := fun r : Rel => (r.oid, r.name, relkind r.kind)) hr)

theorem mem_class_idx {r : Rel} (hr : r ∈ db) {i : Idx} (hi : i ∈ r.idxs) : (i.oid, i.name, if r.kind = .partitioned then c!"I" else c!"i") ∈ pgClass db := by
  apply List.mem_append_right
  rw [List.mem_flatMap]
  exact ⟨r, hr, List.mem_map_of_mem (f := fun i : Idx => (i.oid, i.name, if r.kind = .partitioned then c!"I" else c!"i")) hi⟩

theorem indexes_sublist (db : Db) : ((pgIndexes db).map (fun x => (x.1, x.2.2))).Sublist (db.flatMap (fun r => r.idxs.map (fun i => (r.schema, i.name)))) := by
  unfold pgIndexes
  induction db with
  | nil => simp
  | cons r rs ih =>
    simp only [List.flatMap_cons, List.map_append]
    refine List.Sublist.append ?_ ih
    split
    · simp [Function.comp_def]
    · simp

theorem WF.indexes_nodup (h : WF db) : (pgIndexes db).Nodup :=
  List.Pairwise.of_map (S := fun a b : Bytes × Bytes => a ≠ b) (fun x : Bytes × Bytes × Bytes => (x.1, x.2.2)) (fun a b h e => h (by rw [e])) (h.idxNames.sublist (indexes_sublist db))

/-- The join of the index query, with the names resolved. -/
theorem indexJoin_eq (h : WF db) (s t : Bytes) : indexJoin db s t = db.flatMap (fun r => r.idxs.flatMap (fun i =>
    if relkind r.kind = c!"r" ∧ (s, t, i.name) ∈ pgIndexes db then (r.atts.filter (fun a => a.num ∈ i.key)).map (fun a => ((i.name, i.primary, i.unique), a.name)) else [])) := by
  unfold indexJoin
  unfold pgIndex
  rw [List.flatMap_assoc]
  apply flatMap_congr
  intro r hr
  rw [List.flatMap_map]
  apply flatMap_congr
  intro i hi
  have h1 : ∀ f : Nat × Bytes × UInt8 → List ((Bytes × Bool × Bool) × Bytes), (pgClass db).flatMap (fun t => if t.1 = r.oid then f t else []) = f (r.oid, r.name, relkind r.kind) :=
    fun f => flatMap_key (·.1) f (r.oid, r.name, relkind r.kind) _ h.class_nodup (mem_class_rel hr)
  have h2 : ∀ f : Nat × Bytes × UInt8 → List ((Bytes × Bool × Bool) × Bytes), (pgClass db).flatMap (fun t => if t.1 = i.oid then f t else []) = f (i.oid, i.name, _) :=
    fun f => flatMap_key (·.1) f (i.oid, i.name, _) _ h.class_nodup (mem_class_idx hr hi)
  have h3 : ∀ f : Nat × Bytes × Int → List ((Bytes × Bool × Bool) × Bytes), (pgAttribute db).flatMap (fun a => if a.1 = r.oid then f a else [])
      = r.atts.flatMap (fun a => f (r.oid, a.name, a.num)) := by
    intro f
    unfold pgAttribute
    rw [List.flatMap_assoc, ← flatMap_key (·.oid) (fun r : Rel => r.atts.flatMap (fun a => f (r.oid, a.name, a.num))) r db h.oid_nodup hr]
    apply flatMap_congr
    intro r' hr'
    rw [List.flatMap_map]
    by_cases e : r'.oid = r.oid
    · rw [if_pos e]; apply flatMap_congr; intro a ha; rw [if_pos e]
    · rw [if_neg e]; apply flatMap_none; intro a ha; rw [if_neg e]
  have e1 : ∀ t' i' : Nat × Bytes × UInt8, ∀ a : Nat × Bytes × Int, ((pgIndexes db).flatMap (fun ixs =>
      if t'.1 = r.oid ∧ i'.1 = i.oid ∧ a.1 = t'.1 ∧ a.2.2 ∈ i.key ∧ t'.2.2 = c!"r" ∧ ixs.2.2 = i'.2.1 ∧ ixs.1 = s ∧ ixs.2.1 = t
      then [((i'.2.1, i.primary, i.unique), a.2.1)] else []))
      = if t'.1 = r.oid then (if i'.1 = i.oid then (if a.1 = r.oid then (if a.2.2 ∈ i.key ∧ t'.2.2 = c!"r" ∧ (s, t, i'.2.1) ∈ pgIndexes db
          then [((i'.2.1, i.primary, i.unique), a.2.1)] else []) else []) else []) else [] := by
    intro t' i' a
    by_cases c1 : t'.1 = r.oid
    · by_cases c2 : i'.1 = i.oid
      · by_cases c3 : a.1 = r.oid
        · by_cases c4 : a.2.2 ∈ i.key ∧ t'.2.2 = c!"r"
          · rw [if_pos c1, if_pos c2, if_pos c3]
            rw [← (show (if (s, t, i'.2.1) ∈ pgIndexes db then [((i'.2.1, i.primary, i.unique), a.2.1)] else []) =
              if a.2.2 ∈ i.key ∧ t'.2.2 = c!"r" ∧ (s, t, i'.2.1) ∈ pgIndexes db then [((i'.2.1, i.primary, i.unique), a.2.1)] else [] by simp [c4.1, c4.2])]
            rw [← flatMap_mem (s, t, i'.2.1) [((i'.2.1, i.primary, i.unique), a.2.1)] (pgIndexes db) h.indexes_nodup]
            apply flatMap_congr
            intro x hx
            obtain ⟨xs, xt, xn⟩ := x
            simp only [c1, c2, c3, c4.1, c4.2, true_and, Prod.mk.injEq]
            congr 1
            simp only [eq_iff_iff]
            tauto
          · rw [if_pos c1, if_pos c2, if_pos c3, if_neg (fun hh => c4 ⟨hh.1, hh.2.1⟩)]
            apply flatMap_none
            intro x hx
            rw [if_neg (fun hh => c4 ⟨hh.2.2.2.1, hh.2.2.2.2.1⟩)]
        · rw [if_pos c1, if_pos c2, if_neg c3]
          apply flatMap_none
          intro x hx
          rw [if_neg (fun hh => c3 (hh.2.2.1.trans c1))]
      · rw [if_pos c1, if_neg c2]
        apply flatMap_none
        intro x hx
        rw [if_neg (fun hh => c2 hh.2.1)]
    · rw [if_neg c1]
      apply flatMap_none
      intro x hx
      rw [if_neg (fun hh => c1 hh.1)]
  simp only [e1]
  have e2 : ∀ t' i' : Nat × Bytes × UInt8, ((pgAttribute db).flatMap (fun a =>
      if t'.1 = r.oid then (if i'.1 = i.oid then (if a.1 = r.oid then (if a.2.2 ∈ i.key ∧ t'.2.2 = c!"r" ∧ (s, t, i'.2.1) ∈ pgIndexes db
          then [((i'.2.1, i.primary, i.unique), a.2.1)] else []) else []) else []) else []))
      = if t'.1 = r.oid then (if i'.1 = i.oid then (r.atts.flatMap (fun a => if a.num ∈ i.key ∧ t'.2.2 = c!"r" ∧ (s, t, i'.2.1) ∈ pgIndexes db
          then [((i'.2.1, i.primary, i.unique), a.name)] else [])) else []) else [] := by
    intro t' i'
    by_cases c1 : t'.1 = r.oid
    · by_cases c2 : i'.1 = i.oid
      · simp only [if_pos c1, if_pos c2]
        exact h3 _
      · simp only [if_pos c1, if_neg c2]
        exact flatMap_none _ _ (fun _ _ => rfl)
    · simp only [if_neg c1]
      exact flatMap_none _ _ (fun _ _ => rfl)
  simp only [e2]
  have e3 : ∀ t' : Nat × Bytes × UInt8, ((pgClass db).flatMap (fun i' =>
      if t'.1 = r.oid then (if i'.1 = i.oid then (r.atts.flatMap (fun a => if a.num ∈ i.key ∧ t'.2.2 = c!"r" ∧ (s, t, i'.2.1) ∈ pgIndexes db
          then [((i'.2.1, i.primary, i.unique), a.name)] else [])) else []) else []))
      = if t'.1 = r.oid then (r.atts.flatMap (fun a => if a.num ∈ i.key ∧ t'.2.2 = c!"r" ∧ (s, t, i.name) ∈ pgIndexes db
          then [((i.name, i.primary, i.unique), a.name)] else [])) else [] := by
    intro t'
    by_cases c1 : t'.1 = r.oid
    · simp only [if_pos c1]
      exact h2 _
    · simp only [if_neg c1]
      exact flatMap_none _ _ (fun _ _ => rfl)
  simp only [e3]
  rw [h1]
  simp only
  by_cases c : relkind r.kind = c!"r" ∧ (s, t, i.name) ∈ pgIndexes db
  · rw [if_pos c]
    simp only [c.1, c.2, true_and, and_true]
    generalize r.atts = l
    induction l with
    | nil => rfl
    | cons a l ih =>
      rw [List.flatMap_cons, ih]
      by_cases ha : a.num ∈ i.key
      · rw [if_pos ha, List.filter_cons_of_pos (by simpa using ha)]; rfl
      · rw [if_neg ha, List.filter_cons_of_neg (by simpa using ha)]; rfl
  · rw [if_neg c]
    apply flatMap_none
    intro a ha
    rw [if_neg (fun hh => c hh.2)]

end Pg
end Catalog
