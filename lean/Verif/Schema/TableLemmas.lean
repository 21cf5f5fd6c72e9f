import Verif.Schema.ListLemmas
set_option linter.unusedVariables false
set_option linter.unusedSimpArgs false
/-! Reading one table, and the loop over tables. -/
namespace Schema

/-- The position behind a pointer. -/
def posO (c : Option Column) : UInt32 := match c with | some c => c.position | none => 0

theorem posOf_eq (heap : List Column) (i : Nat) : posOf heap i = posO heap[i]? := rfl

theorem mkColumn_eq (eqFold : Bytes → Bytes → Bool) (s t : Bytes) (ii : List Index) (r : ColRow) :
    { mkColumn eqFold s t r with indexes := (mkColumn eqFold s t r).indexes ++ ii.filter (fun i : Index => (mkColumn eqFold s t r).name ∈ i.columnNames) }
      = Spec.column eqFold s t ii none r := by
  unfold mkColumn Spec.column
  have h1 : maxLength r.maxLen = UInt32.ofInt (r.maxLen.getD 0) := by cases r.maxLen <;> rfl
  have h2 : dot3 s t r.name = s ++ b!"." ++ t ++ b!"." ++ r.name := by simp [dot3]
  have h3 : nullableVals.any (fun x => eqFold x r.nullable) = (eqFold b!"YES" r.nullable || eqFold b!"TRUE" r.nullable || eqFold b!"NULL" r.nullable) := by
    simp [nullableVals, Bool.or_assoc]
  simp only [h1, h2, h3, List.nil_append]

/-- Facts about a table that has been read: `base` is where its columns start. -/
structure ReadTable (eqFold : Bytes → Bytes → Bool) (cat : Catalogue) (s n : Bytes) (ii : List Index) (p : Prov) (ids : List Nat) (p' : Prov) : Prop where
  heap : p'.heap = p.heap ++ (Spec.rows (cat.columns s n)).map (Spec.column eqFold s n ii none)
  ids : ids = Util.sort (fun a b => posOf p'.heap a ≤ posOf p'.heap b) (List.range' p.heap.length (Spec.rows (cat.columns s n)).length)
  other : ∀ k, (∀ r ∈ Spec.rows (cat.columns s n), k ≠ dot3 s n r.name) → p'.columns.lookup k = p.columns.lookup k
  own : ((Spec.rows (cat.columns s n)).map (·.name)).Nodup → ∀ j r, (Spec.rows (cat.columns s n))[j]? = some r →
          p'.columns.lookup (dot3 s n r.name) = some (p.heap.length + j)

theorem getElem?_seg {β : Type} (old cs more : List β) (j : Nat) (h : j < cs.length) : (old ++ cs ++ more)[old.length + j]? = cs[j]? := by
  rw [List.append_assoc, List.getElem?_append_right (by omega)]
  rw [List.getElem?_append_left (by omega)]
  congr 1
  omega

theorem range'_map_seg {β : Type} (old cs more : List β) :
    (List.range' old.length cs.length).map (fun i => (old ++ cs ++ more)[i]?) = cs.map some := by
  apply List.ext_getElem?
  intro k
  rw [List.getElem?_map, List.getElem?_map]
  by_cases hk : k < cs.length
  · rw [List.getElem?_range' hk]
    simp only [Option.map_some, Nat.one_mul]
    rw [getElem?_seg old cs more k hk]
    simp [hk]
  · rw [List.getElem?_eq_none (by simpa using hk : (List.range' old.length cs.length).length ≤ k), List.getElem?_eq_none (by omega : cs.length ≤ k)]
    rfl

/-- The pointers of a read table lead to its columns, in order of position, in every later heap. -/
theorem ReadTable.view {eqFold : Bytes → Bytes → Bool} {cat : Catalogue} {s n : Bytes} {ii : List Index} {p p' : Prov} {ids : List Nat}
    (h : ReadTable eqFold cat s n ii p ids p') (heap' : List Column) (hp : p'.heap <+: heap') :
    ids.map (fun i => heap'[i]?) = (Spec.columns eqFold cat s n ii (fun _ => none)).map some := by
  obtain ⟨more, hm⟩ := hp
  have e : (fun i : Nat => heap'[i]?) = (fun i => ((p.heap ++ (Spec.rows (cat.columns s n)).map (Spec.column eqFold s n ii none)) ++ more)[i]?) := by
    funext i; rw [← hm, h.heap]
  rw [h.ids, e, sort_map _ _ (fun a b : Option Column => posO a ≤ posO b)]
  · have := range'_map_seg p.heap ((Spec.rows (cat.columns s n)).map (Spec.column eqFold s n ii none)) more
    rw [List.length_map] at this
    rw [this]
    unfold Spec.columns
    rw [sort_map some (fun a b : Column => decide (a.position ≤ b.position)) (fun a b : Option Column => decide (posO a ≤ posO b))]
    intro a _ b _
    rfl
  · intro a ha b hb
    have key : ∀ x ∈ List.range' p.heap.length (Spec.rows (cat.columns s n)).length,
        posOf p'.heap x = posO ((p.heap ++ (Spec.rows (cat.columns s n)).map (Spec.column eqFold s n ii none) ++ more)[x]?) := by
      intro x hx
      rw [posOf_eq, h.heap]
      rw [List.mem_range'_1] at hx
      have hb : x < (p.heap ++ (Spec.rows (cat.columns s n)).map (Spec.column eqFold s n ii none)).length := by
        rw [List.length_append, List.length_map]; exact hx.2
      rw [List.getElem?_append_left hb]
    rw [key a ha, key b hb]

theorem find_unique (l : List Column) (n : Bytes) (c : Column) (hc : c ∈ l) (hn : c.name = n) (hnd : (l.map (·.name)).Nodup) :
    l.find? (fun c => c.name = n) = some c := by
  induction l with
  | nil => cases hc
  | cons x xs ih =>
    rw [List.map_cons, List.nodup_cons] at hnd
    rcases List.mem_cons.1 hc with rfl | hc
    · rw [List.find?_cons_of_pos (by simpa using hn)]
    · have : x.name ≠ n := by
        intro e
        exact hnd.1 (by rw [e, ← hn]; exact List.mem_map_of_mem hc)
      rw [List.find?_cons_of_neg (by simpa using this)]
      exact ih hc hnd.2

theorem addTable_ok (eqFold : Bytes → Bytes → Bool) (cat : Catalogue) (r : TableRow) (hc : Spec.Consistent cat r.schema r.name) (p : Prov) :
    ∃ t p', addTable eqFold cat r p = (.ok t, p')
      ∧ ReadTable eqFold cat r.schema r.name (Spec.indexes cat r.schema r.name) p t.columns p'
      ∧ t.schema = r.schema ∧ t.name = r.name ∧ t.schemaName = dot2 r.schema r.name
      ∧ p'.tables = put p.tables t.schemaName t ∧ p'.fkeys = p.fkeys ∧ p'.leaked = p.leaked
      ∧ (∀ i, t.primaryKey = some i → i ∈ t.columns)
      ∧ ∀ heap', p'.heap <+: heap' → Spec.view heap' t = Spec.table eqFold cat (fun _ => none) r := by
  obtain ⟨p1, h1, h2, h3, h4, h5, h6, h7⟩ := readColumns_ok eqFold cat r.schema r.name p hc.cols
  have hnames : ((Spec.rows (cat.columns r.schema r.name)).map (mkColumn eqFold r.schema r.name)).map (·.name)
      = (Spec.rows (cat.columns r.schema r.name)).map (·.name) := by rw [List.map_map]; rfl
  have hseg : Seg (dot2 r.schema r.name) p.heap ((Spec.rows (cat.columns r.schema r.name)).map (mkColumn eqFold r.schema r.name)) p1 := by
    refine ⟨h2, by rw [hnames]; exact hc.distinct, ?_⟩
    intro j c hj
    rw [List.getElem?_map] at hj
    cases hr : (Spec.rows (cat.columns r.schema r.name))[j]? with
    | none => rw [hr] at hj; cases hj
    | some x =>
      rw [hr] at hj
      simp only [Option.map_some, Option.some.injEq] at hj
      subst hj
      rw [← dot3_eq]
      exact h7 hc.distinct j x hr
  obtain ⟨p2, g1, g2, g3, g4, g5, g6⟩ := applyIndexes_ok (dot2 r.schema r.name) p.heap (Spec.indexes cat r.schema r.name) none p1 _ hseg hc.idxDistinct
    (by rw [hnames]; exact hc.idxCols)
  have hcs : ((Spec.rows (cat.columns r.schema r.name)).map (mkColumn eqFold r.schema r.name)).map
      (fun c : Column => { c with indexes := c.indexes ++ (Spec.indexes cat r.schema r.name).filter (fun i : Index => c.name ∈ i.columnNames) })
      = (Spec.rows (cat.columns r.schema r.name)).map (Spec.column eqFold r.schema r.name (Spec.indexes cat r.schema r.name) none) := by
    rw [List.map_map]
    apply List.map_congr_left
    intro x _
    exact mkColumn_eq eqFold r.schema r.name _ x
  rw [hcs] at g2
  have hids : Util.sort (fun a b => decide (posOf p1.heap a ≤ posOf p1.heap b)) (List.range' p.heap.length (Spec.rows (cat.columns r.schema r.name)).length)
      = Util.sort (fun a b => decide (posOf p2.heap a ≤ posOf p2.heap b)) (List.range' p.heap.length (Spec.rows (cat.columns r.schema r.name)).length) := by
    have key : ∀ x, posOf p1.heap x = posOf p2.heap x := by
      intro x
      rw [posOf_eq, posOf_eq, g2.heap, h2]
      by_cases hx : x < p.heap.length
      · rw [List.getElem?_append_left hx, List.getElem?_append_left hx]
      · rw [List.getElem?_append_right (by omega), List.getElem?_append_right (by omega), List.getElem?_map, List.getElem?_map]
        cases (Spec.rows (cat.columns r.schema r.name))[x - p.heap.length]? with
        | none => rfl
        | some y => rfl
    congr 1
    funext a b
    rw [key a, key b]
  have hrt : ReadTable eqFold cat r.schema r.name (Spec.indexes cat r.schema r.name) p
      (Util.sort (fun a b => decide (posOf p1.heap a ≤ posOf p1.heap b)) (List.range' p.heap.length (Spec.rows (cat.columns r.schema r.name)).length)) p2 :=
    ⟨g2.heap, hids, by rw [g6]; exact h6, by rw [g6]; exact h7⟩
  let t : Table := { schema := r.schema, name := r.name, type := r.type, isView := false
                     columns := Util.sort (fun a b => decide (posOf p1.heap a ≤ posOf p1.heap b))
                       (List.range' p.heap.length (Spec.rows (cat.columns r.schema r.name)).length)
                     indexes := Spec.indexes cat r.schema r.name
                     primaryKey := pkOf ((Spec.rows (cat.columns r.schema r.name)).map (mkColumn eqFold r.schema r.name)) p.heap.length
                       (Spec.primaryKey (Spec.indexes cat r.schema r.name)) none
                     schemaName := dot2 r.schema r.name }
  refine ⟨t, { p2 with tables := put p2.tables t.schemaName t },
    by simp only [addTable, h1, readIndexes_ok cat _ _ _ hc.idxs, g1, t], ⟨hrt.heap, hrt.ids, hrt.other, hrt.own⟩, rfl, rfl, rfl,
    by simp only [g3, h3], g4.trans h4, g5.trans h5, ?_, ?_⟩
  · intro i hi
    simp only [t] at hi ⊢
    rw [(Util.sort_perm _ _).mem_iff, List.mem_range'_1]
    cases hpn : Spec.primaryKey (Spec.indexes cat r.schema r.name) with
    | none => rw [hpn] at hi; cases hi
    | some nm =>
      rw [hpn] at hi
      simp only [pkOf, placeOf, Option.map_eq_some_iff] at hi
      obtain ⟨j, hj, rfl⟩ := hi
      have := (List.findIdx?_eq_some_iff_getElem.1 hj).1
      rw [List.length_map] at this
      omega
  intro heap' hp'
  have hcols := hrt.view heap' hp'
  have hpk : (pkOf ((Spec.rows (cat.columns r.schema r.name)).map (mkColumn eqFold r.schema r.name)) p.heap.length
        (Spec.primaryKey (Spec.indexes cat r.schema r.name)) none).bind (fun i => heap'[i]?)
      = (Spec.primaryKey (Spec.indexes cat r.schema r.name)).bind
          (fun n => (Spec.columns eqFold cat r.schema r.name (Spec.indexes cat r.schema r.name) (fun _ => none)).find? (fun c => c.name = n)) := by
    cases hpn : Spec.primaryKey (Spec.indexes cat r.schema r.name) with
    | none => rfl
    | some nm =>
      have hmem : nm ∈ (Spec.rows (cat.columns r.schema r.name)).map (·.name) := by
        unfold Spec.primaryKey at hpn
        cases hl : ((Spec.indexes cat r.schema r.name).filter (fun i => decide (i.isPrimary = true ∧ i.columnNames.length = 1))).getLast? with
        | none => rw [hl] at hpn; cases hpn
        | some i =>
          rw [hl] at hpn
          simp only [Option.bind_some] at hpn
          have hi := List.mem_filter.1 (List.mem_of_getLast? hl)
          exact hc.idxCols i hi.1 nm (List.mem_of_head? hpn)
      obtain ⟨j, c, hj, hcn, hpl⟩ := placeOf_mem ((Spec.rows (cat.columns r.schema r.name)).map (mkColumn eqFold r.schema r.name)) nm (by rw [hnames]; exact hmem)
      simp only [pkOf, hpl, Option.map_some, Option.bind_some]
      have hjlt : j < (Spec.rows (cat.columns r.schema r.name)).length := by simpa using (List.getElem?_eq_some_iff.1 hj).1
      obtain ⟨x, hx⟩ : ∃ x, (Spec.rows (cat.columns r.schema r.name))[j]? = some x := ⟨_, List.getElem?_eq_getElem hjlt⟩
      have hxn : x.name = nm := by
        rw [List.getElem?_map, hx] at hj
        simp only [Option.map_some, Option.some.injEq] at hj
        rw [← hcn, ← hj]; rfl
      obtain ⟨more, hm⟩ := hp'
      have hget : heap'[p.heap.length + j]? = some (Spec.column eqFold r.schema r.name (Spec.indexes cat r.schema r.name) none x) := by
        have hgh : p2.heap = p.heap ++ (Spec.rows (cat.columns r.schema r.name)).map (Spec.column eqFold r.schema r.name (Spec.indexes cat r.schema r.name) none) := g2.heap
        have hm' : heap' = p.heap ++ (Spec.rows (cat.columns r.schema r.name)).map (Spec.column eqFold r.schema r.name (Spec.indexes cat r.schema r.name) none) ++ more := by
          rw [← hgh]; exact hm.symm
        rw [hm', getElem?_seg _ _ _ j (by simpa using hjlt), List.getElem?_map, hx]
        rfl
      rw [hget]
      symm
      apply find_unique
      · unfold Spec.columns
        rw [(Util.sort_perm _ _).mem_iff]
        exact List.mem_map_of_mem (List.mem_of_getElem? hx)
      · exact hxn
      · unfold Spec.columns
        refine (((Util.sort_perm _ _).map (fun c : Column => c.name)).nodup_iff).2 ?_
        rw [List.map_map]
        exact hc.distinct
  simp only [Spec.view, Spec.table, hcols, hpk, t]
  simp [dot2]

/-- Everything the loop over the tables leaves behind. -/
theorem tableLoop_ok (eqFold : Bytes → Bytes → Bool) (cat : Catalogue) (schemas tables : List Bytes) : ∀ (rs : List TableRow) (acc : List Table) (p : Prov),
    (∀ r ∈ rs, (passes eqFold schemas r.schema && passes eqFold tables r.name) = true → Spec.Consistent cat r.schema r.name) →
    ∃ ts p', tableLoop eqFold cat schemas tables false (rs.map some) acc p = (.ok (acc ++ ts), p')
      ∧ p.heap <+: p'.heap ∧ p'.leaked = p.leaked ∧ p'.fkeys = p.fkeys
      ∧ ∀ heap', p'.heap <+: heap' →
          ts.map (Spec.view heap') = (rs.filter (fun r => passes eqFold schemas r.schema && passes eqFold tables r.name)).map (Spec.table eqFold cat (fun _ => none)) := by
  intro rs
  induction rs with
  | nil =>
    intro acc p _
    exact ⟨[], p, by simp [tableLoop], List.prefix_refl _, rfl, rfl, fun _ _ => rfl⟩
  | cons r rs ih =>
    intro acc p hc
    by_cases hpass : (passes eqFold schemas r.schema && passes eqFold tables r.name) = true
    · obtain ⟨t, p1, a1, a2, a3, a4, a5, a6, a7, a8, -, a9⟩ := addTable_ok eqFold cat r (hc r (List.mem_cons_self ..) hpass) p
      obtain ⟨ts, p2, b1, b2, b3, b4, b5⟩ := ih (acc ++ [t]) p1 (fun x hx => hc x (List.mem_cons_of_mem _ hx))
      refine ⟨t :: ts, p2, ?_, ?_, b3.trans a8, b4.trans a7, ?_⟩
      · simp only [List.map_cons, tableLoop, if_pos hpass, a1, b1]
        simp
      · exact List.IsPrefix.trans ⟨_, a2.heap.symm⟩ b2
      · intro heap' hh
        rw [List.filter_cons_of_pos (p := fun r : TableRow => passes eqFold schemas r.schema && passes eqFold tables r.name) hpass, List.map_cons, List.map_cons, b5 heap' hh, a9 heap' (b2.trans hh)]
    · obtain ⟨ts, p2, b1, b2, b3, b4, b5⟩ := ih acc p (fun x hx => hc x (List.mem_cons_of_mem _ hx))
      refine ⟨ts, p2, ?_, b2, b3, b4, ?_⟩
      · simp only [List.map_cons, tableLoop, if_neg hpass, b1]
      · intro heap' hh
        rw [List.filter_cons_of_neg (p := fun r : TableRow => passes eqFold schemas r.schema && passes eqFold tables r.name) hpass, b5 heap' hh]

end Schema
