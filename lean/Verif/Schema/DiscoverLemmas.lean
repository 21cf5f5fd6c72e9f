import Verif.Schema.KeyProps
set_option linter.unusedVariables false
set_option linter.unusedSimpArgs false
/-! Invariants of dependency discovery. -/
namespace Schema

/-- A column without its reference. -/
def strip (c : Column) : Column := { c with ref := none }

theorem dot2_inj {s n s' n' : Bytes} (hs : 46 ∉ s) (hs' : 46 ∉ s') (h : dot2 s n = dot2 s' n') : s = s' ∧ n = n' :=
  Query.split_at hs hs' h

theorem dot3_inj {s n c s' n' c' : Bytes} (hs : 46 ∉ s) (hs' : 46 ∉ s') (hn : 46 ∉ n) (hn' : 46 ∉ n') (h : dot3 s n c = dot3 s' n' c') :
    s = s' ∧ n = n' ∧ c = c' := by
  simp only [dot3, List.append_assoc, List.cons_append] at h
  obtain ⟨h1, h2⟩ := Query.split_at hs hs' h
  obtain ⟨h3, h4⟩ := Query.split_at hn hn' h2
  exact ⟨h1, h3, h4⟩

/-- The foreign key the provider's map has for a column. -/
def fkOf (cat : Catalogue) (k : Bytes) : Option ForeignKey :=
  ((Spec.rows cat.fkeys).filter (fun r => (mkFk r).columnSchemaName = k)).getLast?.map mkFk

theorem fkLoop_ok (eqFold : Bytes → Bytes → Bool) : ∀ (rs : List FkRow) (acc : List ForeignKey) (p : Prov),
    ∃ p', fkLoop eqFold [] [] false (rs.map some) acc p = (.ok (acc ++ rs.map mkFk), p')
      ∧ p'.heap = p.heap ∧ p'.columns = p.columns ∧ p'.tables = p.tables ∧ p'.leaked = p.leaked
      ∧ ∀ k, p'.fkeys.lookup k = match ((rs.filter (fun r => (mkFk r).columnSchemaName = k)).getLast?.map mkFk) with | some f => some f | none => p.fkeys.lookup k := by
  intro rs
  induction rs with
  | nil =>
    intro acc p
    exact ⟨p, by simp [fkLoop], rfl, rfl, rfl, rfl, by intro k; simp⟩
  | cons r rs ih =>
    intro acc p
    obtain ⟨p', h1, h2, h3, h4, h5, h6⟩ := ih (acc ++ [mkFk r]) { p with fkeys := put p.fkeys (mkFk r).columnSchemaName (mkFk r) }
    refine ⟨p', ?_, h2, h3, h4, h5, ?_⟩
    · simp only [List.map_cons, fkLoop, passes, List.isEmpty_nil, Bool.true_or, Bool.and_self, if_true, h1]
      simp
    · intro k
      rw [h6 k, List.filter_cons]
      by_cases hk : (mkFk r).columnSchemaName = k
      · simp only [hk, decide_true, if_true, List.getLast?_cons]
        cases (rs.filter (fun r => decide ((mkFk r).columnSchemaName = k))).getLast? with
        | none => simp only [Option.map_none, Option.getD_none, Option.map_some, lookup_put_self]
        | some x => simp
      · simp only [hk, decide_false, Bool.false_eq_true, if_false]
        rw [lookup_put_ne _ _ _ _ (fun e => hk e.symm)]

theorem fkOf_mem {cat : Catalogue} {k : Bytes} {fk : ForeignKey} (h : fkOf cat k = some fk) :
    ∃ r ∈ Spec.rows cat.fkeys, fk = mkFk r ∧ (mkFk r).columnSchemaName = k := by
  unfold fkOf at h
  rw [Option.map_eq_some_iff] at h
  obtain ⟨r, hr, rfl⟩ := h
  have := List.mem_filter.1 (List.mem_of_getLast? hr)
  exact ⟨r, this.1, rfl, by simpa using this.2⟩

theorem fkOf_some {cat : Catalogue} {k : Bytes} {r : FkRow} (hr : r ∈ Spec.rows cat.fkeys) (hk : (mkFk r).columnSchemaName = k) : ∃ fk, fkOf cat k = some fk := by
  unfold fkOf
  have hm : r ∈ (Spec.rows cat.fkeys).filter (fun r => decide ((mkFk r).columnSchemaName = k)) := List.mem_filter.2 ⟨hr, by simpa using hk⟩
  cases hl : ((Spec.rows cat.fkeys).filter (fun r => decide ((mkFk r).columnSchemaName = k))).getLast? with
  | none => rw [List.getLast?_eq_none_iff.1 hl] at hm; cases hm
  | some x => exact ⟨_, rfl⟩

theorem fkOf_refOf (cat : Catalogue) (hf : ∀ k ∈ Spec.rows cat.fkeys, 46 ∉ k.schema ∧ 46 ∉ k.table) (s n c : Bytes) (hs : 46 ∉ s) (hn : 46 ∉ n) :
    fkOf cat (dot3 s n c) = Spec.refOf cat s n c := by
  unfold fkOf Spec.refOf
  have : (Spec.rows cat.fkeys).filter (fun r => decide ((mkFk r).columnSchemaName = dot3 s n c))
      = (Spec.rows cat.fkeys).filter (fun k => decide (k.schema = s ∧ k.table = n ∧ k.column = c)) := by
    apply List.filter_congr
    intro r hr
    rw [decide_eq_decide]
    constructor
    · intro h
      exact dot3_inj (hf r hr).1 hs (hf r hr).2 hn h
    · rintro ⟨rfl, rfl, rfl⟩; rfl
  rw [this]
  congr 1
  funext k
  simp [mkFk, dot3]

section
variable (eqFold : Bytes → Bytes → Bool) (cat : Catalogue) (sel ld : List TableRow)

/-- The view expected of table `n` of schema `s`. -/
def Expected (ref : Bytes → Bytes → Bytes → Option ForeignKey) (s n : Bytes) (v : Spec.TableView) : Prop :=
  (∃ r ∈ ld, r.schema = s ∧ r.name = n ∧ v = Spec.table eqFold cat (ref s n) r)
    ∨ ((∀ r ∈ ld, ¬(r.schema = s ∧ r.name = n)) ∧ v = Spec.dependency eqFold cat (ref s n) s n)

/-- A table in the cache. -/
structure TabOk (p : Prov) (t : Table) : Prop where
  reach : Spec.Reach cat sel t.schema t.name
  name : t.schemaName = dot2 t.schema t.name
  view : Expected eqFold cat ld (fun _ _ _ => none) t.schema t.name (Spec.view (p.heap.map strip) t)
  pk : ∀ i, t.primaryKey = some i → i ∈ t.columns
  own : ∀ i ∈ t.columns, ∃ c, p.heap[i]? = some c ∧ p.columns.lookup c.schemaName = some i
    ∧ c.name ∈ (Spec.rows (cat.columns t.schema t.name)).map (·.name) ∧ c.schemaName = dot3 t.schema t.name c.name
  all : ∀ n ∈ (Spec.rows (cat.columns t.schema t.name)).map (·.name), ∃ i ∈ t.columns, p.columns.lookup (dot3 t.schema t.name n) = some i

/-- The invariant of the provider. -/
structure Inv (p : Prov) : Prop where
  nodup : (p.tables.map (·.1)).Nodup
  tabs : ∀ k t, p.tables.lookup k = some t → k = dot2 t.schema t.name ∧ TabOk eqFold cat sel ld p t
  cols : ∀ k i, p.columns.lookup k = some i → (∃ c, p.heap[i]? = some c ∧ c.schemaName = k ∧ (c.ref = none ∨ c.ref = fkOf cat k))
    ∧ ∃ s n x, k = dot3 s n x ∧ Spec.Reach cat sel s n ∧ p.tables.lookup (dot2 s n) ≠ none
      ∧ x ∈ (Spec.rows (cat.columns s n)).map (·.name)

/-- What later states keep. -/
structure Ext (p p' : Prov) : Prop where
  fkeys : p'.fkeys = p.fkeys
  leaked : p'.leaked = p.leaked
  tables : ∀ k t, p.tables.lookup k = some t → p'.tables.lookup k = some t
  columns : ∀ k i, p.columns.lookup k = some i → p'.columns.lookup k = some i
  heap : ∀ (i : Nat) (c : Column), p.heap[i]? = some c → p'.heap[i]? = some c ∨ p'.heap[i]? = some { c with ref := fkOf cat c.schemaName }

theorem Ext.refl (p : Prov) : Ext cat p p := ⟨rfl, rfl, fun _ _ h => h, fun _ _ h => h, fun _ _ h => .inl h⟩

theorem Ext.trans {p q r : Prov} (h : Ext cat p q) (g : Ext cat q r) : Ext cat p r := by
  refine ⟨g.fkeys.trans h.fkeys, g.leaked.trans h.leaked, fun k t hk => g.tables _ _ (h.tables _ _ hk), fun k i hk => g.columns _ _ (h.columns _ _ hk), ?_⟩
  intro i c hi
  rcases h.heap i c hi with h1 | h1
  · exact g.heap i c h1
  · rcases g.heap i _ h1 with h2 | h2
    · exact .inr h2
    · exact .inr h2

/-- The reference of a column is set and leads to a table in the cache. -/
def Done (p : Prov) (k : Bytes) : Prop := ∀ i, p.columns.lookup k = some i →
  (∃ c, p.heap[i]? = some c ∧ c.schemaName = k ∧ c.ref = fkOf cat k) ∧ ∀ fk, fkOf cat k = some fk → p.tables.lookup (dot2 fk.refSchema fk.refTable) ≠ none

theorem Done.ext {p p' : Prov} {k : Bytes} (h : Done cat p k) (he : Ext cat p p') (hk : p.columns.lookup k ≠ none) : Done cat p' k := by
  intro i hi
  cases hl : p.columns.lookup k with
  | none => exact absurd hl hk
  | some j =>
    have : j = i := by have := he.columns k j hl; rw [hi] at this; cases this; rfl
    subst this
    obtain ⟨⟨c, h1, h2, h3⟩, h4⟩ := h j hl
    refine ⟨?_, ?_⟩
    · rcases he.heap j c h1 with h5 | h5
      · exact ⟨c, h5, h2, h3⟩
      · exact ⟨_, h5, h2, by rw [h2]⟩
    · intro fk hfk
      have h5 := h4 fk hfk
      cases hl2 : p.tables.lookup (dot2 fk.refSchema fk.refTable) with
      | none => exact absurd hl2 h5
      | some t => rw [he.tables _ _ hl2]; simp

/-! ### Setting a reference -/

theorem strip_modify (l : List Column) (i : Nat) (fk : Option ForeignKey) : (l.modify i (fun c => { c with ref := fk })).map strip = l.map strip := by
  apply List.ext_getElem?
  intro k
  rw [List.getElem?_map, List.getElem?_map, List.getElem?_modify]
  cases l[k]? with
  | none => rfl
  | some c => by_cases h : i = k <;> simp [h, strip]

theorem getElem?_setRef (l : List Column) (i : Nat) (fk : Option ForeignKey) (j : Nat) (c : Column) (h : l[j]? = some c) :
    (l.modify i (fun c => { c with ref := fk }))[j]? = some (if i = j then { c with ref := fk } else c) := by
  rw [List.getElem?_modify, h]
  by_cases e : i = j <;> simp [e]

theorem setRef_inv {p : Prov} (h : Inv eqFold cat sel ld p) (k : Bytes) (i : Nat) (hk : p.columns.lookup k = some i) (fk : ForeignKey) (hfk : fkOf cat k = some fk) :
    Inv eqFold cat sel ld (modCol p i (fun c => { c with ref := some fk })) ∧ Ext cat p (modCol p i (fun c => { c with ref := some fk }))
      ∧ ∃ c, (modCol p i (fun c => { c with ref := some fk })).heap[i]? = some c ∧ c.schemaName = k ∧ c.ref = fkOf cat k := by
  obtain ⟨⟨c0, hc0, hn0, hr0⟩, -⟩ := h.cols k i hk
  refine ⟨⟨h.nodup, ?_, ?_⟩, ⟨rfl, rfl, fun _ _ h => h, fun _ _ h => h, ?_⟩, ?_⟩
  · intro k' t ht
    obtain ⟨h1, h2⟩ := h.tabs k' t ht
    refine ⟨h1, h2.reach, h2.name, ?_, h2.pk, ?_, h2.all⟩
    · simp only [modCol, strip_modify]; exact h2.view
    · intro j hj
      obtain ⟨c, a1, a2, a3, a4⟩ := h2.own j hj
      refine ⟨_, getElem?_setRef _ i (some fk) j c a1, ?_⟩
      by_cases e : i = j
      · simp only [e, if_true, modCol]; exact ⟨a2, a3, a4⟩
      · simp only [e, if_false, modCol]; exact ⟨a2, a3, a4⟩
  · intro k' j hj
    obtain ⟨⟨c, a1, a2, a3⟩, a4⟩ := h.cols k' j hj
    refine ⟨⟨_, getElem?_setRef _ i (some fk) j c a1, ?_⟩, a4⟩
    by_cases e : i = j
    · subst e
      rw [hc0] at a1; cases a1
      simp only [if_true]
      refine ⟨a2, .inr ?_⟩
      rw [← hfk]; rw [← a2, hn0]
    · simp only [e, if_false]; exact ⟨a2, a3⟩
  · intro j c hj
    simp only [modCol]
    rw [getElem?_setRef _ i (some fk) j c hj]
    by_cases e : i = j
    · subst e
      rw [hc0] at hj; cases hj
      right
      simp only [if_true, hn0, hfk]
    · left; simp only [e, if_false]
  · exact ⟨_, getElem?_setRef _ i (some fk) i c0 hc0, by simp only [if_true]; exact hn0, by simp only [if_true]; exact hfk.symm⟩

/-! ### Adding a table -/

theorem lookup_mem_keys {β : Type} (k : Bytes) : ∀ m : List (Bytes × β), k ∉ m.map (·.1) → m.lookup k = none := by
  intro m
  induction m with
  | nil => intro _; rfl
  | cons e m ih =>
    intro h
    simp only [List.map_cons, List.mem_cons, not_or] at h
    obtain ⟨a, b⟩ := e
    have : (k == a) = false := by simpa using h.1
    simp only [List.lookup_cons, this]
    exact ih h.2

theorem put_nodup {β : Type} (m : List (Bytes × β)) (k : Bytes) (v : β) (h : (m.map (·.1)).Nodup) : ((put m k v).map (·.1)).Nodup := by
  simp only [put, List.map_cons, List.nodup_cons]
  refine ⟨?_, ?_⟩
  · intro hm
    obtain ⟨e, he, hk⟩ := List.mem_map.1 hm
    have := (List.mem_filter.1 he).2
    simp [hk] at this
  · exact List.Nodup.sublist (List.filter_sublist.map _) h

theorem view_strip_ext {h h' : List Column} (t : Table) (hv : ∀ i ∈ t.columns, i < h.length) (hpk : ∀ i, t.primaryKey = some i → i ∈ t.columns)
    (hp : ∀ (i : Nat) (c : Column), h[i]? = some c → ∃ c', h'[i]? = some c' ∧ strip c' = strip c) : Spec.view (h'.map strip) t = Spec.view (h.map strip) t := by
  have key : ∀ i ∈ t.columns, (h'.map strip)[i]? = (h.map strip)[i]? := by
    intro i hi
    rw [List.getElem?_map, List.getElem?_map]
    have : h[i]? = some (h[i]'(hv i hi)) := List.getElem?_eq_getElem (hv i hi)
    obtain ⟨c', h1, h2⟩ := hp i _ this
    rw [h1, this]
    simp [h2]
  unfold Spec.view
  have e1 : t.columns.map (fun i => (h'.map strip)[i]?) = t.columns.map (fun i => (h.map strip)[i]?) := List.map_congr_left key
  have e2 : t.primaryKey.bind (fun i => (h'.map strip)[i]?) = t.primaryKey.bind (fun i => (h.map strip)[i]?) := by
    cases hk : t.primaryKey with
    | none => rfl
    | some i => exact key i (hpk i hk)
  rw [e1, e2]

theorem spec_column_strip (s n : Bytes) (ii : List Index) (r : ColRow) : strip (Spec.column eqFold s n ii none r) = Spec.column eqFold s n ii none r := rfl

theorem insert_inv {p p' : Prov} (h : Inv eqFold cat sel ld p) (hdot : ∀ s n, Spec.Reach cat sel s n → 46 ∉ s ∧ 46 ∉ n)
    (s n : Bytes) (hreach : Spec.Reach cat sel s n) (hnew : p.tables.lookup (dot2 s n) = none) (hnd : ((Spec.rows (cat.columns s n)).map (·.name)).Nodup)
    (ii : List Index) (t : Table) (hrt : ReadTable eqFold cat s n ii p t.columns p') (ht : p'.tables = put p.tables (dot2 s n) t)
    (hs : t.schema = s) (hn : t.name = n) (hsn : t.schemaName = dot2 s n) (hf : p'.fkeys = p.fkeys) (hl : p'.leaked = p.leaked)
    (hpk : ∀ i, t.primaryKey = some i → i ∈ t.columns)
    (hv : Expected eqFold cat ld (fun _ _ _ => none) s n (Spec.view (p'.heap.map strip) t)) :
    Inv eqFold cat sel ld p' ∧ Ext cat p p' ∧ p'.tables.lookup (dot2 s n) = some t
      ∧ (∀ k, p.columns.lookup k = none → p'.columns.lookup k ≠ none → ∃ i ∈ t.columns, p'.columns.lookup k = some i)
      ∧ ∀ i ∈ t.columns, ∃ c, p'.heap[i]? = some c ∧ p'.columns.lookup c.schemaName = some i ∧ c.ref = none := by
  obtain ⟨hds, hdn⟩ := hdot s n hreach
  -- keys of the new table are new
  have hfresh : ∀ x, p.columns.lookup (dot3 s n x) = none := by
    intro x
    cases hc : p.columns.lookup (dot3 s n x) with
    | none => rfl
    | some i =>
      obtain ⟨-, s', n', x', he, hr', hvis, -⟩ := h.cols _ _ hc
      obtain ⟨hs', hn'⟩ := hdot s' n' hr'
      obtain ⟨rfl, rfl, -⟩ := dot3_inj hds hs' hdn hn' he
      exact absurd hnew hvis
  have hcolext : ∀ k i, p.columns.lookup k = some i → p'.columns.lookup k = some i := by
    intro k i hk
    rw [hrt.other k]
    · exact hk
    · intro r _ e
      rw [e, hfresh] at hk; cases hk
  have hheap : ∀ (i : Nat) (c : Column), p.heap[i]? = some c → p'.heap[i]? = some c := by
    intro i c hi
    rw [hrt.heap, List.getElem?_append_left (List.getElem?_eq_some_iff.1 hi).1]
    exact hi
  have htabext : ∀ k u, p.tables.lookup k = some u → p'.tables.lookup k = some u := by
    intro k u hk
    rw [ht, lookup_put_ne]
    · exact hk
    · intro e; rw [e, hnew] at hk; cases hk
  have hself : p'.tables.lookup (dot2 s n) = some t := by rw [ht]; exact lookup_put_self _ _ _
  have hidmem : ∀ i, i ∈ t.columns ↔ ∃ j, i = p.heap.length + j ∧ j < (Spec.rows (cat.columns s n)).length := by
    intro i
    rw [hrt.ids, (Util.sort_perm _ _).mem_iff, List.mem_range'_1]
    constructor
    · intro ⟨h1, h2⟩; exact ⟨i - p.heap.length, by omega, by omega⟩
    · rintro ⟨j, rfl, hj⟩; omega
  have hget : ∀ j r, (Spec.rows (cat.columns s n))[j]? = some r → p'.heap[p.heap.length + j]? = some (Spec.column eqFold s n ii none r) := by
    intro j r hj
    rw [hrt.heap, List.getElem?_append_right (by omega)]
    have : p.heap.length + j - p.heap.length = j := by omega
    rw [this, List.getElem?_map, hj]; rfl
  have hcsn : ∀ r, (Spec.column eqFold s n ii none r).schemaName = dot3 s n r.name := by intro r; simp [Spec.column, dot3]
  have hown : ∀ i ∈ t.columns, ∃ r, (Spec.rows (cat.columns s n))[i - p.heap.length]? = some r ∧ p'.heap[i]? = some (Spec.column eqFold s n ii none r)
      ∧ p'.columns.lookup (dot3 s n r.name) = some i := by
    intro i hi
    obtain ⟨j, rfl, hj⟩ := (hidmem i).1 hi
    have hr := List.getElem?_eq_getElem hj
    refine ⟨_, ?_, hget j _ hr, hrt.own hnd j _ hr⟩
    have : p.heap.length + j - p.heap.length = j := by omega
    rw [this]; exact hr
  have hTab : TabOk eqFold cat sel ld p' t := by
    refine ⟨by rw [hs, hn]; exact hreach, by rw [hs, hn]; exact hsn, by rw [hs, hn]; exact hv, hpk, ?_, ?_⟩
    · intro i hi
      obtain ⟨r, h1, h2, h3⟩ := hown i hi
      refine ⟨_, h2, by rw [hcsn]; exact h3, ?_, ?_⟩
      · rw [hs, hn]; exact List.mem_map_of_mem (List.mem_of_getElem? h1)
      · rw [hs, hn, hcsn]; rfl
    · rw [hs, hn]
      intro x hx
      obtain ⟨r, hr, rfl⟩ := List.mem_map.1 hx
      obtain ⟨j, hj⟩ := List.mem_iff_getElem?.1 hr
      have hlt := (List.getElem?_eq_some_iff.1 hj).1
      exact ⟨p.heap.length + j, (hidmem _).2 ⟨j, rfl, hlt⟩, hrt.own hnd j r hj⟩
  refine ⟨⟨by rw [ht]; exact put_nodup _ _ _ h.nodup, ?_, ?_⟩, ⟨hf, hl, htabext, hcolext, fun i c hi => .inl (hheap i c hi)⟩, hself, ?_, ?_⟩
  · intro k u hk
    by_cases he : k = dot2 s n
    · subst he
      rw [hself] at hk; cases hk
      exact ⟨by rw [hs, hn], hTab⟩
    · rw [ht, lookup_put_ne _ _ _ _ he] at hk
      obtain ⟨h1, h2⟩ := h.tabs k u hk
      refine ⟨h1, h2.reach, h2.name, ?_, h2.pk, ?_, ?_⟩
      · have hvalid : ∀ i ∈ u.columns, i < p.heap.length := by
          intro i hi
          obtain ⟨c, hc, -⟩ := h2.own i hi
          exact (List.getElem?_eq_some_iff.1 hc).1
        rw [view_strip_ext u hvalid h2.pk (fun i c hc => ⟨c, hheap i c hc, rfl⟩)]
        exact h2.view
      · intro i hi
        obtain ⟨c, a1, a2, a3, a4⟩ := h2.own i hi
        exact ⟨c, hheap i c a1, hcolext _ _ a2, a3, a4⟩
      · intro x hx
        obtain ⟨i, b1, b2⟩ := h2.all x hx
        exact ⟨i, b1, hcolext _ _ b2⟩
  · intro k i hk
    by_cases he : ∃ r ∈ Spec.rows (cat.columns s n), k = dot3 s n r.name
    · obtain ⟨r, hr, rfl⟩ := he
      obtain ⟨j, hj⟩ := List.mem_iff_getElem?.1 hr
      rw [hrt.own hnd j r hj] at hk
      cases hk
      exact ⟨⟨_, hget j r hj, hcsn r, .inl rfl⟩, s, n, r.name, rfl, hreach, by rw [hself]; simp, List.mem_map_of_mem hr⟩
    · have hne : ∀ r ∈ Spec.rows (cat.columns s n), k ≠ dot3 s n r.name := fun r hr e => he ⟨r, hr, e⟩
      rw [hrt.other k hne] at hk
      obtain ⟨⟨c, a1, a2, a3⟩, s', n', x, a4, a5, a6, a7⟩ := h.cols k i hk
      refine ⟨⟨c, hheap i c a1, a2, a3⟩, s', n', x, a4, a5, ?_, a7⟩
      cases hl2 : p.tables.lookup (dot2 s' n') with
      | none => exact absurd hl2 a6
      | some u => rw [htabext _ _ hl2]; simp
  · intro k hk hk'
    by_cases he : ∃ r ∈ Spec.rows (cat.columns s n), k = dot3 s n r.name
    · obtain ⟨r, hr, rfl⟩ := he
      obtain ⟨j, hj⟩ := List.mem_iff_getElem?.1 hr
      have hlt := (List.getElem?_eq_some_iff.1 hj).1
      exact ⟨p.heap.length + j, (hidmem _).2 ⟨j, rfl, hlt⟩, hrt.own hnd j r hj⟩
    · have hne : ∀ r ∈ Spec.rows (cat.columns s n), k ≠ dot3 s n r.name := fun r hr e => he ⟨r, hr, e⟩
      rw [hrt.other k hne] at hk'
      exact absurd hk hk'
  · intro i hi
    obtain ⟨r, h1, h2, h3⟩ := hown i hi
    exact ⟨_, h2, by rw [hcsn]; exact h3, rfl⟩

end
end Schema
