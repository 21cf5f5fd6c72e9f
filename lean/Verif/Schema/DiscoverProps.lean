import Verif.Schema.DiscoverRun
set_option linter.unusedVariables false
set_option linter.unusedSimpArgs false
/-! `ListTables` with dependencies: C53. -/
namespace Schema
section
variable (eqFold : Bytes → Bytes → Bool) (cat : Catalogue) (sel : List TableRow)

theorem Inv.new : Inv eqFold cat sel sel Prov.new :=
  ⟨List.nodup_nil, fun k t h => (by cases h), fun k i h => (by cases h)⟩

theorem strip_view_of (p' : Prov) (t : Table) (r : TableRow) (h : Spec.view p'.heap t = Spec.table eqFold cat (fun _ => none) r) :
    Spec.view (p'.heap.map strip) t = Spec.table eqFold cat (fun _ => none) r := by
  have e : (fun i : Nat => (p'.heap.map strip)[i]?) = (Option.map strip) ∘ (fun i : Nat => p'.heap[i]?) := by funext i; simp
  have hcols : ∀ c ∈ Spec.columns eqFold cat r.schema r.name (Spec.indexes cat r.schema r.name) (fun _ => none), strip c = c := by
    intro c hc
    unfold Spec.columns at hc
    rw [(Util.sort_perm _ _).mem_iff, List.mem_map] at hc
    obtain ⟨x, -, rfl⟩ := hc
    rfl
  have hc : (Spec.view p'.heap t).columns = (Spec.table eqFold cat (fun _ => none) r).columns := congrArg Spec.TableView.columns h
  have hp : (Spec.view p'.heap t).primaryKey = (Spec.table eqFold cat (fun _ => none) r).primaryKey := congrArg Spec.TableView.primaryKey h
  have h1 : (Spec.view (p'.heap.map strip) t).columns = (Spec.table eqFold cat (fun _ => none) r).columns := by
    simp only [Spec.view] at hc ⊢
    rw [e, ← List.map_map, hc]
    simp only [Spec.table, List.map_map]
    apply List.map_congr_left
    intro c hcm
    simp [hcols c hcm]
  have h2 : (Spec.view (p'.heap.map strip) t).primaryKey = (Spec.table eqFold cat (fun _ => none) r).primaryKey := by
    have e2 : (Spec.view (p'.heap.map strip) t).primaryKey = ((Spec.view p'.heap t).primaryKey).map strip := by
      simp only [Spec.view]
      cases t.primaryKey with
      | none => rfl
      | some i => simp
    rw [e2, hp]
    cases hk : (Spec.table eqFold cat (fun _ => none) r).primaryKey with
    | none => rfl
    | some c =>
      simp only [Option.map_some, Option.some.injEq]
      apply hcols
      simp only [Spec.table] at hk
      rw [Option.bind_eq_some_iff] at hk
      obtain ⟨n, -, hf⟩ := hk
      exact List.mem_of_find?_eq_some hf
  rw [← h] at h1 h2
  rw [← h]
  have : Spec.view (p'.heap.map strip) t = { Spec.view p'.heap t with columns := (Spec.view (p'.heap.map strip) t).columns, primaryKey := (Spec.view (p'.heap.map strip) t).primaryKey } := rfl
  rw [this, h1, h2]

theorem tableLoop_inv (hd : Spec.Discoverable cat sel) (schemas tables : List Bytes) : ∀ (rs : List TableRow) (acc : List Table) (p : Prov), Inv eqFold cat sel sel p →
    (∀ r ∈ rs.filter (fun r => passes eqFold schemas r.schema && passes eqFold tables r.name), r ∈ sel ∧ Spec.Consistent cat r.schema r.name
      ∧ p.tables.lookup (dot2 r.schema r.name) = none) →
    ((rs.filter (fun r => passes eqFold schemas r.schema && passes eqFold tables r.name)).map (fun r => dot2 r.schema r.name)).Nodup →
    ∃ ts p', tableLoop eqFold cat schemas tables false (rs.map some) acc p = (.ok ts, p') ∧ Inv eqFold cat sel sel p' ∧ Ext cat p p'
      ∧ (∀ r ∈ rs.filter (fun r => passes eqFold schemas r.schema && passes eqFold tables r.name), p'.tables.lookup (dot2 r.schema r.name) ≠ none)
      ∧ (∀ k, p'.tables.lookup k ≠ none → p.tables.lookup k ≠ none
          ∨ ∃ r ∈ rs.filter (fun r => passes eqFold schemas r.schema && passes eqFold tables r.name), k = dot2 r.schema r.name) := by
  intro rs
  induction rs with
  | nil =>
    intro acc p h _ _
    exact ⟨acc, p, by simp [tableLoop], h, .refl cat p, (by intro r hr; cases hr), fun k hk => .inl hk⟩
  | cons r rs ih =>
    intro acc p h hc hnd
    by_cases hpass : (passes eqFold schemas r.schema && passes eqFold tables r.name) = true
    · rw [List.filter_cons_of_pos (p := fun r : TableRow => passes eqFold schemas r.schema && passes eqFold tables r.name) hpass] at hc hnd ⊢
      rw [List.map_cons, List.nodup_cons] at hnd
      obtain ⟨hrs, hcons, hnew⟩ := hc r (List.mem_cons_self ..)
      obtain ⟨t, p1, a1, a2, a3, a4, a5, a6, a7, a8, a9, a10⟩ := addTable_ok eqFold cat r hcons p
      obtain ⟨b1, b2, b3, b4, b5⟩ := insert_inv eqFold cat sel sel h hd.names r.schema r.name (.listed r hrs) hnew hcons.distinct _ t a2 (by rw [a6, a5]) a3 a4 a5 a7 a8 a9
        (.inl ⟨r, hrs, rfl, rfl, strip_view_of eqFold cat p1 t r (a10 p1.heap (List.prefix_refl _))⟩)
      have hkey : ∀ k, p1.tables.lookup k ≠ none → p.tables.lookup k ≠ none ∨ k = dot2 r.schema r.name := by
        intro k hk
        by_cases e : k = dot2 r.schema r.name
        · exact .inr e
        · rw [a6, a5, lookup_put_ne _ _ _ _ e] at hk; exact .inl hk
      obtain ⟨ts, p2, c1, c2, c3, c4, c5⟩ := ih (acc ++ [t]) p1 b1 (by
        intro x hx
        obtain ⟨d1, d2, d3⟩ := hc x (List.mem_cons_of_mem _ hx)
        refine ⟨d1, d2, ?_⟩
        cases hl : p1.tables.lookup (dot2 x.schema x.name) with
        | none => rfl
        | some u =>
          rcases hkey _ (by rw [hl]; simp) with e | e
          · exact absurd d3 e
          · exact absurd (by rw [← e]; exact List.mem_map_of_mem (f := fun r : TableRow => dot2 r.schema r.name) hx) hnd.1) hnd.2
      refine ⟨ts, p2, ?_, c2, b2.trans cat c3, ?_, ?_⟩
      · simp only [List.map_cons, tableLoop, if_pos hpass, a1, c1]
      · intro x hx
        rcases List.mem_cons.1 hx with rfl | hx
        · rw [c3.tables _ _ b3]; simp
        · exact c4 x hx
      · intro k hk
        rcases c5 k hk with e | ⟨x, hx, e⟩
        · rcases hkey k e with e | e
          · exact .inl e
          · exact .inr ⟨r, List.mem_cons_self .., e⟩
        · exact .inr ⟨x, List.mem_cons_of_mem _ hx, e⟩
    · rw [List.filter_cons_of_neg (p := fun r : TableRow => passes eqFold schemas r.schema && passes eqFold tables r.name) hpass] at hc hnd ⊢
      obtain ⟨ts, p2, c1, c2, c3, c4, c5⟩ := ih acc p h hc hnd
      exact ⟨ts, p2, by simp only [List.map_cons, tableLoop, if_neg hpass, c1], c2, c3, c4, c5⟩

/-! ### The views, with references -/

/-- Add the references. -/
def addRef (ref : Bytes → Option ForeignKey) (c : Column) : Column := { c with ref := ref c.name }

theorem columns_addRef (s n : Bytes) (ii : List Index) (ref : Bytes → Option ForeignKey) :
    (Spec.columns eqFold cat s n ii (fun _ => none)).map (addRef ref) = Spec.columns eqFold cat s n ii ref := by
  unfold Spec.columns
  rw [sort_map (addRef ref) (fun a b : Column => decide (a.position ≤ b.position)) (fun a b : Column => decide (a.position ≤ b.position)) _ (fun _ _ _ _ => rfl)]
  rw [List.map_map]
  rfl

theorem find_addRef (ref : Bytes → Option ForeignKey) (n : Bytes) : ∀ l : List Column,
    (l.map (addRef ref)).find? (fun c => c.name = n) = (l.find? (fun c => c.name = n)).map (addRef ref) := by
  intro l
  induction l with
  | nil => rfl
  | cons c l ih =>
    by_cases h : c.name = n
    · rw [List.map_cons, List.find?_cons_of_pos (by show decide (c.name = n) = true; simpa using h), List.find?_cons_of_pos (by simpa using h)]; rfl
    · rw [List.map_cons, List.find?_cons_of_neg (by show ¬ decide (c.name = n) = true; simpa using h), List.find?_cons_of_neg (by simpa using h), ih]

/-- References added to a view. -/
def refView (ref : Bytes → Option ForeignKey) (v : Spec.TableView) : Spec.TableView :=
  { v with columns := v.columns.map (Option.map (addRef ref)), primaryKey := v.primaryKey.map (addRef ref) }

theorem refView_table (ref : Bytes → Option ForeignKey) (r : TableRow) :
    refView ref (Spec.table eqFold cat (fun _ => none) r) = Spec.table eqFold cat ref r := by
  simp only [refView, Spec.table]
  rw [← columns_addRef eqFold cat r.schema r.name _ ref, List.map_map, List.map_map]
  congr 1
  · cases Spec.primaryKey (Spec.indexes cat r.schema r.name) with
    | none => rfl
    | some n => simp only [Option.bind_some]; rw [find_addRef]

theorem refView_dependency (ref : Bytes → Option ForeignKey) (s n : Bytes) :
    refView ref (Spec.dependency eqFold cat (fun _ => none) s n) = Spec.dependency eqFold cat ref s n := by
  simp only [refView, Spec.dependency]
  rw [← columns_addRef eqFold cat s n _ ref, List.map_map, List.map_map]
  congr 1

theorem view_done (hd : Spec.Discoverable cat sel) (p : Prov) (h : Inv eqFold cat sel sel p) (hdone : ∀ k, Done cat p k) (k : Bytes) (t : Table) (ht : p.tables.lookup k = some t) :
    Expected eqFold cat sel (Spec.refOf cat) t.schema t.name (Spec.view p.heap t) := by
  obtain ⟨hk, htab⟩ := h.tabs k t ht
  obtain ⟨hs, hn⟩ := hd.names _ _ htab.reach
  have key : ∀ i ∈ t.columns, p.heap[i]? = ((p.heap.map strip)[i]?).map (addRef (Spec.refOf cat t.schema t.name)) := by
    intro i hi
    obtain ⟨c, h1, h2, h3, h4⟩ := htab.own i hi
    obtain ⟨⟨c', g1, g2, g3⟩, -⟩ := hdone _ i h2
    rw [h1] at g1; cases g1
    rw [List.getElem?_map, h1]
    simp only [Option.map_some, Option.some.injEq, addRef, strip]
    rw [h4, fkOf_refOf cat hd.fkNames _ _ _ hs hn] at g3
    rw [← g3]
  have hview : Spec.view p.heap t = refView (Spec.refOf cat t.schema t.name) (Spec.view (p.heap.map strip) t) := by
    simp only [Spec.view, refView]
    have e1 : t.columns.map (fun i => p.heap[i]?) = (t.columns.map (fun i => (p.heap.map strip)[i]?)).map (Option.map (addRef (Spec.refOf cat t.schema t.name))) := by
      rw [List.map_map]; exact List.map_congr_left key
    have e2 : t.primaryKey.bind (fun i => p.heap[i]?) = (t.primaryKey.bind (fun i => (p.heap.map strip)[i]?)).map (addRef (Spec.refOf cat t.schema t.name)) := by
      cases hpk : t.primaryKey with
      | none => rfl
      | some i => exact key i (htab.pk i hpk)
    rw [e1, e2]
  rw [hview]
  rcases htab.view with ⟨r, h1, h2, h3, h4⟩ | ⟨h1, h2⟩
  · exact .inl ⟨r, h1, h2, h3, by rw [h4, refView_table]⟩
  · exact .inr ⟨h1, by rw [h2, refView_dependency]⟩

theorem mem_lookup {β : Type} : ∀ (m : List (Bytes × β)), (m.map (·.1)).Nodup → ∀ e ∈ m, m.lookup e.1 = some e.2 := by
  intro m
  induction m with
  | nil => intro _ e he; cases he
  | cons x m ih =>
    intro hnd e he
    rw [List.map_cons, List.nodup_cons] at hnd
    obtain ⟨a, b⟩ := x
    rcases List.mem_cons.1 he with rfl | he
    · simp [List.lookup_cons]
    · have : (e.1 == a) = false := by
        have : e.1 ≠ a := fun h => hnd.1 (List.mem_map.2 ⟨e, he, h⟩)
        simpa using this
      simp only [List.lookup_cons, this]
      exact ih hnd.2 e he

theorem lookup_mem {β : Type} (k : Bytes) (v : β) : ∀ (m : List (Bytes × β)), m.lookup k = some v → (k, v) ∈ m := by
  intro m
  induction m with
  | nil => intro h; cases h
  | cons x m ih =>
    obtain ⟨a, b⟩ := x
    intro h
    by_cases e : (k == a) = true
    · simp only [List.lookup_cons, e] at h
      cases h
      have : k = a := by simpa using e
      rw [this]; exact List.mem_cons_self ..
    · have e : (k == a) = false := by simpa using e
      simp only [List.lookup_cons, e] at h
      exact List.mem_cons_of_mem _ (ih h)

end

/-- **C53**: on a fresh provider `ListTables` with dependencies terminates on every foreign-key graph (recursion at most as deep as there are foreign keys, plus one),
and returns exactly the tables reachable by foreign keys from the matching ones, each once, ordered by name: the matching ones with their indexes and primary key,
and on all of them every column with a foreign key has its reference. `ks` is the order in which Go iterates over the columns; it may also contain columns added
meanwhile, and the result does not depend on it. Missing: providers used before, names with dots, and columns with foreign keys to several tables
(DiscoverMore.lean shows that the claim fails for each). -/
theorem C53_discovery_is_complete_partial (eqFold : Bytes → Bytes → Bool) (cat : Catalogue) (schemas tables : List Bytes) (fuel : Nat) (ks : List Bytes)
    (ht : Spec.fine cat.tables) (hc : ∀ r ∈ Spec.selected eqFold cat schemas tables, Spec.Consistent cat r.schema r.name)
    (hd : Spec.Discoverable cat (Spec.selected eqFold cat schemas tables))
    (hnd : ((Spec.selected eqFold cat schemas tables).map (fun r => (r.schema, r.name))).Nodup)
    (hks : ∀ r ∈ Spec.selected eqFold cat schemas tables, ∀ c ∈ Spec.rows (cat.columns r.schema r.name), r.schema ++ b!"." ++ r.name ++ b!"." ++ c.name ∈ ks)
    (hfuel : (Spec.rows cat.fkeys).length < fuel) :
    ∃ ts p', listTables eqFold cat schemas tables true fuel ks Prov.new = (.ok ts, p')
      ∧ (ts.map (fun t => (t.schema, t.name))).Nodup
      ∧ (∀ s n, (s, n) ∈ ts.map (fun t => (t.schema, t.name)) ↔ Spec.Reach cat (Spec.selected eqFold cat schemas tables) s n)
      ∧ ts.Pairwise (fun a b => Query.leBytes a.schemaName b.schemaName = true)
      ∧ (∀ r ∈ Spec.selected eqFold cat schemas tables, Spec.table eqFold cat (Spec.refOf cat r.schema r.name) r ∈ ts.map (Spec.view p'.heap))
      ∧ (∀ s n, Spec.Reach cat (Spec.selected eqFold cat schemas tables) s n → (∀ r ∈ Spec.selected eqFold cat schemas tables, ¬(r.schema = s ∧ r.name = n)) →
          Spec.dependency eqFold cat (Spec.refOf cat s n) s n ∈ ts.map (Spec.view p'.heap))
      ∧ p'.leaked = 0 := by
  have hrows := fine_rows ht
  have hselnames : ((Spec.selected eqFold cat schemas tables).map (fun r => dot2 r.schema r.name)).Nodup := by
    rw [List.nodup_iff_pairwise_ne, List.pairwise_map] at hnd ⊢
    refine List.Pairwise.imp_of_mem ?_ hnd
    intro a b ha hb hne e
    obtain ⟨e1, e2⟩ := dot2_inj (hd.names _ _ (.listed a ha)).1 (hd.names _ _ (.listed b hb)).1 e
    exact hne (by rw [e1, e2])
  generalize hsel : Spec.selected eqFold cat schemas tables = sel at *
  have hfil : (Spec.rows cat.tables).filter (fun r => passes eqFold schemas r.schema && passes eqFold tables r.name) = sel := by rw [selected_eq]; exact hsel
  obtain ⟨ts0, p1, a1, a2, a3, a4, a5⟩ := tableLoop_inv eqFold cat sel hd schemas tables (Spec.rows cat.tables) [] Prov.new (Inv.new eqFold cat sel)
    (by rw [hfil]; exact fun r hr => ⟨hr, hc r hr, rfl⟩) (by rw [hfil]; exact hselnames)
  rw [hfil] at a4 a5
  have hfk := fine_rows hd.fks
  obtain ⟨p2, b1, b2, b3, b4, b5, b6⟩ := fkLoop_ok eqFold (Spec.rows cat.fkeys) [] p1
  have hlfk : listForeignKeys eqFold cat [] [] p1 = (.ok ((Spec.rows cat.fkeys).map mkFk), p2) := by
    rw [List.nil_append] at b1
    revert hfk b1
    generalize Spec.rows cat.fkeys = rs
    intro hfk b1
    unfold listForeignKeys
    rw [hfk]
    exact b1
  have hfk2 : ∀ k, p2.fkeys.lookup k = fkOf cat k := by
    intro k
    rw [b6 k]
    unfold fkOf
    cases ((Spec.rows cat.fkeys).filter (fun r => decide ((mkFk r).columnSchemaName = k))).getLast? with
    | some x => rfl
    | none => simp only [Option.map_none]; rw [a3.fkeys]; rfl
  have hinv2 : Inv eqFold cat sel sel p2 := by
    refine ⟨by rw [b4]; exact a2.nodup, ?_, ?_⟩
    · intro k t hk
      rw [b4] at hk
      obtain ⟨h1, h2⟩ := a2.tabs k t hk
      refine ⟨h1, h2.reach, h2.name, by rw [b2]; exact h2.view, h2.pk, by rw [b2, b3]; exact h2.own, by rw [b3]; exact h2.all⟩
    · rw [b2, b3, b4]; exact a2.cols
  have hready : Ready cat sel p2 := ⟨hfk2, by rw [b4]; exact a4⟩
  obtain ⟨p3, c1, c2, c3, c4, c5⟩ := discoverLoop_ok eqFold cat sel sel hd fuel ks p2 hinv2 hready (Nat.lt_of_le_of_lt (unv_le cat p2) hfuel)
  have hdone : ∀ k, Done cat p3 k := by
    intro k
    by_cases hk : p2.columns.lookup k = none
    · exact c4 k hk
    · apply c5
      cases hl : p2.columns.lookup k with
      | none => exact absurd hl hk
      | some i =>
        obtain ⟨-, s, n, x, e1, e2, e3, e4⟩ := hinv2.cols k i hl
        rw [b4] at e3
        rcases a5 _ e3 with e | ⟨r, hr, e⟩
        · exact absurd rfl e
        · obtain ⟨f1, f2⟩ := dot2_inj (hd.names _ _ e2).1 (hd.names _ _ (.listed r hr)).1 e
          obtain ⟨c, hcm, hcn⟩ := List.mem_map.1 e4
          rw [f1, f2] at hcm e1
          have := hks r hr c hcm
          rw [e1, ← hcn]
          simpa [dot3] using this
  have hlist : listTables eqFold cat schemas tables true fuel ks Prov.new = (.ok (sortTables (p3.tables.map (·.2))), p3) := by
    unfold listTables
    rw [hrows]
    simp only [a1, discover, hlfk, c1, if_true]
  have hmem : ∀ t, t ∈ sortTables (p3.tables.map (·.2)) ↔ ∃ k, p3.tables.lookup k = some t := by
    intro t
    unfold sortTables
    rw [(Util.sort_perm _ _).mem_iff, List.mem_map]
    constructor
    · rintro ⟨e, he, rfl⟩; exact ⟨e.1, mem_lookup _ c2.nodup e he⟩
    · rintro ⟨k, hk⟩; exact ⟨(k, t), lookup_mem _ _ _ hk, rfl⟩
  have hvis : ∀ s n, Spec.Reach cat sel s n → ∃ t, p3.tables.lookup (dot2 s n) = some t ∧ t.schema = s ∧ t.name = n := by
    have hne : ∀ s n, Spec.Reach cat sel s n → p3.tables.lookup (dot2 s n) ≠ none := by
      intro s n hr
      induction hr with
      | listed r hr => exact (hready.ext cat sel c3).2 r hr
      | follow s n k hr hk e1 e2 hcol ih =>
        cases hl : p3.tables.lookup (dot2 s n) with
        | none => exact absurd hl ih
        | some t =>
          obtain ⟨f1, f2⟩ := c2.tabs _ _ hl
          obtain ⟨g1, g2⟩ := dot2_inj (hd.names _ _ hr).1 (hd.names _ _ f2.reach).1 f1
          rw [g1, g2] at hcol
          obtain ⟨i, -, hi⟩ := f2.all _ hcol
          rw [← g1, ← g2] at hi
          obtain ⟨-, hd2⟩ := hdone _ i hi
          obtain ⟨fk, hfk⟩ := fkOf_some (k := dot3 s n k.column) hk (by rw [← e1, ← e2]; rfl)
          obtain ⟨r', hr', hfe, hre⟩ := fkOf_mem hfk
          obtain ⟨x1, x2, x3⟩ := dot3_inj (hd.fkNames r' hr').1 (hd.names _ _ hr).1 (hd.fkNames r' hr').2 (hd.names _ _ hr).2 hre
          obtain ⟨y1, y2⟩ := hd.same k hk r' hr' (e1.trans (Eq.symm x1)) (e2.trans (Eq.symm x2)) (Eq.symm x3)
          have := hd2 fk hfk
          rw [hfe] at this
          rw [y1, y2]
          exact this
    intro s n hr
    cases hl : p3.tables.lookup (dot2 s n) with
    | none => exact absurd hl (hne s n hr)
    | some t =>
      obtain ⟨f1, f2⟩ := c2.tabs _ _ hl
      obtain ⟨g1, g2⟩ := dot2_inj (hd.names _ _ hr).1 (hd.names _ _ f2.reach).1 f1
      exact ⟨t, rfl, g1.symm, g2.symm⟩
  refine ⟨_, p3, hlist, ?_, ?_, ?_, ?_, ?_, ?_⟩
  · unfold sortTables
    refine (((Util.sort_perm _ _).map (fun t : Table => (t.schema, t.name))).nodup_iff).2 ?_
    rw [List.map_map]
    have hn := c2.nodup
    have : p3.tables.map (·.1) = (p3.tables.map ((fun t : Table => (t.schema, t.name)) ∘ (·.2))).map (fun x => dot2 x.1 x.2) := by
      rw [List.map_map]
      apply List.map_congr_left
      intro e he
      exact (c2.tabs _ _ (mem_lookup _ c2.nodup e he)).1
    rw [this] at hn
    exact List.Pairwise.of_map (S := fun a b : Bytes => a ≠ b) (fun x : Bytes × Bytes => dot2 x.1 x.2) (fun a b h e => h (by rw [e])) hn
  · intro s n
    constructor
    · intro hm
      obtain ⟨t, htm, he⟩ := List.mem_map.1 hm
      cases he
      obtain ⟨k, hk⟩ := (hmem t).1 htm
      exact (c2.tabs k t hk).2.reach
    · intro hr
      obtain ⟨t, h1, h2, h3⟩ := hvis s n hr
      exact List.mem_map.2 ⟨t, (hmem t).2 ⟨_, h1⟩, by rw [h2, h3]⟩
  · exact Util.sort_sorted (fun a b : Table => Query.leBytes a.schemaName b.schemaName) (fun a b c => Query.leBytes_trans _ _ _)
      (fun a b => Query.leBytes_total _ _) _
  · intro r hr
    obtain ⟨t, h1, h2, h3⟩ := hvis _ _ (.listed r hr)
    refine List.mem_map.2 ⟨t, (hmem t).2 ⟨_, h1⟩, ?_⟩
    rcases view_done eqFold cat sel hd p3 c2 hdone _ t h1 with ⟨r', g1, g2, g3, g4⟩ | ⟨g1, -⟩
    · have : r' = r := eq_of_key (fun r : TableRow => (r.schema, r.name)) (by simp only [g2, g3, h2, h3]) sel hnd g1 hr
      rw [g4, this, h2, h3]
    · exact absurd ⟨h2.symm, h3.symm⟩ (g1 r hr)
  · intro s n hr hno
    obtain ⟨t, h1, h2, h3⟩ := hvis _ _ hr
    refine List.mem_map.2 ⟨t, (hmem t).2 ⟨_, h1⟩, ?_⟩
    rcases view_done eqFold cat sel hd p3 c2 hdone _ t h1 with ⟨r', g1, g2, g3, g4⟩ | ⟨-, g2⟩
    · exact absurd ⟨g2.trans h2, g3.trans h3⟩ (hno r' g1)
    · rw [g2, h2, h3]
  · rw [c3.leaked, b5, a3.leaked]; rfl

end Schema
