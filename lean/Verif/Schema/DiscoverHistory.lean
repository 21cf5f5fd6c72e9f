import Verif.Schema.DiscoverMore
set_option linter.unusedVariables false
set_option linter.unusedSimpArgs false
set_option linter.unusedSectionVars false
/-! `ListTables` with dependencies on a provider used before, for every history of calls: C53. -/
namespace Schema
section
variable (eqFold : Bytes → Bytes → Bool) (cat : Catalogue) (sel : List TableRow)

theorem Reach.mono {sel sel' : List TableRow} (h : ∀ r ∈ sel, r ∈ sel') {s n : Bytes} (hr : Spec.Reach cat sel s n) : Spec.Reach cat sel' s n := by
  induction hr with
  | listed r hr => exact .listed r (h r hr)
  | follow s n k _ hk h1 h2 h3 ih => exact .follow s n k ih hk h1 h2 h3

theorem Inv.mono {sel sel' ld : List TableRow} (h : ∀ r ∈ sel, r ∈ sel') {p : Prov} (hi : Inv eqFold cat sel ld p) : Inv eqFold cat sel' ld p := by
  refine ⟨hi.nodup, ?_, ?_⟩
  · intro k t ht
    obtain ⟨h1, h2⟩ := hi.tabs k t ht
    exact ⟨h1, Reach.mono cat h h2.reach, h2.name, h2.view, h2.pk, h2.own, h2.all⟩
  · intro k i hk
    obtain ⟨h1, s, n, x, e1, e2, e3, e4⟩ := hi.cols k i hk
    exact ⟨h1, s, n, x, e1, Reach.mono cat h e2, e3, e4⟩

theorem Expected.congr {ld ld' : List TableRow} {ref : Bytes → Bytes → Bytes → Option ForeignKey} {s n : Bytes} {v : Spec.TableView}
    (h : ∀ r, r.schema = s → r.name = n → (r ∈ ld ↔ r ∈ ld')) (he : Expected eqFold cat ld ref s n v) : Expected eqFold cat ld' ref s n v := by
  rcases he with ⟨r, h1, h2, h3, h4⟩ | ⟨h1, h2⟩
  · exact .inl ⟨r, (h r h2 h3).1 h1, h2, h3, h4⟩
  · exact .inr ⟨fun r hr e => h1 r ((h r e.1 e.2).2 hr) e, h2⟩

/-- A table entered, or entered again. -/
theorem replace_inv {p p' : Prov} {ld ld' : List TableRow} (h : Inv eqFold cat sel ld p) (hdot : ∀ s n, Spec.Reach cat sel s n → 46 ∉ s ∧ 46 ∉ n)
    (s n : Bytes) (hreach : Spec.Reach cat sel s n) (hnd : ((Spec.rows (cat.columns s n)).map (·.name)).Nodup)
    (hld : ∀ r : TableRow, ¬(r.schema = s ∧ r.name = n) → (r ∈ ld ↔ r ∈ ld'))
    (ii : List Index) (t : Table) (hrt : ReadTable eqFold cat s n ii p t.columns p') (ht : p'.tables = put p.tables (dot2 s n) t)
    (hs : t.schema = s) (hn : t.name = n) (hsn : t.schemaName = dot2 s n)
    (hpk : ∀ i, t.primaryKey = some i → i ∈ t.columns)
    (hv : Expected eqFold cat ld' (fun _ _ _ => none) s n (Spec.view (p'.heap.map strip) t)) : Inv eqFold cat sel ld' p' := by
  obtain ⟨hds, hdn⟩ := hdot s n hreach
  have hcolext : ∀ k i, (∀ x, k ≠ dot3 s n x) → p.columns.lookup k = some i → p'.columns.lookup k = some i := by
    intro k i hne hk
    rw [hrt.other k (fun r _ => hne r.name)]
    exact hk
  have hheap : ∀ (i : Nat) (c : Column), p.heap[i]? = some c → p'.heap[i]? = some c := by
    intro i c hi
    rw [hrt.heap, List.getElem?_append_left (List.getElem?_eq_some_iff.1 hi).1]
    exact hi
  have hself : p'.tables.lookup (dot2 s n) = some t := by rw [ht]; exact lookup_put_self _ _ _
  have hkeys : ∀ k, p.tables.lookup k ≠ none → p'.tables.lookup k ≠ none := by
    intro k hk
    by_cases e : k = dot2 s n
    · rw [e, hself]; simp
    · rw [ht, lookup_put_ne _ _ _ _ e]; exact hk
  have hidmem : ∀ i, i ∈ t.columns ↔ ∃ j, i = p.heap.length + j ∧ j < (Spec.rows (cat.columns s n)).length := by
    intro i
    rw [hrt.ids, (Util.sort_perm _ _).mem_iff, List.mem_range'_1]
    constructor
    · intro ⟨h1, h2⟩; exact ⟨i - p.heap.length, by omega, by omega⟩
    · rintro ⟨j, rfl, hj⟩; omega
  have hget : ∀ j r, (Spec.rows (cat.columns s n))[j]? = some r → p'.heap[p.heap.length + j]? = some (Spec.column eqFold s n ii none r) := by
    intro j r hj
    rw [hrt.heap, List.getElem?_append_right (by omega)]
    have : p.heap.length + j - p.heap.length = j := by omega
    rw [this, List.getElem?_map, hj]; rfl
  have hcsn : ∀ r, (Spec.column eqFold s n ii none r).schemaName = dot3 s n r.name := by intro r; simp [Spec.column, dot3]
  have hown : ∀ i ∈ t.columns, ∃ r, (Spec.rows (cat.columns s n))[i - p.heap.length]? = some r ∧ p'.heap[i]? = some (Spec.column eqFold s n ii none r)
      ∧ p'.columns.lookup (dot3 s n r.name) = some i := by
    intro i hi
    obtain ⟨j, rfl, hj⟩ := (hidmem i).1 hi
    have hr := List.getElem?_eq_getElem hj
    refine ⟨_, ?_, hget j _ hr, hrt.own hnd j _ hr⟩
    have : p.heap.length + j - p.heap.length = j := by omega
    rw [this]; exact hr
  have hTab : TabOk eqFold cat sel ld' p' t := by
    refine ⟨by rw [hs, hn]; exact hreach, by rw [hs, hn]; exact hsn, by rw [hs, hn]; exact hv, hpk, ?_, ?_⟩
    · intro i hi
      obtain ⟨r, h1, h2, h3⟩ := hown i hi
      refine ⟨_, h2, by rw [hcsn]; exact h3, ?_, ?_⟩
      · rw [hs, hn]; exact List.mem_map_of_mem (List.mem_of_getElem? h1)
      · rw [hs, hn, hcsn]; rfl
    · rw [hs, hn]
      intro x hx
      obtain ⟨r, hr, rfl⟩ := List.mem_map.1 hx
      obtain ⟨j, hj⟩ := List.mem_iff_getElem?.1 hr
      have hlt := (List.getElem?_eq_some_iff.1 hj).1
      exact ⟨p.heap.length + j, (hidmem _).2 ⟨j, rfl, hlt⟩, hrt.own hnd j r hj⟩
  refine ⟨by rw [ht]; exact put_nodup _ _ _ h.nodup, ?_, ?_⟩
  · intro k u hk
    by_cases he : k = dot2 s n
    · subst he
      rw [hself] at hk; cases hk
      exact ⟨by rw [hs, hn], hTab⟩
    · rw [ht, lookup_put_ne _ _ _ _ he] at hk
      obtain ⟨h1, h2⟩ := h.tabs k u hk
      obtain ⟨hus, hun⟩ := hdot _ _ h2.reach
      have hother : ∀ x y, dot3 u.schema u.name x ≠ dot3 s n y := by
        intro x y e
        obtain ⟨e1, e2, -⟩ := dot3_inj hus hds hun hdn e
        exact he (by rw [h1, e1, e2])
      refine ⟨h1, h2.reach, h2.name, ?_, h2.pk, ?_, ?_⟩
      · have hvalid : ∀ i ∈ u.columns, i < p.heap.length := by
          intro i hi
          obtain ⟨c, hc, -⟩ := h2.own i hi
          exact (List.getElem?_eq_some_iff.1 hc).1
        rw [view_strip_ext u hvalid h2.pk (fun i c hc => ⟨c, hheap i c hc, rfl⟩)]
        refine Expected.congr eqFold cat (fun r e1 e2 => hld r ?_) h2.view
        rintro ⟨f1, f2⟩
        exact he (by rw [h1, ← e1, ← e2, f1, f2])
      · intro i hi
        obtain ⟨c, a1, a2, a3, a4⟩ := h2.own i hi
        exact ⟨c, hheap i c a1, hcolext _ _ (fun y => by rw [a4]; exact hother _ _) a2, a3, a4⟩
      · intro x hx
        obtain ⟨i, b1, b2⟩ := h2.all x hx
        exact ⟨i, b1, hcolext _ _ (hother x) b2⟩
  · intro k i hk
    by_cases he : ∃ r ∈ Spec.rows (cat.columns s n), k = dot3 s n r.name
    · obtain ⟨r, hr, rfl⟩ := he
      obtain ⟨j, hj⟩ := List.mem_iff_getElem?.1 hr
      rw [hrt.own hnd j r hj] at hk
      cases hk
      exact ⟨⟨_, hget j r hj, hcsn r, .inl rfl⟩, s, n, r.name, rfl, hreach, by rw [hself]; simp, List.mem_map_of_mem hr⟩
    · have hne : ∀ r ∈ Spec.rows (cat.columns s n), k ≠ dot3 s n r.name := fun r hr e => he ⟨r, hr, e⟩
      rw [hrt.other k hne] at hk
      obtain ⟨⟨c, a1, a2, a3⟩, s', n', x, a4, a5, a6, a7⟩ := h.cols k i hk
      exact ⟨⟨c, hheap i c a1, a2, a3⟩, s', n', x, a4, a5, hkeys _ a6, a7⟩

/-- The loop over the tables of the catalogue, on any provider. -/
theorem tableLoop_again (hnames : ∀ s n, Spec.Reach cat sel s n → 46 ∉ s ∧ 46 ∉ n) (schemas tables : List Bytes) : ∀ (rs : List TableRow) (acc : List Table) (ld : List TableRow) (p : Prov),
    Inv eqFold cat sel ld p →
    (∀ r ∈ ld, p.tables.lookup (dot2 r.schema r.name) ≠ none) →
    (∀ r ∈ rs.filter (fun r => passes eqFold schemas r.schema && passes eqFold tables r.name), r ∈ sel ∧ Spec.Consistent cat r.schema r.name) →
    ∃ ts p', tableLoop eqFold cat schemas tables false (rs.map some) acc p = (.ok ts, p')
      ∧ Inv eqFold cat sel (ld ++ rs.filter (fun r => passes eqFold schemas r.schema && passes eqFold tables r.name)) p'
      ∧ p'.fkeys = p.fkeys ∧ p'.leaked = p.leaked
      ∧ (∀ k, p'.tables.lookup k ≠ none ↔ p.tables.lookup k ≠ none
          ∨ ∃ r ∈ rs.filter (fun r => passes eqFold schemas r.schema && passes eqFold tables r.name), k = dot2 r.schema r.name) := by
  intro rs
  induction rs with
  | nil =>
    intro acc ld p h _ _
    exact ⟨acc, p, by simp [tableLoop], by simpa using h, rfl, rfl, fun k => by simp⟩
  | cons r rs ih =>
    intro acc ld p h hld hc
    by_cases hpass : (passes eqFold schemas r.schema && passes eqFold tables r.name) = true
    · rw [List.filter_cons_of_pos (p := fun r : TableRow => passes eqFold schemas r.schema && passes eqFold tables r.name) hpass] at hc ⊢
      obtain ⟨hrs, hcons⟩ := hc r (List.mem_cons_self ..)
      obtain ⟨t, p1, a1, a2, a3, a4, a5, a6, a7, a8, a9, a10⟩ := addTable_ok eqFold cat r hcons p
      have b1 := replace_inv eqFold cat sel (ld' := ld ++ [r]) h hnames r.schema r.name (.listed r hrs) hcons.distinct
        (fun x hx => by
          rw [List.mem_append, List.mem_singleton]
          exact ⟨.inl, fun e => e.elim id (fun e => absurd (by rw [e]; exact ⟨rfl, rfl⟩) hx)⟩)
        _ t a2 (by rw [a6, a5]) a3 a4 a5 a9
        (.inl ⟨r, List.mem_append_right _ (List.mem_singleton.2 rfl), rfl, rfl, strip_view_of eqFold cat p1 t r (a10 p1.heap (List.prefix_refl _))⟩)
      have hkey : ∀ k, p1.tables.lookup k ≠ none ↔ p.tables.lookup k ≠ none ∨ k = dot2 r.schema r.name := by
        intro k
        by_cases e : k = dot2 r.schema r.name
        · subst e; rw [a6, a5, lookup_put_self]; simp
        · rw [a6, a5, lookup_put_ne _ _ _ _ e]; simp [e]
      obtain ⟨ts, p2, c1, c2, c3, c4, c5⟩ := ih (acc ++ [t]) (ld ++ [r]) p1 b1 (by
        intro x hx
        rw [hkey]
        rcases List.mem_append.1 hx with hx | hx
        · exact .inl (hld x hx)
        · rw [List.mem_singleton.1 hx]; exact .inr rfl) (fun x hx => hc x (List.mem_cons_of_mem _ hx))
      refine ⟨ts, p2, ?_, by rw [List.append_cons]; exact c2, c3.trans a7, c4.trans a8, ?_⟩
      · simp only [List.map_cons, tableLoop, if_pos hpass, a1, c1]
      · intro k
        rw [c5, hkey]
        simp only [List.mem_cons, exists_eq_or_imp]
        exact or_assoc
    · rw [List.filter_cons_of_neg (p := fun r : TableRow => passes eqFold schemas r.schema && passes eqFold tables r.name) hpass] at hc ⊢
      obtain ⟨ts, p2, c1, c2, c3, c4, c5⟩ := ih acc ld p h hld hc
      exact ⟨ts, p2, by simp only [List.map_cons, tableLoop, if_neg hpass, c1], c2, c3, c4, c5⟩

theorem Discoverable.mono {sel sel' : List TableRow} (h : ∀ r ∈ sel, r ∈ sel') (hd : Spec.Discoverable cat sel') : Spec.Discoverable cat sel :=
  ⟨hd.fks, hd.same, fun s n hr => hd.names s n (Reach.mono cat h hr), hd.fkNames, fun s n hr => hd.cols s n (Reach.mono cat h hr),
    fun s n hr => hd.distinct s n (Reach.mono cat h hr)⟩

/-- When all references are set, all reachable tables are there. -/
theorem reach_known (hd : Spec.Discoverable cat sel) {ld : List TableRow} (p : Prov) (hi : Inv eqFold cat sel ld p) (hdone : ∀ k, Done cat p k)
    (hsel : ∀ r ∈ sel, p.tables.lookup (dot2 r.schema r.name) ≠ none) : ∀ s n, Spec.Reach cat sel s n → p.tables.lookup (dot2 s n) ≠ none := by
  intro s n hr
  induction hr with
  | listed r hr => exact hsel r hr
  | follow s n k hr hk e1 e2 hcol ih =>
    cases hl : p.tables.lookup (dot2 s n) with
    | none => exact absurd hl ih
    | some t =>
      obtain ⟨f1, f2⟩ := hi.tabs _ _ hl
      obtain ⟨g1, g2⟩ := dot2_inj (hd.names _ _ hr).1 (hd.names _ _ f2.reach).1 f1
      rw [g1, g2] at hcol
      obtain ⟨i, -, hi2⟩ := f2.all _ hcol
      rw [← g1, ← g2] at hi2
      obtain ⟨-, hd2⟩ := hdone _ i hi2
      obtain ⟨fk, hfk⟩ := fkOf_some (k := dot3 s n k.column) hk (by rw [← e1, ← e2]; rfl)
      obtain ⟨r', hr', hfe, hre⟩ := fkOf_mem hfk
      obtain ⟨x1, x2, x3⟩ := dot3_inj (hd.fkNames r' hr').1 (hd.names _ _ hr).1 (hd.fkNames r' hr').2 (hd.names _ _ hr).2 hre
      obtain ⟨y1, y2⟩ := hd.same k hk r' hr' (e1.trans (Eq.symm x1)) (e2.trans (Eq.symm x2)) (Eq.symm x3)
      have := hd2 fk hfk
      rw [hfe] at this
      rw [y1, y2]
      exact this

theorem fkOf_none {k : Bytes} : fkOf cat k = none ↔ ∀ r ∈ Spec.rows cat.fkeys, (mkFk r).columnSchemaName ≠ k := by
  constructor
  · intro h r hr e
    obtain ⟨fk, hfk⟩ := fkOf_some hr e
    rw [h] at hfk; cases hfk
  · intro h
    cases hf : fkOf cat k with
    | none => rfl
    | some fk =>
      obtain ⟨r, hr, -, e⟩ := fkOf_mem hf
      exact absurd e (h r hr)

/-- `ListForeignKeys` with any filter. -/
theorem fkLoop_any (schemas tables : List Bytes) : ∀ (rs : List FkRow) (acc : List ForeignKey) (p : Prov),
    ∃ l p', fkLoop eqFold schemas tables false (rs.map some) acc p = (.ok l, p')
      ∧ p'.heap = p.heap ∧ p'.columns = p.columns ∧ p'.tables = p.tables ∧ p'.leaked = p.leaked
      ∧ ∀ k, (∀ r ∈ rs, (mkFk r).columnSchemaName ≠ k) → p'.fkeys.lookup k = p.fkeys.lookup k := by
  intro rs
  induction rs with
  | nil => intro acc p; exact ⟨acc, p, by simp [fkLoop], rfl, rfl, rfl, rfl, fun k _ => rfl⟩
  | cons r rs ih =>
    intro acc p
    simp only [List.map_cons, fkLoop]
    by_cases hp : (passes eqFold schemas r.schema && passes eqFold tables r.table) = true
    · rw [if_pos hp]
      obtain ⟨l, p', h1, h2, h3, h4, h5, h6⟩ := ih (acc ++ [mkFk r]) { p with fkeys := put p.fkeys (mkFk r).columnSchemaName (mkFk r) }
      refine ⟨l, p', h1, h2, h3, h4, h5, ?_⟩
      intro k hk
      rw [h6 k (fun x hx => hk x (List.mem_cons_of_mem _ hx))]
      exact lookup_put_ne _ _ _ _ (Ne.symm (hk r (List.mem_cons_self ..)))
    · rw [if_neg hp]
      obtain ⟨l, p', h1, h2, h3, h4, h5, h6⟩ := ih acc p
      exact ⟨l, p', h1, h2, h3, h4, h5, fun k hk => h6 k (fun x hx => hk x (List.mem_cons_of_mem _ hx))⟩

/-- A provider between calls: `sel` are the tables that matched so far, `known` those that were read. -/
structure Settled (known : Bytes → Bytes → Prop) (p : Prov) : Prop where
  inv : Inv eqFold cat sel sel p
  sel : ∀ r ∈ sel, p.tables.lookup (dot2 r.schema r.name) ≠ none
  fks : ∀ k, fkOf cat k = none → p.fkeys.lookup k = none
  leaked : p.leaked = 0
  known : ∀ k, p.tables.lookup k ≠ none ↔ ∃ s n, known s n ∧ k = dot2 s n

theorem Settled.new : Settled eqFold cat [] (fun _ _ => False) Prov.new :=
  ⟨Inv.new eqFold cat [], (by intro r hr; cases hr), fun _ _ => rfl, rfl, fun k => ⟨fun h => absurd rfl h, fun ⟨_, _, h, _⟩ => h.elim⟩⟩

theorem Inv.of_same {sel ld : List TableRow} {p p' : Prov} (h1 : p'.heap = p.heap) (h2 : p'.columns = p.columns) (h3 : p'.tables = p.tables) (h : Inv eqFold cat sel ld p) :
    Inv eqFold cat sel ld p' := by
  refine ⟨by rw [h3]; exact h.nodup, ?_, ?_⟩
  · intro k t hk
    rw [h3] at hk
    obtain ⟨a1, a2⟩ := h.tabs k t hk
    exact ⟨a1, a2.reach, a2.name, by rw [h1]; exact a2.view, a2.pk, by rw [h1, h2]; exact a2.own, by rw [h2]; exact a2.all⟩
  · rw [h1, h2, h3]; exact h.cols

theorem Inv.of_equiv {sel sel' ld ld' : List TableRow} {p : Prov} (h1 : ∀ r, r ∈ sel → r ∈ sel') (h2 : ∀ r, r ∈ ld ↔ r ∈ ld') (h : Inv eqFold cat sel ld p) :
    Inv eqFold cat sel' ld' p := by
  have h := Inv.mono eqFold cat h1 h
  refine ⟨h.nodup, ?_, h.cols⟩
  intro k t hk
  obtain ⟨a1, a2⟩ := h.tabs k t hk
  exact ⟨a1, a2.reach, a2.name, Expected.congr eqFold cat (fun r _ _ => h2 r) a2.view, a2.pk, a2.own, a2.all⟩

theorem Settled.foreignKeys {known : Bytes → Bytes → Prop} {p : Prov} (hf : Spec.fine cat.fkeys) (ss ts : List Bytes) (h : Settled eqFold cat sel known p) :
    Settled eqFold cat sel known (listForeignKeys eqFold cat ss ts p).2 := by
  obtain ⟨l, p', h1, h2, h3, h4, h5, h6⟩ := fkLoop_any eqFold ss ts (Spec.rows cat.fkeys) [] p
  have e : (listForeignKeys eqFold cat ss ts p).2 = p' := by
    have hfk := fine_rows hf
    revert hfk h1
    generalize Spec.rows cat.fkeys = rs
    intro h1 hfk
    unfold listForeignKeys
    rw [hfk]
    simp only [h1]
  rw [e]
  refine ⟨Inv.of_same eqFold cat h2 h3 h4 h.inv, by rw [h4]; exact h.sel, ?_, h5.trans h.leaked, by rw [h4]; exact h.known⟩
  intro k hk
  rw [h6 k ((fkOf_none cat).1 hk)]
  exact h.fks k hk

/-- `ListTables` on any provider between calls. -/
theorem listTables_settled {known : Bytes → Bytes → Prop} {p : Prov} (h : Settled eqFold cat sel known p) (schemas tables : List Bytes) (deps : Bool) (fuel : Nat) (ks : List Bytes)
    (ht : Spec.fine cat.tables) (hc : ∀ r ∈ Spec.selected eqFold cat schemas tables, Spec.Consistent cat r.schema r.name)
    (hd : Spec.Discoverable cat (sel ++ Spec.selected eqFold cat schemas tables))
    (hks : ∀ s n, (known s n ∨ ∃ r ∈ Spec.selected eqFold cat schemas tables, r.schema = s ∧ r.name = n) →
      ∀ c ∈ Spec.rows (cat.columns s n), s ++ b!"." ++ n ++ b!"." ++ c.name ∈ ks)
    (hreach : ∀ s n, known s n → Spec.Reach cat sel s n)
    (hfuel : (Spec.rows cat.fkeys).length < fuel) :
    ∃ ts p', listTables eqFold cat schemas tables deps fuel ks p = (.ok ts, p')
      ∧ Settled eqFold cat (sel ++ Spec.selected eqFold cat schemas tables) (fun s n =>
          if deps then Spec.Reach cat (sel ++ Spec.selected eqFold cat schemas tables) s n
          else (known s n ∨ ∃ r ∈ Spec.selected eqFold cat schemas tables, r.schema = s ∧ r.name = n)) p'
      ∧ (deps = true → ts = sortTables (p'.tables.map (·.2)) ∧ ∀ k, Done cat p' k) := by
  have hrows := fine_rows ht
  have hfil : (Spec.rows cat.tables).filter (fun r => passes eqFold schemas r.schema && passes eqFold tables r.name) = Spec.selected eqFold cat schemas tables := by
    rw [selected_eq]
  obtain ⟨ts0, p1, a1, a2, a3, a4, a5⟩ := tableLoop_again eqFold cat (sel ++ Spec.selected eqFold cat schemas tables) hd.names schemas tables (Spec.rows cat.tables) [] sel p
    (Inv.mono eqFold cat (fun r hr => List.mem_append_left _ hr) h.inv) h.sel
    (by rw [hfil]; exact fun r hr => ⟨List.mem_append_right _ hr, hc r hr⟩)
  rw [hfil] at a2 a5
  generalize hsel : Spec.selected eqFold cat schemas tables = new at *
  have hpres : ∀ r ∈ sel ++ new, p1.tables.lookup (dot2 r.schema r.name) ≠ none := by
    intro r hr
    rw [a5]
    rcases List.mem_append.1 hr with hr | hr
    · exact .inl (h.sel r hr)
    · exact .inr ⟨r, hr, rfl⟩
  have hk1 : ∀ k, p1.tables.lookup k ≠ none ↔ ∃ s n, (known s n ∨ ∃ r ∈ new, r.schema = s ∧ r.name = n) ∧ k = dot2 s n := by
    intro k
    rw [a5, h.known]
    constructor
    · rintro (⟨s, n, h1, h2⟩ | ⟨r, h1, h2⟩)
      · exact ⟨s, n, .inl h1, h2⟩
      · exact ⟨_, _, .inr ⟨r, h1, rfl, rfl⟩, h2⟩
    · rintro ⟨s, n, h1 | ⟨r, h1, rfl, rfl⟩, h2⟩
      · exact .inl ⟨s, n, h1, h2⟩
      · exact .inr ⟨r, h1, h2⟩
  cases deps with
  | false =>
    refine ⟨sortTables ts0, p1, ?_, ?_, fun e => by cases e⟩
    · unfold listTables
      rw [hrows]
      simp only [a1]
      rfl
    · exact ⟨a2, hpres, fun k hk => by rw [a3]; exact h.fks k hk, a4.trans h.leaked, by simpa using hk1⟩
  | true =>
    have hfk := fine_rows hd.fks
    obtain ⟨p2, b1, b2, b3, b4, b5, b6⟩ := fkLoop_ok eqFold (Spec.rows cat.fkeys) [] p1
    have hlfk : listForeignKeys eqFold cat [] [] p1 = (.ok ((Spec.rows cat.fkeys).map mkFk), p2) := by
      rw [List.nil_append] at b1
      revert hfk b1
      generalize Spec.rows cat.fkeys = rs
      intro hfk b1
      unfold listForeignKeys
      rw [hfk]
      exact b1
    have hfk2 : ∀ k, p2.fkeys.lookup k = fkOf cat k := by
      intro k
      rw [b6 k]
      cases hx : fkOf cat k with
      | some x => unfold fkOf at hx; rw [hx]
      | none =>
        have hx2 := hx
        unfold fkOf at hx2
        rw [hx2]
        simp only
        rw [a3]
        exact h.fks k hx
    have hinv2 : Inv eqFold cat (sel ++ new) (sel ++ new) p2 := Inv.of_same eqFold cat b2 b3 b4 a2
    have hready : Ready cat (sel ++ new) p2 := ⟨hfk2, by rw [b4]; exact hpres⟩
    obtain ⟨p3, c1, c2, c3, c4, c5⟩ := discoverLoop_ok eqFold cat (sel ++ new) (sel ++ new) hd fuel ks p2 hinv2 hready (Nat.lt_of_le_of_lt (unv_le cat p2) hfuel)
    have hdone : ∀ k, Done cat p3 k := by
      intro k
      by_cases hk : p2.columns.lookup k = none
      · exact c4 k hk
      · apply c5
        cases hl : p2.columns.lookup k with
        | none => exact absurd hl hk
        | some i =>
          obtain ⟨-, s, n, x, e1, e2, e3, e4⟩ := hinv2.cols k i hl
          rw [b4, hk1] at e3
          obtain ⟨s', n', f1, f2⟩ := e3
          have hr' : Spec.Reach cat (sel ++ new) s' n' := by
            rcases f1 with f1 | ⟨r, hr, rfl, rfl⟩
            · exact Reach.mono cat (fun r hr => List.mem_append_left _ hr) (hreach _ _ f1)
            · exact .listed r (List.mem_append_right _ hr)
          obtain ⟨g1, g2⟩ := dot2_inj (hd.names _ _ e2).1 (hd.names _ _ hr').1 f2
          obtain ⟨c, hcm, hcn⟩ := List.mem_map.1 e4
          rw [g1, g2] at hcm e1
          have := hks s' n' f1 c hcm
          rw [e1, ← hcn]
          simpa [dot3] using this
    have hsel3 := (hready.ext cat (sel ++ new) c3).2
    have hrk := reach_known eqFold cat (sel ++ new) hd p3 c2 hdone hsel3
    refine ⟨sortTables (p3.tables.map (·.2)), p3, ?_, ⟨c2, hsel3, ?_, ?_, ?_⟩, fun _ => ⟨rfl, hdone⟩⟩
    · unfold listTables
      rw [hrows]
      simp only [a1, discover, hlfk, c1, if_true]
    · intro k hk
      rw [c3.fkeys, hfk2, hk]
    · rw [c3.leaked, b5, a4, h.leaked]
    · intro k
      simp only [if_true]
      constructor
      · intro hk
        cases hl : p3.tables.lookup k with
        | none => exact absurd hl hk
        | some t =>
          obtain ⟨x1, x2⟩ := c2.tabs k t hl
          exact ⟨_, _, x2.reach, x1⟩
      · rintro ⟨s, n, hr, rfl⟩
        exact hrk s n hr

theorem selectedBy_snoc (h : List Spec.Call) (c : Spec.Call) : Spec.selectedBy eqFold cat (h ++ [c]) = Spec.selectedBy eqFold cat h ++ c.selects eqFold cat := by
  simp [Spec.selectedBy]

theorem selectedBy_prefix (h h' : List Spec.Call) : ∀ r ∈ Spec.selectedBy eqFold cat h, r ∈ Spec.selectedBy eqFold cat (h ++ h') := by
  intro r hr
  simp only [Spec.selectedBy, List.flatMap_append]
  exact List.mem_append_left _ hr

theorem known_reach {h : List Spec.Call} {s n : Bytes} (hk : Spec.Known eqFold cat h s n) : Spec.Reach cat (Spec.selectedBy eqFold cat h) s n := by
  cases hk with
  | listed r hr => exact .listed r hr
  | found before after ss ts _ _ e hr =>
    rw [e, List.append_cons]
    exact Reach.mono cat (selectedBy_prefix eqFold cat _ _) hr

theorem known_prefix {h : List Spec.Call} {s n : Bytes} (h' : List Spec.Call) (hk : Spec.Known eqFold cat h s n) : Spec.Known eqFold cat (h ++ h') s n := by
  cases hk with
  | listed r hr => exact .listed r (selectedBy_prefix eqFold cat _ _ r hr)
  | found before after ss ts _ _ e hr => exact .found before (after ++ h') ss ts s n (by rw [e]; simp) hr

theorem known_snoc (h : List Spec.Call) (c : Spec.Call) (hc : ∀ ss ts, c ≠ .tables ss ts true) (s n : Bytes) :
    Spec.Known eqFold cat (h ++ [c]) s n ↔ Spec.Known eqFold cat h s n ∨ ∃ r ∈ c.selects eqFold cat, r.schema = s ∧ r.name = n := by
  constructor
  · intro hk
    cases hk with
    | listed r hr =>
      rw [selectedBy_snoc] at hr
      rcases List.mem_append.1 hr with hr | hr
      · exact .inl (.listed r hr)
      · exact .inr ⟨r, hr, rfl, rfl⟩
    | found before after ss ts _ _ e hr =>
      left
      rcases List.eq_nil_or_concat after with rfl | ⟨l, x, rfl⟩
      · have := (List.append_inj' e rfl).2
        cases this
        exact absurd rfl (hc ss ts)
      · rw [List.concat_eq_append, ← List.cons_append, ← List.append_assoc] at e
        exact .found before l ss ts s n (List.append_inj' e rfl).1 hr
  · rintro (hk | ⟨r, hr, rfl, rfl⟩)
    · exact known_prefix eqFold cat _ hk
    · exact .listed r (by rw [selectedBy_snoc]; exact List.mem_append_right _ hr)

theorem known_deps (h : List Spec.Call) (ss ts : List Bytes) (s n : Bytes) :
    Spec.Known eqFold cat (h ++ [.tables ss ts true]) s n ↔ Spec.Reach cat (Spec.selectedBy eqFold cat (h ++ [.tables ss ts true])) s n :=
  ⟨known_reach eqFold cat, fun hr => .found h [] ss ts s n rfl hr⟩

theorem Settled.congr {sel : List TableRow} {known known' : Bytes → Bytes → Prop} {p : Prov} (h : ∀ s n, known s n ↔ known' s n) (hs : Settled eqFold cat sel known p) :
    Settled eqFold cat sel known' p :=
  ⟨hs.inv, hs.sel, hs.fks, hs.leaked, fun k => by rw [hs.known]; simp only [h]⟩

theorem history_settled {h : List Spec.Call} {p : Prov} (hh : History eqFold cat h p) : Spec.fine cat.tables →
    (∀ r ∈ Spec.selectedBy eqFold cat h, Spec.Consistent cat r.schema r.name) → Spec.Discoverable cat (Spec.selectedBy eqFold cat h) →
    Settled eqFold cat (Spec.selectedBy eqFold cat h) (Spec.Known eqFold cat h) p := by
  induction hh with
  | new =>
    intro _ _ _
    refine Settled.congr eqFold cat (fun s n => ⟨fun h => h.elim, fun hk => ?_⟩) (Settled.new eqFold cat)
    have := known_reach eqFold cat hk
    clear hk
    induction this with
    | listed r hr => cases hr
    | follow _ _ _ _ _ _ _ _ ih => exact ih
  | @foreignKeys h p ss ts hh ih =>
    intro ht hc hd
    have e : Spec.selectedBy eqFold cat (h ++ [.foreignKeys ss ts]) = Spec.selectedBy eqFold cat h := by rw [selectedBy_snoc]; simp [Spec.Call.selects]
    rw [e] at hc hd ⊢
    refine Settled.congr eqFold cat (fun s n => ?_) (Settled.foreignKeys eqFold cat _ hd.fks ss ts (ih ht hc hd))
    rw [known_snoc eqFold cat h _ (by intro _ _ e; cases e)]
    simp [Spec.Call.selects]
  | @tables h p ss ts deps fuel ks hh hks hfuel ih =>
    intro ht hc hd
    rw [selectedBy_snoc] at hc hd ⊢
    have ih := ih ht (fun r hr => hc r (List.mem_append_left _ hr)) (Discoverable.mono cat (fun r hr => List.mem_append_left _ hr) hd)
    obtain ⟨ts', p', h1, h2, -⟩ := listTables_settled eqFold cat _ ih ss ts deps fuel ks ht (fun r hr => hc r (List.mem_append_right _ hr)) hd
      (fun s n hk => hks s n ((known_snoc eqFold cat h _ (by intro _ _ e; cases e) s n).2 hk)) (fun s n hk => known_reach eqFold cat hk) hfuel
    rw [h1]
    refine Settled.congr eqFold cat (fun s n => ?_) h2
    cases deps with
    | true => simp only [if_true]; rw [known_deps, selectedBy_snoc]; rfl
    | false => simp only [Bool.false_eq_true, if_false]; rw [known_snoc eqFold cat h _ (by intro _ _ e; cases e)]; rfl
end

/-- **C53**, for providers with any history of `ListTables` and `ListForeignKeys` calls, whatever their filters, with or without dependencies: a `ListTables` with dependencies
terminates and returns exactly the tables reachable by foreign keys from the tables that matched this call *or any earlier one*, each once, ordered by name:
those that matched some call with their indexes and primary key, the others with their columns, and every column with a foreign key has its reference. No rows
stay open. (So it returns exactly what the English property says if and only if the earlier calls matched nothing that is not reachable now;
`C53_earlier_calls_leak_into_the_result` is the other case.) -/
theorem C53_after_any_history_partial (eqFold : Bytes → Bytes → Bool) (cat : Catalogue) (h : List Spec.Call) (p : Prov) (hh : History eqFold cat h p)
    (schemas tables : List Bytes) (fuel : Nat) (ks : List Bytes) (sel : List TableRow) (hsel : sel = Spec.selectedBy eqFold cat (h ++ [.tables schemas tables true]))
    (ht : Spec.fine cat.tables) (hc : ∀ r ∈ sel, Spec.Consistent cat r.schema r.name) (hd : Spec.Discoverable cat sel)
    (hnd : ((Spec.rows cat.tables).map (fun r => (r.schema, r.name))).Nodup)
    (hks : ∀ s n, Spec.Known eqFold cat (h ++ [.tables schemas tables false]) s n → ∀ c ∈ Spec.rows (cat.columns s n), s ++ b!"." ++ n ++ b!"." ++ c.name ∈ ks)
    (hfuel : (Spec.rows cat.fkeys).length < fuel) :
    ∃ ts p', listTables eqFold cat schemas tables true fuel ks p = (.ok ts, p')
      ∧ (ts.map (fun t => (t.schema, t.name))).Nodup
      ∧ (∀ s n, (s, n) ∈ ts.map (fun t => (t.schema, t.name)) ↔ Spec.Reach cat sel s n)
      ∧ ts.Pairwise (fun a b => Query.leBytes a.schemaName b.schemaName = true)
      ∧ (∀ r ∈ sel, Spec.table eqFold cat (Spec.refOf cat r.schema r.name) r ∈ ts.map (Spec.view p'.heap))
      ∧ (∀ s n, Spec.Reach cat sel s n → (∀ r ∈ sel, ¬(r.schema = s ∧ r.name = n)) → Spec.dependency eqFold cat (Spec.refOf cat s n) s n ∈ ts.map (Spec.view p'.heap))
      ∧ p'.leaked = 0 := by
  rw [selectedBy_snoc] at hsel
  have hrowsel : ∀ r ∈ sel, r ∈ Spec.rows cat.tables := by
    intro r hr
    rw [hsel, ← selectedBy_snoc] at hr
    simp only [Spec.selectedBy, List.mem_flatMap] at hr
    obtain ⟨c, -, hc⟩ := hr
    cases c with
    | tables ss ts d => exact (List.mem_filter.1 hc).1
    | foreignKeys ss ts => cases hc
  have hset := history_settled eqFold cat hh ht (fun r hr => hc r (by rw [hsel]; exact List.mem_append_left _ hr))
    (Discoverable.mono cat (fun r hr => by rw [hsel]; exact List.mem_append_left _ hr) hd)
  obtain ⟨ts, p3, hlist, hs, hdd⟩ := listTables_settled eqFold cat _ hset schemas tables true fuel ks ht
    (fun r hr => hc r (by rw [hsel]; exact List.mem_append_right _ hr)) (by rw [hsel] at hd; exact hd)
    (fun s n hk => hks s n ((known_snoc eqFold cat h _ (by intro _ _ e; cases e) s n).2 hk)) (fun s n hk => known_reach eqFold cat hk) hfuel
  obtain ⟨hts, hdone⟩ := hdd rfl
  have e : Spec.selectedBy eqFold cat h ++ Spec.selected eqFold cat schemas tables = sel := hsel.symm
  rw [e] at hs
  simp only [if_true] at hs
  subst hts
  have c2 := hs.inv
  have hmem : ∀ t, t ∈ sortTables (p3.tables.map (·.2)) ↔ ∃ k, p3.tables.lookup k = some t := by
    intro t
    unfold sortTables
    rw [(Util.sort_perm _ _).mem_iff, List.mem_map]
    constructor
    · rintro ⟨e, he, rfl⟩; exact ⟨e.1, mem_lookup _ c2.nodup e he⟩
    · rintro ⟨k, hk⟩; exact ⟨(k, t), lookup_mem _ _ _ hk, rfl⟩
  have hvis : ∀ s n, Spec.Reach cat sel s n → ∃ t, p3.tables.lookup (dot2 s n) = some t ∧ t.schema = s ∧ t.name = n := by
    intro s n hr
    cases hl : p3.tables.lookup (dot2 s n) with
    | none => exact absurd hl ((hs.known _).2 ⟨s, n, hr, rfl⟩)
    | some t =>
      obtain ⟨f1, f2⟩ := c2.tabs _ _ hl
      obtain ⟨g1, g2⟩ := dot2_inj (hd.names _ _ hr).1 (hd.names _ _ f2.reach).1 f1
      exact ⟨t, rfl, g1.symm, g2.symm⟩
  refine ⟨_, p3, hlist, ?_, ?_, ?_, ?_, ?_, hs.leaked⟩
  · unfold sortTables
    refine (((Util.sort_perm _ _).map (fun t : Table => (t.schema, t.name))).nodup_iff).2 ?_
    rw [List.map_map]
    have hn := c2.nodup
    have : p3.tables.map (·.1) = (p3.tables.map ((fun t : Table => (t.schema, t.name)) ∘ (·.2))).map (fun x => dot2 x.1 x.2) := by
      rw [List.map_map]
      apply List.map_congr_left
      intro e he
      exact (c2.tabs _ _ (mem_lookup _ c2.nodup e he)).1
    rw [this] at hn
    exact List.Pairwise.of_map (S := fun a b : Bytes => a ≠ b) (fun x : Bytes × Bytes => dot2 x.1 x.2) (fun a b h e => h (by rw [e])) hn
  · intro s n
    constructor
    · intro hm
      obtain ⟨t, htm, he⟩ := List.mem_map.1 hm
      cases he
      obtain ⟨k, hk⟩ := (hmem t).1 htm
      exact (c2.tabs k t hk).2.reach
    · intro hr
      obtain ⟨t, h1, h2, h3⟩ := hvis s n hr
      exact List.mem_map.2 ⟨t, (hmem t).2 ⟨_, h1⟩, by rw [h2, h3]⟩
  · exact Util.sort_sorted (fun a b : Table => Query.leBytes a.schemaName b.schemaName) (fun a b c => Query.leBytes_trans _ _ _)
      (fun a b => Query.leBytes_total _ _) _
  · intro r hr
    obtain ⟨t, h1, h2, h3⟩ := hvis _ _ (.listed r hr)
    refine List.mem_map.2 ⟨t, (hmem t).2 ⟨_, h1⟩, ?_⟩
    rcases view_done eqFold cat sel hd p3 c2 hdone _ t h1 with ⟨r', g1, g2, g3, g4⟩ | ⟨g1, -⟩
    · have : r' = r := eq_of_key (fun r : TableRow => (r.schema, r.name)) (by simp only [g2, g3, h2, h3]) (Spec.rows cat.tables) hnd (hrowsel r' g1) (hrowsel r hr)
      rw [g4, this, h2, h3]
    · exact absurd ⟨h2.symm, h3.symm⟩ (g1 r hr)
  · intro s n hr hno
    obtain ⟨t, h1, h2, h3⟩ := hvis _ _ hr
    refine List.mem_map.2 ⟨t, (hmem t).2 ⟨_, h1⟩, ?_⟩
    rcases view_done eqFold cat sel hd p3 c2 hdone _ t h1 with ⟨r', g1, g2, g3, g4⟩ | ⟨-, g2⟩
    · exact absurd ⟨g2.trans h2, g3.trans h3⟩ (hno r' g1)
    · rw [g2, h2, h3]

/-- **C53**, exactly when a provider with a history behaves as a fresh one: the result is the set of tables reachable from the tables that match now, if and only if every table
that matched an earlier call is reachable from them. -/
theorem C53_history_is_harmless_iff_reachable (eqFold : Bytes → Bytes → Bool) (cat : Catalogue) (h : List Spec.Call) (p : Prov) (hh : History eqFold cat h p)
    (schemas tables : List Bytes) (fuel : Nat) (ks : List Bytes)
    (ht : Spec.fine cat.tables) (hc : ∀ r ∈ Spec.selectedBy eqFold cat (h ++ [.tables schemas tables true]), Spec.Consistent cat r.schema r.name)
    (hd : Spec.Discoverable cat (Spec.selectedBy eqFold cat (h ++ [.tables schemas tables true])))
    (hnd : ((Spec.rows cat.tables).map (fun r => (r.schema, r.name))).Nodup)
    (hks : ∀ s n, Spec.Known eqFold cat (h ++ [.tables schemas tables false]) s n → ∀ c ∈ Spec.rows (cat.columns s n), s ++ b!"." ++ n ++ b!"." ++ c.name ∈ ks)
    (hfuel : (Spec.rows cat.fkeys).length < fuel) :
    ∃ ts p', listTables eqFold cat schemas tables true fuel ks p = (.ok ts, p')
      ∧ ((∀ s n, (s, n) ∈ ts.map (fun t => (t.schema, t.name)) ↔ Spec.Reach cat (Spec.selected eqFold cat schemas tables) s n)
        ↔ ∀ r ∈ Spec.selectedBy eqFold cat h, Spec.Reach cat (Spec.selected eqFold cat schemas tables) r.schema r.name) := by
  obtain ⟨ts, p', h1, -, h2, -⟩ := C53_after_any_history_partial eqFold cat h p hh schemas tables fuel ks _ rfl ht hc hd hnd hks hfuel
  refine ⟨ts, p', h1, ?_⟩
  simp only [h2, selectedBy_snoc]
  constructor
  · intro he r hr
    exact (he _ _).1 (.listed r (List.mem_append_left _ hr))
  · intro hr s n
    constructor
    · intro hx
      induction hx with
      | listed r hm =>
        rcases List.mem_append.1 hm with hm | hm
        · exact hr r hm
        · exact .listed r hm
      | follow s n k _ hk e1 e2 e3 ih => exact .follow s n k ih hk e1 e2 e3
    · exact fun hx => Reach.mono cat (fun r hm => List.mem_append_right _ hm) hx

/-! ### The hypotheses are met -/

/-- All columns of the demo catalogue. -/
def demoKeys : List Bytes := [b!"public.users.id", b!"public.users.team_id", b!"public.users.boss_id", b!"public.orders.id", b!"public.orders.user_id",
  b!"public.teams.id", b!"public.teams.name", b!"public.logs.a", b!"public.logs.b"]

theorem demo_reach_any (h : List Spec.Call) : ∀ s n, Spec.Reach demo (Spec.selectedBy eqB demo h) s n →
    (s, n) ∈ [(b!"public", b!"orders"), (b!"public", b!"users"), (b!"public", b!"teams"), (b!"public", b!"logs")] := by
  intro s n h
  induction h with
  | listed r hr =>
    simp only [Spec.selectedBy, List.mem_flatMap] at hr
    obtain ⟨c, -, hc⟩ := hr
    cases c with
    | tables ss ts d =>
      have : ∀ r ∈ Spec.rows demo.tables, (r.schema, r.name) ∈ [(b!"public", b!"orders"), (b!"public", b!"users"), (b!"public", b!"teams"), (b!"public", b!"logs")] := by decide +kernel
      exact this r (List.mem_filter.1 hc).1
    | foreignKeys ss ts => cases hc
  | follow s n k _ hk _ _ _ _ =>
    have : ∀ k ∈ Spec.rows demo.fkeys, (k.refSchema, k.refTable) ∈ [(b!"public", b!"orders"), (b!"public", b!"users"), (b!"public", b!"teams"), (b!"public", b!"logs")] := by decide +kernel
    exact this k hk

theorem demo_discoverable_any (h : List Spec.Call) : Spec.Discoverable demo (Spec.selectedBy eqB demo h) := by
  refine ⟨⟨Spec.rows demo.fkeys, rfl⟩, by decide +kernel, ?_, by decide +kernel, fun s n _ => oneOf_fine _ _ _, ?_⟩
  · intro s n h
    have : ∀ x ∈ [(b!"public", b!"orders"), (b!"public", b!"users"), (b!"public", b!"teams"), (b!"public", b!"logs")], 46 ∉ x.1 ∧ 46 ∉ x.2 := by decide +kernel
    exact this _ (demo_reach_any _ s n h)
  · intro s n h
    have : ∀ x ∈ [(b!"public", b!"orders"), (b!"public", b!"users"), (b!"public", b!"teams"), (b!"public", b!"logs")], ((Spec.rows (demo.columns x.1 x.2)).map (·.name)).Nodup := by decide +kernel
    exact this _ (demo_reach_any _ s n h)

theorem demo_consistent_any (h : List Spec.Call) : ∀ r ∈ Spec.selectedBy eqB demo h, Spec.Consistent demo r.schema r.name := by
  intro r hr
  simp only [Spec.selectedBy, List.mem_flatMap] at hr
  obtain ⟨c, -, hc⟩ := hr
  cases c with
  | tables ss ts d =>
    have : ∀ r ∈ Spec.rows demo.tables, r ∈ Spec.selected eqB demo [] [] := by decide +kernel
    exact demo_consistent r (this r (List.mem_filter.1 hc).1)
  | foreignKeys ss ts => cases hc

theorem demo_keys (h : List Spec.Call) : ∀ s n, Spec.Known eqB demo h s n → ∀ c ∈ Spec.rows (demo.columns s n), s ++ b!"." ++ n ++ b!"." ++ c.name ∈ demoKeys := by
  intro s n hk
  have : ∀ x ∈ [(b!"public", b!"orders"), (b!"public", b!"users"), (b!"public", b!"teams"), (b!"public", b!"logs")], ∀ c ∈ Spec.rows (demo.columns x.1 x.2),
      x.1 ++ b!"." ++ x.2 ++ b!"." ++ c.name ∈ demoKeys := by decide +kernel
  exact this (s, n) (demo_reach_any _ s n (known_reach eqB demo hk))

/-- Teams are found as a dependency, logs are listed, keys are listed with a filter; then teams are listed themselves. -/
def demoHistory : List Spec.Call := [.tables [] [b!"orders"] true, .tables [b!"public"] [b!"logs"] false, .foreignKeys [] [b!"users"]]

theorem demo_history : ∃ p, History eqB demo demoHistory p :=
  ⟨_, .foreignKeys _ _ (.tables _ _ _ 4 demoKeys (.tables (h := []) _ _ _ 4 demoKeys .new (demo_keys _) (by decide +kernel)) (demo_keys _) (by decide +kernel))⟩

example : ∃ p ts p', History eqB demo demoHistory p ∧ listTables eqB demo [] [b!"teams"] true 4 demoKeys p = (.ok ts, p')
    ∧ ts.map (·.name) = [b!"logs", b!"orders", b!"teams", b!"users"] ∧ ∀ t ∈ ts, t.name = b!"teams" → t.indexes.length = 1 :=
  ⟨_, _, _, .foreignKeys _ _ (.tables _ _ _ 4 demoKeys (.tables (h := []) _ _ _ 4 demoKeys .new (demo_keys _) (by decide +kernel)) (demo_keys _) (by decide +kernel)), rfl,
    by decide +kernel, by decide +kernel⟩

example (p : Prov) (hp : History eqB demo demoHistory p) := C53_after_any_history_partial eqB demo demoHistory p hp [] [b!"teams"] 4 demoKeys _ rfl
  demo_tables_fine (demo_consistent_any _) (demo_discoverable_any _) (by decide +kernel) (demo_keys _) (by decide +kernel)

example (p : Prov) (hp : History eqB demo demoHistory p) := C53_history_is_harmless_iff_reachable eqB demo demoHistory p hp [] [b!"teams"] 4 demoKeys
  demo_tables_fine (demo_consistent_any _) (demo_discoverable_any _) (by decide +kernel) (demo_keys _) (by decide +kernel)

end Schema
