import Verif.Schema.DiscoverLemmas
set_option linter.unusedVariables false
set_option linter.unusedSimpArgs false
/-! Dependency discovery succeeds and completes. -/
namespace Schema
section
variable (eqFold : Bytes → Bytes → Bool) (cat : Catalogue) (sel ld : List TableRow)

/-- Names of tables referenced by some foreign key. -/
def targets : List Bytes := (Spec.rows cat.fkeys).map (fun r => dot2 r.refSchema r.refTable)

/-- How many of them are not in the cache yet. -/
def unv (p : Prov) : Nat := ((targets cat).filter (fun k => (p.tables.lookup k).isNone)).length

theorem unv_le (p : Prov) : unv cat p ≤ (Spec.rows cat.fkeys).length := by
  unfold unv
  refine Nat.le_trans (List.length_filter_le _ _) ?_
  simp [targets]

theorem filter_len_le {β : Type} (f g : β → Bool) : ∀ l : List β, (∀ x ∈ l, g x = true → f x = true) → (l.filter g).length ≤ (l.filter f).length := by
  intro l
  induction l with
  | nil => intro _; exact Nat.le_refl _
  | cons x xs ih =>
    intro h
    have ih := ih (fun y hy => h y (List.mem_cons_of_mem _ hy))
    have hx := h x (List.mem_cons_self ..)
    by_cases hg : g x = true
    · simp only [List.filter_cons, hg, hx hg, if_true, List.length_cons]; omega
    · simp only [List.filter_cons, hg]
      by_cases hf : f x = true
      · simp only [hf, if_true, List.length_cons]; simp only [Bool.false_eq_true, if_false]; omega
      · simp only [hf, Bool.false_eq_true, if_false]; exact ih

theorem filter_len_lt {β : Type} (f g : β → Bool) : ∀ l : List β, (∀ x ∈ l, g x = true → f x = true) → (∃ x ∈ l, f x = true ∧ g x = false) →
    (l.filter g).length < (l.filter f).length := by
  intro l
  induction l with
  | nil => rintro _ ⟨x, hx, -⟩; cases hx
  | cons x xs ih =>
    intro h he
    have hle := filter_len_le f g xs (fun y hy => h y (List.mem_cons_of_mem _ hy))
    have hx := h x (List.mem_cons_self ..)
    by_cases hc : f x = true ∧ g x = false
    · simp only [List.filter_cons, hc.1, hc.2, if_true, List.length_cons, Bool.false_eq_true, if_false]; omega
    · have ih := ih (fun y hy => h y (List.mem_cons_of_mem _ hy)) (by
        obtain ⟨y, hy, hy2⟩ := he
        rcases List.mem_cons.1 hy with rfl | hy
        · exact absurd hy2 hc
        · exact ⟨y, hy, hy2⟩)
      by_cases hg : g x = true
      · simp only [List.filter_cons, hg, hx hg, if_true, List.length_cons]; omega
      · have hf : ¬ f x = true := fun hf => hc ⟨hf, by simpa using hg⟩
        simp only [List.filter_cons, hg, hf, Bool.false_eq_true, if_false]; exact ih

theorem unv_ext {p p' : Prov} (h : Ext cat p p') : unv cat p' ≤ unv cat p := by
  apply filter_len_le
  intro k _ hk
  cases hl : p.tables.lookup k with
  | none => rfl
  | some t => rw [h.tables k t hl] at hk; cases hk

theorem unv_lt {p p' : Prov} (h : Ext cat p p') (k : Bytes) (hk : k ∈ targets cat) (h1 : p.tables.lookup k = none) (h2 : p'.tables.lookup k ≠ none) :
    unv cat p' < unv cat p := by
  apply filter_len_lt
  · intro k _ hk
    cases hl : p.tables.lookup k with
    | none => rfl
    | some t => rw [h.tables k t hl] at hk; cases hk
  · refine ⟨k, hk, by rw [h1]; rfl, ?_⟩
    cases hl : p'.tables.lookup k with
    | none => exact absurd hl h2
    | some t => rfl

theorem fkOf_target {k : Bytes} {fk : ForeignKey} (h : fkOf cat k = some fk) : dot2 fk.refSchema fk.refTable ∈ targets cat := by
  obtain ⟨r, hr, rfl, -⟩ := fkOf_mem h
  exact List.mem_map.2 ⟨r, hr, rfl⟩

/-- A foreign key of a column of a reachable table leads to a reachable table. -/
theorem fkOf_reach (hd : Spec.Discoverable cat sel) {s n x : Bytes} (hr : Spec.Reach cat sel s n) (hx : x ∈ (Spec.rows (cat.columns s n)).map (·.name))
    {fk : ForeignKey} (h : fkOf cat (dot3 s n x) = some fk) : Spec.Reach cat sel fk.refSchema fk.refTable := by
  obtain ⟨r, hm, rfl, he⟩ := fkOf_mem h
  obtain ⟨h1, h2⟩ := hd.names s n hr
  obtain ⟨e1, e2, e3⟩ := dot3_inj (hd.fkNames r hm).1 h1 (hd.fkNames r hm).2 h2 he
  exact .follow s n r hr hm e1 e2 (by rw [show r.column = x from e3]; exact hx)

/-- The foreign keys are loaded and the selected tables are in the cache. -/
def Ready (p : Prov) : Prop := (∀ k, p.fkeys.lookup k = fkOf cat k) ∧ ∀ r ∈ ld, p.tables.lookup (dot2 r.schema r.name) ≠ none

theorem Ready.ext {p p' : Prov} (h : Ready cat ld p) (he : Ext cat p p') : Ready cat ld p' := by
  refine ⟨by rw [he.fkeys]; exact h.1, ?_⟩
  intro r hr
  have := h.2 r hr
  cases hl : p.tables.lookup (dot2 r.schema r.name) with
  | none => exact absurd hl this
  | some t => rw [he.tables _ _ hl]; simp

/-- What a visit of a table does. -/
def GoOk (go : Bytes → Bytes → Prov → Out Unit × Prov) (fuel : Nat) : Prop :=
  ∀ s n p, Inv eqFold cat sel ld p → Ready cat ld p → Spec.Reach cat sel s n → dot2 s n ∈ targets cat → unv cat p < fuel →
    ∃ p', go s n p = (.ok (), p') ∧ Inv eqFold cat sel ld p' ∧ Ext cat p p' ∧ p'.tables.lookup (dot2 s n) ≠ none
      ∧ ∀ k, p.columns.lookup k = none → Done cat p' k

theorem done_none {p : Prov} (h : Inv eqFold cat sel ld p) {k : Bytes} (hk : fkOf cat k = none) : Done cat p k := by
  intro i hi
  obtain ⟨⟨c, a1, a2, a3⟩, -⟩ := h.cols k i hi
  refine ⟨⟨c, a1, a2, ?_⟩, ?_⟩
  · rcases a3 with a3 | a3
    · rw [a3, hk]
    · exact a3
  · intro fk hfk; rw [hk] at hfk; cases hfk

theorem done_absent {p : Prov} {k : Bytes} (hk : p.columns.lookup k = none) : Done cat p k := by
  intro i hi; rw [hk] at hi; cases hi

theorem Ext.keys {p p' : Prov} (h : Ext cat p p') {k : Bytes} (hk : p.columns.lookup k ≠ none) : p'.columns.lookup k ≠ none := by
  cases hl : p.columns.lookup k with
  | none => exact absurd hl hk
  | some i => rw [h.columns k i hl]; simp

/-- Set the reference of a column and visit its target. -/
theorem visit_ok (hd : Spec.Discoverable cat sel) (go : Bytes → Bytes → Prov → Out Unit × Prov) (fuel : Nat) (hgo : GoOk eqFold cat sel ld go fuel)
    (p : Prov) (h : Inv eqFold cat sel ld p) (hf : Ready cat ld p) (hu : unv cat p < fuel) (k : Bytes) (i : Nat)
    (hk : p.columns.lookup k = some i) (fk : ForeignKey) (hfk : fkOf cat k = some fk) (hr : Spec.Reach cat sel fk.refSchema fk.refTable) :
    ∃ p', go fk.refSchema fk.refTable (modCol p i (fun c => { c with ref := some fk })) = (.ok (), p') ∧ Inv eqFold cat sel ld p' ∧ Ext cat p p'
      ∧ Done cat p' k ∧ ∀ k', p.columns.lookup k' = none → Done cat p' k' := by
  obtain ⟨h1, h2, c, h3, h4, h5⟩ := setRef_inv eqFold cat sel ld h k i hk fk hfk
  obtain ⟨p', g1, g2, g3, g4, g5⟩ := hgo fk.refSchema fk.refTable _ h1 (hf.ext cat ld h2) hr (fkOf_target cat hfk) (Nat.lt_of_le_of_lt (unv_ext cat h2) hu)
  refine ⟨p', g1, g2, h2.trans cat g3, ?_, g5⟩
  intro j hj
  have : j = i := by have := g3.columns k i hk; rw [hj] at this; cases this; rfl
  subst this
  refine ⟨?_, ?_⟩
  · rcases g3.heap j c h3 with a | a
    · exact ⟨c, a, h4, h5⟩
    · exact ⟨_, a, h4, by rw [h4]⟩
  · intro fk' hfk'
    rw [hfk] at hfk'; cases hfk'
    exact g4

theorem followCols_ok (hd : Spec.Discoverable cat sel) (go : Bytes → Bytes → Prov → Out Unit × Prov) (fuel : Nat) (hgo : GoOk eqFold cat sel ld go fuel) :
    ∀ (ids : List Nat) (p : Prov), Inv eqFold cat sel ld p → Ready cat ld p → unv cat p < fuel →
    (∀ i ∈ ids, ∃ k, p.columns.lookup k = some i ∧ ∀ fk, fkOf cat k = some fk → Spec.Reach cat sel fk.refSchema fk.refTable) →
    ∃ p', followCols go ids p = (.ok (), p') ∧ Inv eqFold cat sel ld p' ∧ Ext cat p p' ∧ (∀ k, p.columns.lookup k = none → Done cat p' k)
      ∧ ∀ i ∈ ids, ∀ k, p.columns.lookup k = some i → Done cat p' k := by
  intro ids
  induction ids with
  | nil =>
    intro p h hf hu _
    exact ⟨p, rfl, h, .refl cat p, fun k hk => done_absent cat hk, fun i hi => by cases hi⟩
  | cons i ids ih =>
    intro p h hf hu hids
    obtain ⟨k, hk, hkr⟩ := hids i (List.mem_cons_self ..)
    obtain ⟨⟨c, hc, hcn, hcr⟩, -⟩ := h.cols k i hk
    have huniq : ∀ k', p.columns.lookup k' = some i → k' = k := by
      intro k' hk'
      obtain ⟨⟨c', a1, a2, -⟩, -⟩ := h.cols k' i hk'
      rw [hc] at a1; cases a1
      rw [← a2, hcn]
    have hstep : ∃ p1, Inv eqFold cat sel ld p1 ∧ Ext cat p p1 ∧ Done cat p1 k ∧ (∀ k', p.columns.lookup k' = none → Done cat p1 k')
        ∧ followCols go (i :: ids) p = followCols go ids p1 := by
      cases hfk : fkOf cat k with
      | none =>
        refine ⟨p, h, .refl cat p, done_none eqFold cat sel ld h hfk, fun k' hk' => done_absent cat hk', ?_⟩
        simp only [followCols, hc, hcn, hf.1, hfk]
      | some fk =>
        obtain ⟨p1, g1, g2, g3, g4, g5⟩ := visit_ok eqFold cat sel ld hd go fuel hgo p h hf hu k i hk fk hfk (hkr fk hfk)
        refine ⟨p1, g2, g3, g4, g5, ?_⟩
        simp only [followCols, hc, hcn, hf.1, hfk, g1]
    obtain ⟨p1, a1, a2, a3, a4, a5⟩ := hstep
    obtain ⟨p2, b1, b2, b3, b4, b5⟩ := ih p1 a1 (hf.ext cat ld a2) (Nat.lt_of_le_of_lt (unv_ext cat a2) hu) (by
      intro j hj
      obtain ⟨k', c1, c2⟩ := hids j (List.mem_cons_of_mem _ hj)
      exact ⟨k', a2.columns _ _ c1, c2⟩)
    refine ⟨p2, by rw [a5]; exact b1, b2, a2.trans cat b3, ?_, ?_⟩
    · intro k' hk'
      by_cases hk1 : p1.columns.lookup k' = none
      · exact b4 k' hk1
      · exact (a4 k' hk').ext cat b3 hk1
    · intro j hj k' hk'
      rcases List.mem_cons.1 hj with rfl | hj
      · have := huniq k' hk'
        subst this
        exact a3.ext cat b3 (Ext.keys cat a2 (by rw [hk]; simp))
      · exact b5 j hj k' (a2.columns _ _ hk')

theorem dep_view (s n : Bytes) (p p' : Prov) (ids : List Nat) (h : ReadTable eqFold cat s n [] p ids p') :
    Spec.view (p'.heap.map strip) { schema := s, name := n, type := [], isView := false, columns := ids, indexes := [], primaryKey := none, schemaName := dot2 s n }
      = Spec.dependency eqFold cat (fun _ => none) s n := by
  have hv := h.view p'.heap (List.prefix_refl _)
  have : ids.map (fun i => (p'.heap.map strip)[i]?) = (Spec.columns eqFold cat s n [] (fun _ => none)).map some := by
    have e : (fun i : Nat => (p'.heap.map strip)[i]?) = (Option.map strip) ∘ (fun i : Nat => p'.heap[i]?) := by funext i; simp
    rw [e, ← List.map_map, hv, List.map_map]
    apply List.map_congr_left
    intro c hc
    unfold Spec.columns at hc
    rw [(Util.sort_perm _ _).mem_iff, List.mem_map] at hc
    obtain ⟨r, -, rfl⟩ := hc
    rfl
  simp only [Spec.view, Spec.dependency, this]
  simp [dot2]

theorem readColumns_dep (s n : Bytes) (p : Prov) (h : Spec.fine (cat.columns s n)) :
    ∃ ids p', readColumns eqFold cat s n p = (.ok ids, p') ∧ ReadTable eqFold cat s n [] p ids p' ∧ p'.tables = p.tables ∧ p'.fkeys = p.fkeys ∧ p'.leaked = p.leaked := by
  obtain ⟨p1, h1, h2, h3, h4, h5, h6, h7⟩ := readColumns_ok eqFold cat s n p h
  refine ⟨_, p1, h1, ⟨?_, rfl, h6, h7⟩, h3, h4, h5⟩
  rw [h2]
  congr 1
  apply List.map_congr_left
  intro r _
  exact (mkColumn_eq eqFold s n [] r).symm ▸ by simp [mkColumn]

theorem discoverTable_ok (hd : Spec.Discoverable cat sel) : ∀ fuel, GoOk eqFold cat sel ld (discoverTable eqFold cat fuel) fuel := by
  intro fuel
  induction fuel with
  | zero => intro s n p _ _ _ _ hu; omega
  | succ fuel ih =>
    intro s n p h hf hr ht hu
    cases hl : p.tables.lookup (dot2 s n) with
    | some t =>
      refine ⟨p, by simp only [discoverTable, hl], h, .refl cat p, by rw [hl]; simp, ?_⟩
      intro k hk i hi; rw [hk] at hi; cases hi
    | none =>
      obtain ⟨ids, p1, h1, h2, h3, h4, h5⟩ := readColumns_dep eqFold cat s n p (hd.cols s n hr)
      let t : Table := { schema := s, name := n, type := [], isView := false, columns := ids, indexes := [], primaryKey := none, schemaName := dot2 s n }
      let p2 : Prov := { p1 with tables := put p1.tables t.schemaName t }
      have hrt : ReadTable eqFold cat s n [] p t.columns p2 := ⟨h2.heap, h2.ids, h2.other, h2.own⟩
      have hex : Expected eqFold cat ld (fun _ _ _ => none) s n (Spec.view (p2.heap.map strip) t) := by
        refine .inr ⟨?_, dep_view eqFold cat s n p p2 ids hrt⟩
        rintro r hm ⟨rfl, rfl⟩
        exact hf.2 r hm hl
      obtain ⟨a1, a2, a3, a4, a5⟩ := insert_inv eqFold cat sel ld h hd.names s n hr hl (hd.distinct s n hr) [] t hrt (by simp only [p2, h3, t]) rfl rfl rfl h4 h5
        (by intro i hi; cases hi) hex
      have hne : p2.tables.lookup (dot2 s n) ≠ none := by rw [a3]; simp
      have hu2 : unv cat p2 < fuel := by have := unv_lt cat a2 (dot2 s n) ht hl hne; omega
      obtain ⟨p3, b1, b2, b3, b4, b5⟩ := followCols_ok eqFold cat sel ld hd (discoverTable eqFold cat fuel) fuel ih ids p2 a1 (hf.ext cat ld a2) hu2 (by
        intro i hi
        obtain ⟨h6, h7⟩ := a1.tabs _ _ a3
        obtain ⟨c, c1, c2, c3, c4⟩ := h7.own i hi
        refine ⟨c.schemaName, c2, ?_⟩
        intro fk hfk
        rw [c4] at hfk
        exact fkOf_reach cat sel hd hr c3 hfk)
      refine ⟨p3, ?_, b2, a2.trans cat b3, ?_, ?_⟩
      · simp only [discoverTable, hl, h1]
        exact b1
      · rw [b3.tables _ _ a3]; simp
      · intro k hk
        by_cases hk2 : p2.columns.lookup k = none
        · exact b4 k hk2
        · obtain ⟨i, hi, hki⟩ := a4 k hk hk2
          exact b5 i hi k hki

/-- The loop over the columns known at the start. -/
theorem discoverLoop_ok (hd : Spec.Discoverable cat sel) (fuel : Nat) : ∀ (ks : List Bytes) (p : Prov), Inv eqFold cat sel ld p → Ready cat ld p → unv cat p < fuel →
    ∃ p', discoverLoop eqFold cat fuel ks p = (.ok (), p') ∧ Inv eqFold cat sel ld p' ∧ Ext cat p p' ∧ (∀ k, p.columns.lookup k = none → Done cat p' k)
      ∧ ∀ k ∈ ks, Done cat p' k := by
  intro ks
  induction ks with
  | nil =>
    intro p h hf hu
    exact ⟨p, rfl, h, .refl cat p, fun k hk => done_absent cat hk, fun k hk => by cases hk⟩
  | cons k ks ih =>
    intro p h hf hu
    have hstep : ∃ p1, Inv eqFold cat sel ld p1 ∧ Ext cat p p1 ∧ Done cat p1 k ∧ (∀ k', p.columns.lookup k' = none → Done cat p1 k')
        ∧ discoverLoop eqFold cat fuel (k :: ks) p = discoverLoop eqFold cat fuel ks p1 := by
      cases hk : p.columns.lookup k with
      | none =>
        refine ⟨p, h, .refl cat p, done_absent cat hk, fun k' hk' => done_absent cat hk', ?_⟩
        simp only [discoverLoop, hk]
      | some i =>
        cases hfk : fkOf cat k with
        | none =>
          refine ⟨p, h, .refl cat p, done_none eqFold cat sel ld h hfk, fun k' hk' => done_absent cat hk', ?_⟩
          simp only [discoverLoop, hk, hf.1, hfk]
        | some fk =>
          have hr : Spec.Reach cat sel fk.refSchema fk.refTable := by
            obtain ⟨-, s, n, x, e, hr, -, hx⟩ := h.cols k i hk
            rw [e] at hfk
            exact fkOf_reach cat sel hd hr hx hfk
          obtain ⟨p1, g1, g2, g3, g4, g5⟩ := visit_ok eqFold cat sel ld hd _ fuel (discoverTable_ok eqFold cat sel ld hd fuel) p h hf hu k i hk fk hfk hr
          refine ⟨p1, g2, g3, g4, g5, ?_⟩
          simp only [discoverLoop, hk, hf.1, hfk, g1]
    obtain ⟨p1, a1, a2, a3, a4, a5⟩ := hstep
    obtain ⟨p2, b1, b2, b3, b4, b5⟩ := ih p1 a1 (hf.ext cat ld a2) (Nat.lt_of_le_of_lt (unv_ext cat a2) hu)
    refine ⟨p2, by rw [a5]; exact b1, b2, a2.trans cat b3, ?_, ?_⟩
    · intro k' hk'
      by_cases hk1 : p1.columns.lookup k' = none
      · exact b4 k' hk1
      · exact (a4 k' hk').ext cat b3 hk1
    · intro k' hk'
      rcases List.mem_cons.1 hk' with rfl | hk'
      · by_cases hk1 : p1.columns.lookup k' = none
        · exact b4 k' hk1
        · exact a3.ext cat b3 hk1
      · exact b5 k' hk'

end
end Schema
