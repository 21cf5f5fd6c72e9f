import Verif.Schema.DiscoverProps
set_option linter.unusedVariables false
set_option linter.unusedSimpArgs false
/-! More about dependency discovery: independence of the iteration order, and the cases outside C53. -/
namespace Schema

theorem perm_of_key {β κ : Type} (key : β → κ) (l l' : List β) (hnd : (l.map key).Nodup) (hnd' : (l'.map key).Nodup)
    (h : ∀ x, x ∈ l ↔ x ∈ l') : l.Perm l' := by
  have n1 : l.Nodup := List.Pairwise.of_map (S := fun a b : κ => a ≠ b) key (fun a b h e => h (by rw [e])) hnd
  have n2 : l'.Nodup := List.Pairwise.of_map (S := fun a b : κ => a ≠ b) key (fun a b h e => h (by rw [e])) hnd'
  exact (List.perm_ext_iff_of_nodup n1 n2).2 h

/-- Every view is the expected one. -/
theorem views_expected {eqFold : Bytes → Bytes → Bool} {cat : Catalogue} {sel : List TableRow} {ts : List Table} {heap : List Column}
    (hnd : (ts.map (fun t => (t.schema, t.name))).Nodup)
    (hmem : ∀ s n, (s, n) ∈ ts.map (fun t => (t.schema, t.name)) ↔ Spec.Reach cat sel s n)
    (hsel : ∀ r ∈ sel, Spec.table eqFold cat (Spec.refOf cat r.schema r.name) r ∈ ts.map (Spec.view heap))
    (hdep : ∀ s n, Spec.Reach cat sel s n → (∀ r ∈ sel, ¬(r.schema = s ∧ r.name = n)) → Spec.dependency eqFold cat (Spec.refOf cat s n) s n ∈ ts.map (Spec.view heap))
    (v : Spec.TableView) :
    v ∈ ts.map (Spec.view heap) ↔ (∃ r ∈ sel, v = Spec.table eqFold cat (Spec.refOf cat r.schema r.name) r)
      ∨ ∃ s n, Spec.Reach cat sel s n ∧ (∀ r ∈ sel, ¬(r.schema = s ∧ r.name = n)) ∧ v = Spec.dependency eqFold cat (Spec.refOf cat s n) s n := by
  have huniq : ∀ v w, v ∈ ts.map (Spec.view heap) → w ∈ ts.map (Spec.view heap) → v.schema = w.schema → v.name = w.name → v = w := by
    intro v w hv hw h1 h2
    obtain ⟨t, ht, rfl⟩ := List.mem_map.1 hv
    obtain ⟨u, hu, rfl⟩ := List.mem_map.1 hw
    rw [eq_of_key (fun t : Table => (t.schema, t.name)) (Prod.ext_iff.2 ⟨h1, h2⟩) ts hnd ht hu]
  constructor
  · intro hv
    obtain ⟨t, ht, rfl⟩ := List.mem_map.1 hv
    have hr : Spec.Reach cat sel t.schema t.name := (hmem _ _).1 (List.mem_map.2 ⟨t, ht, rfl⟩)
    by_cases he : ∃ r ∈ sel, r.schema = t.schema ∧ r.name = t.name
    · obtain ⟨r, h1, h2, h3⟩ := he
      exact .inl ⟨r, h1, huniq _ _ hv (hsel r h1) h2.symm h3.symm⟩
    · have hno : ∀ r ∈ sel, ¬(r.schema = t.schema ∧ r.name = t.name) := fun r hr e => he ⟨r, hr, e⟩
      exact .inr ⟨_, _, hr, hno, huniq _ _ hv (hdep _ _ hr hno) rfl rfl⟩
  · rintro (⟨r, hr, rfl⟩ | ⟨s, n, h1, h2, rfl⟩)
    · exact hsel r hr
    · exact hdep s n h1 h2

/-- **C53**: the result does not depend on the order in which Go iterates over its map of columns. -/
theorem C53_iteration_order_is_irrelevant_partial (eqFold : Bytes → Bytes → Bool) (cat : Catalogue) (schemas tables : List Bytes) (fuel fuel' : Nat) (ks ks' : List Bytes)
    (ht : Spec.fine cat.tables) (hc : ∀ r ∈ Spec.selected eqFold cat schemas tables, Spec.Consistent cat r.schema r.name)
    (hd : Spec.Discoverable cat (Spec.selected eqFold cat schemas tables))
    (hnd : ((Spec.selected eqFold cat schemas tables).map (fun r => (r.schema, r.name))).Nodup)
    (hks : ∀ r ∈ Spec.selected eqFold cat schemas tables, ∀ c ∈ Spec.rows (cat.columns r.schema r.name), r.schema ++ b!"." ++ r.name ++ b!"." ++ c.name ∈ ks)
    (hks' : ∀ r ∈ Spec.selected eqFold cat schemas tables, ∀ c ∈ Spec.rows (cat.columns r.schema r.name), r.schema ++ b!"." ++ r.name ++ b!"." ++ c.name ∈ ks')
    (hfuel : (Spec.rows cat.fkeys).length < fuel) (hfuel' : (Spec.rows cat.fkeys).length < fuel') :
    ∃ ts q ts' q', listTables eqFold cat schemas tables true fuel ks Prov.new = (.ok ts, q) ∧ listTables eqFold cat schemas tables true fuel' ks' Prov.new = (.ok ts', q')
      ∧ ts.map (Spec.view q.heap) = ts'.map (Spec.view q'.heap) := by
  obtain ⟨ts, q, h1, h2, h3, h4, h5, h6, -⟩ := C53_discovery_is_complete_partial eqFold cat schemas tables fuel ks ht hc hd hnd hks hfuel
  obtain ⟨ts', q', g1, g2, g3, g4, g5, g6, -⟩ := C53_discovery_is_complete_partial eqFold cat schemas tables fuel' ks' ht hc hd hnd hks' hfuel'
  refine ⟨ts, q, ts', q', h1, g1, ?_⟩
  have hm : ∀ v, v ∈ ts.map (Spec.view q.heap) ↔ v ∈ ts'.map (Spec.view q'.heap) := fun v =>
    (views_expected h2 h3 h5 h6 v).trans (views_expected g2 g3 g5 g6 v).symm
  have k1 : ((ts.map (Spec.view q.heap)).map (fun v => (v.schema, v.name))).Nodup := by rw [List.map_map]; exact h2
  have k2 : ((ts'.map (Spec.view q'.heap)).map (fun v => (v.schema, v.name))).Nodup := by rw [List.map_map]; exact g2
  refine List.Perm.eq_of_pairwise (le := fun a b : Spec.TableView => Query.leBytes a.schemaName b.schemaName = true) ?_ (List.pairwise_map.2 h4) (List.pairwise_map.2 g4)
    (perm_of_key (fun v : Spec.TableView => (v.schema, v.name)) _ _ k1 k2 hm)
  intro a b ha hb hab hba
  have hk := Query.leBytes_antisymm _ _ hab hba
  have hb := (hm b).2 hb
  have hform : ∀ v, v ∈ ts.map (Spec.view q.heap) → v.schemaName = dot2 v.schema v.name ∧ 46 ∉ v.schema := by
    intro v hv
    have hr : Spec.Reach cat (Spec.selected eqFold cat schemas tables) v.schema v.name := by
      obtain ⟨t, ht, rfl⟩ := List.mem_map.1 hv
      exact (h3 _ _).1 (List.mem_map.2 ⟨t, ht, rfl⟩)
    refine ⟨?_, (hd.names _ _ hr).1⟩
    rcases (views_expected h2 h3 h5 h6 v).1 hv with ⟨r, -, rfl⟩ | ⟨s, n, -, -, rfl⟩
    · simp [Spec.table, dot2]
    · simp [Spec.dependency, dot2]
  obtain ⟨a1, a2⟩ := hform a ha
  obtain ⟨b1, b2⟩ := hform b hb
  rw [a1, b1] at hk
  obtain ⟨e1, e2⟩ := dot2_inj a2 b2 hk
  exact eq_of_key (fun v : Spec.TableView => (v.schema, v.name)) (Prod.ext_iff.2 ⟨e1, e2⟩) _ k1 ha hb

/-! ### The hypotheses are met -/

theorem demo_reach : ∀ s n, Spec.Reach demo (Spec.selected eqB demo [] [b!"orders"]) s n →
    (s, n) ∈ [(b!"public", b!"orders"), (b!"public", b!"users"), (b!"public", b!"teams")] := by
  intro s n h
  induction h with
  | listed r hr =>
    have : ∀ r ∈ Spec.selected eqB demo [] [b!"orders"], (r.schema, r.name) ∈ [(b!"public", b!"orders"), (b!"public", b!"users"), (b!"public", b!"teams")] := by decide +kernel
    exact this r hr
  | follow s n k _ hk _ _ _ _ =>
    have : ∀ k ∈ Spec.rows demo.fkeys, (k.refSchema, k.refTable) ∈ [(b!"public", b!"orders"), (b!"public", b!"users"), (b!"public", b!"teams")] := by decide +kernel
    exact this k hk

theorem demo_discoverable : Spec.Discoverable demo (Spec.selected eqB demo [] [b!"orders"]) := by
  refine ⟨⟨Spec.rows demo.fkeys, rfl⟩, by decide +kernel, ?_, by decide +kernel, fun s n _ => oneOf_fine _ _ _, ?_⟩
  · intro s n h
    have : ∀ x ∈ [(b!"public", b!"orders"), (b!"public", b!"users"), (b!"public", b!"teams")], 46 ∉ x.1 ∧ 46 ∉ x.2 := by decide +kernel
    exact this _ (demo_reach s n h)
  · intro s n h
    have : ∀ x ∈ [(b!"public", b!"orders"), (b!"public", b!"users"), (b!"public", b!"teams")], ((Spec.rows (demo.columns x.1 x.2)).map (·.name)).Nodup := by decide +kernel
    exact this _ (demo_reach s n h)

/-- `orders` is listed; `users` (which references itself) and `teams` are discovered; `logs` is not. -/
theorem demo_discovery : ∃ ts p', listTables eqB demo [] [b!"orders"] true 4 [b!"public.orders.user_id", b!"public.orders.id"] Prov.new = (.ok ts, p')
    ∧ ts.map (·.name) = [b!"orders", b!"teams", b!"users"] := ⟨_, _, rfl, by decide +kernel⟩

example := C53_discovery_is_complete_partial eqB demo [] [b!"orders"] 4 [b!"public.orders.user_id", b!"public.orders.id"]
  demo_tables_fine (fun r hr => demo_consistent r (by
    have : ∀ r ∈ Spec.selected eqB demo [] [b!"orders"], r ∈ Spec.selected eqB demo [] [] := by decide +kernel
    exact this r hr)) demo_discoverable (by decide +kernel) (by decide +kernel) (by decide +kernel)

/-! ### Outside C53 -/

/-- **C54 fails** for discovered tables: `users` has indexes and a primary key in the catalogue, but found as a dependency it is reported without them,
though not when it is listed itself. -/
theorem C54_dependencies_have_no_indexes :
    (∃ ts p', listTables eqB demo [] [b!"orders"] true 4 [b!"public.orders.user_id", b!"public.orders.id"] Prov.new = (.ok ts, p')
      ∧ ∀ t ∈ ts, t.name = b!"users" → t.indexes = [] ∧ t.primaryKey = none)
    ∧ ∃ ts p', listTables eqB demo [] [b!"users"] false 4 [] Prov.new = (.ok ts, p') ∧ ∀ t ∈ ts, t.name = b!"users" ∧ t.indexes.length = 2 ∧ t.primaryKey.isSome = true :=
  ⟨⟨_, _, rfl, by decide +kernel⟩, ⟨_, _, rfl, by decide +kernel⟩⟩

/-- **C53 fails** for a provider used before: tables of an earlier call are returned again although they do not match and nothing references them. -/
theorem C53_earlier_calls_leak_into_the_result : ∃ p1 ts p2,
    (listTables eqB demo [] [b!"logs"] false 4 [] Prov.new).2 = p1
    ∧ listTables eqB demo [] [b!"teams"] true 4 [b!"public.teams.id"] p1 = (.ok ts, p2)
    ∧ ts.map (·.name) = [b!"logs", b!"teams"] ∧ ¬Spec.Reach demo (Spec.selected eqB demo [] [b!"teams"]) b!"public" b!"logs" := by
  refine ⟨_, _, _, rfl, rfl, by decide +kernel, ?_⟩
  intro h
  have hr : ∀ s n, Spec.Reach demo (Spec.selected eqB demo [] [b!"teams"]) s n → n ≠ b!"logs" := by
    intro s n h
    induction h with
    | listed r hr =>
      have : ∀ r ∈ Spec.selected eqB demo [] [b!"teams"], r.name ≠ b!"logs" := by decide +kernel
      exact this r hr
    | follow s n k _ hk _ _ _ _ =>
      have : ∀ k ∈ Spec.rows demo.fkeys, k.refTable ≠ b!"logs" := by decide +kernel
      exact this k hk
  exact hr _ _ h rfl

/-- A column with two foreign keys. -/
def twoKeys : Catalogue := { demo with
  fkeys := some ⟨[some ⟨b!"fk1", b!"public", b!"orders", b!"user_id", b!"public", b!"users", b!"id"⟩,
    some ⟨b!"fk2", b!"public", b!"orders", b!"user_id", b!"public", b!"logs", b!"a"⟩], false⟩ }

/-- **C53 fails** for a column with several foreign keys to different tables: only the last one is followed. -/
theorem C53_only_the_last_foreign_key_of_a_column_is_followed : ∃ ts p',
    listTables eqB twoKeys [] [b!"orders"] true 4 [b!"public.orders.id", b!"public.orders.user_id"] Prov.new = (.ok ts, p')
    ∧ ts.map (·.name) = [b!"logs", b!"orders"] ∧ Spec.Reach twoKeys (Spec.selected eqB twoKeys [] [b!"orders"]) b!"public" b!"users" := by
  refine ⟨_, _, rfl, by decide +kernel, ?_⟩
  exact .follow b!"public" b!"orders" ⟨b!"fk1", b!"public", b!"orders", b!"user_id", b!"public", b!"users", b!"id"⟩
    (.listed ⟨b!"public", b!"orders", b!"BASE TABLE"⟩ (by decide +kernel)) (by decide +kernel) rfl rfl (by decide +kernel)

/-- Names with dots: table `b.c` of schema `a` and table `c` of schema `a.b`. -/
def dotted : Catalogue :=
  { tables := some ⟨[some ⟨b!"a", b!"b.c", b!""⟩], false⟩
    columns := oneOf [(b!"a", b!"b.c", [⟨b!"x", b!"int", b!"", b!"NO", none, 1⟩]), (b!"a.b", b!"c", [⟨b!"y", b!"int", b!"", b!"NO", none, 1⟩])]
    indexes := oneOf []
    fkeys := some ⟨[some ⟨b!"fk", b!"a", b!"b.c", b!"x", b!"a.b", b!"c", b!"y"⟩], false⟩
    views := none }

/-- **C53 fails** for names with dots: two tables whose dotted names coincide are taken for one another. -/
theorem C53_dotted_names_collide : ∃ ts p', listTables eqB dotted [] [] true 2 [b!"a.b.c.x"] Prov.new = (.ok ts, p')
    ∧ ts.map (fun t => (t.schema, t.name)) = [(b!"a", b!"b.c")] ∧ Spec.Reach dotted (Spec.selected eqB dotted [] []) b!"a.b" b!"c" := by
  refine ⟨_, _, rfl, by decide +kernel, ?_⟩
  exact .follow b!"a" b!"b.c" ⟨b!"fk", b!"a", b!"b.c", b!"x", b!"a.b", b!"c", b!"y"⟩ (.listed ⟨b!"a", b!"b.c", b!""⟩ (by decide +kernel)) (by decide +kernel) rfl rfl (by decide +kernel)

end Schema
