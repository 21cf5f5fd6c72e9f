import Verif.Catalog.MsDemo
import Verif.Catalog.PgExact
set_option linter.unusedVariables false
set_option linter.unusedSimpArgs false
/-! C91, exactly: which indexes `ListTables` reports for the tables of a SQL Server database, and when it crashes, whatever the columns are called. -/

namespace Catalog.MsSpec
open Ms

/-- A byte as `FOR XML` writes it. -/
def xml (b : UInt8) : Bytes := match b with
  | 38 => b!"&amp;"
  | 60 => b!"&lt;"
  | 62 => b!"&gt;"
  | 13 => b!"&#x0D;"
  | b => [b]

/-- What becomes of the name of a column in the list of an index: it is written as XML, then cut at the commas. -/
def written (n : Bytes) : List Bytes := Types.splitComma (n.flatMap xml)

/-- The column names reported for an index: its columns, ordered by their identifiers, with what became of their names. -/
def reportedOver (r : Rel) (i : Idx) (names : List Bytes) : Prop :=
  ∃ cs : List Ms.Col, cs.Perm (r.cols.filter (fun c => c.id ∈ i.key ++ i.included)) ∧ cs.Pairwise (fun a b => a.id < b.id) ∧ names = cs.flatMap (fun c => written c.name)

end Catalog.MsSpec

namespace Catalog.Ms
open Schema (Rows TableRow ColRow IdxRow FkRow Catalogue Table Prov listTables)

variable {db : Db} {cat : Catalogue}

theorem xml_eq (b : UInt8) : MsSpec.xml b = xmlByte b := by
  unfold MsSpec.xml xmlByte
  split
  · rfl
  · rfl
  · rfl
  · rfl
  · rename_i h1 h2 h3 h4
    rw [if_neg h1, if_neg h2, if_neg h3, if_neg h4]

theorem written_eq (n : Bytes) : MsSpec.written n = Types.splitComma (xmlText n) := by
  unfold MsSpec.written xmlText
  rw [show MsSpec.xml = xmlByte from funext xml_eq]

theorem split_ne (s : Bytes) : Types.splitComma s ≠ [] := by
  cases s with
  | nil => simp [Types.splitComma]
  | cons c cs =>
    rw [Types.splitComma]
    split
    · simp
    · split <;> simp

theorem split_append (a b : Bytes) : Types.splitComma (a ++ c!"," :: b) = Types.splitComma a ++ Types.splitComma b := by
  induction a with
  | nil => simp [Types.splitComma]
  | cons c cs ih =>
    rw [List.cons_append, Types.splitComma, Types.splitComma, ih]
    by_cases hc : c = c!","
    · rw [if_pos hc, if_pos hc]; rfl
    · rw [if_neg hc, if_neg hc]
      cases hs : Types.splitComma cs with
      | nil => exact absurd hs (split_ne cs)
      | cons p ps => rfl

theorem split_joined : ∀ l : List Bytes, l ≠ [] → Types.splitComma (Types.joinComma l) = l.flatMap Types.splitComma := by
  intro l
  induction l with
  | nil => intro h; exact absurd rfl h
  | cons x xs ih =>
    intro _
    cases xs with
    | nil => simp [Types.joinComma]
    | cons y ys =>
      have e : Types.joinComma (x :: y :: ys) = x ++ c!"," :: Types.joinComma (y :: ys) := by simp [Types.joinComma]
      rw [e, split_append, ih (by simp)]
      rfl

theorem xmlText_comma (s : Bytes) : xmlText (s ++ b!",") = xmlText s ++ [c!","] := by
  unfold xmlText
  rw [List.flatMap_append]
  rfl

/-- The text of an index, cut at the commas. -/
theorem indexText_written (h : WF db) {r : Rel} (hr : r ∈ db.rels) {i : Idx} (hi : i ∈ r.idxs) (hpos : 0 < i.id) :
    ∃ x, indexText (indexColumns db r.oid i.id) = some x ∧ MsSpec.reportedOver r i (Types.splitComma x) := by
  obtain ⟨cs, c1, c2, c3⟩ := indexColumns_order h hr hi
  have hne : indexColumns db r.oid i.id ≠ [] := by
    obtain ⟨c, hc, hm⟩ := h.idxCols r hr i hi hpos
    rw [c3]
    intro e
    rw [List.map_eq_nil_iff] at e
    rw [e] at c1
    have : c ∈ ([] : List Col) := c1.mem_iff.2 (List.mem_filter.2 ⟨hc, decide_eq_true hm⟩)
    cases this
  unfold indexText
  rw [if_neg hne]
  refine ⟨_, rfl, cs, c1, c2, ?_⟩
  have e : (indexColumns db r.oid i.id).flatMap (fun c => xmlText (c.2 ++ b!",")) = (cs.map (fun c => xmlText c.name)).flatMap (fun n => n ++ [c!","]) := by
    rw [c3, List.flatMap_map, List.flatMap_map]
    apply flatMap_congr
    intro c _
    exact xmlText_comma _
  have hcs : cs.map (fun c => xmlText c.name) ≠ [] := by
    intro hh
    rw [List.map_eq_nil_iff] at hh
    rw [c3, hh] at hne
    exact hne rfl
  rw [e, dropLast_comma _ hcs, split_joined _ hcs, List.flatMap_map]
  apply flatMap_congr
  intro c _
  exact (written_eq _).symm

/-- The indexes the catalogue reports for a table, whatever its names. -/
theorem indexes_exactly (h : WF db) (ha : Answers db cat) {r : Rel} (hr : r ∈ db.rels) (ht : MsSpec.isTable r) :
    Schema.Spec.fine (cat.indexes (schemaName db r.schemaId) r.name)
    ∧ ((Schema.Spec.indexes cat (schemaName db r.schemaId) r.name).map (·.name)).Nodup
    ∧ (∀ x ∈ Schema.Spec.indexes cat (schemaName db r.schemaId) r.name, ∃ i ∈ r.idxs, 0 < i.id ∧ x.name = i.name ∧ x.isPrimary = i.primary ∧ x.isUnique = i.unique
        ∧ MsSpec.reportedOver r i x.columnNames)
    ∧ (∀ i ∈ r.idxs, 0 < i.id → ∃ x ∈ Schema.Spec.indexes cat (schemaName db r.schemaId) r.name, x.name = i.name) := by
  obtain ⟨l, hl, hc⟩ := ha.indexes (schemaName db r.schemaId) r.name
  have hq : queryIndexes db (schemaName db r.schemaId) r.name
      = (r.idxs.filter (fun i => 0 < i.id)).map (fun i => (indexText (indexColumns db r.oid i.id)).map (fun x => ⟨i.name, i.primary, i.unique, x⟩)) := by
    unfold queryIndexes
    have hfind : (db.schemas.find? (fun s => s.2 = schemaName db r.schemaId)).map (·.1) = some r.schemaId := by
      cases hf : db.schemas.find? (fun s => s.2 = schemaName db r.schemaId) with
      | none =>
        have := List.find?_eq_none.1 hf _ (h.schema_mem hr)
        simp at this
      | some x =>
        have hx := List.mem_of_find?_eq_some hf
        have e : x.2 = schemaName db r.schemaId := by simpa using List.find?_some hf
        have := List.inj_on_of_nodup_map h.schemaNames hx (h.schema_mem hr) e
        simp [this]
    rw [hfind, Pg.flatMap_only _ r _ (h.nodup.filter _) (List.mem_filter.2 ⟨hr, decide_eq_true ht.1⟩)]
    · simp only [ht.2, true_and, and_true]
      generalize r.idxs = is
      induction is with
      | nil => rfl
      | cons i is ih =>
        rw [List.flatMap_cons, ih]
        by_cases hp : 0 < i.id
        · rw [if_pos hp, List.filter_cons_of_pos (by simpa using hp)]; rfl
        · rw [if_neg hp, List.filter_cons_of_neg (by simpa using hp)]; rfl
    · intro y hy hne
      apply flatMap_none
      intro i _
      rw [if_neg]
      rintro ⟨-, -, e1, e2⟩
      simp only [Option.some.injEq] at e1
      exact hne (h.name_inj (List.mem_filter.1 hy).1 hr (by rw [e1]) e2)
  rw [hq] at hl
  have htext : ∀ i ∈ r.idxs.filter (fun i => 0 < i.id), ∃ x, indexText (indexColumns db r.oid i.id) = some x ∧ MsSpec.reportedOver r i (Types.splitComma x) := by
    intro i hi
    obtain ⟨hi, hp⟩ := List.mem_filter.1 hi
    exact indexText_written h hr hi (of_decide_eq_true hp)
  have hno : none ∉ l := by
    intro hm
    obtain ⟨i, hi, e⟩ := List.mem_map.1 (hl.mem_iff.1 hm)
    obtain ⟨x, e', -⟩ := htext i hi
    rw [e'] at e
    cases e
  obtain ⟨rows, rfl⟩ := all_some l hno
  have hrows : Schema.Spec.rows (cat.indexes (schemaName db r.schemaId) r.name) = rows := by rw [hc]; simp [Schema.Spec.rows, List.filterMap_map, Function.comp_def]
  refine ⟨⟨rows, hc⟩, ?_, ?_, ?_⟩
  · unfold Schema.Spec.indexes
    rw [hrows, List.map_map]
    have := hl.map (fun x : Option IdxRow => x.map (·.name))
    rw [List.map_map, List.map_map] at this
    have e : (r.idxs.filter (fun i => 0 < i.id)).map ((fun x : Option IdxRow => x.map (·.name)) ∘ fun i => (indexText (indexColumns db r.oid i.id)).map (fun x => (⟨i.name, i.primary, i.unique, x⟩ : IdxRow)))
        = (r.idxs.filter (fun i => 0 < i.id)).map (fun i => some i.name) := by
      apply List.map_congr_left
      intro i hi
      obtain ⟨x, e', -⟩ := htext i hi
      simp [e']
    rw [e] at this
    have hnd : ((r.idxs.filter (fun i => 0 < i.id)).map (fun i => some i.name)).Nodup := by
      rw [show (fun i : Idx => some i.name) = some ∘ (fun i => i.name) from rfl, ← List.map_map]
      exact (h.idxNames r hr).map (fun a b e => Option.some.inj e)
    have := this.nodup_iff.2 hnd
    rw [show ((fun x : Option IdxRow => x.map (·.name)) ∘ some) = some ∘ (fun x : IdxRow => x.name) from rfl, ← List.map_map] at this
    exact List.Nodup.of_map _ this
  · intro x hx
    unfold Schema.Spec.indexes at hx
    rw [hrows] at hx
    obtain ⟨y, hy, rfl⟩ := List.mem_map.1 hx
    obtain ⟨i, hi, e⟩ := List.mem_map.1 (hl.mem_iff.1 (List.mem_map_of_mem (f := some) hy))
    obtain ⟨z, e', hz⟩ := htext i hi
    obtain ⟨hi, hp⟩ := List.mem_filter.1 hi
    rw [e', Option.map_some, Option.some.injEq] at e
    subst e
    exact ⟨i, hi, of_decide_eq_true hp, rfl, rfl, rfl, hz⟩
  · intro i hi hp
    obtain ⟨z, e', hz⟩ := htext i (List.mem_filter.2 ⟨hi, decide_eq_true hp⟩)
    have : some (⟨i.name, i.primary, i.unique, z⟩ : IdxRow) ∈ rows.map some := by
      rw [hl.mem_iff, List.mem_map]
      exact ⟨i, List.mem_filter.2 ⟨hi, decide_eq_true hp⟩, by rw [e']; rfl⟩
    obtain ⟨x, hx, e⟩ := List.mem_map.1 this
    cases e
    unfold Schema.Spec.indexes
    rw [hrows]
    exact ⟨_, List.mem_map_of_mem hx, rfl⟩

/-- A name survives if and only if it has none of these bytes. -/
theorem C91_name_survives_iff (n : Bytes) : MsSpec.written n = [n] ↔ c!"," ∉ n ∧ c!"&" ∉ n ∧ c!"<" ∉ n ∧ c!">" ∉ n ∧ 13 ∉ n := by
  constructor
  · intro hw
    have hj : Types.joinComma (MsSpec.written n) = n := by rw [hw]; rfl
    have hjoin : ∀ s : Bytes, Types.joinComma (Types.splitComma s) = s := by
      intro s
      induction s with
      | nil => rfl
      | cons c cs ih =>
        rw [Types.splitComma]
        split
        · rename_i hc
          cases hs : Types.splitComma cs with
          | nil => exact absurd hs (split_ne cs)
          | cons p ps =>
            rw [hs] at ih
            simp [Types.joinComma, ih, hc]
        · cases hs : Types.splitComma cs with
          | nil => exact absurd hs (split_ne cs)
          | cons p ps =>
            rw [hs] at ih
            cases ps with
            | nil => simpa [Types.joinComma] using ih
            | cons q qs =>
              simp only [Types.joinComma, List.cons_append] at ih ⊢
              rw [ih]
    have hx : n.flatMap MsSpec.xml = n := (hjoin _).symm.trans hj
    have hlen : ∀ b, 1 ≤ (MsSpec.xml b).length := by
      intro b
      unfold MsSpec.xml
      split <;> simp
    have hall : ∀ s : Bytes, s.length ≤ (s.flatMap MsSpec.xml).length := by
      intro s
      induction s with
      | nil => simp
      | cons b bs ih =>
        rw [List.flatMap_cons, List.length_append, List.length_cons]
        have := hlen b
        omega
    have hone : ∀ s : Bytes, (s.flatMap MsSpec.xml).length = s.length → ∀ b ∈ s, (MsSpec.xml b).length = 1 := by
      intro s
      induction s with
      | nil => intro _ b hb; cases hb
      | cons c cs ih =>
        intro he b hb
        rw [List.flatMap_cons, List.length_append, List.length_cons] at he
        have h1 := hlen c
        have h2 := hall cs
        rcases List.mem_cons.1 hb with rfl | hb
        · omega
        · exact ih (by omega) b hb
    have hb := hone n (by rw [hx])
    refine ⟨?_, fun hm => absurd (hb _ hm) (by decide), fun hm => absurd (hb _ hm) (by decide), fun hm => absurd (hb _ hm) (by decide), fun hm => absurd (hb _ hm) (by decide)⟩
    intro hm
    obtain ⟨a, b, e⟩ := List.append_of_mem hm
    have h2 : (Types.splitComma n).length = 1 := by
      unfold MsSpec.written at hw
      rw [hx] at hw
      rw [hw]; rfl
    rw [e, split_append, List.length_append] at h2
    have l1 := List.length_pos_iff.2 (split_ne a)
    have l2 := List.length_pos_iff.2 (split_ne b)
    omega
  · rintro ⟨h1, h2, h3, h4, h5⟩
    rw [written_eq, xmlText_plain n ⟨h2, h3, h4, h5⟩]
    exact Pg.split_join (l := [n]) (by simp) (by simpa using h1)

/-- **C91, exactly**: whatever the columns are called and whatever the provider did before, a listing that succeeds reports for a table exactly its indexes (the heap is not one), each once, with their
flags, and over what became of the names of their columns. -/
theorem C91_reported_indexes_exactly (eqFold : Bytes → Bytes → Bool) (db : Db) (cat : Catalogue) (h : WF db) (ha : Answers db cat)
    (schemas tables : List Bytes) (fuel : Nat) (ks : List Bytes) (p p' : Prov) (ts : List Table) (hok : listTables eqFold cat schemas tables false fuel ks p = (.ok ts, p')) :
    ∀ r ∈ db.rels, MsSpec.isTable r → ∀ t ∈ ts, t.schema = schemaName db r.schemaId → t.name = r.name →
      (t.indexes.map (·.name)).Nodup
      ∧ (∀ x ∈ t.indexes, ∃ i ∈ r.idxs, 0 < i.id ∧ x.name = i.name ∧ x.isPrimary = i.primary ∧ x.isUnique = i.unique ∧ MsSpec.reportedOver r i x.columnNames)
      ∧ (∀ i ∈ r.idxs, 0 < i.id → ∃ x ∈ t.indexes, x.name = i.name) := by
  intro r hr hrt t ht e1 e2
  rw [Schema.listTables_indexes hok t ht, e1, e2]
  exact (indexes_exactly h ha hr hrt).2

/-- **C89/C91, when `ListTables` crashes, exactly**: for a new provider, and asked-for tables without quotes and dots in their names: it succeeds if everything that becomes of the name of a column in an
index of a listed table is the name of a column of that table too, and crashes otherwise. -/
theorem C91_listing_succeeds_iff (eqFold : Bytes → Bytes → Bool) (db : Db) (cat : Catalogue) (h : WF db) (ha : Answers db cat)
    (schemas tables : List Bytes) (fuel : Nat) (ks : List Bytes)
    (hn : ∀ r ∈ db.rels, MsSpec.isTable r → MsSpec.asked eqFold db schemas tables r → c!"'" ∉ schemaName db r.schemaId ∧ c!"'" ∉ r.name ∧ c!"." ∉ schemaName db r.schemaId ∧ c!"." ∉ r.name) :
    ((∃ ts, (listTables eqFold cat schemas tables false fuel ks Prov.new).1 = .ok ts)
      ↔ ∀ r ∈ db.rels, MsSpec.isTable r → MsSpec.asked eqFold db schemas tables r → 0 < MsSpec.times db r → ∀ i ∈ r.idxs, 0 < i.id →
          ∀ c ∈ r.cols, c.id ∈ i.key ++ i.included → ∀ n ∈ MsSpec.written c.name, ∃ c' ∈ r.cols, c'.name = n)
    ∧ ((listTables eqFold cat schemas tables false fuel ks Prov.new).1 = .panic ↔ ¬ ∃ ts, (listTables eqFold cat schemas tables false fuel ks Prov.new).1 = .ok ts) := by
  have hsel : ∀ x ∈ Schema.Spec.selected eqFold cat schemas tables, ∃ r ∈ db.rels, MsSpec.isTable r ∧ MsSpec.asked eqFold db schemas tables r ∧ 0 < MsSpec.times db r
      ∧ x.schema = schemaName db r.schemaId ∧ x.name = r.name := by
    intro x hx
    obtain ⟨r, hr, hx⟩ := List.mem_flatMap.1 ((selected_perm eqFold h ha schemas tables).mem_iff.1 hx)
    obtain ⟨hr, hc⟩ := List.mem_filter.1 hr
    obtain ⟨h1, h2⟩ := of_decide_eq_true hc
    obtain ⟨h3, rfl⟩ := List.mem_replicate.1 hx
    exact ⟨r, hr, h1, h2, by omega, rfl, rfl⟩
  have hsel' : ∀ r ∈ db.rels, MsSpec.isTable r → MsSpec.asked eqFold db schemas tables r → 0 < MsSpec.times db r →
      ∃ x ∈ Schema.Spec.selected eqFold cat schemas tables, x.schema = schemaName db r.schemaId ∧ x.name = r.name := by
    intro r hr h1 h2 h3
    exact ⟨tableRow db r, (selected_perm eqFold h ha schemas tables).mem_iff.2 (List.mem_flatMap.2 ⟨r, List.mem_filter.2 ⟨hr, decide_eq_true ⟨h1, h2⟩⟩, List.mem_replicate.2 ⟨by omega, rfl⟩⟩), rfl, rfl⟩
  have hcols : ∀ r ∈ db.rels, MsSpec.isTable r → MsSpec.asked eqFold db schemas tables r →
      Schema.Spec.fine (cat.columns (schemaName db r.schemaId) r.name) ∧ ∀ n, n ∈ (Schema.Spec.rows (cat.columns (schemaName db r.schemaId) r.name)).map (·.name) ↔ ∃ a ∈ r.cols, a.name = n := by
    intro r hr h1 h2
    obtain ⟨q1, q2, -⟩ := hn r hr h1 h2
    have hc := answer_fine (ha.columns _ r.name _ _ ((C85_sqlserver_text_iff_no_quote_partial _ _).2 ⟨q1, q2⟩))
    rw [queryColumns_eq h hr] at hc
    refine ⟨hc.1, ?_⟩
    intro n
    have := (hc.2.map (fun c : ColRow => c.name)).mem_iff (a := n)
    rw [this, List.map_map, List.mem_map]
    rfl
  have hread : ∀ x ∈ Schema.Spec.selected eqFold cat schemas tables, Schema.Spec.Readable cat x := by
    intro x hx
    obtain ⟨r, hr, h1, h2, -, e1, e2⟩ := hsel x hx
    unfold Schema.Spec.Readable
    rw [e1, e2]
    exact ⟨(hcols r hr h1 h2).1, (indexes_exactly h ha hr h1).1⟩
  have hfine := (answer_fine ha.tables).1
  refine ⟨?_, ?_⟩
  · rw [Schema.C54_new_provider_succeeds_iff eqFold cat schemas tables fuel ks (by
      intro x hx
      obtain ⟨r, hr, h1, h2, -, e1, e2⟩ := hsel x hx
      rw [e1, e2]
      exact (hn r hr h1 h2).2.2)]
    constructor
    · rintro ⟨-, hall⟩ r hr h1 h2 h3 i hi hp c hc hci n hnw
      obtain ⟨x, hx, e1, e2⟩ := hsel' r hr h1 h2 h3
      have hown := (hall x hx).2
      unfold Schema.Spec.OwnIndexes at hown
      rw [e1, e2] at hown
      obtain ⟨-, -, g2, g3⟩ := indexes_exactly h ha hr h1
      obtain ⟨y, hy, ey⟩ := g3 i hi hp
      obtain ⟨j, hj, jp, j1, -, -, cs, c1, -, c3⟩ := g2 y hy
      have hji : j = i := List.inj_on_of_nodup_map (h.idxNames r hr) (List.mem_filter.2 ⟨hj, decide_eq_true jp⟩) (List.mem_filter.2 ⟨hi, decide_eq_true hp⟩) (by rw [← j1, ey])
      subst hji
      refine ((hcols r hr h1 h2).2 n).1 (hown y hy n ?_)
      rw [c3]
      exact List.mem_flatMap.2 ⟨c, c1.mem_iff.2 (List.mem_filter.2 ⟨hc, decide_eq_true hci⟩), hnw⟩
    · intro hall
      refine ⟨hfine, fun x hx => ⟨hread x hx, ?_⟩⟩
      obtain ⟨r, hr, h1, h2, h3, e1, e2⟩ := hsel x hx
      unfold Schema.Spec.OwnIndexes
      rw [e1, e2]
      intro y hy n hny
      obtain ⟨-, -, g2, -⟩ := indexes_exactly h ha hr h1
      obtain ⟨i, hi, hp, -, -, -, cs, c1, -, c3⟩ := g2 y hy
      rw [c3] at hny
      obtain ⟨c, hc, hcw⟩ := List.mem_flatMap.1 hny
      obtain ⟨hc, hci⟩ := List.mem_filter.1 (c1.mem_iff.1 hc)
      exact ((hcols r hr h1 h2).2 n).2 (hall r hr h1 h2 h3 i hi hp c hc (of_decide_eq_true hci) n hcw)
  · constructor
    · intro hp hok
      obtain ⟨ts, hok⟩ := hok
      rw [hok] at hp
      cases hp
    · intro hno
      rcases Schema.listTables_readable eqFold cat schemas tables fuel ks Prov.new hfine hread with g | g
      · exact absurd g hno
      · exact g

/-! ### Witnesses -/

example : MsSpec.written b!"R&D" = [b!"R&amp;D"] ∧ MsSpec.written b!"a,b" = [b!"a", b!"b"] ∧ MsSpec.written b!"a" = [b!"a"] := by decide +kernel

/-- A column called `a,b` in an index, and columns called `a` and `b`: the listing succeeds and reports the index over the latter. -/
def commas : Db := single [col 1 b!"a", col 2 b!"b", col 3 b!"a,b"] [⟨1, b!"ix", false, false, [3], []⟩]

theorem commas_wf : WF commas := WF_of _ (by decide +kernel)

example : ∃ ts p', listTables Schema.eqB (ask commas) [] [] false 0 [] Prov.new = (.ok ts, p') ∧ ts.map (fun t => t.indexes.map (fun x => x.columnNames)) = [[[b!"a", b!"b"]]] :=
  ⟨_, _, rfl, by decide +kernel⟩

example : ∃ ts, (listTables Schema.eqB (ask commas) [] [] false 0 [] Prov.new).1 = .ok ts :=
  (C91_listing_succeeds_iff Schema.eqB commas (ask commas) commas_wf (ask_answers _) [] [] 0 [] (by decide +kernel)).1.2 (by decide +kernel)

/-- The crash of `C91_ampersand_crashes`, from the criterion. -/
example : (listTables Schema.eqB (ask (single [col 1 b!"R&D"] [⟨1, b!"pk", true, true, [1], []⟩])) [] [] false 0 [] Prov.new).1 = .panic := by
  obtain ⟨h1, h2⟩ := C91_listing_succeeds_iff Schema.eqB (single [col 1 b!"R&D"] [⟨1, b!"pk", true, true, [1], []⟩]) (ask (single [col 1 b!"R&D"] [⟨1, b!"pk", true, true, [1], []⟩]))
    C91_ampersand_crashes.1 (ask_answers _) [] [] 0 [] (by decide +kernel)
  rw [h2, h1]
  decide +kernel

end Catalog.Ms
