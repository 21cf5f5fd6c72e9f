import Verif.Schema.KeyProps
import Verif.Schema.Terminate
set_option linter.unusedVariables false
set_option linter.unusedSimpArgs false
/-! C54, exactly: when `ListTables` crashes, and when it succeeds, for every catalogue and every provider. -/
namespace Schema

namespace Spec

/-- The full name is known: it was before the call (`earlier`), or one of `tables` has a column of this full name. -/
def NameKnown (earlier : Bytes → Prop) (cat : Catalogue) (tables : List TableRow) (k : Bytes) : Prop :=
  earlier k ∨ ∃ q ∈ tables, ∃ c ∈ rows (cat.columns q.schema q.name), k = q.schema ++ b!"." ++ q.name ++ b!"." ++ c.name

/-- The two queries about a table succeed and can be read to the end. -/
def Readable (cat : Catalogue) (r : TableRow) : Prop := fine (cat.columns r.schema r.name) ∧ fine (cat.indexes r.schema r.name)

/-- Every column name in the indexes of `r` is known. -/
def IndexesKnown (earlier : Bytes → Prop) (cat : Catalogue) (tables : List TableRow) (r : TableRow) : Prop :=
  ∀ i ∈ indexes cat r.schema r.name, ∀ n ∈ i.columnNames, NameKnown earlier cat tables (r.schema ++ b!"." ++ r.name ++ b!"." ++ n)

/-- The tables can be read one after the other: every one is readable, and its indexes name only columns known by then. -/
def Listable (earlier : Bytes → Prop) (cat : Catalogue) (l : List TableRow) : Prop :=
  ∀ a r b, l = a ++ r :: b → Readable cat r ∧ IndexesKnown earlier cat (a ++ [r]) r

end Spec

/-- The names in the provider's map of columns. -/
def Prov.knows (p : Prov) (k : Bytes) : Prop := ∃ i, (k, i) ∈ p.columns

theorem lookup_ne_none_iff {β : Type} (k : Bytes) : ∀ m : List (Bytes × β), m.lookup k ≠ none ↔ ∃ i, (k, i) ∈ m := by
  intro m
  induction m with
  | nil => simp
  | cons e m ih =>
    obtain ⟨k', v⟩ := e
    rw [List.lookup_cons]
    by_cases h : k = k'
    · subst h
      simp only [beq_self_eq_true]
      exact ⟨fun _ => ⟨v, List.mem_cons_self ..⟩, fun _ => by simp⟩
    · have : (k == k') = false := by simpa using h
      simp only [this]
      rw [ih]
      constructor
      · rintro ⟨i, hi⟩; exact ⟨i, List.mem_cons_of_mem _ hi⟩
      · rintro ⟨i, hi⟩
        rcases List.mem_cons.1 hi with hi | hi
        · simp only [Prod.mk.injEq] at hi; exact absurd hi.1 h
        · exact ⟨i, hi⟩

theorem knows_iff (p : Prov) (k : Bytes) : p.knows k ↔ p.columns.lookup k ≠ none := (lookup_ne_none_iff k p.columns).symm

theorem dot3_text (s t c : Bytes) : dot3 s t c = s ++ b!"." ++ t ++ b!"." ++ c := by simp [dot3]

theorem newColumn_knows (p : Prov) (c : Column) (k : Bytes) : (newColumn p c).knows k ↔ p.knows k ∨ k = c.schemaName := by
  rw [knows_iff, knows_iff]
  simp only [newColumn]
  by_cases h : k = c.schemaName
  · subst h; rw [lookup_put_self]; simp
  · rw [lookup_put_ne _ _ _ _ h]; simp [h]

/-- Reading columns: what becomes known, also when it fails. -/
theorem colLoop_knows (eqFold : Bytes → Bytes → Bool) (s t : Bytes) (rs : List ColRow) : ∀ (acc : List Nat) (p : Prov) (k : Bytes),
    (colLoop eqFold s t false (rs.map some) acc p).2.knows k ↔ p.knows k ∨ ∃ c ∈ rs, k = dot3 s t c.name := by
  induction rs with
  | nil => intro acc p k; simp [colLoop]
  | cons r rs ih =>
    intro acc p k
    simp only [List.map_cons, colLoop]
    rw [ih, newColumn_knows]
    simp only [List.mem_cons, exists_eq_or_imp, mkColumn, or_assoc]

theorem colLoop_out (eqFold : Bytes → Bytes → Bool) (s t : Bytes) (e : Bool) : ∀ (items : List (Option ColRow)) (acc : List Nat) (p : Prov),
    (∃ cc, (colLoop eqFold s t e items acc p).1 = .ok cc) ∨ (colLoop eqFold s t e items acc p).1 = .err := by
  intro items
  induction items with
  | nil => intro acc p; cases e <;> simp [colLoop]
  | cons x xs ih =>
    intro acc p
    cases x with
    | none => simp [colLoop]
    | some r => exact ih _ _

theorem idxLoop_out (s t : Bytes) (e : Bool) : ∀ (items : List (Option IdxRow)) (acc : List Index) (p : Prov),
    (∃ cc, (idxLoop s t e items acc p).1 = .ok cc) ∨ (idxLoop s t e items acc p).1 = .err := by
  intro items
  induction items with
  | nil => intro acc p; cases e <;> simp [idxLoop]
  | cons x xs ih =>
    intro acc p
    cases x with
    | none => simp [idxLoop]
    | some r => exact ih _ _

theorem readColumns_out (eqFold : Bytes → Bytes → Bool) (cat : Catalogue) (s t : Bytes) (p : Prov) (h : ¬ Spec.fine (cat.columns s t)) :
    (readColumns eqFold cat s t p).1 = .err := by
  cases hr : readColumns eqFold cat s t p with
  | mk o p' =>
    cases o with
    | ok cc => exact absurd (readColumns_fine hr) h
    | err => rfl
    | _ =>
      unfold readColumns at hr
      cases hq : cat.columns s t with
      | none => rw [hq] at hr; cases hr
      | some rows =>
        rw [hq] at hr
        simp only at hr
        have := colLoop_out eqFold s t rows.endErr rows.items [] p
        cases hl : colLoop eqFold s t rows.endErr rows.items [] p with
        | mk o q =>
          rw [hl] at hr this
          rcases this with ⟨cc, h⟩ | h
          · simp only at h; subst h; cases hr
          · simp only at h; subst h; cases hr

theorem readIndexes_out (cat : Catalogue) (s t : Bytes) (p : Prov) (h : ¬ Spec.fine (cat.indexes s t)) :
    (readIndexes cat s t p).1 = .err := by
  cases hr : readIndexes cat s t p with
  | mk o p' =>
    cases o with
    | ok cc => exact absurd (readIndexes_fine hr) h
    | err => rfl
    | _ =>
      unfold readIndexes at hr
      cases hq : cat.indexes s t with
      | none => rw [hq] at hr; cases hr
      | some rows =>
        rw [hq] at hr
        simp only at hr
        have := idxLoop_out s t rows.endErr rows.items [] p
        rw [hr] at this
        rcases this with ⟨cc, h⟩ | h <;> cases h

theorem readColumns_knows (eqFold : Bytes → Bytes → Bool) (cat : Catalogue) (s t : Bytes) (p : Prov) (h : Spec.fine (cat.columns s t)) (k : Bytes) :
    (readColumns eqFold cat s t p).2.knows k ↔ p.knows k ∨ ∃ c ∈ Spec.rows (cat.columns s t), k = dot3 s t c.name := by
  have hr := fine_rows h
  revert hr
  generalize Spec.rows (cat.columns s t) = rs
  intro hr
  have hk := colLoop_knows eqFold s t rs [] p k
  obtain ⟨p', h1, h2⟩ := colLoop_ok eqFold s t rs [] p [] rfl
  rw [h1] at hk
  simp only [readColumns, hr, h1]
  exact hk

/-! ### Marking the columns of indexes -/

theorem applyIndex_known (tn : Bytes) (idx : Index) : ∀ (cns : List Bytes) (pk : Option Nat) (p : Prov), (∀ n ∈ cns, p.knows (dot2 tn n)) →
    ∃ pk' p', applyIndex tn idx cns pk p = some (pk', p') := by
  intro cns
  induction cns with
  | nil => intro pk p _; exact ⟨pk, p, rfl⟩
  | cons c cs ih =>
    intro pk p h
    unfold applyIndex
    cases hc : p.columns.lookup (dot2 tn c) with
    | none => exact absurd hc ((knows_iff _ _).1 (h c (List.mem_cons_self ..)))
    | some i => exact ih _ (modCol p i _) (fun n hn => h n (List.mem_cons_of_mem _ hn))

theorem applyIndexes_known (tn : Bytes) : ∀ (ii : List Index) (pk : Option Nat) (p : Prov), (∀ i ∈ ii, ∀ n ∈ i.columnNames, p.knows (dot2 tn n)) →
    ∃ pk' p', applyIndexes tn ii pk p = some (pk', p') ∧ p'.columns = p.columns := by
  intro ii
  induction ii with
  | nil => intro pk p _; exact ⟨pk, p, rfl, rfl⟩
  | cons x xs ih =>
    intro pk p h
    obtain ⟨pk1, p1, h1⟩ := applyIndex_known tn x x.columnNames pk p (h x (List.mem_cons_self ..))
    have hcol := applyIndex_columns _ _ _ _ _ _ _ h1
    obtain ⟨pk2, p2, h2, h3⟩ := ih pk1 p1 (by
      intro i hi n hn
      have := h i (List.mem_cons_of_mem _ hi) n hn
      unfold Prov.knows at this ⊢
      rw [hcol]; exact this)
    exact ⟨pk2, p2, by unfold applyIndexes; rw [h1]; exact h2, h3.trans hcol⟩

/-! ### One table -/

theorem after_columns (eqFold : Bytes → Bytes → Bool) (cat : Catalogue) (r : TableRow) (p : Prov) (h : Spec.fine (cat.columns r.schema r.name)) (k : Bytes) :
    (readColumns eqFold cat r.schema r.name p).2.knows k ↔ Spec.NameKnown p.knows cat [r] k := by
  rw [readColumns_knows eqFold cat _ _ p h]
  unfold Spec.NameKnown
  simp [dot3_text]

theorem addTable_unreadable (eqFold : Bytes → Bytes → Bool) (cat : Catalogue) (r : TableRow) (p : Prov) (h : ¬ Spec.Readable cat r) :
    (addTable eqFold cat r p).1 = .err := by
  by_cases hc : Spec.fine (cat.columns r.schema r.name)
  · have hi : ¬ Spec.fine (cat.indexes r.schema r.name) := fun hi => h ⟨hc, hi⟩
    obtain ⟨p1, h1, -⟩ := readColumns_ok eqFold cat r.schema r.name p hc
    have := readIndexes_out cat r.schema r.name p1 hi
    simp only [addTable, h1]
    cases hx : readIndexes cat r.schema r.name p1 with
    | mk o q => rw [hx] at this; simp only at this; subst this; rfl
  · have := readColumns_out eqFold cat r.schema r.name p hc
    simp only [addTable]
    cases hx : readColumns eqFold cat r.schema r.name p with
    | mk o q => rw [hx] at this; simp only at this; subst this; rfl

theorem addTable_unknown (eqFold : Bytes → Bytes → Bool) (cat : Catalogue) (r : TableRow) (p : Prov) (h : Spec.Readable cat r)
    (hk : ¬ Spec.IndexesKnown p.knows cat [r] r) : (addTable eqFold cat r p).1 = .panic := by
  obtain ⟨p1, h1, -⟩ := readColumns_ok eqFold cat r.schema r.name p h.1
  have hkn := after_columns eqFold cat r p h.1
  rw [h1] at hkn
  have : ∃ i ∈ Spec.indexes cat r.schema r.name, ∃ n ∈ i.columnNames, p1.columns.lookup (dot2 (dot2 r.schema r.name) n) = none := by
    apply Classical.byContradiction
    intro hno
    apply hk
    intro i hi n hn
    apply Classical.byContradiction
    intro hnk
    apply hno
    refine ⟨i, hi, n, hn, ?_⟩
    rw [← dot3_eq, dot3_text]
    apply Classical.byContradiction
    intro hl
    exact hnk ((hkn _).1 ((knows_iff _ _).2 hl))
  simp only [addTable, h1, readIndexes_ok cat _ _ _ h.2, applyIndexes_unknown _ _ _ _ this]

theorem addTable_good (eqFold : Bytes → Bytes → Bool) (cat : Catalogue) (r : TableRow) (p : Prov) (h : Spec.Readable cat r)
    (hk : Spec.IndexesKnown p.knows cat [r] r) :
    ∃ t p', addTable eqFold cat r p = (.ok t, p') ∧ ∀ k, p'.knows k ↔ Spec.NameKnown p.knows cat [r] k := by
  obtain ⟨p1, h1, -⟩ := readColumns_ok eqFold cat r.schema r.name p h.1
  have hkn := after_columns eqFold cat r p h.1
  rw [h1] at hkn
  obtain ⟨pk, p2, h2, h3⟩ := applyIndexes_known (dot2 r.schema r.name) (Spec.indexes cat r.schema r.name) none p1 (by
    intro i hi n hn
    rw [← dot3_eq, dot3_text]
    exact (hkn _).2 (hk i hi n hn))
  cases ha : addTable eqFold cat r p with
  | mk o p' =>
    simp only [addTable, h1, readIndexes_ok cat _ _ _ h.2, h2, Prod.mk.injEq] at ha
    obtain ⟨rfl, rfl⟩ := ha
    refine ⟨_, _, rfl, ?_⟩
    intro k
    rw [← hkn k]
    unfold Prov.knows
    simp only [h3]

/-! ### All tables -/

theorem nameKnown_append (E : Bytes → Prop) (cat : Catalogue) (a b : List TableRow) (k : Bytes) :
    Spec.NameKnown (Spec.NameKnown E cat a) cat b k ↔ Spec.NameKnown E cat (a ++ b) k := by
  unfold Spec.NameKnown
  simp only [List.mem_append]
  constructor
  · rintro ((h | ⟨q, hq, c, hc, e⟩) | ⟨q, hq, c, hc, e⟩)
    · exact Or.inl h
    · exact Or.inr ⟨q, Or.inl hq, c, hc, e⟩
    · exact Or.inr ⟨q, Or.inr hq, c, hc, e⟩
  · rintro (h | ⟨q, hq | hq, c, hc, e⟩)
    · exact Or.inl (Or.inl h)
    · exact Or.inl (Or.inr ⟨q, hq, c, hc, e⟩)
    · exact Or.inr ⟨q, hq, c, hc, e⟩

theorem nameKnown_congr {E E' : Bytes → Prop} (h : ∀ k, E k ↔ E' k) (cat : Catalogue) (a : List TableRow) (k : Bytes) :
    Spec.NameKnown E cat a k ↔ Spec.NameKnown E' cat a k := by
  unfold Spec.NameKnown; rw [h k]

theorem indexesKnown_congr {E E' : Bytes → Prop} {cat : Catalogue} {a a' : List TableRow} (h : ∀ k, Spec.NameKnown E cat a k ↔ Spec.NameKnown E' cat a' k) (r : TableRow) :
    Spec.IndexesKnown E cat a r ↔ Spec.IndexesKnown E' cat a' r :=
  ⟨fun g i hi n hn => (h _).1 (g i hi n hn), fun g i hi n hn => (h _).2 (g i hi n hn)⟩

theorem listable_nil (E : Bytes → Prop) (cat : Catalogue) : Spec.Listable E cat [] := by
  intro a r b h; cases a <;> cases h

theorem listable_cons (E E' : Bytes → Prop) (cat : Catalogue) (r : TableRow) (l : List TableRow) (hE : ∀ k, E' k ↔ Spec.NameKnown E cat [r] k) :
    Spec.Listable E cat (r :: l) ↔ (Spec.Readable cat r ∧ Spec.IndexesKnown E cat [r] r) ∧ Spec.Listable E' cat l := by
  have key : ∀ (a : List TableRow) (q : TableRow), Spec.IndexesKnown E' cat (a ++ [q]) q ↔ Spec.IndexesKnown E cat (r :: a ++ [q]) q := by
    intro a q
    apply indexesKnown_congr
    intro k
    rw [nameKnown_congr hE, nameKnown_append]
    rfl
  constructor
  · intro h
    refine ⟨h [] r l rfl, ?_⟩
    intro a q b e
    obtain ⟨h1, h2⟩ := h (r :: a) q b (by rw [e]; rfl)
    exact ⟨h1, (key a q).2 h2⟩
  · rintro ⟨h1, h2⟩ a q b e
    cases a with
    | nil =>
      simp only [List.nil_append, List.cons.injEq] at e
      obtain ⟨rfl, rfl⟩ := e
      exact h1
    | cons x a =>
      simp only [List.cons_append, List.cons.injEq] at e
      obtain ⟨rfl, e⟩ := e
      obtain ⟨g1, g2⟩ := h2 a q b e
      exact ⟨g1, (key a q).1 g2⟩

/-- The first table that cannot be read to the end is the one whose index names an unknown column. -/
def CrashAt (E : Bytes → Prop) (cat : Catalogue) (sel : TableRow → Bool) (items : List (Option TableRow)) : Prop :=
  ∃ (pre : List TableRow) (r : TableRow) (rest : List (Option TableRow)), items = pre.map some ++ some r :: rest ∧ sel r = true ∧ Spec.Listable E cat (pre.filter sel)
    ∧ Spec.Readable cat r ∧ ¬ Spec.IndexesKnown E cat (pre.filter sel ++ [r]) r

theorem crashAt_none (E : Bytes → Prop) (cat : Catalogue) (sel : TableRow → Bool) (items : List (Option TableRow)) : ¬ CrashAt E cat sel (none :: items) := by
  rintro ⟨pre, r, rest, h, -⟩
  cases pre <;> cases h

theorem crashAt_skip (E : Bytes → Prop) (cat : Catalogue) (sel : TableRow → Bool) (x : TableRow) (items : List (Option TableRow)) (hx : ¬ sel x = true) :
    CrashAt E cat sel (some x :: items) ↔ CrashAt E cat sel items := by
  constructor
  · rintro ⟨pre, r, rest, h, hs, h1, h2, h3⟩
    cases pre with
    | nil =>
      simp only [List.map_nil, List.nil_append, List.cons.injEq, Option.some.injEq] at h
      rw [h.1] at hx; exact absurd hs hx
    | cons y pre =>
      simp only [List.map_cons, List.cons_append, List.cons.injEq, Option.some.injEq] at h
      obtain ⟨rfl, h⟩ := h
      rw [List.filter_cons_of_neg hx] at h1 h3
      exact ⟨pre, r, rest, h, hs, h1, h2, h3⟩
  · rintro ⟨pre, r, rest, h, hs, h1, h2, h3⟩
    refine ⟨x :: pre, r, rest, by rw [h]; rfl, hs, ?_, h2, ?_⟩ <;> rw [List.filter_cons_of_neg hx] <;> assumption

theorem crashAt_take (E E' : Bytes → Prop) (cat : Catalogue) (sel : TableRow → Bool) (x : TableRow) (items : List (Option TableRow)) (hx : sel x = true)
    (hE : ∀ k, E' k ↔ Spec.NameKnown E cat [x] k) :
    CrashAt E cat sel (some x :: items) ↔ Spec.Readable cat x ∧ (¬ Spec.IndexesKnown E cat [x] x ∨ (Spec.IndexesKnown E cat [x] x ∧ CrashAt E' cat sel items)) := by
  have key : ∀ (a : List TableRow) (q : TableRow), Spec.IndexesKnown E' cat (a ++ [q]) q ↔ Spec.IndexesKnown E cat (x :: a ++ [q]) q := by
    intro a q
    apply indexesKnown_congr
    intro k
    rw [nameKnown_congr hE, nameKnown_append]
    rfl
  constructor
  · rintro ⟨pre, r, rest, h, hs, h1, h2, h3⟩
    cases pre with
    | nil =>
      simp only [List.map_nil, List.nil_append, List.cons.injEq, Option.some.injEq] at h
      rw [h.1]; exact ⟨h2, Or.inl h3⟩
    | cons y pre =>
      simp only [List.map_cons, List.cons_append, List.cons.injEq, Option.some.injEq] at h
      obtain ⟨rfl, h⟩ := h
      rw [List.filter_cons_of_pos hx] at h1 h3
      obtain ⟨⟨g1, g2⟩, g3⟩ := (listable_cons E E' cat x _ hE).1 h1
      exact ⟨g1, Or.inr ⟨g2, pre, r, rest, h, hs, g3, h2, fun hc => h3 ((key _ _).1 hc)⟩⟩
  · rintro ⟨g1, g2 | ⟨g2, pre, r, rest, h, hs, h1, h2, h3⟩⟩
    · exact ⟨[], x, items, rfl, hx, listable_nil _ _, g1, g2⟩
    · refine ⟨x :: pre, r, rest, by rw [h]; rfl, hs, ?_, h2, ?_⟩
      · rw [List.filter_cons_of_pos hx]; exact (listable_cons E E' cat x _ hE).2 ⟨⟨g1, g2⟩, h1⟩
      · rw [List.filter_cons_of_pos hx]; exact fun hc => h3 ((key _ _).2 hc)

/-- The outcome of the loop, exactly. -/
theorem tableLoop_outcome (eqFold : Bytes → Bytes → Bool) (cat : Catalogue) (schemas tables : List Bytes) (e : Bool) :
    ∀ (items : List (Option TableRow)) (acc : List Table) (p : Prov),
      ((tableLoop eqFold cat schemas tables e items acc p).1 = .panic
        ↔ CrashAt p.knows cat (fun r => passes eqFold schemas r.schema && passes eqFold tables r.name) items)
      ∧ ((∃ ts, (tableLoop eqFold cat schemas tables e items acc p).1 = .ok ts)
        ↔ e = false ∧ ∃ l : List TableRow, items = l.map some
            ∧ Spec.Listable p.knows cat (l.filter (fun r => passes eqFold schemas r.schema && passes eqFold tables r.name))) := by
  intro items
  induction items with
  | nil =>
    intro acc p
    constructor
    · constructor
      · intro h; cases e <;> simp [tableLoop] at h
      · rintro ⟨pre, r, rest, h, -⟩; cases pre <;> cases h
    · cases e
      · simp only [tableLoop]
        exact ⟨fun _ => ⟨trivial, [], rfl, listable_nil _ _⟩, fun _ => ⟨acc, rfl⟩⟩
      · simp [tableLoop]
  | cons x xs ih =>
    intro acc p
    cases x with
    | none =>
      constructor
      · constructor
        · intro h; simp [tableLoop] at h
        · intro h; exact absurd h (crashAt_none _ _ _ _)
      · constructor
        · rintro ⟨ts, h⟩; simp [tableLoop] at h
        · rintro ⟨-, l, h, -⟩; cases l <;> cases h
    | some r =>
      have hsplit : ∀ (P : List TableRow → Prop), (∃ l : List TableRow, some r :: xs = l.map some ∧ P l) ↔ ∃ l : List TableRow, xs = l.map some ∧ P (r :: l) := by
        intro P
        constructor
        · rintro ⟨l, h, hP⟩
          cases l with
          | nil => cases h
          | cons y l =>
            simp only [List.map_cons, List.cons.injEq, Option.some.injEq] at h
            obtain ⟨rfl, h⟩ := h
            exact ⟨l, h, hP⟩
        · rintro ⟨l, h, hP⟩; exact ⟨r :: l, by rw [h]; rfl, hP⟩
      rw [hsplit]
      by_cases hp : (passes eqFold schemas r.schema && passes eqFold tables r.name) = true
      · simp only [tableLoop, if_pos hp]
        have hf : ∀ l : List TableRow, (r :: l).filter (fun r => passes eqFold schemas r.schema && passes eqFold tables r.name)
            = r :: l.filter (fun r => passes eqFold schemas r.schema && passes eqFold tables r.name) := by
          intro l
          exact List.filter_cons_of_pos (p := fun r : TableRow => passes eqFold schemas r.schema && passes eqFold tables r.name) hp
        simp only [hf]
        by_cases hr : Spec.Readable cat r
        · by_cases hk : Spec.IndexesKnown p.knows cat [r] r
          · obtain ⟨t, p', ha, hkn⟩ := addTable_good eqFold cat r p hr hk
            rw [ha, crashAt_take _ p'.knows cat _ r xs hp hkn]
            simp only [listable_cons p.knows p'.knows cat r _ hkn]
            obtain ⟨h1, h2⟩ := ih (acc ++ [t]) p'
            simp only [h1, h2]
            refine ⟨⟨fun h => ⟨hr, Or.inr ⟨hk, h⟩⟩, ?_⟩, ⟨fun ⟨h, l, h1, h2⟩ => ⟨h, l, h1, ⟨hr, hk⟩, h2⟩, fun ⟨h, l, h1, _, h2⟩ => ⟨h, l, h1, h2⟩⟩⟩
            rintro ⟨-, h | ⟨-, h⟩⟩
            · exact absurd hk h
            · exact h
          · have ha := addTable_unknown eqFold cat r p hr hk
            cases hx : addTable eqFold cat r p with
            | mk o q =>
              rw [hx] at ha; simp only at ha; subst ha
              simp only [crashAt_take p.knows _ cat (fun r => passes eqFold schemas r.schema && passes eqFold tables r.name) r xs hp (fun k => Iff.rfl), true_iff]
              refine ⟨⟨hr, Or.inl hk⟩, ⟨?_, ?_⟩⟩
              · rintro ⟨ts, h⟩; cases h
              · rintro ⟨-, l, -, hl⟩; exact absurd (hl [] r _ rfl).2 hk
        · have ha := addTable_unreadable eqFold cat r p hr
          cases hx : addTable eqFold cat r p with
          | mk o q =>
            rw [hx] at ha; simp only at ha; subst ha
            simp only [crashAt_take p.knows _ cat (fun r => passes eqFold schemas r.schema && passes eqFold tables r.name) r xs hp (fun k => Iff.rfl)]
            refine ⟨⟨fun h => (nomatch h), fun h => absurd h.1 hr⟩, ⟨?_, ?_⟩⟩
            · rintro ⟨ts, h⟩; cases h
            · rintro ⟨-, l, -, hl⟩; exact absurd (hl [] r _ rfl).1 hr
      · simp only [tableLoop, if_neg hp]
        have hf : ∀ l : List TableRow, (r :: l).filter (fun r => passes eqFold schemas r.schema && passes eqFold tables r.name)
            = l.filter (fun r => passes eqFold schemas r.schema && passes eqFold tables r.name) := by
          intro l
          exact List.filter_cons_of_neg (p := fun r : TableRow => passes eqFold schemas r.schema && passes eqFold tables r.name) hp
        simp only [hf]
        rw [crashAt_skip _ _ _ _ _ hp]
        exact ih acc p

/-! ### Following foreign keys never crashes -/

/-- Never a crash, and no column object is lost. -/
def Calm (go : Bytes → Bytes → Prov → Out Unit × Prov) : Prop :=
  ∀ s n p, (go s n p).1 ≠ .panic ∧ p.heap.length ≤ (go s n p).2.heap.length

theorem colLoop_heap (eqFold : Bytes → Bytes → Bool) (s t : Bytes) (e : Bool) : ∀ (items : List (Option ColRow)) (acc : List Nat) (p : Prov),
    p.heap.length ≤ (colLoop eqFold s t e items acc p).2.heap.length := by
  intro items
  induction items with
  | nil => intro acc p; cases e <;> simp [colLoop]
  | cons x xs ih =>
    intro acc p
    cases x with
    | none => simp [colLoop, leak]
    | some r =>
      refine Nat.le_trans ?_ (ih _ _)
      simp [newColumn]

theorem readColumns_heap (eqFold : Bytes → Bytes → Bool) (cat : Catalogue) (s t : Bytes) (p : Prov) :
    p.heap.length ≤ (readColumns eqFold cat s t p).2.heap.length ∧ (readColumns eqFold cat s t p).1 ≠ .panic
      ∧ ∀ cc, (readColumns eqFold cat s t p).1 = .ok cc → ∀ i ∈ cc, i < (readColumns eqFold cat s t p).2.heap.length := by
  by_cases h : Spec.fine (cat.columns s t)
  · obtain ⟨p1, h1, h2, -⟩ := readColumns_ok eqFold cat s t p h
    rw [h1]
    simp only [h2, List.length_append, List.length_map]
    refine ⟨by omega, by simp, ?_⟩
    intro cc hcc i hi
    simp only [Out.ok.injEq] at hcc
    subst hcc
    rw [(Util.sort_perm _ _).mem_iff, List.mem_range'_1] at hi
    omega
  · have := readColumns_out eqFold cat s t p h
    refine ⟨?_, by rw [this]; simp, by intro cc hcc; rw [this] at hcc; cases hcc⟩
    unfold readColumns
    cases hq : cat.columns s t with
    | none => exact Nat.le_refl _
    | some rows =>
      simp only
      have hh := colLoop_heap eqFold s t rows.endErr rows.items [] p
      cases hl : colLoop eqFold s t rows.endErr rows.items [] p with
      | mk o q =>
        rw [hl] at hh
        cases o <;> exact hh

theorem followCols_calm (go : Bytes → Bytes → Prov → Out Unit × Prov) (hgo : Calm go) : ∀ (ids : List Nat) (p : Prov), (∀ i ∈ ids, i < p.heap.length) →
    (followCols go ids p).1 ≠ .panic ∧ p.heap.length ≤ (followCols go ids p).2.heap.length := by
  intro ids
  induction ids with
  | nil => intro p _; simp [followCols]
  | cons i ids ih =>
    intro p hp
    have hi := hp i (List.mem_cons_self ..)
    have hrest : ∀ j ∈ ids, j < p.heap.length := fun j hj => hp j (List.mem_cons_of_mem _ hj)
    rw [followCols, List.getElem?_eq_getElem hi]
    simp only
    cases hf : p.fkeys.lookup p.heap[i].schemaName with
    | none => exact ih p hrest
    | some fk =>
      simp only
      have hg := hgo fk.refSchema fk.refTable (modCol p i (fun c => { c with ref := some fk }))
      have hlen : (modCol p i (fun c => { c with ref := some fk })).heap.length = p.heap.length := by simp [modCol]
      cases hx : go fk.refSchema fk.refTable (modCol p i (fun c => { c with ref := some fk })) with
      | mk o p' =>
        rw [hx] at hg
        cases o with
        | ok u =>
          simp only [hlen] at hg
          obtain ⟨h1, h2⟩ := ih p' (fun j hj => Nat.lt_of_lt_of_le (hrest j hj) hg.2)
          exact ⟨h1, Nat.le_trans hg.2 h2⟩
        | panic => exact absurd rfl hg.1
        | err => simp only [hlen] at hg; exact ⟨by simp, hg.2⟩
        | diverge => simp only [hlen] at hg; exact ⟨by simp, hg.2⟩

theorem discoverTable_calm (eqFold : Bytes → Bytes → Bool) (cat : Catalogue) : ∀ fuel, Calm (discoverTable eqFold cat fuel) := by
  intro fuel
  induction fuel with
  | zero => intro s n p; simp [discoverTable]
  | succ f ih =>
    intro s n p
    rw [discoverTable]
    cases hl : p.tables.lookup (dot2 s n) with
    | some t => simp
    | none =>
      simp only
      obtain ⟨h1, h2, h3⟩ := readColumns_heap eqFold cat s n p
      cases hr : readColumns eqFold cat s n p with
      | mk o p1 =>
        rw [hr] at h1 h2 h3
        cases o with
        | ok cc =>
          simp only at h1 h3 ⊢
          obtain ⟨g1, g2⟩ := followCols_calm _ ih cc { p1 with tables := put p1.tables (dot2 s n) { schema := s, name := n, type := [], isView := false, columns := cc, indexes := [], primaryKey := none, schemaName := dot2 s n } } (h3 cc rfl)
          exact ⟨g1, Nat.le_trans h1 g2⟩
        | panic => exact absurd rfl h2
        | err => exact ⟨by simp, h1⟩
        | diverge => exact ⟨by simp, h1⟩

theorem discoverLoop_calm (eqFold : Bytes → Bytes → Bool) (cat : Catalogue) (fuel : Nat) : ∀ (ks : List Bytes) (p : Prov),
    (discoverLoop eqFold cat fuel ks p).1 ≠ .panic := by
  intro ks
  induction ks with
  | nil => intro p; simp [discoverLoop]
  | cons k ks ih =>
    intro p
    rw [discoverLoop]
    cases hc : p.columns.lookup k with
    | none => exact ih p
    | some i =>
      simp only
      cases hf : p.fkeys.lookup k with
      | none => exact ih p
      | some fk =>
        simp only
        have hg := discoverTable_calm eqFold cat fuel fk.refSchema fk.refTable (modCol p i (fun c => { c with ref := some fk }))
        cases hx : discoverTable eqFold cat fuel fk.refSchema fk.refTable (modCol p i (fun c => { c with ref := some fk })) with
        | mk o p' =>
          rw [hx] at hg
          cases o with
          | ok u => exact ih p'
          | panic => exact absurd rfl hg.1
          | err => simp
          | diverge => simp

theorem fkLoop_calm (eqFold : Bytes → Bytes → Bool) (schemas tables : List Bytes) (e : Bool) : ∀ (items : List (Option FkRow)) (acc : List ForeignKey) (p : Prov),
    (fkLoop eqFold schemas tables e items acc p).1 ≠ .panic := by
  intro items
  induction items with
  | nil => intro acc p; cases e <;> simp [fkLoop]
  | cons x xs ih =>
    intro acc p
    cases x with
    | none => simp [fkLoop]
    | some r =>
      rw [fkLoop]
      split
      · exact ih _ _
      · exact ih _ _

theorem discover_calm (eqFold : Bytes → Bytes → Bool) (cat : Catalogue) (fuel : Nat) (ks : List Bytes) (p : Prov) :
    (discover eqFold cat fuel ks p).1 ≠ .panic := by
  unfold discover
  have h1 : (listForeignKeys eqFold cat [] [] p).1 ≠ .panic := by
    unfold listForeignKeys
    cases cat.fkeys with
    | none => simp
    | some rows => exact fkLoop_calm _ _ _ _ _ _ _
  cases hx : listForeignKeys eqFold cat [] [] p with
  | mk o p1 =>
    rw [hx] at h1
    cases o with
    | ok a =>
      simp only
      have h2 := discoverLoop_calm eqFold cat fuel ks p1
      cases hy : discoverLoop eqFold cat fuel ks p1 with
      | mk o2 p2 =>
        rw [hy] at h2
        cases o2 with
        | panic => exact absurd rfl h2
        | _ => simp
    | panic => exact absurd rfl h1
    | _ => simp

/-! ### The property -/

theorem sel_eq (eqFold : Bytes → Bytes → Bool) (schemas tables : List Bytes) :
    (fun r : TableRow => passes eqFold schemas r.schema && passes eqFold tables r.name)
      = fun r : TableRow => decide (Spec.matchesFilter eqFold schemas r.schema ∧ Spec.matchesFilter eqFold tables r.name) := by
  have h : ∀ (l : List Bytes) (s : Bytes), passes eqFold l s = decide (Spec.matchesFilter eqFold l s) := by
    intro l s
    rw [Bool.eq_iff_iff, decide_eq_true_iff]
    simp [passes, Spec.matchesFilter]
  funext r
  rw [h, h, Bool.decide_and]

/-- **C54, when it crashes, exactly**: `ListTables`, with or without dependencies and from any provider, crashes if and only if the first selected table that cannot
be listed is one whose queries succeed but one of whose indexes names a column that is unknown: neither a column of the tables read so far nor known from earlier calls. -/
theorem C54_crashes_iff (eqFold : Bytes → Bytes → Bool) (cat : Catalogue) (schemas tables : List Bytes) (deps : Bool) (fuel : Nat) (ks : List Bytes) (p : Prov) :
    (listTables eqFold cat schemas tables deps fuel ks p).1 = .panic
      ↔ ∃ (before : List TableRow) (r : TableRow) (rest : List (Option TableRow)) (e : Bool), cat.tables = some ⟨before.map some ++ some r :: rest, e⟩
          ∧ (Spec.matchesFilter eqFold schemas r.schema ∧ Spec.matchesFilter eqFold tables r.name)
          ∧ Spec.Listable p.knows cat (before.filter (fun q => decide (Spec.matchesFilter eqFold schemas q.schema ∧ Spec.matchesFilter eqFold tables q.name)))
          ∧ Spec.Readable cat r
          ∧ ∃ i ∈ Spec.indexes cat r.schema r.name, ∃ n ∈ i.columnNames,
              ¬ Spec.NameKnown p.knows cat
                (before.filter (fun q => decide (Spec.matchesFilter eqFold schemas q.schema ∧ Spec.matchesFilter eqFold tables q.name)) ++ [r])
                (r.schema ++ b!"." ++ r.name ++ b!"." ++ n) := by
  have hunk : ∀ (l : List TableRow) (r : TableRow), ¬ Spec.IndexesKnown p.knows cat l r ↔ ∃ i ∈ Spec.indexes cat r.schema r.name, ∃ n ∈ i.columnNames,
      ¬ Spec.NameKnown p.knows cat l (r.schema ++ b!"." ++ r.name ++ b!"." ++ n) := by
    intro l r
    unfold Spec.IndexesKnown
    simp only [Classical.not_forall]
    constructor
    · rintro ⟨i, hi, n, hn, h⟩; exact ⟨i, hi, n, hn, h⟩
    · rintro ⟨i, hi, n, hn, h⟩; exact ⟨i, hi, n, hn, h⟩
  cases hq : cat.tables with
  | none => simp [listTables, hq]
  | some rows =>
    obtain ⟨items, e⟩ := rows
    have hmain := (tableLoop_outcome eqFold cat schemas tables e items [] p).1
    rw [sel_eq] at hmain
    have : (listTables eqFold cat schemas tables deps fuel ks p).1 = .panic ↔ (tableLoop eqFold cat schemas tables e items [] p).1 = .panic := by
      simp only [listTables, hq]
      cases hl : tableLoop eqFold cat schemas tables e items [] p with
      | mk o p1 =>
        cases o with
        | ok tt =>
          cases deps with
          | false => simp
          | true =>
            simp only [if_true]
            have hd := discover_calm eqFold cat fuel ks p1
            cases hx : discover eqFold cat fuel ks p1 with
            | mk o2 p2 =>
              rw [hx] at hd
              cases o2 with
              | panic => exact absurd rfl hd
              | _ => simp
        | _ => simp
    rw [this, hmain]
    unfold CrashAt
    constructor
    · rintro ⟨pre, r, rest, h, hs, h1, h2, h3⟩
      exact ⟨pre, r, rest, e, by rw [h], of_decide_eq_true hs, h1, h2, (hunk _ _).1 h3⟩
    · rintro ⟨pre, r, rest, e', h, hs, h1, h2, h3⟩
      simp only [Option.some.injEq, Rows.mk.injEq] at h
      exact ⟨pre, r, rest, h.1, decide_eq_true hs, h1, h2, (hunk _ _).2 h3⟩

/-- **C54, when it succeeds, exactly** (without dependencies, from any provider): all queries succeed and every index names columns known by then. -/
theorem C54_succeeds_iff (eqFold : Bytes → Bytes → Bool) (cat : Catalogue) (schemas tables : List Bytes) (fuel : Nat) (ks : List Bytes) (p : Prov) :
    (∃ ts, (listTables eqFold cat schemas tables false fuel ks p).1 = .ok ts)
      ↔ Spec.fine cat.tables ∧ Spec.Listable p.knows cat (Spec.selected eqFold cat schemas tables) := by
  cases hq : cat.tables with
  | none =>
    simp only [listTables, hq]
    constructor
    · rintro ⟨ts, h⟩; cases h
    · rintro ⟨⟨l, h⟩, -⟩; cases h
  | some rows =>
    obtain ⟨items, e⟩ := rows
    have hmain := (tableLoop_outcome eqFold cat schemas tables e items [] p).2
    have : (∃ ts, (listTables eqFold cat schemas tables false fuel ks p).1 = .ok ts) ↔ ∃ ts, (tableLoop eqFold cat schemas tables e items [] p).1 = .ok ts := by
      simp only [listTables, hq]
      cases hl : tableLoop eqFold cat schemas tables e items [] p with
      | mk o p1 => cases o <;> simp
    rw [this, hmain]
    have hrows : ∀ l : List TableRow, items = l.map some → Spec.rows cat.tables = l := by
      intro l h
      rw [hq, h]
      simp [Spec.rows, List.filterMap_map]
    constructor
    · rintro ⟨he, l, hl, h⟩
      refine ⟨⟨l, by rw [hl, he]⟩, ?_⟩
      rw [← selected_eq, hrows l hl]
      exact h
    · rintro ⟨⟨l, hl⟩, h⟩
      simp only [Option.some.injEq, Rows.mk.injEq] at hl
      rw [← selected_eq, hrows l hl.1] at h
      exact ⟨hl.2, l, hl.1, h⟩

theorem cut_dot : ∀ (a b : Bytes) (x y : Bytes), 46 ∉ a → 46 ∉ b → a ++ 46 :: x = b ++ 46 :: y → a = b ∧ x = y := by
  intro a
  induction a with
  | nil =>
    intro b x y _ hb h
    cases b with
    | nil => simpa using h
    | cons c b =>
      simp only [List.nil_append, List.cons_append, List.cons.injEq] at h
      rw [← h.1] at hb
      exact absurd (List.mem_cons_self ..) hb
  | cons c a ih =>
    intro b x y ha hb h
    cases b with
    | nil =>
      simp only [List.nil_append, List.cons_append, List.cons.injEq] at h
      rw [h.1] at ha
      exact absurd (List.mem_cons_self ..) ha
    | cons d b =>
      simp only [List.cons_append, List.cons.injEq] at h
      obtain ⟨g1, g2⟩ := ih b x y (fun h => ha (List.mem_cons_of_mem _ h)) (fun h => hb (List.mem_cons_of_mem _ h)) h.2
      exact ⟨by rw [h.1, g1], g2⟩

theorem knows_new (k : Bytes) : ¬ Prov.new.knows k := by
  rintro ⟨i, h⟩; cases h

theorem nameKnown_own (cat : Catalogue) (l : List TableRow) (r : TableRow) (hr : r ∈ l) (hd : ∀ q ∈ l, 46 ∉ q.schema ∧ 46 ∉ q.name) (n : Bytes) :
    Spec.NameKnown Prov.new.knows cat l (r.schema ++ b!"." ++ r.name ++ b!"." ++ n) ↔ n ∈ (Spec.rows (cat.columns r.schema r.name)).map (·.name) := by
  unfold Spec.NameKnown
  constructor
  · rintro (h | ⟨q, hq, c, hc, e⟩)
    · exact absurd h (knows_new _)
    · have e' : r.schema ++ 46 :: (r.name ++ 46 :: n) = q.schema ++ 46 :: (q.name ++ 46 :: c.name) := by simpa using e
      obtain ⟨h1, h2⟩ := cut_dot _ _ _ _ (hd r hr).1 (hd q hq).1 e'
      obtain ⟨h3, h4⟩ := cut_dot _ _ _ _ (hd r hr).2 (hd q hq).2 h2
      rw [h1, h3, h4]
      exact List.mem_map_of_mem hc
  · intro h
    obtain ⟨c, hc, rfl⟩ := List.mem_map.1 h
    exact Or.inr ⟨r, hr, c, hc, rfl⟩

/-- The table can be listed: its queries succeed and its indexes are over its own columns. -/
def Spec.OwnIndexes (cat : Catalogue) (r : TableRow) : Prop :=
  ∀ i ∈ Spec.indexes cat r.schema r.name, ∀ n ∈ i.columnNames, n ∈ (Spec.rows (cat.columns r.schema r.name)).map (·.name)

theorem listable_own (cat : Catalogue) (l : List TableRow) (hd : ∀ q ∈ l, 46 ∉ q.schema ∧ 46 ∉ q.name) :
    Spec.Listable Prov.new.knows cat l ↔ ∀ r ∈ l, Spec.Readable cat r ∧ Spec.OwnIndexes cat r := by
  have key : ∀ a r b, l = a ++ r :: b → (Spec.IndexesKnown Prov.new.knows cat (a ++ [r]) r ↔ Spec.OwnIndexes cat r) := by
    intro a r b e
    have hd' : ∀ q ∈ a ++ [r], 46 ∉ q.schema ∧ 46 ∉ q.name := by
      intro q hq
      apply hd q
      rw [e]
      rcases List.mem_append.1 hq with h | h
      · exact List.mem_append_left _ h
      · rw [List.mem_singleton.1 h]; simp
    constructor
    · intro h i hi n hn
      exact (nameKnown_own cat (a ++ [r]) r (by simp) hd' n).1 (h i hi n hn)
    · intro h i hi n hn
      exact (nameKnown_own cat (a ++ [r]) r (by simp) hd' n).2 (h i hi n hn)
  constructor
  · intro h r hr
    obtain ⟨a, b, e⟩ := List.append_of_mem hr
    exact ⟨(h a r b e).1, (key a r b e).1 (h a r b e).2⟩
  · intro h a r b e
    have := h r (by rw [e]; simp)
    exact ⟨this.1, (key a r b e).2 this.2⟩

/-- **C54, for a new provider and names without dots**: it succeeds if and only if all queries succeed and every index is over columns of its own table. -/
theorem C54_new_provider_succeeds_iff (eqFold : Bytes → Bytes → Bool) (cat : Catalogue) (schemas tables : List Bytes) (fuel : Nat) (ks : List Bytes)
    (hd : ∀ q ∈ Spec.selected eqFold cat schemas tables, 46 ∉ q.schema ∧ 46 ∉ q.name) :
    (∃ ts, (listTables eqFold cat schemas tables false fuel ks Prov.new).1 = .ok ts)
      ↔ Spec.fine cat.tables ∧ ∀ r ∈ Spec.selected eqFold cat schemas tables, Spec.Readable cat r ∧ Spec.OwnIndexes cat r := by
  rw [C54_succeeds_iff, listable_own cat _ hd]

/-- **C54, for a new provider and names without dots**: it crashes if and only if the first selected table that cannot be listed has readable columns and indexes, and an index over
something that is not one of its columns. -/
theorem C54_new_provider_crashes_iff (eqFold : Bytes → Bytes → Bool) (cat : Catalogue) (schemas tables : List Bytes) (deps : Bool) (fuel : Nat) (ks : List Bytes)
    (hd : ∀ q ∈ Spec.selected eqFold cat schemas tables, 46 ∉ q.schema ∧ 46 ∉ q.name) :
    (listTables eqFold cat schemas tables deps fuel ks Prov.new).1 = .panic
      ↔ ∃ (before : List TableRow) (r : TableRow) (rest : List (Option TableRow)) (e : Bool), cat.tables = some ⟨before.map some ++ some r :: rest, e⟩
          ∧ (Spec.matchesFilter eqFold schemas r.schema ∧ Spec.matchesFilter eqFold tables r.name)
          ∧ (∀ q ∈ before, Spec.matchesFilter eqFold schemas q.schema → Spec.matchesFilter eqFold tables q.name → Spec.Readable cat q ∧ Spec.OwnIndexes cat q)
          ∧ Spec.Readable cat r
          ∧ ∃ i ∈ Spec.indexes cat r.schema r.name, ∃ n ∈ i.columnNames, n ∉ (Spec.rows (cat.columns r.schema r.name)).map (·.name) := by
  rw [C54_crashes_iff]
  have hdd : ∀ (before : List TableRow) (r : TableRow) (rest : List (Option TableRow)) (e : Bool), cat.tables = some ⟨before.map some ++ some r :: rest, e⟩ →
      (Spec.matchesFilter eqFold schemas r.schema ∧ Spec.matchesFilter eqFold tables r.name) →
      ∀ q ∈ before.filter (fun q => decide (Spec.matchesFilter eqFold schemas q.schema ∧ Spec.matchesFilter eqFold tables q.name)) ++ [r], 46 ∉ q.schema ∧ 46 ∉ q.name := by
    intro before r rest e ht hs q hq
    apply hd q
    unfold Spec.selected
    rw [List.mem_filter]
    have hm : ∀ x, some x ∈ before.map some ++ some r :: rest → x ∈ Spec.rows cat.tables := by
      intro x hx
      rw [ht]
      simp only [Spec.rows, List.mem_filterMap, id]
      exact ⟨some x, hx, rfl⟩
    rcases List.mem_append.1 hq with h | h
    · obtain ⟨h1, h2⟩ := List.mem_filter.1 h
      exact ⟨hm q (List.mem_append_left _ (List.mem_map_of_mem h1)), by simpa using h2⟩
    · rw [List.mem_singleton.1 h]
      exact ⟨hm r (by simp), by simpa using hs⟩
  constructor
  · rintro ⟨before, r, rest, e, ht, hs, h1, h2, i, hi, n, hn, h3⟩
    have hdq := hdd before r rest e ht hs
    refine ⟨before, r, rest, e, ht, hs, ?_, h2, i, hi, n, hn, ?_⟩
    · intro q hq g1 g2
      exact (listable_own cat _ (fun q hq => hdq q (List.mem_append_left _ hq))).1 h1 q (List.mem_filter.2 ⟨hq, by simp [g1, g2]⟩)
    · intro hm
      exact h3 ((nameKnown_own cat _ r (by simp) hdq n).2 hm)
  · rintro ⟨before, r, rest, e, ht, hs, h1, h2, i, hi, n, hn, h3⟩
    have hdq := hdd before r rest e ht hs
    refine ⟨before, r, rest, e, ht, hs, ?_, h2, i, hi, n, hn, ?_⟩
    · refine (listable_own cat _ (fun q hq => hdq q (List.mem_append_left _ hq))).2 ?_
      intro q hq
      obtain ⟨g1, g2⟩ := List.mem_filter.1 hq
      have g2 := of_decide_eq_true g2
      exact h1 q g1 g2.1 g2.2
    · intro hm
      exact h3 ((nameKnown_own cat _ r (by simp) hdq n).1 hm)

/-! ### Witnesses -/

example : ∃ ts, (listTables eqB demo [] [] false 0 [] Prov.new).1 = .ok ts :=
  (C54_new_provider_succeeds_iff eqB demo [] [] 0 [] (by decide +kernel)).2
    ⟨demo_tables_fine, fun r hr => ⟨⟨oneOf_fine _ _ _, oneOf_fine _ _ _⟩, (demo_consistent r hr).idxCols⟩⟩

/-- The second table crashes the listing; the first is fine. -/
def lateCat : Catalogue := { demo with
  tables := some ⟨[some ⟨b!"public", b!"users", b!"BASE TABLE"⟩, some ⟨b!"public", b!"teams", b!"BASE TABLE"⟩], false⟩
  indexes := oneOf [(b!"public", b!"users", [⟨b!"users_pkey", true, true, b!"id"⟩]), (b!"public", b!"teams", [⟨b!"teams_pkey", true, true, b!"id,uid"⟩])] }

example : (listTables eqB lateCat [] [] true 9 [] Prov.new).1 = .panic := by
  refine (C54_new_provider_crashes_iff eqB lateCat [] [] true 9 [] (by decide +kernel)).2
    ⟨[⟨b!"public", b!"users", b!"BASE TABLE"⟩], ⟨b!"public", b!"teams", b!"BASE TABLE"⟩, [], false, rfl, by decide +kernel, ?_, ⟨oneOf_fine _ _ _, oneOf_fine _ _ _⟩, ?_⟩
  · intro q hq _ _
    rw [List.mem_singleton.1 hq]
    refine ⟨⟨oneOf_fine _ _ _, oneOf_fine _ _ _⟩, ?_⟩
    unfold Spec.OwnIndexes
    decide +kernel
  · exact ⟨⟨b!"teams_pkey", true, true, [b!"id", b!"uid"], b!"public.teams.teams_pkey"⟩, by decide +kernel, b!"uid", by decide +kernel, by decide +kernel⟩

/-- An earlier call can hide the crash: after a table `teams` that had the column `uid` was listed, the same listing succeeds and files the index with a column of the dropped table. -/
theorem C54_earlier_calls_hide_the_crash : ∃ p : Prov, (listTables eqB mixedCat [] [] false 0 [] p).1 ≠ .panic
    ∧ (∃ cat' ts, listTables eqB cat' [] [] false 0 [] Prov.new = (.ok ts, p)) ∧ (listTables eqB mixedCat [] [] false 0 [] Prov.new).1 = .panic := by
  refine ⟨_, ?_, ⟨{ mixedCat with columns := oneOf [(b!"public", b!"teams", [⟨b!"id", b!"bigint", b!"int8", b!"NO", none, 1⟩, ⟨b!"uid", b!"bigint", b!"int8", b!"NO", none, 2⟩])] }, _, rfl⟩, ?_⟩
  · decide +kernel
  · decide +kernel

end Schema
