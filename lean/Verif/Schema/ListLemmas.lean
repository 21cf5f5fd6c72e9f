import Verif.Schema.Spec
import Verif.Query.NameProps
set_option linter.unusedVariables false
set_option linter.unusedSimpArgs false
/-! Lemmas about reading tables. -/
namespace Schema

theorem fine_rows {ρ : Type} {q : Option (Rows ρ)} (h : Spec.fine q) : q = some ⟨(Spec.rows q).map some, false⟩ := by
  obtain ⟨l, rfl⟩ := h
  simp [Spec.rows, List.filterMap_map, Function.comp_def]

theorem lookup_put_self {β : Type} (m : List (Bytes × β)) (k : Bytes) (v : β) : (put m k v).lookup k = some v := by
  simp [put, List.lookup_cons]

theorem lookup_filter_ne {β : Type} (k k' : Bytes) (h : k' ≠ k) : ∀ m : List (Bytes × β), (m.filter (fun e => e.1 != k)).lookup k' = m.lookup k' := by
  intro m
  induction m with
  | nil => rfl
  | cons e m ih =>
    obtain ⟨a, b⟩ := e
    by_cases ha : a = k
    · subst ha
      have : (k' == a) = false := by simpa using h
      simp [List.lookup_cons, this, ih]
    · simp only [List.filter_cons, bne_iff_ne, ne_eq, ha, not_false_eq_true, if_true, List.lookup_cons, ih]

theorem lookup_put_ne {β : Type} (m : List (Bytes × β)) (k k' : Bytes) (v : β) (h : k' ≠ k) : (put m k v).lookup k' = m.lookup k' := by
  have : (k' == k) = false := by simpa using h
  simp only [put, List.lookup_cons, this]
  exact lookup_filter_ne k k' h m

theorem dot2_inj_right (s a b : Bytes) (h : dot2 s a = dot2 s b) : a = b := by
  simpa [dot2] using h
theorem dot3_eq (s t c : Bytes) : dot3 s t c = dot2 (dot2 s t) c := by simp [dot3, dot2]
theorem dot3_inj_right (s t a b : Bytes) (h : dot3 s t a = dot3 s t b) : a = b := by
  simpa [dot3] using h

theorem sort_map {β γ : Type} (f : β → γ) (le : β → β → Bool) (le' : γ → γ → Bool) : ∀ l : List β,
    (∀ a ∈ l, ∀ b ∈ l, le a b = le' (f a) (f b)) → (Util.sort le l).map f = Util.sort le' (l.map f) := by
  have hins : ∀ (x : β) (l : List β), (∀ b ∈ l, le x b = le' (f x) (f b)) → (Util.insert le x l).map f = Util.insert le' (f x) (l.map f) := by
    intro x l
    induction l with
    | nil => intro _; rfl
    | cons y ys ih =>
      intro h
      simp only [Util.insert, List.map_cons]
      rw [← h y (List.mem_cons_self ..)]
      split
      · rfl
      · simp only [List.map_cons, ih (fun b hb => h b (List.mem_cons_of_mem _ hb))]
  intro l
  induction l with
  | nil => intro _; rfl
  | cons x xs ih =>
    intro h
    simp only [Util.sort, List.map_cons]
    rw [hins x _ (fun b hb => h x (List.mem_cons_self ..) b (List.mem_cons_of_mem _ ((Util.sort_perm le xs).mem_iff.1 hb)))]
    rw [ih (fun a ha b hb => h a (List.mem_cons_of_mem _ ha) b (List.mem_cons_of_mem _ hb))]

/-- The heap ends with the columns `cs` of the table called `tn`, each of which the map knows. -/
structure Seg (tn : Bytes) (old cs : List Column) (p : Prov) : Prop where
  heap : p.heap = old ++ cs
  nodup : (cs.map (·.name)).Nodup
  map : ∀ j c, cs[j]? = some c → p.columns.lookup (dot2 tn c.name) = some (old.length + j)

theorem colLoop_ok (eqFold : Bytes → Bytes → Bool) (s t : Bytes) (rs : List ColRow) : ∀ (acc : List Nat) (p : Prov) (cs : List Column),
    p.heap.length = p.heap.length →
    ∃ p', colLoop eqFold s t false (rs.map some) acc p = (.ok (acc ++ List.range' p.heap.length rs.length), p')
      ∧ p'.heap = p.heap ++ rs.map (mkColumn eqFold s t) ∧ p'.tables = p.tables ∧ p'.fkeys = p.fkeys ∧ p'.leaked = p.leaked
      ∧ (∀ k, (∀ r ∈ rs, k ≠ dot3 s t r.name) → p'.columns.lookup k = p.columns.lookup k)
      ∧ ((rs.map (·.name)).Nodup → ∀ j r, rs[j]? = some r → p'.columns.lookup (dot3 s t r.name) = some (p.heap.length + j)) := by
  induction rs with
  | nil =>
    intro acc p cs _
    exact ⟨p, by simp [colLoop], by simp, rfl, rfl, rfl, fun _ _ => rfl, by intro _ j r h; simp at h⟩
  | cons r rs ih =>
    intro acc p cs _
    obtain ⟨p', h1, h2, h3, h4, h5, h6, h7⟩ := ih (acc ++ [p.heap.length]) (newColumn p (mkColumn eqFold s t r)) cs rfl
    refine ⟨p', ?_, ?_, h3, h4, h5, ?_, ?_⟩
    · simp only [List.map_cons, colLoop, h1]
      simp [newColumn, List.range'_succ]
    · rw [h2]; simp [newColumn]
    · intro k hk
      rw [h6 k (fun x hx => hk x (List.mem_cons_of_mem _ hx))]
      exact lookup_put_ne _ _ _ _ (hk r (List.mem_cons_self ..))
    · intro hnd j x hx
      rw [List.map_cons, List.nodup_cons] at hnd
      cases j with
      | zero =>
        simp only [List.getElem?_cons_zero, Option.some.injEq] at hx
        subst hx
        rw [h6]
        · exact lookup_put_self _ _ _
        · intro y hy e
          exact hnd.1 (by rw [dot3_inj_right s t _ _ e]; exact List.mem_map_of_mem hy)
      | succ j =>
        rw [List.getElem?_cons_succ] at hx
        rw [h7 hnd.2 j x hx]
        simp [newColumn]; omega

theorem readColumns_ok (eqFold : Bytes → Bytes → Bool) (cat : Catalogue) (s t : Bytes) (p : Prov) (h : Spec.fine (cat.columns s t)) :
    ∃ p', readColumns eqFold cat s t p
        = (.ok (Util.sort (fun a b => posOf p'.heap a ≤ posOf p'.heap b) (List.range' p.heap.length (Spec.rows (cat.columns s t)).length)), p')
      ∧ p'.heap = p.heap ++ (Spec.rows (cat.columns s t)).map (mkColumn eqFold s t) ∧ p'.tables = p.tables ∧ p'.fkeys = p.fkeys ∧ p'.leaked = p.leaked
      ∧ (∀ k, (∀ r ∈ Spec.rows (cat.columns s t), k ≠ dot3 s t r.name) → p'.columns.lookup k = p.columns.lookup k)
      ∧ (((Spec.rows (cat.columns s t)).map (·.name)).Nodup → ∀ j r, (Spec.rows (cat.columns s t))[j]? = some r →
          p'.columns.lookup (dot3 s t r.name) = some (p.heap.length + j)) := by
  have hr := fine_rows h
  revert hr
  generalize Spec.rows (cat.columns s t) = rs
  intro hr
  obtain ⟨p', h1, h2⟩ := colLoop_ok eqFold s t rs [] p [] rfl
  refine ⟨p', ?_, h2⟩
  simp only [readColumns, hr, h1, List.nil_append]

theorem idxLoop_ok (s t : Bytes) (rs : List IdxRow) : ∀ (acc : List Index) (p : Prov),
    idxLoop s t false (rs.map some) acc p = (.ok (acc ++ rs.map (mkIndex s t)), p) := by
  induction rs with
  | nil => intro acc p; simp [idxLoop]
  | cons r rs ih => intro acc p; simp [idxLoop, ih]

theorem mkIndex_eq (cat : Catalogue) (s t : Bytes) : (Spec.rows (cat.indexes s t)).map (mkIndex s t) = Spec.indexes cat s t := by
  unfold Spec.indexes mkIndex dot3
  simp

theorem readIndexes_ok (cat : Catalogue) (s t : Bytes) (p : Prov) (h : Spec.fine (cat.indexes s t)) :
    readIndexes cat s t p = (.ok (Spec.indexes cat s t), p) := by
  rw [← mkIndex_eq]
  have hr := fine_rows h
  revert hr
  generalize Spec.rows (cat.indexes s t) = rs
  intro hr
  simp only [readIndexes, hr, idxLoop_ok, List.nil_append]

/-- The index entered in the columns it names. -/
def mark (idx : Index) (cns : List Bytes) (c : Column) : Column := if c.name ∈ cns then { c with indexes := c.indexes ++ [idx] } else c

theorem mark_name (idx : Index) (cns : List Bytes) (c : Column) : (mark idx cns c).name = c.name := by unfold mark; split <;> rfl

/-- `j` is the place of the column called `n`. -/
def placeOf (cs : List Column) (n : Bytes) : Option Nat := cs.findIdx? (fun c => c.name = n)

theorem placeOf_mem (cs : List Column) (n : Bytes) (h : n ∈ cs.map (·.name)) : ∃ j c, cs[j]? = some c ∧ c.name = n ∧ placeOf cs n = some j := by
  unfold placeOf
  rw [List.mem_map] at h
  obtain ⟨c, hc, hn⟩ := h
  have : (cs.findIdx? (fun c => decide (c.name = n))).isSome = true := by
    rw [List.findIdx?_isSome]
    simp only [List.any_eq_true, decide_eq_true_eq]
    exact ⟨c, hc, hn⟩
  obtain ⟨j, hj⟩ := Option.isSome_iff_exists.1 this
  have hj' := List.findIdx?_eq_some_iff_getElem.1 hj
  obtain ⟨hlt, hp, -⟩ := hj'
  exact ⟨j, cs[j], by simp [hlt], by simpa using hp, hj⟩

theorem Seg.modify {tn : Bytes} {old cs : List Column} {p : Prov} (h : Seg tn old cs p) (idx : Index) (j : Nat) (c : Column) (hj : cs[j]? = some c) :
    Seg tn old (cs.map (mark idx [c.name])) (modCol p (old.length + j) (fun c => { c with indexes := c.indexes ++ [idx] })) := by
  have hlt := (List.getElem?_eq_some_iff.1 hj).1
  have hcj : cs[j] = c := (List.getElem?_eq_some_iff.1 hj).2
  refine ⟨?_, ?_, ?_⟩
  · simp only [modCol, h.heap]
    apply List.ext_getElem?
    intro k
    rw [List.getElem?_modify]
    by_cases hk : k < old.length
    · rw [List.getElem?_append_left hk, List.getElem?_append_left hk]
      have : ¬ old.length + j = k := by omega
      simp [this]
    · have hk' : old.length ≤ k := by omega
      rw [List.getElem?_append_right hk', List.getElem?_append_right hk', List.getElem?_map]
      cases hd : cs[k - old.length]? with
      | none => simp
      | some d =>
        simp only [Option.map_some, Option.some.injEq]
        by_cases e : old.length + j = k
        · have : k - old.length = j := by omega
          rw [this, hj] at hd
          cases hd
          simp [e, mark]
        · simp only [e, if_false]
          have hne : d.name ≠ c.name := by
            intro hn
            have hnd := h.nodup
            rw [List.nodup_iff_pairwise_ne, List.pairwise_map] at hnd
            have h1 : k - old.length ≠ j := by omega
            have hlt2 := (List.getElem?_eq_some_iff.1 hd).1
            have hd' := (List.getElem?_eq_some_iff.1 hd).2
            rw [List.pairwise_iff_getElem] at hnd
            rcases Nat.lt_or_gt_of_ne h1 with hl | hl
            · exact hnd _ _ hlt2 hlt hl (by rw [hd', hcj]; exact hn)
            · exact hnd _ _ hlt hlt2 hl (by rw [hd', hcj]; exact hn.symm)
          simp [mark, hne]
  · rw [List.map_map]
    have : (fun c : Column => c.name) ∘ mark idx [c.name] = (fun c => c.name) := by funext x; exact mark_name _ _ _
    rw [this]; exact h.nodup
  · intro i d hd
    rw [List.getElem?_map] at hd
    cases hi : cs[i]? with
    | none => rw [hi] at hd; cases hd
    | some e =>
      rw [hi] at hd
      simp only [Option.map_some, Option.some.injEq] at hd
      rw [← hd, mark_name]
      exact h.map i e hi

/-- The primary key after its name has been found, or as before. -/
def pkOf (cs : List Column) (n0 : Nat) (name : Option Bytes) (pk : Option Nat) : Option Nat :=
  match name with | some n => (placeOf cs n).map (n0 + ·) | none => pk

theorem pkOf_mark (cs : List Column) (idx : Index) (cns : List Bytes) (n0 : Nat) (name : Option Bytes) (pk : Option Nat) :
    pkOf (cs.map (mark idx cns)) n0 name pk = pkOf cs n0 name pk := by
  cases name with
  | none => rfl
  | some n =>
    simp only [pkOf]
    congr 1
    unfold placeOf
    rw [List.findIdx?_map]
    congr 1
    funext x
    simp [mark_name]

theorem applyIndex_ok (tn : Bytes) (idx : Index) (old : List Column) : ∀ (cns : List Bytes) (pk : Option Nat) (p : Prov) (cs : List Column),
    Seg tn old cs p → cns.Nodup → (∀ n ∈ cns, n ∈ cs.map (·.name)) →
    ∃ p', applyIndex tn idx cns pk p
        = some (if idx.isPrimary ∧ idx.columnNames.length = 1 then pkOf cs old.length cns.getLast? pk else pk, p')
      ∧ Seg tn old (cs.map (mark idx cns)) p' ∧ p'.tables = p.tables ∧ p'.fkeys = p.fkeys ∧ p'.leaked = p.leaked ∧ p'.columns = p.columns := by
  intro cns
  induction cns with
  | nil =>
    intro pk p cs hs _ _
    refine ⟨p, ?_, ?_, rfl, rfl, rfl, rfl⟩
    · simp [applyIndex, pkOf]
    · have : cs.map (mark idx []) = cs := by
        conv => rhs; rw [← List.map_id cs]
        exact List.map_congr_left (fun c _ => by simp [mark])
      rw [this]; exact hs
  | cons n cns ih =>
    intro pk p cs hs hnd hmem
    rw [List.nodup_cons] at hnd
    obtain ⟨j, c, hj, hcn, hpl⟩ := placeOf_mem cs n (hmem n (List.mem_cons_self ..))
    have hl := hs.map j c hj
    rw [hcn] at hl
    have hs' := hs.modify idx j c hj
    rw [hcn] at hs'
    have hnames : (cs.map (mark idx [n])).map (·.name) = cs.map (·.name) := by
      rw [List.map_map]
      exact List.map_congr_left (fun x _ => mark_name _ _ _)
    obtain ⟨p', h1, h2, h3, h4, h5, h6⟩ := ih (if idx.isPrimary ∧ idx.columnNames.length = 1 then some (old.length + j) else pk) _ _ hs' hnd.2
      (by rw [hnames]; exact fun x hx => hmem x (List.mem_cons_of_mem _ hx))
    refine ⟨p', ?_, ?_, h3, h4, h5, h6⟩
    · simp only [applyIndex, hl, h1]
      congr 2
      by_cases hp : idx.isPrimary = true ∧ idx.columnNames.length = 1
      · simp only [hp, and_self, if_true]
        rw [pkOf_mark]
        cases hlast : cns.getLast? with
        | none =>
          have : cns = [] := List.getLast?_eq_none_iff.1 hlast
          subst this
          simp [hpl, pkOf]
        | some m =>
          have : (n :: cns).getLast? = some m := by rw [List.getLast?_cons, hlast]; rfl
          simp only [this, pkOf]
      · simp only [hp, if_false]
    · have : (cs.map (mark idx [n])).map (mark idx cns) = cs.map (mark idx (n :: cns)) := by
        rw [List.map_map]
        apply List.map_congr_left
        intro x _
        simp only [Function.comp, mark]
        by_cases h1 : x.name = n
        · have h2 : x.name ∉ cns := by rw [h1]; exact hnd.1
          simp [h1, hnd.1]
        · by_cases h2 : x.name ∈ cns <;> simp [h1, h2]
      rw [this] at h2
      exact h2

theorem applyIndexes_ok (tn : Bytes) (old : List Column) : ∀ (ii : List Index) (pk : Option Nat) (p : Prov) (cs : List Column),
    Seg tn old cs p → (∀ i ∈ ii, i.columnNames.Nodup) → (∀ i ∈ ii, ∀ n ∈ i.columnNames, n ∈ cs.map (·.name)) →
    ∃ p', applyIndexes tn ii pk p = some (pkOf cs old.length (Spec.primaryKey ii) pk, p')
      ∧ Seg tn old (cs.map (fun c => { c with indexes := c.indexes ++ ii.filter (fun i => c.name ∈ i.columnNames) })) p'
      ∧ p'.tables = p.tables ∧ p'.fkeys = p.fkeys ∧ p'.leaked = p.leaked ∧ p'.columns = p.columns := by
  intro ii
  induction ii with
  | nil =>
    intro pk p cs hs _ _
    refine ⟨p, by simp [applyIndexes, Spec.primaryKey, pkOf], ?_, rfl, rfl, rfl, rfl⟩
    have : cs.map (fun c : Column => { c with indexes := c.indexes ++ ([] : List Index).filter (fun i => c.name ∈ i.columnNames) }) = cs := by
      conv => rhs; rw [← List.map_id cs]
      exact List.map_congr_left (fun c _ => by simp)
    rw [this]; exact hs
  | cons idx ii ih =>
    intro pk p cs hs hnd hmem
    obtain ⟨p1, h1, h2, h3, h4, h5, h6⟩ := applyIndex_ok tn idx old idx.columnNames pk p cs hs (hnd idx (List.mem_cons_self ..)) (hmem idx (List.mem_cons_self ..))
    have hnames : (cs.map (mark idx idx.columnNames)).map (·.name) = cs.map (·.name) := by
      rw [List.map_map]
      exact List.map_congr_left (fun x _ => mark_name _ _ _)
    obtain ⟨p2, g1, g2, g3, g4, g5, g6⟩ := ih _ p1 _ h2 (fun i hi => hnd i (List.mem_cons_of_mem _ hi))
      (by rw [hnames]; exact fun i hi => hmem i (List.mem_cons_of_mem _ hi))
    refine ⟨p2, ?_, ?_, g3.trans h3, g4.trans h4, g5.trans h5, g6.trans h6⟩
    · simp only [applyIndexes, h1]
      refine Eq.trans g1 ?_
      congr 2
      rw [pkOf_mark]
      unfold Spec.primaryKey
      by_cases hp : idx.isPrimary = true ∧ idx.columnNames.length = 1
      · rw [List.filter_cons_of_pos (by simpa using hp)]
        rw [List.getLast?_cons]
        simp only [hp, and_self, if_true]
        cases hl : (ii.filter (fun i => decide (i.isPrimary = true ∧ i.columnNames.length = 1))).getLast? with
        | none =>
          simp only [Option.bind_none, Option.getD_none, Option.bind_some]
          obtain ⟨n, hn⟩ : ∃ n, idx.columnNames = [n] := List.length_eq_one_iff.1 hp.2
          simp [hn, pkOf]
        | some i =>
          simp only [Option.getD_some, Option.bind_some]
          have hi := List.mem_of_getLast? hl
          rw [List.mem_filter] at hi
          have hi2 := hi.2
          simp only [decide_eq_true_eq] at hi2
          obtain ⟨n, hn⟩ : ∃ n, i.columnNames = [n] := List.length_eq_one_iff.1 hi2.2
          simp [hn, pkOf]
      · rw [List.filter_cons_of_neg (by simpa using hp)]
        simp only [hp, if_false]
    · have : (cs.map (mark idx idx.columnNames)).map (fun c : Column => { c with indexes := c.indexes ++ ii.filter (fun i : Index => c.name ∈ i.columnNames) })
          = cs.map (fun c : Column => { c with indexes := c.indexes ++ (idx :: ii).filter (fun i : Index => c.name ∈ i.columnNames) }) := by
        rw [List.map_map]
        apply List.map_congr_left
        intro x _
        simp only [Function.comp, mark_name]
        by_cases h : x.name ∈ idx.columnNames
        · simp [mark, h, List.filter_cons]
        · simp [mark, h, List.filter_cons]
      rw [this] at g2
      exact g2

end Schema
