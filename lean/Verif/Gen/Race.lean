import Verif.Gen.Claim
set_option linter.unusedVariables false
set_option linter.unusedSimpArgs false
set_option linter.unusedSectionVars false
/-!
Optimistic locking: writers that have read the same version of a row and update it on the condition that the version is still there (`UPDATE t SET version=…, … WHERE key = … AND version = … RETURNING …`).  C123.
-/
namespace Gen
open Schema Types Xsql

/-! ### Specification -/

/-- A history of such writers: each runs a statement of its own with the conditions `key = k` and `n = u` (and any others), assigns to `n` something that ends the second (and may assign other columns, but not the key). -/
inductive Spec.Raced (drv : Driver) (eq : Equal) (n : Bytes) (u : Given) (key : Bytes) (k : Given) : Table → List (List Bytes × List (List Given)) → Table → Prop
  | none (T : Table) : Spec.Raced drv eq n u key k T [] T
  | one {T T' T'' : Table} {out : List (List Given)} {rest : List (List Bytes × List (List Given))} (dia : Dia) (nl : Bool) (st : Nat) (l : List (Step Given)) (ret : List Bytes)
      (hl : Spec.IsUpdate l) (hok : ∀ x ∈ l, x.OK) (hw : Spec.Words l) (hr : Spec.Asked ret) (hc : (n, u) ∈ condsOf l) (hkc : (key, k) ∈ condsOf l) (hv : ∃ v, (n, v) ∈ setsOf l ∧ Spec.Ends eq T n u v) (hk : ∀ v, (key, v) ∉ setsOf l)
      (h : T.MayClaim drv eq (build dia nl st (takeCalls T.name l ret)).render (build dia nl st (takeCalls T.name l ret)).args T' out) (hrest : Spec.Raced drv eq n u key k T' rest T'') :
      Spec.Raced drv eq n u key k T ((ret, out) :: rest) T''

/-- No two rows are found by the same value of the key. -/
def Spec.KeyFinds (eq : Equal) (T : Table) (key : Bytes) (k : Given) : Prop :=
  ∀ (i i' : Nat) (row row' : List Cell), T.rows[i]? = some row → T.rows[i']? = some row' → Spec.Matches eq T.cols [(key, k)] row → Spec.Matches eq T.cols [(key, k)] row' → i = i'

/-! ### One statement -/

/-- What one of the statements does, by row number. -/
theorem race_step (drv : Driver) (eq : Equal) (n : Bytes) (u : Given) (key : Bytes) {T T' : Table} {out : List (List Given)} (hnd : (T.cols.map (·.col.name)).Nodup) (htn : Plain T.name) (htw : IsWord T.name)
    (htz : ∃ z, T.name.getLast? = some z ∧ isCut z = false) (hrows : ∀ row ∈ T.rows, row.length = T.cols.length) (dia : Dia) (nl : Bool) (st : Nat) (l : List (Step Given)) (ret : List Bytes)
    (hl : Spec.IsUpdate l) (hok : ∀ x ∈ l, x.OK) (hw : Spec.Words l) (hr : Spec.Asked ret) (hv : ∃ v, (n, v) ∈ setsOf l ∧ Spec.Ends eq T n u v) (hk : ∀ v, (key, v) ∉ setsOf l)
    (h : T.MayClaim drv eq (build dia nl st (takeCalls T.name l ret)).render (build dia nl st (takeCalls T.name l ret)).args T' out) :
    T'.cols = T.cols ∧ T'.name = T.name ∧ (∀ row ∈ T'.rows, row.length = T.cols.length) ∧ T'.rows.length = T.rows.length ∧ out.length = (Spec.changed eq T (condsOf l) T'.rows).length
    ∧ ∀ (i : Nat) (row row' : List Cell), T.rows[i]? = some row → T'.rows[i]? = some row' →
        (∀ k, Spec.Matches eq T.cols [(key, k)] row' ↔ Spec.Matches eq T.cols [(key, k)] row)
        ∧ (Spec.Matches eq T.cols (condsOf l) row → ¬ Spec.Matches eq T.cols [(n, u)] row') ∧ (¬ Spec.Matches eq T.cols (condsOf l) row → row' = row) := by
  obtain ⟨v, hv, hend⟩ := hv
  have hs0 : setsOf l ≠ [] := fun e => by rw [e] at hv; cases hv
  have hargs := (claim_text dia nl st T.name htw.1 htn l hl hok hs0 ret hr.1 (fun c hc => (hr.2 c hc).1) (last_of_join ret hr.1 fun c hc => (hr.2 c hc).2.2)).2
  rw [hargs] at h
  obtain ⟨-, -, -, rows, hF, b1, W, b2, b3⟩ := (C122_claimed drv eq T hnd htn htw htz hrows ret hr dia nl st hl hok hw hs0 (setsOf l) (condsOf l) rfl rfl T' out).1 h
  obtain ⟨hlen, hz⟩ := List.forall₂_iff_zip.1 hF
  subst b1
  have hpair : ∀ (i : Nat) (row row' : List Cell), T.rows[i]? = some row → rows[i]? = some row' → (row, row') ∈ T.rows.zip rows :=
    fun i row row' h1 h2 => List.mem_of_getElem? (List.getElem?_zip_eq_some.2 ⟨h1, h2⟩)
  refine ⟨rfl, rfl, ?_, hlen.symm, ?_, ?_⟩
  · intro row hm
    obtain ⟨i, hi⟩ := List.getElem?_of_mem hm
    have hlt : i < rows.length := (List.getElem?_eq_some_iff.1 hi).1
    have hp := hpair i _ row (List.getElem?_eq_getElem (by omega)) hi
    have ha := hrows _ (List.of_mem_zip hp).1
    by_cases hM : Spec.Matches eq T.cols (condsOf l) (T.rows[i]'(by omega))
    · rw [((hz hp).1 hM).1]; exact ha
    · rw [(hz hp).2 hM]; exact ha
  · rw [← b2.length_eq]
    exact (List.Forall₂.length_eq b3).symm
  · intro i row row' h1 h2
    have hp := hpair i row row' h1 h2
    refine ⟨fun k => ?_, ?_, (hz hp).2⟩
    · by_cases hM : Spec.Matches eq T.cols (condsOf l) row
      · unfold Spec.Matches
        simp only [List.mem_singleton, forall_eq]
        constructor
        · rintro ⟨j, c, x, y, e1, e2, e3, e4⟩
          exact ⟨j, c, x, y, e1, e2, by rw [← (((hz hp).1 hM).2 j c e1).2 (by rw [e2]; exact hk)]; exact e3, e4⟩
        · rintro ⟨j, c, x, y, e1, e2, e3, e4⟩
          exact ⟨j, c, x, y, e1, e2, by rw [(((hz hp).1 hM).2 j c e1).2 (by rw [e2]; exact hk)]; exact e3, e4⟩
      · rw [(hz hp).2 hM]
    · intro hM hM'
      obtain ⟨i, d, x, y, e1, e2, e3, e4, e5, e6, e7⟩ := hM' (n, u) (by simp)
      have := (((hz hp).1 hM).2 i d e1).1 v (by rw [e2]; exact hv)
      rw [e3] at this
      rcases hend d (List.mem_of_getElem? e1) e2 x this.symm with hx | hx
      · exact e4 hx
      · rw [hx y e5] at e7; cases e7

open Classical in
/-- The number of rows changed: at most one can be, if the key finds at most one row; none, if none meets the conditions. -/
theorem changed_le {eq : Equal} {T : Table} {C : List (Bytes × Given)} {key : Bytes} {k : Given} (hk : (key, k) ∈ C) (hu : Spec.KeyFinds eq T key k) {rows : List (List Cell)} : (Spec.changed eq T C rows).length ≤ 1 := by
  unfold Spec.changed
  rw [List.length_map]
  have key0 : ∀ (A B : List (List Cell)), (∀ (i i' : Nat) (row row' : List Cell), A[i]? = some row → A[i']? = some row' → Spec.Matches eq T.cols C row → Spec.Matches eq T.cols C row' → i = i') →
      ((A.zip B).filter fun p => decide (Spec.Matches eq T.cols C p.1)).length ≤ 1 := by
    intro A
    induction A with
    | nil => intro B _; simp
    | cons a A ih =>
      intro B hA
      cases B with
      | nil => simp
      | cons b B =>
        rw [List.zip_cons_cons]
        by_cases ha : Spec.Matches eq T.cols C a
        · rw [List.filter_cons_of_pos (by simpa using ha), List.filter_eq_nil_iff.2]
          · simp
          · intro p hp hd
            obtain ⟨i, hi⟩ := List.getElem?_of_mem (List.of_mem_zip hp).1
            have := hA 0 (i + 1) a p.1 rfl (by simpa using hi) ha (of_decide_eq_true hd)
            omega
        · rw [List.filter_cons_of_neg (by simpa using ha)]
          exact ih B fun i i' row row' h1 h2 m1 m2 => by
            have := hA (i + 1) (i' + 1) row row' (by simpa using h1) (by simpa using h2) m1 m2
            omega
  exact key0 T.rows rows fun i i' row row' h1 h2 m1 m2 => hu i i' row row' h1 h2 (fun q hq => by rw [List.mem_singleton] at hq; subst hq; exact m1 _ hk) fun q hq => by rw [List.mem_singleton] at hq; subst hq; exact m2 _ hk

open Classical in
theorem changed_none {eq : Equal} {T : Table} {C : List (Bytes × Given)} {rows : List (List Cell)} (h : ∀ row ∈ T.rows, ¬ Spec.Matches eq T.cols C row) : Spec.changed eq T C rows = [] := by
  unfold Spec.changed
  rw [List.filter_eq_nil_iff.2, List.map_nil]
  intro p hp hd
  exact h p.1 (List.of_mem_zip hp).1 (of_decide_eq_true hd)

theorem matches_both {eq : Equal} {cols : List TCol} {C : List (Bytes × Given)} {p : Bytes × Given} (hp : p ∈ C) {row : List Cell} (h : Spec.Matches eq cols C row) : Spec.Matches eq cols [p] row :=
  fun q hq => by rw [List.mem_singleton] at hq; subst hq; exact h _ hp

/-! ### Histories -/

/-- **C123**, once the version is gone: nothing more is given out and the rows stay as they are. -/
theorem C123_later_writers_change_nothing (drv : Driver) (eq : Equal) (n : Bytes) (u : Given) (key : Bytes) (k : Given) {T : Table} {steps : List (List Bytes × List (List Given))} {T' : Table} (h : Spec.Raced drv eq n u key k T steps T')
    (hnd : (T.cols.map (·.col.name)).Nodup) (htn : Plain T.name) (htw : IsWord T.name) (htz : ∃ z, T.name.getLast? = some z ∧ isCut z = false) (hrows : ∀ row ∈ T.rows, row.length = T.cols.length)
    (hno : ∀ row ∈ T.rows, ¬ (Spec.Matches eq T.cols [(key, k)] row ∧ Spec.Matches eq T.cols [(n, u)] row)) : (steps.map (·.2)).flatten = [] ∧ T'.rows = T.rows := by
  induction h with
  | none => exact ⟨rfl, rfl⟩
  | @one T T' T'' out rest dia nl st l ret hl hok hw hr hc hkc hv hk h _ ih =>
    obtain ⟨s1, s2, s3, s4, s5, s6⟩ := race_step drv eq n u key hnd htn htw htz hrows dia nl st l ret hl hok hw hr hv hk h
    have hnone : ∀ row ∈ T.rows, ¬ Spec.Matches eq T.cols (condsOf l) row := fun row hm hM => hno row hm ⟨matches_both hkc hM, matches_both hc hM⟩
    rw [changed_none hnone] at s5
    have hsame : T'.rows = T.rows := by
      refine List.ext_getElem s4 fun i h1 h2 => ?_
      exact (s6 i _ _ (List.getElem?_eq_getElem h2) (List.getElem?_eq_getElem h1)).2.2 (hnone _ (List.getElem_mem h2))
    obtain ⟨i1, i2⟩ := ih (by rw [s1]; exact hnd) (by rw [s2]; exact htn) (by rw [s2]; exact htw) (by rw [s2]; exact htz) (by rw [s1]; exact s3) (by rw [s1, hsame]; exact hno)
    refine ⟨?_, by rw [i2, hsame]⟩
    rw [List.map_cons, List.flatten_cons, i1, List.length_eq_zero_iff.1 s5]; rfl

/-- **C123**: of any number of writers that run one after the other on the condition that the version they read is still there, at most one gets the row, if the key finds at most one row: over the whole history at most one
row is given out. -/
theorem C123_one_writer_wins (drv : Driver) (eq : Equal) (n : Bytes) (u : Given) (key : Bytes) (k : Given) {T : Table} {steps : List (List Bytes × List (List Given))} {T' : Table} (h : Spec.Raced drv eq n u key k T steps T')
    (hnd : (T.cols.map (·.col.name)).Nodup) (htn : Plain T.name) (htw : IsWord T.name) (htz : ∃ z, T.name.getLast? = some z ∧ isCut z = false) (hrows : ∀ row ∈ T.rows, row.length = T.cols.length)
    (hu : Spec.KeyFinds eq T key k) : (steps.map (·.2)).flatten.length ≤ 1 := by
  induction h with
  | none => simp
  | @one T T' T'' out rest dia nl st l ret hl hok hw hr hc hkc hv hk h hrest ih =>
    obtain ⟨s1, s2, s3, s4, s5, s6⟩ := race_step drv eq n u key hnd htn htw htz hrows dia nl st l ret hl hok hw hr hv hk h
    have hu' : Spec.KeyFinds eq T' key k := by
      intro i i' row row' g1 g2 m1 m2
      have h1 := (List.getElem?_eq_some_iff.1 g1).1
      have h2 := (List.getElem?_eq_some_iff.1 g2).1
      rw [s1] at m1 m2
      exact hu i i' _ _ (List.getElem?_eq_getElem (by omega)) (List.getElem?_eq_getElem (by omega))
        (((s6 i _ _ (List.getElem?_eq_getElem (by omega)) g1).1 k).1 m1) (((s6 i' _ _ (List.getElem?_eq_getElem (by omega)) g2).1 k).1 m2)
    have p1 : (T'.cols.map (·.col.name)).Nodup := by rw [s1]; exact hnd
    have p2 : Plain T'.name := by rw [s2]; exact htn
    have p3 : IsWord T'.name := by rw [s2]; exact htw
    have p4 : ∃ z, T'.name.getLast? = some z ∧ isCut z = false := by rw [s2]; exact htz
    have p5 : ∀ row ∈ T'.rows, row.length = T'.cols.length := by rw [s1]; exact s3
    have hle := changed_le hkc hu (rows := T'.rows)
    rw [← s5] at hle
    rw [List.map_cons, List.flatten_cons, List.length_append]
    by_cases hm : ∃ row ∈ T.rows, Spec.Matches eq T.cols (condsOf l) row
    · obtain ⟨r, hr, hM⟩ := hm
      obtain ⟨i, hi⟩ := List.getElem?_of_mem hr
      have hover := (C123_later_writers_change_nothing drv eq n u key k hrest p1 p2 p3 p4 p5 (by
        intro row' hm' ⟨m1, m2⟩
        obtain ⟨i', hi'⟩ := List.getElem?_of_mem hm'
        have hlt := (List.getElem?_eq_some_iff.1 hi').1
        rw [s1] at m1 m2
        have hk1 := ((s6 i' _ _ (List.getElem?_eq_getElem (by omega)) hi').1 k).1 m1
        have := hu i' i _ _ (List.getElem?_eq_getElem (by omega)) hi hk1 (matches_both hkc hM)
        subst this
        exact (s6 i' _ _ hi hi').2.1 hM m2)).1
      rw [hover]
      exact hle
    · have hn : ∀ row ∈ T.rows, ¬ Spec.Matches eq T.cols (condsOf l) row := fun row h1 h2 => hm ⟨row, h1, h2⟩
      rw [changed_none hn] at s5
      rw [s5]
      have := ih p1 p2 p3 p4 p5 hu'
      simpa using this

/-- **C123**, the first wins: if the row with the key meets the conditions of the first statement, it is given out by that one and by no later one. -/
theorem C123_the_first_wins (drv : Driver) (eq : Equal) (n : Bytes) (u : Given) (key : Bytes) (k : Given) {T T' T'' : Table} {out : List (List Given)} {rest : List (List Bytes × List (List Given))}
    (dia : Dia) (nl : Bool) (st : Nat) (l : List (Step Given)) (ret : List Bytes)
    (hl : Spec.IsUpdate l) (hok : ∀ x ∈ l, x.OK) (hw : Spec.Words l) (hr : Spec.Asked ret) (hc : (n, u) ∈ condsOf l) (hkc : (key, k) ∈ condsOf l) (hv : ∃ v, (n, v) ∈ setsOf l ∧ Spec.Ends eq T n u v) (hk : ∀ v, (key, v) ∉ setsOf l)
    (h : T.MayClaim drv eq (build dia nl st (takeCalls T.name l ret)).render (build dia nl st (takeCalls T.name l ret)).args T' out) (hrest : Spec.Raced drv eq n u key k T' rest T'')
    (hnd : (T.cols.map (·.col.name)).Nodup) (htn : Plain T.name) (htw : IsWord T.name) (htz : ∃ z, T.name.getLast? = some z ∧ isCut z = false) (hrows : ∀ row ∈ T.rows, row.length = T.cols.length)
    (hu : Spec.KeyFinds eq T key k) (hfree : ∃ row ∈ T.rows, Spec.Matches eq T.cols (condsOf l) row) : out.length = 1 ∧ ∀ s ∈ rest, s.2 = [] := by
  have htot := C123_one_writer_wins drv eq n u key k (.one dia nl st l ret hl hok hw hr hc hkc hv hk h hrest) hnd htn htw htz hrows hu
  obtain ⟨s1, s2, s3, s4, s5, s6⟩ := race_step drv eq n u key hnd htn htw htz hrows dia nl st l ret hl hok hw hr hv hk h
  have hpos : 1 ≤ out.length := by
    rw [s5]
    obtain ⟨r, hr, hM⟩ := hfree
    obtain ⟨i, hi⟩ := List.getElem?_of_mem hr
    have hlt := (List.getElem?_eq_some_iff.1 hi).1
    have hz : (r, T'.rows[i]'(by omega)) ∈ T.rows.zip T'.rows := List.mem_of_getElem? (List.getElem?_zip_eq_some.2 ⟨hi, List.getElem?_eq_getElem (by omega)⟩)
    have : T'.rows[i]'(by omega) ∈ Spec.changed eq T (condsOf l) T'.rows := List.mem_map.2 ⟨_, List.mem_filter.2 ⟨hz, by simpa using hM⟩, rfl⟩
    exact List.length_pos_of_mem this
  rw [List.map_cons, List.flatten_cons, List.length_append] at htot
  change out.length + _ ≤ 1 at htot
  refine ⟨by omega, fun s hs => ?_⟩
  have hnil : (rest.map (·.2)).flatten = [] := List.length_eq_zero_iff.1 (by omega)
  exact List.flatten_eq_nil_iff.1 hnil _ (List.mem_map.2 ⟨s, hs, rfl⟩)

open Classical in
/-- **C122**, all that are free: a statement with no other condition than `n = u`, ended by its assignment, gives out as many rows as are free, and leaves none free. -/
theorem C122_all_free_rows_are_claimed (drv : Driver) (eq : Equal) (n : Bytes) (u v : Given) {T T' : Table} {out : List (List Given)} (hnd : (T.cols.map (·.col.name)).Nodup) (htn : Plain T.name) (htw : IsWord T.name)
    (htz : ∃ z, T.name.getLast? = some z ∧ isCut z = false) (hrows : ∀ row ∈ T.rows, row.length = T.cols.length) (dia : Dia) (nl : Bool) (st : Nat) (l : List (Step Given)) (ret : List Bytes)
    (hl : Spec.IsUpdate l) (hok : ∀ x ∈ l, x.OK) (hw : Spec.Words l) (hr : Spec.Asked ret) (hc : condsOf l = [(n, u)]) (hv : (n, v) ∈ setsOf l) (hend : Spec.Ends eq T n u v)
    (h : T.MayClaim drv eq (build dia nl st (takeCalls T.name l ret)).render (build dia nl st (takeCalls T.name l ret)).args T' out) :
    out.length = (T.rows.filter fun row => decide (Spec.Matches eq T.cols [(n, u)] row)).length ∧ ∀ row ∈ T'.rows, ¬ Spec.Matches eq T.cols [(n, u)] row := by
  have hs0 : setsOf l ≠ [] := fun e => by rw [e] at hv; cases hv
  have hargs := (claim_text dia nl st T.name htw.1 htn l hl hok hs0 ret hr.1 (fun c hc => (hr.2 c hc).1) (last_of_join ret hr.1 fun c hc => (hr.2 c hc).2.2)).2
  rw [hargs] at h
  obtain ⟨-, -, -, rows, hF, b1, W, b2, b3⟩ := (C122_claimed drv eq T hnd htn htw htz hrows ret hr dia nl st hl hok hw hs0 (setsOf l) (condsOf l) rfl rfl T' out).1 h
  obtain ⟨hlen, hz⟩ := List.forall₂_iff_zip.1 hF
  rw [hc] at b2
  simp only [hc] at hz
  have hfst : (T.rows.zip rows).map (·.1) = T.rows := List.map_fst_zip (by omega)
  have hsnd : (T.rows.zip rows).map (·.2) = rows := List.map_snd_zip (by omega)
  constructor
  · rw [← List.Forall₂.length_eq b3, b2.length_eq]
    unfold Spec.changed
    conv_rhs => rw [← hfst, List.filter_map, List.length_map]
    rw [List.length_map]; rfl
  · intro row' hm hM'
    rw [b1] at hm
    change row' ∈ rows at hm
    rw [← hsnd] at hm
    obtain ⟨p, hp, rfl⟩ := List.mem_map.1 hm
    by_cases hM : Spec.Matches eq T.cols [(n, u)] p.1
    · obtain ⟨i, d, x, y, e1, e2, e3, e4, e5, e6, e7⟩ := hM' (n, u) (by simp)
      have := (((hz hp).1 hM).2 i d e1).1 v (by rw [e2]; exact hv)
      rw [e3] at this
      rcases hend d (List.mem_of_getElem? e1) e2 x this.symm with hx | hx
      · exact e4 hx
      · rw [hx y e5] at e7; cases e7
    · rw [(hz hp).2 hM] at hM'
      exact hM hM'

/-! ### Concrete cases -/

/-- Two writers that have read Ann's row 8: `claimOne`, and this one. -/
def claimLate : List (Step Given) := [.update, .set b!"name" (.dv (.text b!"w2")), .cond b!"id" (goInt 8), .cond b!"name" (.dv (.text b!"Ann"))]

/-- The later one gets nothing. -/
theorem claimLate_claimed : ({ twins with rows := [[.int 7, .text b!"x", .text b!"Ann"], [.int 8, .text b!"y", .text b!"w1"]] } : Table).MayClaim .pg plainEqual b!"UPDATE users SET name=$1 WHERE id = $2 AND name = $3 RETURNING id, secret"
    [.dv (.text b!"w2"), goInt 8, .dv (.text b!"Ann")] { twins with rows := [[.int 7, .text b!"x", .text b!"Ann"], [.int 8, .text b!"y", .text b!"w1"]] } [] := by
  refine ⟨b!"users", [(b!"name", b!"$1")], [(b!"id", b!"$2"), (b!"name", b!"$3")], [b!"id", b!"secret"], [.dv (.text b!"w2"), goInt 8, .dv (.text b!"Ann")], by decide +kernel, rfl, by decide +kernel, by decide +kernel, rfl,
    by decide +kernel, by decide +kernel, [[.int 7, .text b!"x", .text b!"Ann"], [.int 8, .text b!"y", .text b!"w1"]], ?_, rfl, [], ?_, by decide +kernel⟩
  · rw [each_forall2]
    refine .cons ?_ (.cons ?_ .nil)
    · rw [if_neg (by decide +kernel)]
    · rw [if_neg (by decide +kernel)]
  · rw [List.zip_cons_cons, List.zip_cons_cons, List.zip_nil_right, List.filter_cons_of_neg (by decide +kernel), List.filter_cons_of_neg (by decide +kernel), List.filter_nil]
    exact List.Perm.refl _

/-- A history as assumed. -/
example : Spec.Raced .pg plainEqual b!"name" (.dv (.text b!"Ann")) b!"id" (goInt 8) twins [([b!"id", b!"secret"], [[.dv (.i64 8), .dv (.text b!"y")]]), ([b!"id", b!"secret"], [])]
    { twins with rows := [[.int 7, .text b!"x", .text b!"Ann"], [.int 8, .text b!"y", .text b!"w1"]] } := by
  refine .one .postgres false 0 claimOne [b!"id", b!"secret"] ⟨[.cond b!"name" (.dv (.text b!"Ann"))], [.set b!"name" (.dv (.text b!"w1")), .cond b!"id" (goInt 8)], rfl, ?_, ?_⟩ ?_ ⟨?_, ?_, ?_⟩ asked_id_secret ?_ ?_
    ⟨.dv (.text b!"w1"), ?_, ends_ann (by decide)⟩ ?_ (T' := { twins with rows := [[.int 7, .text b!"x", .text b!"Ann"], [.int 8, .text b!"y", .text b!"w1"]] }) ?_
    (.one .postgres false 0 claimLate [b!"id", b!"secret"] ⟨[], [.set b!"name" (.dv (.text b!"w2")), .cond b!"id" (goInt 8), .cond b!"name" (.dv (.text b!"Ann"))], rfl, ?_, ?_⟩ ?_ ⟨?_, ?_, ?_⟩ asked_id_secret ?_ ?_
      ⟨.dv (.text b!"w2"), ?_, ends_ann (by decide)⟩ ?_ ?_ (.none _))
  · intro s hs; rw [List.mem_singleton] at hs; exact ⟨_, _, hs⟩
  · intro s hs
    simp only [List.mem_cons, List.not_mem_nil, or_false] at hs
    rcases hs with rfl | rfl
    · exact .inr ⟨_, _, rfl⟩
    · exact .inl ⟨_, _, rfl⟩
  · intro x hx
    simp only [claimOne, List.mem_cons, List.not_mem_nil, or_false] at hx
    rcases hx with rfl | rfl | rfl | rfl
    · exact ⟨by decide, by unfold Plain; decide⟩
    · trivial
    · exact ⟨by decide, by unfold Plain; decide⟩
    · exact ⟨by decide, by unfold Plain; decide⟩
  · intro n hn; simp [claimOne, colsOf] at hn
  · intro p hp
    simp only [claimOne, setsOf, List.filterMap_cons, List.filterMap_nil, List.mem_cons, List.not_mem_nil, or_false] at hp
    subst hp; exact ⟨⟨by decide, by decide⟩, by decide⟩
  · intro p hp
    simp only [claimOne, condsOf, List.filterMap_cons, List.filterMap_nil, List.mem_cons, List.not_mem_nil, or_false] at hp
    rcases hp with rfl | rfl <;> exact ⟨by decide, by decide⟩
  · exact List.mem_cons_self ..
  · exact List.mem_cons_of_mem _ (List.mem_cons_self ..)
  · exact List.mem_cons_self ..
  · intro v hv
    have : (b!"id", v) ∈ [(b!"name", (.dv (.text b!"w1") : Given))] := hv
    rw [List.mem_singleton] at this
    exact absurd (show b!"id" = b!"name" from congrArg Prod.fst this) (by decide)
  · rw [show (build .postgres false 0 (takeCalls twins.name claimOne [b!"id", b!"secret"])).render = b!"UPDATE users SET name=$1 WHERE name = $2 AND id = $3 RETURNING id, secret" by decide +kernel,
      show (build .postgres false 0 (takeCalls twins.name claimOne [b!"id", b!"secret"])).args = [.dv (.text b!"w1"), .dv (.text b!"Ann"), goInt 8] from rfl]
    exact claimOne_claimed
  · intro s hs; cases hs
  · intro s hs
    simp only [List.mem_cons, List.not_mem_nil, or_false] at hs
    rcases hs with rfl | rfl | rfl
    · exact .inr ⟨_, _, rfl⟩
    · exact .inl ⟨_, _, rfl⟩
    · exact .inl ⟨_, _, rfl⟩
  · intro x hx
    simp only [claimLate, List.mem_cons, List.not_mem_nil, or_false] at hx
    rcases hx with rfl | rfl | rfl | rfl
    · trivial
    · exact ⟨by decide, by unfold Plain; decide⟩
    · exact ⟨by decide, by unfold Plain; decide⟩
    · exact ⟨by decide, by unfold Plain; decide⟩
  · intro n hn; simp [claimLate, colsOf] at hn
  · intro p hp
    simp only [claimLate, setsOf, List.filterMap_cons, List.filterMap_nil, List.mem_cons, List.not_mem_nil, or_false] at hp
    subst hp; exact ⟨⟨by decide, by decide⟩, by decide⟩
  · intro p hp
    simp only [claimLate, condsOf, List.filterMap_cons, List.filterMap_nil, List.mem_cons, List.not_mem_nil, or_false] at hp
    rcases hp with rfl | rfl <;> exact ⟨by decide, by decide⟩
  · exact List.mem_cons_of_mem _ (List.mem_cons_self ..)
  · exact List.mem_cons_self ..
  · exact List.mem_cons_self ..
  · intro v hv
    have : (b!"id", v) ∈ [(b!"name", (.dv (.text b!"w2") : Given))] := hv
    rw [List.mem_singleton] at this
    exact absurd (show b!"id" = b!"name" from congrArg Prod.fst this) (by decide)
  · rw [show (build .postgres false 0 (takeCalls ({ twins with rows := [[.int 7, .text b!"x", .text b!"Ann"], [.int 8, .text b!"y", .text b!"w1"]] } : Table).name claimLate [b!"id", b!"secret"])).render
        = b!"UPDATE users SET name=$1 WHERE id = $2 AND name = $3 RETURNING id, secret" by decide +kernel,
      show (build .postgres false 0 (takeCalls ({ twins with rows := [[.int 7, .text b!"x", .text b!"Ann"], [.int 8, .text b!"y", .text b!"w1"]] } : Table).name claimLate [b!"id", b!"secret"])).args
        = [.dv (.text b!"w2"), goInt 8, .dv (.text b!"Ann")] from rfl]
    exact claimLate_claimed

/-- The key finds one row. -/
example : Spec.KeyFinds plainEqual twins b!"id" (goInt 8) := by
  have hnd : (twins.cols.map (·.col.name)).Nodup := by decide
  intro i i' row row' h1 h2 m1 m2
  have key : ∀ i row, twins.rows[i]? = some row → Spec.Matches plainEqual twins.cols [(b!"id", goInt 8)] row → i = 1 := by
    intro i row h m
    have m' := (matches_iff plainEqual hnd _ row).2 m
    match i with
    | 0 =>
      have : row = [.int 7, .text b!"x", .text b!"Ann"] := (Option.some.inj h).symm
      subst this
      exact absurd m' (by decide +kernel)
    | 1 => rfl
    | i + 2 => simp [twins] at h
  rw [key i row h1 m1, key i' row' h2 m2]

end Gen
