import Verif.Gen.Modify
set_option linter.unusedVariables false
set_option linter.unusedSimpArgs false
set_option linter.unusedSectionVars false
/-!
A model that is saved with an update by its key and loaded by its key.  C111.
-/
namespace Gen
open Schema Types Xsql

theorem store_int_key {w : Width} {d : Given} {v : Cell} (h : store (.int w) false d = some v) : store (.int w) true d = some v ∧ ∃ n, v = .int n := by
  unfold store at h ⊢
  cases d with
  | dv d =>
    cases d <;> simp_all
    rename_i n
    by_cases hc : w.lo ≤ n.toInt ∧ n.toInt ≤ w.hi
    · simp [hc] at h; exact ⟨_, h.symm⟩
    · simp [hc] at h
  | f64 d => simp at h
  | time t => simp at h

theorem saveLoad_parts {hex fb nb S drv k nullable t g g'} (h : saveLoad hex fb nb S drv k nullable t g = some g') :
    ∃ d v v', fieldValue nb t g = some d ∧ store k nullable d = some v ∧ S.apply v = some v' ∧ readField hex fb t (given drv k v') = some g' := by
  simp only [saveLoad, bind, Option.bind_eq_some_iff] at h
  obtain ⟨d, h1, v, h2, v', h3, h4⟩ := h
  exact ⟨d, v, v', h1, h2, h3, h4⟩

/-- A row that meets `key = v` on a column where the database's equality is equality. -/
theorem matches_key (eq : Equal) {cols : List TCol} (hnd : (cols.map (·.col.name)).Nodup) {j : Nat} {c : TCol} (hc : cols[j]? = some c) {d : Given} {y : Cell}
    (hy : store c.kind true d = some y) (hy0 : y ≠ .null) (heq : ∀ x y, x ≠ .null → y ≠ .null → (eq c x y = true ↔ x = y)) (row : List Cell) :
    Spec.Matches eq cols [(c.col.name, d)] row ↔ row[j]? = some y := by
  constructor
  · intro h
    obtain ⟨j', c', x, y', h1, h2, h3, h4, h5, h6, h7⟩ := h (c.col.name, d) (by simp)
    have hjj : j' = j := by
      have a : (cols.map (·.col.name))[j']? = some c.col.name := by rw [List.getElem?_map, h1]; simpa using h2
      have b : (cols.map (·.col.name))[j]? = some c.col.name := by rw [List.getElem?_map, hc]; rfl
      exact (List.getElem?_inj (List.getElem?_eq_some_iff.1 a).1 hnd).1 (a.trans b.symm)
    subst hjj
    rw [hc] at h1
    cases h1
    rw [hy] at h5
    cases h5
    rw [h3, (heq x y h4 hy0).1 h7]
  · intro h p hp
    rw [List.mem_singleton] at hp
    subst hp
    exact ⟨j, c, y, y, hc, rfl, h, hy0, hy, hy0, (heq y y hy0 hy0).2 rfl⟩

/-- The assignments and the condition of an update of a model by the key at place `q`: every column but the key is set to its field, in any order; the condition is on the key. -/
def Spec.SetsModel (K : List TCol) (ts : List GT) (m : List GoVal) (q : Nat) (l : List (Step (GT × GoVal))) : Prop :=
  ((setsOf l).map (·.1)).Nodup
  ∧ (∀ p, p ∈ setsOf l ↔ ∃ (i : Nat) (c : TCol) (t : GT) (g : GoVal), i ≠ q ∧ K[i]? = some c ∧ ts[i]? = some t ∧ m[i]? = some g ∧ p = (c.col.name, (t, g)))

/-- The only condition is that the key column equals the model's key. -/
def Spec.ByKey (K : List TCol) (ts : List GT) (m : List GoVal) (q : Nat) (l : List (Step (GT × GoVal))) : Prop :=
  ∃ (c : TCol) (t : GT) (g : GoVal), K[q]? = some c ∧ ts[q]? = some t ∧ m[q]? = some g ∧ condsOf l = [(c.col.name, (t, g))]

theorem sent_exists (val : α → Option Given) : ∀ (l : List (Bytes × α)), (∀ p ∈ l, (val p.2).isSome) → ∃ s, Spec.Sent val l s := by
  intro l
  induction l with
  | nil => intro _; exact ⟨[], rfl⟩
  | cons p l ih =>
    intro h
    obtain ⟨s, hs⟩ := ih fun x hx => h x (by simp [hx])
    obtain ⟨v, hv⟩ := Option.isSome_iff_exists.1 (h p (by simp))
    exact ⟨(p.1, v) :: s, by simp only [Spec.Sent, List.map_cons, hv]; rw [show l.map _ = _ from hs]⟩

theorem sent_mem {val : α → Option Given} {l : List (Bytes × α)} {s : List (Bytes × Given)} (h : Spec.Sent val l s) {n : Bytes} {v : Given} : (n, v) ∈ s ↔ ∃ a, (n, a) ∈ l ∧ val a = some v := by
  have e : ((n, some v) ∈ l.map (fun p => (p.1, val p.2))) ↔ ((n, some v) ∈ s.map (fun p => (p.1, some p.2))) := by rw [show l.map (fun p => (p.1, val p.2)) = _ from h]
  simp only [List.mem_map, Prod.mk.injEq, Option.some.injEq] at e
  constructor
  · intro hs
    obtain ⟨p, hp, h1, h2⟩ := e.2 ⟨_, hs, rfl, rfl⟩
    exact ⟨p.2, by rw [← h1]; exact hp, h2⟩
  · rintro ⟨a, ha, hv⟩
    obtain ⟨p, hp, h1, h2⟩ := e.1 ⟨_, ha, rfl, hv⟩
    rw [← h1, ← h2]; exact hp

open Classical in
/-- One model: updated by its key, loaded by its key. -/
theorem model_updated (hex fb nb) (drv : Driver) (eq : Equal) (T : Table) (keep : TCol → Bool) (hnd : (T.cols.map (·.col.name)).Nodup) (hrows : ∀ row ∈ T.rows, row.length = T.cols.length)
    (htn : Plain T.name) (htw : IsWord T.name) (htz : ∃ z, T.name.getLast? = some z ∧ isCut z = false)
    (ts : List GT) (m : List GoVal) (hlt : ts.length = (T.cols.filter keep).length) (hlm : m.length = ts.length)
    (hf : ∀ (i : Nat) (c : TCol) (t : GT) (g : GoVal), (T.cols.filter keep)[i]? = some c → ts[i]? = some t → m[i]? = some g →
      ∃ g', saveLoad hex fb nb c.storage drv c.kind c.col.nullable t g = some g' ∧ Spec.SameField t g g')
    (hn : ∀ c ∈ T.cols, keep c = true → NameOK c.col.name ∧ IsWord c.col.name ∧ c!"=" ∉ c.col.name)
    (q : Nat) (ck : TCol) (hq : (T.cols.filter keep)[q]? = some ck) (w : Width) (hkk : ck.kind = .int w) (hkn : ck.col.nullable = false)
    (heq : ∀ x y, x ≠ .null → y ≠ .null → (eq ck x y = true ↔ x = y))
    (h2 : 2 ≤ (T.cols.filter keep).length)
    (dia : Dia) (nl nl' : Bool) (st st' : Nat) (l l' : List (Step (GT × GoVal)))
    (hl : Spec.IsUpdate l) (hls : Spec.SetsModel (T.cols.filter keep) ts m q l) (hlk : Spec.ByKey (T.cols.filter keep) ts m q l)
    (hl' : Spec.IsSelect l') (hlc : colsOf l' = (T.cols.filter keep).map (·.col.name)) (hlk' : Spec.ByKey (T.cols.filter keep) ts m q l') :
    ∃ args T' args' out key, each (fun p : GT × GoVal => fieldValue nb p.1 p.2) (build dia nl st (l.map (Step.call T.name))).args = some args
      ∧ T.update eq (build dia nl st (l.map (Step.call T.name))).render args = some T' ∧ T'.name = T.name ∧ T'.cols = T.cols ∧ T'.rows.length = T.rows.length
      ∧ (∀ (i : Nat) (row : List Cell), T.rows[i]? = some row → ¬ Spec.Matches eq T.cols [(ck.col.name, key)] row → T'.rows[i]? = some row)
      ∧ (∃ (t : GT) (g : GoVal), ts[q]? = some t ∧ m[q]? = some g ∧ fieldValue nb t g = some key)
      ∧ each (fun p : GT × GoVal => fieldValue nb p.1 p.2) (build dia nl' st' (l'.map (Step.call T.name))).args = some args'
      ∧ T'.query drv eq (build dia nl' st' (l'.map (Step.call T.name))).render args' = some out
      ∧ out.length = (T.rows.filter fun row => decide (Spec.Matches eq T.cols [(ck.col.name, key)] row)).length
      ∧ ∀ r ∈ out, ∃ m', scanRow hex fb ts r = some m' ∧ Spec.SameModel ts m m' := by
  generalize hK : T.cols.filter keep = K at *
  have hsub : ∀ c ∈ K, c ∈ T.cols ∧ keep c = true := fun c hc => by rw [← hK] at hc; exact List.mem_filter.1 hc
  have hKnd : (K.map (·.col.name)).Nodup := by rw [← hK]; exact hnd.sublist ((List.filter_sublist).map _)
  have get : ∀ {i : Nat}, i < K.length → ∃ c t g, K[i]? = some c ∧ ts[i]? = some t ∧ m[i]? = some g := by
    intro i hi
    exact ⟨_, _, _, List.getElem?_eq_getElem hi, List.getElem?_eq_getElem (by omega), List.getElem?_eq_getElem (by omega)⟩
  have hql : q < K.length := (List.getElem?_eq_some_iff.1 hq).1
  obtain ⟨_, tq, gq, hc0, htq, hgq⟩ := get hql
  rw [hq] at hc0; cases hc0
  obtain ⟨gk, hk1, hk2⟩ := hf q ck tq gq hq htq hgq
  obtain ⟨key, yk, yk', e1, e2, e3, e4⟩ := saveLoad_parts hk1
  rw [hkk, hkn] at e2
  obtain ⟨e2', n, rfl⟩ := store_int_key e2
  cases e3
  have hcondk : ∀ {l : List (Step (GT × GoVal))}, Spec.ByKey K ts m q l → condsOf l = [(ck.col.name, (tq, gq))] := by
    rintro l ⟨c, t, g, a1, a2, a3, a4⟩
    rw [hq] at a1; rw [htq] at a2; rw [hgq] at a3
    cases a1; cases a2; cases a3
    exact a4
  have hc1 := hcondk hlk
  have hc2 := hcondk hlk'
  have hCsent : ∀ {l : List (Step (GT × GoVal))}, condsOf l = [(ck.col.name, (tq, gq))] → Spec.Sent (fun p : GT × GoVal => fieldValue nb p.1 p.2) (condsOf l) [(ck.col.name, key)] := by
    intro l h; rw [h]; simp [Spec.Sent, e1]
  -- the assignments
  obtain ⟨S, hS⟩ := sent_exists (fun p : GT × GoVal => fieldValue nb p.1 p.2) (setsOf l) (by
    intro p hp
    obtain ⟨i, c, t, g, -, a1, a2, a3, rfl⟩ := (hls.2 p).1 hp
    obtain ⟨g', b1, -⟩ := hf i c t g a1 a2 a3
    obtain ⟨d, _, _, b2, -⟩ := saveLoad_parts b1
    rw [b2]; rfl)
  have hSmem : ∀ {c : TCol} {v : Given}, c ∈ T.cols → ((c.col.name, v) ∈ S ↔ ∃ (i : Nat) (t : GT) (g : GoVal), i ≠ q ∧ K[i]? = some c ∧ ts[i]? = some t ∧ m[i]? = some g ∧ fieldValue nb t g = some v) := by
    intro c v hc
    rw [sent_mem hS]
    constructor
    · rintro ⟨a, ha, hv⟩
      obtain ⟨i, c', t, g, a0, a1, a2, a3, a4⟩ := (hls.2 _).1 ha
      simp only [Prod.mk.injEq] at a4
      obtain ⟨hnm, rfl⟩ := a4
      have : c = c' := by
        have f1 := find_col hnd hc
        have f2 := find_col hnd (hsub c' (List.mem_of_getElem? a1)).1
        rw [hnm, f2] at f1
        exact (Option.some.inj f1).symm
      subst this
      exact ⟨i, t, g, a0, a1, a2, a3, hv⟩
    · rintro ⟨i, t, g, a0, a1, a2, a3, a4⟩
      exact ⟨(t, g), (hls.2 _).2 ⟨i, c, t, g, a0, a1, a2, a3, rfl⟩, a4⟩
  have hs0 : setsOf l ≠ [] := by
    have : ∃ i, i ≠ q ∧ i < K.length := by
      by_cases h0 : q = 0
      · exact ⟨1, by omega, by omega⟩
      · exact ⟨0, by omega, by omega⟩
    obtain ⟨i, hi1, hi2⟩ := this
    obtain ⟨c, t, g, a1, a2, a3⟩ := get hi2
    intro e
    have := (hls.2 (c.col.name, (t, g))).2 ⟨i, c, t, g, hi1, a1, a2, a3, rfl⟩
    rw [e] at this; cases this
  have hSn : (S.map (·.1)).Nodup := by rw [← sent_fst hS]; exact hls.1
  have hsetname : ∀ p ∈ setsOf l, ∃ c ∈ K, p.1 = c.col.name := by
    intro p hp
    obtain ⟨i, c, t, g, -, a1, -, -, rfl⟩ := (hls.2 p).1 hp
    exact ⟨c, List.mem_of_getElem? a1, rfl⟩
  have hnk : ∀ c ∈ K, NameOK c.col.name ∧ IsWord c.col.name ∧ c!"=" ∉ c.col.name := fun c hc => hn c (hsub c hc).1 (hsub c hc).2
  have hckK : ck ∈ K := List.mem_of_getElem? hq
  obtain ⟨jk, hjk⟩ := List.getElem?_of_mem (hsub ck hckK).1
  have hSens : Spec.Sensible T.cols [(ck.col.name, key)] := by
    intro p hp
    rw [List.mem_singleton] at hp
    subst hp
    exact ⟨ck, (hsub ck hckK).1, rfl, by rw [hkk, e2']; rfl⟩
  have hkey := fun row => matches_key eq hnd hjk (d := key) (y := .int n) (by rw [hkk]; exact e2') (by simp) heq row
  -- the calls are well formed
  have hstep : ∀ {l : List (Step (GT × GoVal))}, (∀ p ∈ setsOf l, ∃ c ∈ K, p.1 = c.col.name) → (∀ n ∈ colsOf l, ∃ c ∈ K, n = c.col.name) → condsOf l = [(ck.col.name, (tq, gq))] →
      (∀ x ∈ l, x.OK) ∧ Spec.Words l := by
    intro l h1 h2 h3
    refine ⟨?_, ?_, ?_, ?_⟩
    · intro x hx
      cases x with
      | update => trivial
      | delete => trivial
      | from_ => trivial
      | col c => obtain ⟨c', hc', e⟩ := h2 c (mem_colsOf.2 hx); exact e ▸ (hnk c' hc').1
      | set c v => obtain ⟨c', hc', e⟩ := h1 (c, v) (mem_setsOf.2 hx); have e : c = c'.col.name := e; subst e; exact (hnk c' hc').1
      | cond c v =>
        have : (c, v) ∈ condsOf l := mem_condsOf.2 hx
        rw [h3, List.mem_singleton] at this
        cases this
        exact (hnk ck hckK).1
    · intro n hn; obtain ⟨c', hc', e⟩ := h2 n hn; exact e ▸ (hnk c' hc').2.1
    · intro p hp; obtain ⟨c', hc', e⟩ := h1 p hp; exact e ▸ (hnk c' hc').2
    · intro p hp
      rw [h3, List.mem_singleton] at hp
      subst hp
      exact (hnk ck hckK).2.1
  have hcolsU : colsOf l = [] := by
    obtain ⟨pre, post, rfl, u1, u2⟩ := hl
    rw [List.eq_nil_iff_forall_not_mem]
    intro c hc
    rcases List.mem_append.1 (mem_colsOf.1 hc) with h | h
    · obtain ⟨_, _, e⟩ := u1 _ h; cases e
    · rcases List.mem_cons.1 h with h | h
      · cases h
      · rcases u2 _ h with ⟨_, _, e⟩ | ⟨_, _, e⟩ <;> cases e
  have hsetsS : setsOf l' = [] := by
    rw [List.eq_nil_iff_forall_not_mem]
    intro p hp
    exact (places_select T.name hl').2.2.2.2 p.1 p.2 (mem_setsOf.1 hp)
  obtain ⟨ok1, wd1⟩ := hstep (l := l) hsetname (by rw [hcolsU]; intro n hn; cases hn) hc1
  obtain ⟨ok2, wd2⟩ := hstep (l := l') (by rw [hsetsS]; intro n hn; cases hn) (by rw [hlc]; intro n hn; obtain ⟨c, hc, rfl⟩ := List.mem_map.1 hn; exact ⟨c, hc, rfl⟩) hc2
  have hput : ∀ c ∈ T.cols, ∀ v, (c.col.name, v) ∈ S → ∃ w, (store c.kind c.col.nullable v).bind c.storage.apply = some w := by
    intro c hc v hv
    obtain ⟨i, t, g, a0, a1, a2, a3, a4⟩ := (hSmem hc).1 hv
    obtain ⟨g', b1, -⟩ := hf i c t g a1 a2 a3
    obtain ⟨d, x, x', b2, b3, b4, -⟩ := saveLoad_parts b1
    rw [a4] at b2; cases b2
    exact ⟨x', by rw [b3]; exact b4⟩
  obtain ⟨args, T', u1, u2, u3, u4, u5, u6⟩ := C111_update eq T hnd hrows htn htw (fun p : GT × GoVal => fieldValue nb p.1 p.2) dia nl st l ok1 wd1 hl hs0 hS (hCsent hc1)
    (by intro p hp
        have : p.1 ∈ (setsOf l).map (·.1) := by rw [sent_fst hS]; exact List.mem_map.2 ⟨p, hp, rfl⟩
        obtain ⟨p', hp', e⟩ := List.mem_map.1 this
        obtain ⟨c, hc, e'⟩ := hsetname p' hp'
        exact ⟨c, (hsub c hc).1, by rw [← e', e]⟩) hSn hSens hput
  have hrows' : ∀ row ∈ T'.rows, row.length = T'.cols.length := by
    intro row hr
    obtain ⟨i, hi⟩ := List.getElem?_of_mem hr
    have hlt := (List.getElem?_eq_some_iff.1 hi).1
    have hT : T.rows[i]? = some (T.rows[i]'(by omega)) := List.getElem?_eq_getElem (by omega)
    obtain ⟨row', v1, v2, -⟩ := u6 i _ hT
    rw [v1] at hi; cases hi
    rw [v2, u4]
    exact hrows _ (List.getElem_mem _)
  have hcolsS : colsOf l' ≠ [] := by rw [hlc]; intro e; rw [List.map_eq_nil_iff] at e; rw [e] at hql; cases hql
  obtain ⟨args', out, s1, s2, s3, s4⟩ := C111_select eq T' (by rw [u4]; exact hnd) hrows' (by rw [u3]; exact htn) (by rw [u3]; exact htw) (by rw [u3]; exact htz)
    (fun p : GT × GoVal => fieldValue nb p.1 p.2) dia nl' st' l' ok2 wd2 drv hl' hcolsS
    (by rw [hlc, u4]; intro n hn; obtain ⟨c, hc, rfl⟩ := List.mem_map.1 hn; exact ⟨c, (hsub c hc).1, rfl⟩) (hCsent hc2) (by rw [u4]; exact hSens)
  rw [u3] at s1 s2
  rw [u4] at s3 s4
  -- the same rows match before and after
  have hsame : ∀ (i : Nat) (row row' : List Cell), T.rows[i]? = some row → T'.rows[i]? = some row' → (Spec.Matches eq T.cols [(ck.col.name, key)] row' ↔ Spec.Matches eq T.cols [(ck.col.name, key)] row) := by
    intro i row row' h1 h2
    obtain ⟨row'', v1, v2, v3, v4⟩ := u6 i row h1
    rw [h2] at v1; cases v1
    by_cases hm : Spec.Matches eq T.cols [(ck.col.name, key)] row
    · have := (v4 hm jk ck hjk).2 (by
        intro v hv
        obtain ⟨i', t, g, a0, a1, -⟩ := (hSmem (hsub ck hckK).1).1 hv
        have x1 : (K.map (·.col.name))[i']? = some ck.col.name := by rw [List.getElem?_map, a1]; rfl
        have x2 : (K.map (·.col.name))[q]? = some ck.col.name := by rw [List.getElem?_map, hq]; rfl
        exact a0 ((List.getElem?_inj (List.getElem?_eq_some_iff.1 x1).1 hKnd).1 (x1.trans x2.symm)))
      rw [hkey, hkey, this]
    · rw [v3 hm]
  have hcount : ∀ (a b : List (List Cell)), a.length = b.length → (∀ (i : Nat) (x y : List Cell), a[i]? = some x → b[i]? = some y → (Spec.Matches eq T.cols [(ck.col.name, key)] y ↔ Spec.Matches eq T.cols [(ck.col.name, key)] x)) →
      (b.filter fun row => decide (Spec.Matches eq T.cols [(ck.col.name, key)] row)).length = (a.filter fun row => decide (Spec.Matches eq T.cols [(ck.col.name, key)] row)).length := by
    intro a
    induction a with
    | nil =>
      intro b hl _
      cases b with
      | nil => rfl
      | cons => cases hl
    | cons x a ih =>
      intro b hl h
      cases b with
      | nil => cases hl
      | cons y b =>
        have h0 := h 0 x y rfl rfl
        have := ih b (by simpa using hl) (fun i x' y' hx hy => h (i + 1) x' y' (by simpa using hx) (by simpa using hy))
        rw [List.filter_cons, List.filter_cons]
        by_cases hm : Spec.Matches eq T.cols [(ck.col.name, key)] x
        · rw [if_pos (by simpa using h0.2 hm), if_pos (by simpa using hm)]; simp [this]
        · rw [if_neg (by simpa using fun h => hm (h0.1 h)), if_neg (by simpa using hm)]; exact this
  refine ⟨args, T', args', out, key, u1, u2, u3, u4, u5, ?_, ⟨tq, gq, htq, hgq, e1⟩, s1, s2, ?_, ?_⟩
  · intro i row hr hm
    obtain ⟨row', v1, v2, v3, -⟩ := u6 i row hr
    rw [v1, v3 hm]
  · rw [s3]
    exact hcount T.rows T'.rows u5.symm hsame
  · intro r hr
    obtain ⟨i, hi⟩ := List.getElem?_of_mem hr
    have hlt := (List.getElem?_eq_some_iff.1 hi).1
    rw [s3] at hlt
    obtain ⟨r', z1, z2, z3⟩ := s4 i _ (List.getElem?_eq_getElem hlt)
    rw [hi] at z1; cases z1
    generalize hrow' : (T'.rows.filter fun row => decide (Spec.Matches eq T.cols [(ck.col.name, key)] row))[i] = row' at z3
    have hmem : row' ∈ T'.rows.filter fun row => decide (Spec.Matches eq T.cols [(ck.col.name, key)] row) := by rw [← hrow']; exact List.getElem_mem _
    obtain ⟨m1, m2⟩ := List.mem_filter.1 hmem
    have m2 : Spec.Matches eq T.cols [(ck.col.name, key)] row' := of_decide_eq_true m2
    obtain ⟨i0, hi0⟩ := List.getElem?_of_mem m1
    have hlt0 := (List.getElem?_eq_some_iff.1 hi0).1
    have hT0 : T.rows[i0]? = some (T.rows[i0]'(by omega)) := List.getElem?_eq_getElem (by omega)
    obtain ⟨row'', v1, v2, v3, v4⟩ := u6 i0 _ hT0
    rw [hi0] at v1; cases v1
    have hm0 := (hsame i0 _ row' hT0 hi0).1 m2
    have v4 := v4 hm0
    have hwid : row'.length = T.cols.length := by rw [← u4]; exact hrows' row' m1
    -- each column
    have hcol : ∀ (k : Nat) (c : TCol) (t : GT) (g : GoVal), K[k]? = some c → ts[k]? = some t → m[k]? = some g → ∃ x g', r[k]? = some x ∧ readField hex fb t x = some g' ∧ Spec.SameField t g g' := by
      intro k c t g a1 a2 a3
      obtain ⟨g', b1, b2⟩ := hf k c t g a1 a2 a3
      obtain ⟨j, hj⟩ := List.getElem?_of_mem (hsub c (List.mem_of_getElem? a1)).1
      have hjl := (List.getElem?_eq_some_iff.1 hj).1
      have hx : row'[j]? = some (row'[j]'(by omega)) := List.getElem?_eq_getElem (by omega)
      have hrk := z3 k j c _ (by rw [hlc, List.getElem?_map, a1]; rfl) hj hx
      obtain ⟨d, y, y', b3, b4, b5, b6⟩ := saveLoad_parts b1
      have hval : row'[j]? = some y' := by
        by_cases hkq : k = q
        · subst hkq
          rw [hq] at a1; rw [htq] at a2; rw [hgq] at a3
          cases a1; cases a2; cases a3
          have : j = jk := by
            have x1 : (T.cols.map (·.col.name))[j]? = some ck.col.name := by rw [List.getElem?_map, hj]; rfl
            have x2 : (T.cols.map (·.col.name))[jk]? = some ck.col.name := by rw [List.getElem?_map, hjk]; rfl
            exact (List.getElem?_inj (List.getElem?_eq_some_iff.1 x1).1 hnd).1 (x1.trans x2.symm)
          subst this
          rw [e1] at b3; cases b3
          rw [hkk, hkn, e2] at b4; cases b4
          cases b5
          exact (hkey row').1 m2
        · have := (v4 j c hj).1 d ((hSmem (hsub c (List.mem_of_getElem? a1)).1).2 ⟨k, t, g, hkq, a1, a2, a3, b3⟩)
          rw [this, b4]; exact b5
      rw [hx] at hval
      cases hval
      exact ⟨_, g', hrk, b6, b2⟩
    have hrl : r.length = K.length := by rw [z2, hlc, List.length_map]
    obtain ⟨m', p1, p2, p3⟩ := scan_each hex fb ts r (by omega) (by
      intro k t x hk hx
      have hkl := (List.getElem?_eq_some_iff.1 hk).1
      obtain ⟨c, t', g, a1, a2, a3⟩ := get (i := k) (by omega)
      rw [hk] at a2; cases a2
      obtain ⟨x', g', c1, c2, -⟩ := hcol k c t g a1 hk a3
      rw [hx] at c1; cases c1
      exact ⟨g', c2⟩)
    refine ⟨m', p1, by omega, ?_⟩
    intro k t g g' hk hg hg'
    have hkl := (List.getElem?_eq_some_iff.1 hk).1
    obtain ⟨c, t', g0, a1, a2, a3⟩ := get (i := k) (by omega)
    rw [hk] at a2; cases a2
    rw [hg] at a3; cases a3
    obtain ⟨x', g1, c1, c2, c3⟩ := hcol k c t g a1 hk hg
    have := p3 k t x' g' hk c1 hg'
    rw [c2] at this; cases this
    exact c3

open Classical in
/-- **C111**, generated models: a model saved with an update by an integer key column that is `NOT NULL`, and loaded by that key with the generated `ScanRow`, comes back the same.
For every successful generation and every table of two or more struct columns: if no field holds a value that is not kept (`Spec.NotKept`), then on every dialect the statement `Update(t)`
with `Set(column, field)` for every column but the key and `Where("key = ?", key)`, in any order, is accepted; rows with another key are not touched; and `From(t)` with `Select(column)` for every column and
`Where("key = ?", key)` then returns as many rows as had that key, each of which `ScanRow` reads into the same field values. -/
theorem C111_model_updated_by_key (hex fb nb) (drv : Driver) (eq : Equal) (L : Lib) (cfg : Cfg) (fmtOK : File → Bool) (res : List GTable) (order : List Bytes)
    (esc : Bytes → Option Bytes) (hord : IsOrder res order) (evs : List Event) (h : generate L cfg fmtOK res order = (evs, .ok)) (t : GTable) (ht : t ∈ res)
    (T : Table) (hT : T.cols.map (·.col) = t.columns) (hnd : (t.columns.map (·.name)).Nodup) (hrows : ∀ row ∈ T.rows, row.length = T.cols.length)
    (h2 : 2 ≤ (T.cols.filter fun c => !cfg.drop c.col.name).length)
    (hok : ∀ c ∈ t.columns, cfg.drop c.name = false → Schema.Spec.TagOK c ∧ NameOK c.name ∧ IsWord c.name ∧ c!"=" ∉ c.name)
    (hkind : ∀ c ∈ T.cols, cfg.drop c.col.name = false → NoOverride cfg.types c.col ∧ kindOf drv c.col = some c.kind ∧ c.kind ≠ .dec) (ho' : cfg.types b!"_count" = none)
    (htn : Plain T.name) (htw : IsWord T.name) (htn0 : ∃ z, T.name.getLast? = some z ∧ isCut z = false) (dia : Dia) (nl nl' : Bool) (st st' : Nat)
    (q : Nat) (ck : TCol) (hq : (T.cols.filter fun c => !cfg.drop c.col.name)[q]? = some ck) (hkk : ∃ w, ck.kind = .int w) (hkn : ck.col.nullable = false)
    (heq : ∀ x y, x ≠ .null → y ≠ .null → (eq ck x y = true ↔ x = y)) :
    ∃ mt dv decls, Event.write mt (.model dv decls) ∈ evs ∧ ∃ d ∈ decls, d.table = t.name ∧ d.schema = t.schema ∧ d.scan = d.fields.map (·.name)
      ∧ d.fields.map (·.column) = (T.cols.filter fun c => !cfg.drop c.col.name).map (·.col.name)
      ∧ ∃ ts : List GT, d.fields.map (fun f => goTypeOf f.type) = ts.map some ∧
        ∀ (m : List GoVal), m.length = ts.length →
        (∀ (i : Nat) (c : TCol) (f : GT) (g : GoVal), (T.cols.filter fun c => !cfg.drop c.col.name)[i]? = some c → ts[i]? = some f → m[i]? = some g →
          Spec.FieldVal f g ∧ ¬ Spec.NotKept c.storage nb drv c.kind c.col.nullable f g) →
        ∀ (l l' : List (Step (GT × GoVal))),
          Spec.IsUpdate l → Spec.SetsModel (T.cols.filter fun c => !cfg.drop c.col.name) ts m q l → Spec.ByKey (T.cols.filter fun c => !cfg.drop c.col.name) ts m q l →
          Spec.IsSelect l' → colsOf l' = d.fields.map (·.column) → Spec.ByKey (T.cols.filter fun c => !cfg.drop c.col.name) ts m q l' →
        ∃ args T' args' out key, each (fun p : GT × GoVal => fieldValue nb p.1 p.2) (build dia nl st (l.map (Step.call T.name))).args = some args
          ∧ T.update eq (build dia nl st (l.map (Step.call T.name))).render args = some T' ∧ T'.name = T.name ∧ T'.cols = T.cols ∧ T'.rows.length = T.rows.length
          ∧ (∀ (i : Nat) (row : List Cell), T.rows[i]? = some row → ¬ Spec.Matches eq T.cols [(ck.col.name, key)] row → T'.rows[i]? = some row)
          ∧ (∃ (t : GT) (g : GoVal), ts[q]? = some t ∧ m[q]? = some g ∧ fieldValue nb t g = some key)
          ∧ each (fun p : GT × GoVal => fieldValue nb p.1 p.2) (build dia nl' st' (l'.map (Step.call T.name))).args = some args'
          ∧ T'.query drv eq (build dia nl' st' (l'.map (Step.call T.name))).render args' = some out
          ∧ out.length = (T.rows.filter fun row => decide (Spec.Matches eq T.cols [(ck.col.name, key)] row)).length
          ∧ ∀ r ∈ out, ∃ m', scanRow hex fb ts r = some m' ∧ Spec.SameModel ts m m' := by
  have hmem : ∀ c ∈ T.cols, c.col ∈ t.columns := fun c hc => by rw [← hT]; exact List.mem_map.2 ⟨c, hc, rfl⟩
  generalize hK : T.cols.filter (fun c => !cfg.drop c.col.name) = K at *
  have hK' : ∀ c ∈ K, c ∈ T.cols ∧ cfg.drop c.col.name = false := by
    intro c hc
    rw [← hK] at hc
    have := List.mem_filter.1 hc
    exact ⟨this.1, by simpa using this.2⟩
  have hckK := List.mem_of_getElem? hq
  obtain ⟨mt, dv, decls, hev, d, hd, h1, h2', h3, h4, h5, h6, -⟩ := C78_bind_selects_the_columns (α := GT × GoVal) esc L cfg fmtOK res order hord evs h t ht
    ⟨ck.col, hmem ck (hK' ck hckK).1, (hK' ck hckK).2⟩ (fun c hc hdr => ⟨(hok c hc hdr).1, (hok c hc hdr).2.1⟩) dia nl' st' T.name htn htn0
  have hkept : t.columns.filter (fun c => !cfg.drop c.name) = K.map (·.col) := by
    rw [← hT, ← hK, List.filter_map]; rfl
  rw [hkept, List.map_map] at h5 h6
  let ts : List GT := K.map fun c => expected c.kind c.col.nullable (isID L.eqFold c.col.name) (hasSuffix c.col.name b!"_ids")
  have hch : ∀ c ∈ K, (toGoType L.eqFold cfg.types c.col).bind goTypeOf = some (expected c.kind c.col.nullable (isID L.eqFold c.col.name) (hasSuffix c.col.name b!"_ids")) := by
    intro c hc
    obtain ⟨g1, g2⟩ := hK' c hc
    obtain ⟨k1, k2, -⟩ := hkind c g1 g2
    exact chosen L.eqFold cfg.types drv c.col c.kind k1 ho' k2
  have hts : d.fields.map (fun f => goTypeOf f.type) = ts.map some := by
    have e : d.fields.map (fun f => goTypeOf f.type) = (d.fields.map (fun f => some f.type)).map (·.bind goTypeOf) := by rw [List.map_map]; rfl
    rw [e, ← h5, List.map_map]
    simp only [ts, List.map_map]
    exact List.map_congr_left fun c hc => hch c hc
  have e6 : d.fields.map (·.column) = K.map (·.col.name) := h6
  refine ⟨mt, dv, decls, hev, d, hd, h1, h2', h3, e6, ts, hts, ?_⟩
  intro m hml hm l l' hl hls hlk hl' hlc hlk'
  have hndT : (T.cols.map (·.col.name)).Nodup := by
    have : T.cols.map (·.col.name) = t.columns.map (·.name) := by rw [← hT, List.map_map]; rfl
    rw [this]; exact hnd
  obtain ⟨w, hw⟩ := hkk
  have := model_updated hex fb nb drv eq T (fun c => !cfg.drop c.col.name) hndT hrows htn htw htn0 ts m (by rw [hK]; simp [ts]) hml
    (by
      intro i c f g hc hf hg
      rw [hK] at hc
      obtain ⟨q1, q2⟩ := hm i c f g hc hf hg
      have hcm : c ∈ K := List.mem_of_getElem? hc
      have hfe : f = expected c.kind c.col.nullable (isID L.eqFold c.col.name) (hasSuffix c.col.name b!"_ids") := by
        simp only [ts, List.getElem?_map, hc, Option.map_some, Option.some.injEq] at hf
        exact hf.symm
      obtain ⟨g1, g2⟩ := hK' c hcm
      obtain ⟨-, -, k3⟩ := hkind c g1 g2
      subst hfe
      exact (save_field hex fb nb c.storage drv c.kind c.col.nullable _ _ g k3 q1).2 q2)
    (fun c hc hk => (hok c.col (hmem c hc) (by simpa using hk)).2) q ck (by rw [hK]; exact hq) w hw hkn heq (by rw [hK]; exact h2) dia nl nl' st st' l l' hl
    (by rw [hK]; exact hls) (by rw [hK]; exact hlk) hl' (by rw [hK, hlc, e6]) (by rw [hK]; exact hlk')
  exact this

/-! ### Concrete cases -/

/-- Cells are equal. -/
def plainEqual : Equal := fun _ x y => match x, y with
  | .int a, .int b => a == b
  | .text a, .text b => a == b
  | _, _ => false

/-- `DeleteFrom`, `Where` before and after. -/
example : Spec.IsDelete [Step.cond b!"name" (1 : Nat), .delete, .cond b!"id" 2] := ⟨[_], [_], rfl, by simp⟩
/-- `Update` with `Set` and `Where` calls mixed. -/
def mixed : List (Step Given) := [.cond b!"name" (.dv (.text b!"Ann")), .update, .set b!"name" (.dv (.text b!"Bob")), .cond b!"id" (.dv (.i64 7)), .set b!"secret" (.dv .null)]

/-- The hypotheses of `C111_update` can be met, with a row that matches. -/
example : Spec.IsUpdate mixed ∧ setsOf mixed ≠ [] ∧ (∀ x ∈ mixed, x.OK) ∧ Spec.Words mixed
    ∧ Spec.Sent some (setsOf mixed) [(b!"name", .dv (.text b!"Bob")), (b!"secret", .dv .null)] ∧ Spec.Sent some (condsOf mixed) [(b!"name", .dv (.text b!"Ann")), (b!"id", .dv (.i64 7))]
    ∧ Spec.Sensible shop.cols [(b!"name", .dv (.text b!"Ann")), (b!"id", .dv (.i64 7))]
    ∧ Spec.Matches plainEqual shop.cols [(b!"name", .dv (.text b!"Ann")), (b!"id", .dv (.i64 7))] [.int 7, .text b!"x", .text b!"Ann"] := by
  refine ⟨⟨[_], [_, _, _], rfl, by simp, by simp⟩, by simp [mixed, setsOf], ?_, ⟨?_, ?_, ?_⟩, rfl, rfl, ?_, ?_⟩
  · intro x hx
    simp only [mixed, List.mem_cons, List.not_mem_nil, or_false] at hx
    rcases hx with rfl | rfl | rfl | rfl | rfl
    · exact ⟨by decide, by unfold Plain; decide⟩
    · trivial
    · exact ⟨by decide, by unfold Plain; decide⟩
    · exact ⟨by decide, by unfold Plain; decide⟩
    · exact ⟨by decide, by unfold Plain; decide⟩
  · intro n hn; cases hn
  · intro p hp
    simp only [mixed, setsOf, List.filterMap_cons, List.filterMap_nil, List.mem_cons, List.not_mem_nil, or_false] at hp
    rcases hp with rfl | rfl <;> exact ⟨⟨by decide, by decide⟩, by decide⟩
  · intro p hp
    simp only [mixed, condsOf, List.filterMap_cons, List.filterMap_nil, List.mem_cons, List.not_mem_nil, or_false] at hp
    rcases hp with rfl | rfl <;> exact ⟨by decide, by decide⟩
  · intro p hp
    simp only [List.mem_cons, List.not_mem_nil, or_false] at hp
    rcases hp with rfl | rfl
    · exact ⟨_, List.mem_cons_of_mem _ (List.mem_cons_of_mem _ (List.mem_cons_self ..)), rfl, rfl⟩
    · exact ⟨_, List.mem_cons_self .., rfl, rfl⟩
  · intro p hp
    simp only [List.mem_cons, List.not_mem_nil, or_false] at hp
    rcases hp with rfl | rfl
    · exact ⟨2, _, _, _, rfl, rfl, rfl, by simp, rfl, by simp, by decide⟩
    · exact ⟨0, _, _, _, rfl, rfl, rfl, by simp, rfl, by simp, by decide⟩

example : (build .postgres false 0 (mixed.map (Step.call b!"users"))).render = b!"UPDATE users SET name=$1, secret=$2 WHERE name = $3 AND id = $4" := by decide +kernel
example : (build .default false 0 (mixed.map (Step.call b!"users"))).render = b!"UPDATE users SET name=?, secret=? WHERE name = ? AND id = ?" := by decide +kernel
example : ((shop.update plainEqual b!"UPDATE users SET name=$1, secret=$2 WHERE name = $3 AND id = $4" [.dv (.text b!"Bob"), .dv .null, .dv (.text b!"Ann"), .dv (.i64 7)]).bind
      fun T => T.query .pg plainEqual b!"SELECT name, id, secret FROM users WHERE id = ?" [.dv (.i64 7)])
    = some [[.dv (.text b!"Bob"), .dv (.i64 7), .dv .null]] := by decide +kernel
/-- A key that cannot be NULL is refused; nothing happens if no row is to be changed. -/
example : ((shop.update plainEqual b!"UPDATE users SET id=? WHERE id = ?" [.dv .null, .dv (.i64 7)]).map (·.rows.length)) = none
    ∧ ((shop.update plainEqual b!"UPDATE users SET id=? WHERE id = ?" [.dv .null, .dv (.i64 8)]).map (·.rows.length)) = some 1 := by decide +kernel
example : ((shop.delete plainEqual b!"DELETE FROM users WHERE id = $1" [.dv (.i64 7)]).map (·.rows.length)) = some 0
    ∧ ((shop.delete plainEqual b!"DELETE FROM users WHERE id = $1" [.dv (.i64 8)]).map (·.rows.length)) = some 1 := by decide +kernel

/-- The hypotheses of `C111_model_updated_by_key` can be met (for the rest see the case of C109). -/
def modelUpdate : List (Step (GT × GoVal)) := [.update, .set b!"name" (.nstr, .str b!"Bob"), .cond b!"id" (.id, .num 7)]
example : Spec.IsUpdate modelUpdate
    ∧ Spec.SetsModel [⟨toyCol b!"id" b!"int8", .int .eight, plainStorage⟩, ⟨{ toyCol b!"name" b!"text" with nullable := true }, .text, plainStorage⟩] [.id, .nstr] [.num 7, .str b!"Bob"] 0 modelUpdate
    ∧ Spec.ByKey [⟨toyCol b!"id" b!"int8", .int .eight, plainStorage⟩, ⟨{ toyCol b!"name" b!"text" with nullable := true }, .text, plainStorage⟩] [.id, .nstr] [.num 7, .str b!"Bob"] 0 modelUpdate
    ∧ (shop.cols.filter fun c => !toyCfg.drop c.col.name).length = 2 := by
  refine ⟨⟨[], _, rfl, by simp, by simp⟩, ⟨by decide, ?_⟩, ⟨_, _, _, rfl, rfl, rfl, rfl⟩, by decide⟩
  intro p
  constructor
  · intro hp
    simp only [modelUpdate, setsOf, List.filterMap_cons, List.filterMap_nil, List.mem_cons, List.not_mem_nil, or_false] at hp
    exact ⟨1, _, _, _, by decide, rfl, rfl, rfl, hp⟩
  · rintro ⟨i, c, t, g, h0, h1, h2, h3, rfl⟩
    match i, h0, h1, h2, h3 with
    | 1, _, h1, h2, h3 => cases h1; cases h2; cases h3; simp [modelUpdate, setsOf, toyCol]
    | 0, h0, _, _, _ => exact absurd rfl h0
    | n + 2, _, h1, _, _ => simp at h1

end Gen
