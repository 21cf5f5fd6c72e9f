import Verif.Gen.Create
set_option linter.unusedVariables false
set_option linter.unusedSimpArgs false
set_option linter.unusedSectionVars false
/-!
Taking rows: `DELETE FROM t WHERE … RETURNING …`, built with `DeleteFrom`, `Where` and `Returning` (xsql/stmt.go:557-561, 633-636, 704-707).  C121.
-/
namespace Gen
open Schema Types Xsql

variable {α : Type}

/-- The calls: those of a deletion, in any order, and then `Returning(column)` for each column. -/
def takeCalls (t : Bytes) (l : List (Step α)) (ret : List Bytes) : List (Call α) := l.map (Step.call t) ++ ret.map .returning

/-- The text. -/
def takeSql (pg nl : Bool) (t : Bytes) (C : List (Bytes × α)) (ret : List Bytes) : Bytes :=
  b!"DELETE FROM " ++ t ++ whereText pg nl 1 C ++ (b!" " ++ (if nl then b!"\n" else []) ++ b!"RETURNING " ++ joinBytes b!", " ret)

/-- The fragments of `Returning`. -/
def retFrags (ret : List Bytes) : List (Frag α) := ret.map fun c => ⟨posReturning, b!"RETURNING", c, [], b!", "⟩

theorem calls_append : ∀ (a b : List (Call α)) (s : SpecState α), (CallsOK s (a ++ b) ↔ CallsOK s a ∧ CallsOK (a.foldl SpecState.call s) b)
    ∧ fragsOf s (a ++ b) = fragsOf s a ++ fragsOf (a.foldl SpecState.call s) b := by
  intro a
  induction a with
  | nil => intro b s; exact ⟨⟨fun h => ⟨trivial, h⟩, fun h => h.2⟩, rfl⟩
  | cons c a ih =>
    intro b s
    obtain ⟨h1, h2⟩ := ih b (s.call c)
    refine ⟨?_, by rw [List.cons_append, fragsOf, h2, fragsOf, List.append_assoc]; rfl⟩
    constructor
    · rintro ⟨x, y⟩
      exact ⟨⟨x, (h1.1 y).1⟩, (h1.1 y).2⟩
    · rintro ⟨⟨x, y⟩, z⟩
      exact ⟨x, h1.2 ⟨y, z⟩⟩

theorem ret_frags : ∀ (ret : List Bytes) (s : SpecState α), (∀ c ∈ ret, NameOK c) → CallsOK s (ret.map .returning) ∧ fragsOf s (ret.map .returning) = retFrags ret := by
  intro ret
  induction ret with
  | nil => intro s _; exact ⟨trivial, rfl⟩
  | cons c ret ih =>
    intro s h
    obtain ⟨i1, i2⟩ := ih (s.call (.returning c)) fun c' hc => h c' (by simp [hc])
    exact ⟨⟨fragOK_plain (h c (by simp)).2, i1⟩, by rw [List.map_cons, fragsOf, i2]; rfl⟩

theorem ret_at (ret : List Bytes) (p : Nat) : fragsAt p (retFrags (α := α) ret) = if p = 1900 then retFrags ret else [] := by
  unfold fragsAt retFrags
  by_cases h : p = 1900
  · rw [if_pos h, List.filter_eq_self.2]
    intro f hf
    obtain ⟨c, -, rfl⟩ := List.mem_map.1 hf
    simp [posReturning, h]
  · rw [if_neg h, List.filter_eq_nil_iff]
    intro f hf
    obtain ⟨c, -, rfl⟩ := List.mem_map.1 hf
    intro e
    exact h (of_decide_eq_true e).symm

theorem seven_d (P : Nat → Bool) (h : ∀ p, p ∉ [600, 1200, 1900] → P p = false) : canonical.filter P = [600, 1200, 1900].filter P := by
  have g := fun p hp => h p hp
  simp only [canonical, List.filter_cons, List.filter_nil, g 200 (by decide), g 300 (by decide), g 399 (by decide), g 400 (by decide), g 499 (by decide), g 500 (by decide), g 501 (by decide), g 700 (by decide), g 800 (by decide),
    g 900 (by decide), g 1100 (by decide), g 1300 (by decide), g 1400 (by decide), g 1600 (by decide), g 1700 (by decide), g 1800 (by decide)]
  simp

theorem seven_d_args (F : Nat → List α) (h : ∀ p, p ∉ [600, 1200, 1900] → F p = []) : canonical.flatMap F = [600, 1200, 1900].flatMap F := by
  have g := fun p hp => h p hp
  simp only [canonical, List.flatMap_cons, List.flatMap_nil, g 200 (by decide), g 300 (by decide), g 399 (by decide), g 400 (by decide), g 499 (by decide), g 500 (by decide), g 501 (by decide), g 700 (by decide), g 800 (by decide),
    g 900 (by decide), g 1100 (by decide), g 1300 (by decide), g 1400 (by decide), g 1600 (by decide), g 1700 (by decide), g 1800 (by decide)]
  simp

/-- The text and the arguments of the statement on every dialect. -/
theorem take_text (d : Dia) (nl : Bool) (st : Nat) (t : Bytes) (ht0 : t ≠ []) (ht : Plain t) (htz : ∃ z, t.getLast? = some z ∧ isCut z = false) (l : List (Step α)) (h : Spec.IsDelete l) (hok : ∀ x ∈ l, x.OK)
    (ret : List Bytes) (hr0 : ret ≠ []) (hr : ∀ c ∈ ret, NameOK c) (hz : ∃ z, (joinBytes b!", " ret).getLast? = some z ∧ isCut z = false) :
    (build d nl st (takeCalls t l ret)).render = takeSql (decide (d = .postgres)) nl t (condsOf l) ret ∧ (build d nl st (takeCalls t l ret)).args = (condsOf l).map (·.2) := by
  obtain ⟨p1, p2, p3, p4, p5, p6⟩ := places_delete t h
  have hF := fragOK_plain (α := α) ht
  obtain ⟨s1, s2⟩ := steps_frags hF l (SpecState.fresh nl st) (fresh_has ..) hok (fun pre c v post e => absurd (by rw [e]; simp) (p6 c v))
  obtain ⟨r1, r2⟩ := ret_frags (α := α) ret ((l.map (Step.call t)).foldl SpecState.call (SpecState.fresh nl st)) hr
  obtain ⟨c1, c2⟩ := calls_append (l.map (Step.call t)) (ret.map .returning) (SpecState.fresh (α := α) nl st)
  have hcs : CallsOK (SpecState.fresh nl st) (takeCalls t l ret) := c1.2 ⟨s1, r1⟩
  have hfr : fragsOf (SpecState.fresh nl st) (takeCalls t l ret) = l.map (Step.frag t) ++ retFrags ret := by rw [takeCalls, c2, s2, r2]
  obtain ⟨e1, e2⟩ := closed_render .default (by simp) hcs hfr (by
    intro f hf
    rcases List.mem_append.1 hf with hf | hf
    · exact steps_local hF l hok f hf
    · obtain ⟨c, hc, rfl⟩ := List.mem_map.1 hf
      exact ⟨FragLocal.mk' (fragOK_plain (hr c hc).2) (by decide) (by decide) (show ¬ single posReturning by decide) sepOK_comma, by simp [canonical, posReturning]⟩)
  have hat : ∀ p, fragsAt p (l.map (Step.frag t) ++ retFrags ret) = fragsAt p (l.map (Step.frag t)) ++ if p = 1900 then retFrags ret else [] := by
    intro p
    rw [← ret_at ret p]; simp [fragsAt]
  have hother : ∀ q, q ∉ [600, 1200, 1900] → fragsAt q (l.map (Step.frag t) ++ retFrags ret) = [] := by
    intro q hq
    simp only [List.mem_cons, List.not_mem_nil, or_false, not_or] at hq
    obtain ⟨h1, h2, h3⟩ := hq
    rw [hat, if_neg h3, List.append_nil]
    by_cases h7 : q ∈ [600, 700, 800, 900, 1100, 1200]
    · simp only [List.mem_cons, List.not_mem_nil, or_false] at h7
      rcases h7 with rfl | rfl | rfl | rfl | rfl | rfl
      · exact absurd rfl h1
      · rw [frags_at, p2]; rfl
      · rw [frags_at, p3]; rfl
      · rw [frags_at, p4]; rfl
      · rw [frags_at, p5]; rfl
      · exact absurd rfl h2
    · exact other_pos t l q h7
  rw [seven_d _ (fun q hq => by rw [hother q hq]; rfl)] at e1
  rw [seven_d_args _ (fun q hq => by rw [hother q hq]; rfl)] at e2
  have k600 : fragsAt 600 (l.map (Step.frag t) ++ retFrags ret) = [Step.frag t (Step.delete (α := α))] := by rw [hat, if_neg (by decide), List.append_nil, frags_at, p1]; rfl
  have k1200 : fragsAt 1200 (l.map (Step.frag t) ++ retFrags ret) = (condsOf l).map fun p => Step.frag t (.cond p.1 p.2) := by
    rw [hat, if_neg (by decide), List.append_nil, frags_at, conds_filter, List.map_map]; rfl
  have k1900 : fragsAt 1900 (l.map (Step.frag t) ++ retFrags ret) = retFrags ret := by rw [hat, if_pos rfl, other_pos t l 1900 (by decide), List.nil_append]
  obtain ⟨a1, a2⟩ := piece_head nl t ht0 (Step.delete (α := α)) b!"DELETE FROM" (by decide) posDelete (by decide) rfl
  obtain ⟨w1, w2, w3, w4⟩ := whereToks_spec nl (condsOf l) (conds_plain hok)
  obtain ⟨b1, b2⟩ := clause_join (α := α) nl b!"RETURNING" b!", " (by decide) posReturning (by decide) (retFrags ret) (by simpa [retFrags] using hr0) (by
    intro f hf
    obtain ⟨c, hc', rfl⟩ := List.mem_map.1 hf
    exact ⟨rfl, rfl, rfl, (hr c hc').1⟩)
  have ne3 : (retFrags (α := α) ret).isEmpty = false := by simpa [retFrags] using hr0
  simp only [List.map_cons, List.map_nil] at a1 a2
  obtain ⟨z, hz1, hz2⟩ := hz
  have hlast : (takeSql false nl t (condsOf l) ret).getLast? = some z := by rw [takeSql, List.getLast?_append, List.getLast?_append, hz1]; rfl
  have key1 : (build .default nl st (takeCalls t l ret)).render = takeSql false nl t (condsOf l) ret := by
    rw [e1]
    have hh : (takeSql false nl t (condsOf l) ret).head? = some 68 := by simp [takeSql]
    have hsol := solid nl 68 z hh (by decide) hlast hz2
    generalize hS : takeSql false nl t (condsOf l) ret = S at hsol ⊢
    rw [← hsol]
    congr 1
    rw [← hS]
    simp only [List.filter_cons, List.filter_nil, k600, k1200, k1900, ne3, List.isEmpty_cons, List.isEmpty_nil, List.isEmpty_map, Bool.not_false, Bool.not_true, if_true]
    by_cases h0 : condsOf l = []
    · simp only [h0, List.isEmpty_nil, Bool.not_true, if_false, Bool.false_eq_true, List.map_cons, List.map_nil, k600, k1900]
      simp only [joinBytes]
      rw [a1, b1]
      simp [takeSql, whereText, retFrags, Function.comp_def]
    · have hce : (condsOf l).isEmpty = false := by simpa using h0
      obtain ⟨c1, c2⟩ := piece_conds nl t l h0
      simp only [List.map_map] at c1
      simp only [hce, Bool.not_false, if_true, List.map_cons, List.map_nil, k600, k1200, k1900]
      simp only [joinBytes]
      rw [a1, b1, show (clauseText nl ((condsOf l).map fun p => Step.frag t (.cond p.1 p.2))) = _ from c1]
      simp [takeSql, whereText, h0, retFrags, Function.comp_def]
  have key2 : (build .default nl st (takeCalls t l ret)).args = (condsOf l).map (·.2) := by
    rw [e2]
    simp only [List.flatMap_cons, List.flatMap_nil, k600, k1200, k1900, a2, b2]
    have h3 : (retFrags (α := α) ret).flatMap Frag.args = [] := by simp [retFrags, List.flatMap_map]
    rw [h3]
    by_cases h0 : condsOf l = []
    · simp [h0, clauseArgs]
    · obtain ⟨c1, c2⟩ := piece_conds nl t l h0
      simp only [List.map_map] at c2
      rw [show (clauseArgs ((condsOf l).map fun p => Step.frag t (.cond p.1 p.2))) = _ from c2]; simp
  let R : Bytes := b!" " ++ (if nl then b!"\n" else []) ++ b!"RETURNING " ++ joinBytes b!", " ret
  let ts : List (Tok α) := lits (b!"DELETE FROM " ++ t) ++ (whereToks nl (condsOf l) ++ lits R)
  have hts : ∀ pg, Xsql.written pg 1 ts = takeSql pg nl t (condsOf l) ret := by
    intro pg
    rw [show ts = _ from rfl, written_append, written_lits, vals_lits, show 1 + ([] : List α).length = 1 from rfl, written_append, written_lits, w3]
    simp [takeSql, R]
  have hv : vals ts = (condsOf l).map (·.2) := by
    rw [show ts = _ from rfl, vals_append, vals_lits, vals_append, w2, vals_lits]; simp
  have hrq : (63 : UInt8) ∉ joinBytes b!", " ret := join_no (by decide) fun c h => (hr c h).2.1
  have hwl : (raw (whereToks nl (condsOf l))).getLast? ≠ some 92 := by
    by_cases h0 : condsOf l = []
    · simp [whereToks, h0]
    · rw [w4 h0]; decide
  have hcl : Clean ts := by
    refine (clean_lits _ ?_).append (w1.append (clean_lits _ ?_) hwl) ?_
    · simp [ht.1]
    · cases nl <;> simp [R, hrq]
    · obtain ⟨z, z1, z2⟩ := htz
      rw [raw_lits, List.getLast?_append, z1]
      have := ht.2
      rw [z1] at this
      simpa using this
  obtain ⟨g1, g2⟩ := every_dialect d hcs (ts := ts) hcl (by rw [key1, raw_written ts 1, hts]) (by rw [key2, hv])
  exact ⟨by rw [g1, hts], by rw [g2, hv]⟩

end Gen
