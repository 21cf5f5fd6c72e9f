import Verif.Gen.Take
set_option linter.unusedVariables false
set_option linter.unusedSimpArgs false
set_option linter.unusedSectionVars false
/-!
Claiming rows: `UPDATE t SET … WHERE … RETURNING …`, built with `Update`, `Set`, `Where` and `Returning` (xsql/stmt.go:557-561, 661-689, 704-707).  C122.
-/
namespace Gen
open Schema Types Xsql

variable {α : Type}

/-- The text; the calls are those of an update, in any order, and then `Returning` (`takeCalls`). -/
def claimSql (pg nl : Bool) (t : Bytes) (S C : List (Bytes × α)) (ret : List Bytes) : Bytes :=
  b!"UPDATE " ++ t ++ b!" " ++ (if nl then b!"\n" else []) ++ b!"SET " ++ joinBytes b!", " (itemTexts pg b!"=" 1 S) ++ whereText pg nl (1 + S.length) C
    ++ (b!" " ++ (if nl then b!"\n" else []) ++ b!"RETURNING " ++ joinBytes b!", " ret)

theorem seven_c (P : Nat → Bool) (h : ∀ p, p ∉ [700, 800, 1200, 1900] → P p = false) : canonical.filter P = [700, 800, 1200, 1900].filter P := by
  have g := fun p hp => h p hp
  simp only [canonical, List.filter_cons, List.filter_nil, g 200 (by decide), g 300 (by decide), g 399 (by decide), g 400 (by decide), g 499 (by decide), g 500 (by decide), g 501 (by decide), g 600 (by decide),
    g 900 (by decide), g 1100 (by decide), g 1300 (by decide), g 1400 (by decide), g 1600 (by decide), g 1700 (by decide), g 1800 (by decide)]
  simp

theorem seven_c_args (F : Nat → List α) (h : ∀ p, p ∉ [700, 800, 1200, 1900] → F p = []) : canonical.flatMap F = [700, 800, 1200, 1900].flatMap F := by
  have g := fun p hp => h p hp
  simp only [canonical, List.flatMap_cons, List.flatMap_nil, g 200 (by decide), g 300 (by decide), g 399 (by decide), g 400 (by decide), g 499 (by decide), g 500 (by decide), g 501 (by decide), g 600 (by decide),
    g 900 (by decide), g 1100 (by decide), g 1300 (by decide), g 1400 (by decide), g 1600 (by decide), g 1700 (by decide), g 1800 (by decide)]
  simp

/-- The text and the arguments of the statement on every dialect. -/
theorem claim_text (d : Dia) (nl : Bool) (st : Nat) (t : Bytes) (ht0 : t ≠ []) (ht : Plain t) (l : List (Step α)) (h : Spec.IsUpdate l) (hok : ∀ x ∈ l, x.OK) (hs0 : setsOf l ≠ [])
    (ret : List Bytes) (hr0 : ret ≠ []) (hr : ∀ c ∈ ret, NameOK c) (hz : ∃ z, (joinBytes b!", " ret).getLast? = some z ∧ isCut z = false) :
    (build d nl st (takeCalls t l ret)).render = claimSql (decide (d = .postgres)) nl t (setsOf l) (condsOf l) ret ∧ (build d nl st (takeCalls t l ret)).args = (setsOf l).map (·.2) ++ (condsOf l).map (·.2) := by
  obtain ⟨p1, p2, p3, p4, p5⟩ := places_update t h
  have hF := fragOK_plain (α := α) ht
  obtain ⟨s1, s2⟩ := steps_frags hF l (SpecState.fresh nl st) (fresh_has ..) hok (fun pre c v post e => Or.inr (p5 pre c v post e))
  obtain ⟨r1, r2⟩ := ret_frags (α := α) ret ((l.map (Step.call t)).foldl SpecState.call (SpecState.fresh nl st)) hr
  obtain ⟨c1, c2⟩ := calls_append (l.map (Step.call t)) (ret.map .returning) (SpecState.fresh (α := α) nl st)
  have hcs : CallsOK (SpecState.fresh nl st) (takeCalls t l ret) := c1.2 ⟨s1, r1⟩
  have hfr : fragsOf (SpecState.fresh nl st) (takeCalls t l ret) = l.map (Step.frag t) ++ retFrags ret := by rw [takeCalls, c2, s2, r2]
  obtain ⟨e1, e2⟩ := closed_render .default (by simp) hcs hfr (by
    intro f hf
    rcases List.mem_append.1 hf with hf | hf
    · exact steps_local hF l hok f hf
    · obtain ⟨c, hc, rfl⟩ := List.mem_map.1 hf
      exact ⟨FragLocal.mk' (fragOK_plain (hr c hc).2) (by decide) (by decide) (show ¬ single posReturning by decide) sepOK_comma, by simp [canonical, posReturning]⟩)
  have hat : ∀ p, fragsAt p (l.map (Step.frag t) ++ retFrags ret) = fragsAt p (l.map (Step.frag t)) ++ if p = 1900 then retFrags ret else [] := by
    intro p
    rw [← ret_at ret p]; simp [fragsAt]
  have hother : ∀ q, q ∉ [700, 800, 1200, 1900] → fragsAt q (l.map (Step.frag t) ++ retFrags ret) = [] := by
    intro q hq
    simp only [List.mem_cons, List.not_mem_nil, or_false, not_or] at hq
    obtain ⟨h1, h4, h2, h3⟩ := hq
    rw [hat, if_neg h3, List.append_nil]
    by_cases h7 : q ∈ [600, 700, 800, 900, 1100, 1200]
    · simp only [List.mem_cons, List.not_mem_nil, or_false] at h7
      rcases h7 with rfl | rfl | rfl | rfl | rfl | rfl
      · rw [frags_at, p1]; rfl
      · exact absurd rfl h1
      · exact absurd rfl h4
      · rw [frags_at, p3]; rfl
      · rw [frags_at, p4]; rfl
      · exact absurd rfl h2
    · exact other_pos t l q h7
  rw [seven_c _ (fun q hq => by rw [hother q hq]; rfl)] at e1
  rw [seven_c_args _ (fun q hq => by rw [hother q hq]; rfl)] at e2
  have k700 : fragsAt 700 (l.map (Step.frag t) ++ retFrags ret) = [Step.frag t (Step.update (α := α))] := by rw [hat, if_neg (by decide), List.append_nil, frags_at, p2]; rfl
  have k800 : fragsAt 800 (l.map (Step.frag t) ++ retFrags ret) = (setsOf l).map fun p => Step.frag t (.set p.1 p.2) := by
    rw [hat, if_neg (by decide), List.append_nil, frags_at, sets_filter, List.map_map]; rfl
  have k1200 : fragsAt 1200 (l.map (Step.frag t) ++ retFrags ret) = (condsOf l).map fun p => Step.frag t (.cond p.1 p.2) := by
    rw [hat, if_neg (by decide), List.append_nil, frags_at, conds_filter, List.map_map]; rfl
  have k1900 : fragsAt 1900 (l.map (Step.frag t) ++ retFrags ret) = retFrags ret := by rw [hat, if_pos rfl, other_pos t l 1900 (by decide), List.nil_append]
  obtain ⟨a1, a2⟩ := piece_head nl t ht0 (Step.update (α := α)) b!"UPDATE" (by decide) posUpdate (by decide) rfl
  obtain ⟨x1, x2⟩ := piece_sets nl t l hs0
  simp only [List.map_map] at x1 x2
  have x1' : clauseText nl ((setsOf l).map fun p => Step.frag t (.set p.1 p.2)) = _ := x1
  have x2' : clauseArgs ((setsOf l).map fun p => Step.frag t (.set p.1 p.2)) = _ := x2
  obtain ⟨s1', s2', s3', s4'⟩ := itemToks_spec (α := α) b!"=" b!", " (by decide) (by decide) (by decide) (by decide) (by decide) (by decide) (setsOf l) (sets_plain hok)
  obtain ⟨w1, w2, w3, w4⟩ := whereToks_spec nl (condsOf l) (conds_plain hok)
  obtain ⟨b1, b2⟩ := clause_join (α := α) nl b!"RETURNING" b!", " (by decide) posReturning (by decide) (retFrags ret) (by simpa [retFrags] using hr0) (by
    intro f hf
    obtain ⟨c, hc', rfl⟩ := List.mem_map.1 hf
    exact ⟨rfl, rfl, rfl, (hr c hc').1⟩)
  have ne1 : (setsOf l).isEmpty = false := by simpa using hs0
  have ne3 : (retFrags (α := α) ret).isEmpty = false := by simpa [retFrags] using hr0
  simp only [List.map_cons, List.map_nil] at a1 a2
  obtain ⟨z, hz1, hz2⟩ := hz
  have hlast : (claimSql false nl t (setsOf l) (condsOf l) ret).getLast? = some z := by rw [claimSql, List.getLast?_append, List.getLast?_append, hz1]; rfl
  have key1 : (build .default nl st (takeCalls t l ret)).render = claimSql false nl t (setsOf l) (condsOf l) ret := by
    rw [e1]
    have hh : (claimSql false nl t (setsOf l) (condsOf l) ret).head? = some 85 := by simp [claimSql]
    have hsol := solid nl 85 z hh (by decide) hlast hz2
    generalize hS : claimSql false nl t (setsOf l) (condsOf l) ret = S at hsol ⊢
    rw [← hsol]
    congr 1
    rw [← hS]
    simp only [List.filter_cons, List.filter_nil, k700, k800, k1200, k1900, ne1, ne3, List.isEmpty_cons, List.isEmpty_nil, List.isEmpty_map, Bool.not_false, Bool.not_true, if_true]
    by_cases h0 : condsOf l = []
    · simp only [h0, List.isEmpty_nil, Bool.not_true, if_false, Bool.false_eq_true, List.map_cons, List.map_nil, k700, k800, k1900]
      simp only [joinBytes]
      rw [a1, x1', b1]
      simp [claimSql, whereText, retFrags, Function.comp_def]
    · have hce : (condsOf l).isEmpty = false := by simpa using h0
      obtain ⟨c1, c2⟩ := piece_conds nl t l h0
      simp only [List.map_map] at c1
      simp only [hce, Bool.not_false, if_true, List.map_cons, List.map_nil, k700, k800, k1200, k1900]
      simp only [joinBytes]
      rw [a1, x1', b1, show (clauseText nl ((condsOf l).map fun p => Step.frag t (.cond p.1 p.2))) = _ from c1]
      simp [claimSql, whereText, h0, retFrags, Function.comp_def, texts_raw]
  have key2 : (build .default nl st (takeCalls t l ret)).args = (setsOf l).map (·.2) ++ (condsOf l).map (·.2) := by
    rw [e2]
    simp only [List.flatMap_cons, List.flatMap_nil, k700, k800, k1200, k1900, a2, b2, x2']
    have h3 : (retFrags (α := α) ret).flatMap Frag.args = [] := by simp [retFrags, List.flatMap_map]
    rw [h3]
    by_cases h0 : condsOf l = []
    · simp [h0, clauseArgs]
    · obtain ⟨c1, c2⟩ := piece_conds nl t l h0
      simp only [List.map_map] at c2
      rw [show (clauseArgs ((condsOf l).map fun p => Step.frag t (.cond p.1 p.2))) = _ from c2]; simp
  let R : Bytes := b!" " ++ (if nl then b!"\n" else []) ++ b!"RETURNING " ++ joinBytes b!", " ret
  let ts : List (Tok α) := lits (b!"UPDATE " ++ t ++ b!" " ++ (if nl then b!"\n" else []) ++ b!"SET ") ++ (itemToks b!"=" b!", " (setsOf l) ++ (whereToks nl (condsOf l) ++ lits R))
  have hts : ∀ pg, Xsql.written pg 1 ts = claimSql pg nl t (setsOf l) (condsOf l) ret := by
    intro pg
    rw [show ts = _ from rfl, written_append, written_lits, vals_lits, show 1 + ([] : List α).length = 1 from rfl, written_append, s3', s2', written_append, written_lits, w3]
    simp [claimSql, R]
  have hv : vals ts = (setsOf l).map (·.2) ++ (condsOf l).map (·.2) := by
    rw [show ts = _ from rfl, vals_append, vals_lits, vals_append, s2', vals_append, w2, vals_lits]; simp
  have hrq : (63 : UInt8) ∉ joinBytes b!", " ret := join_no (by decide) fun c h => (hr c h).2.1
  have hwl : (raw (whereToks nl (condsOf l))).getLast? ≠ some 92 := by
    by_cases h0 : condsOf l = []
    · simp [whereToks, h0]
    · rw [w4 h0]; decide
  have hcl : Clean ts := by
    refine (clean_lits _ ?_).append (s1'.append (w1.append (clean_lits _ ?_) hwl) (by rw [s4' hs0]; decide)) ?_
    · have := ht.1
      cases nl <;> simp [this]
    · cases nl <;> simp [R, hrq]
    · rw [raw_lits, List.getLast?_append]; simp
  obtain ⟨g1, g2⟩ := every_dialect d hcs (ts := ts) hcl (by rw [key1, raw_written ts 1, hts]) (by rw [key2, hv])
  exact ⟨by rw [g1, hts], by rw [g2, hv]⟩

end Gen
