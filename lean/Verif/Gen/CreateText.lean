import Verif.Gen.InRows
set_option linter.unusedVariables false
set_option linter.unusedSimpArgs false
set_option linter.unusedSectionVars false
/-!
Creating a row and getting it back: `INSERT INTO t (…) VALUES (…) RETURNING …`, built with `InsertInto`, `Set` and `Returning` (xsql/stmt.go:557-561, 619-625, 661-689).  C120.
-/
namespace Gen
open Schema Types Xsql

variable {α : Type}

/-- The calls: `InsertInto(t)`, `Set(column, value)` for each, `Returning(column)` for each. -/
def createCalls (t : Bytes) (sets : List (Bytes × α)) (ret : List Bytes) : List (Call α) :=
  .insertInto t :: (sets.map (fun p => .setExpr p.1 b!"?" [p.2]) ++ ret.map .returning)

/-- The text. -/
def createSql (pg nl : Bool) (t : Bytes) (cols : List Bytes) (ret : List Bytes) : Bytes :=
  insertSQL nl t (joinBytes b!", " cols) (joinBytes b!", " (phFrom pg 1 cols.length)) ++ (b!" " ++ (if nl then b!"\n" else []) ++ b!"RETURNING " ++ joinBytes b!", " ret)

/-- The set columns as columns of an insert. -/
def setCols (sets : List (Bytes × α)) : List (Col α) := sets.map fun p => Col.val p.1 p.2

/-- The fragments of these calls. -/
def createFrags (t : Bytes) (sets : List (Bytes × α)) (ret : List Bytes) : List (Frag α) :=
  insertFrags t ++ (pairFrags (setCols sets) ++ ret.map (fun c => ⟨posReturning, b!"RETURNING", c, [], b!", "⟩))

theorem create_frags {t : Bytes} (ht : FragOK (α := α) t []) (sets : List (Bytes × α)) (ret : List Bytes) (hs : ∀ p ∈ sets, NameOK p.1) (hr : ∀ c ∈ ret, NameOK c) (nl : Bool) (st : Nat) :
    CallsOK (SpecState.fresh nl st) (createCalls t sets ret) ∧ fragsOf (SpecState.fresh nl st) (createCalls t sets ret) = createFrags t sets ret := by
  have hret : ∀ (ret : List Bytes) (s : SpecState α), (∀ c ∈ ret, NameOK c) → CallsOK s (ret.map .returning) ∧ fragsOf s (ret.map .returning) = ret.map fun c => (⟨posReturning, b!"RETURNING", c, [], b!", "⟩ : Frag α) := by
    intro ret
    induction ret with
    | nil => intro s _; exact ⟨trivial, rfl⟩
    | cons c ret ih =>
      intro s h
      obtain ⟨i1, i2⟩ := ih (s.call (.returning c)) fun c' hc => h c' (by simp [hc])
      exact ⟨⟨fragOK_plain (h c (by simp)).2, i1⟩, by rw [List.map_cons, fragsOf, i2]; rfl⟩
  have hset : ∀ (sets : List (Bytes × α)) (s : SpecState α), s.has posInsert = true → (∀ p ∈ sets, NameOK p.1) →
      CallsOK s (sets.map (fun p => .setExpr p.1 b!"?" [p.2]) ++ ret.map .returning)
      ∧ fragsOf s (sets.map (fun p => .setExpr p.1 b!"?" [p.2]) ++ ret.map .returning) = pairFrags (setCols sets) ++ ret.map (fun c => ⟨posReturning, b!"RETURNING", c, [], b!", "⟩) := by
    intro sets
    induction sets with
    | nil => intro s _ _; exact hret ret s hr
    | cons p sets ih =>
      intro s h0 h
      have h1 : (s.call (.setExpr p.1 b!"?" [p.2])).has posInsert = true := by rw [has_frags, h0, Bool.or_true]
      obtain ⟨i1, i2⟩ := ih _ h1 fun p' hp => h p' (by simp [hp])
      refine ⟨⟨⟨fragOK_plain (h p (by simp)).2, ph_ok p.2⟩, i1⟩, ?_⟩
      rw [List.map_cons, List.cons_append, fragsOf, i2]
      simp [SpecState.frags, h0, pairFrags, setCols, Col.val]
  obtain ⟨m1, m2⟩ := hset sets ((SpecState.fresh nl st).call (.insertInto t)) (by rw [has_frags]; rfl) hs
  refine ⟨⟨ht, m1⟩, ?_⟩
  rw [createCalls, fragsOf, m2]; rfl

theorem create_local {t : Bytes} (ht : FragOK (α := α) t []) (sets : List (Bytes × α)) (ret : List Bytes) (hs : ∀ p ∈ sets, NameOK p.1) (hr : ∀ c ∈ ret, NameOK c) :
    ∀ f ∈ createFrags t sets ret, FragLocal f ∧ f.pos ∈ canonical := by
  have hE : FragOK (α := α) [] [] := FragOK.const (by simp) (by simp)
  have hok : ∀ c ∈ setCols sets, ColOK c := by
    intro c hc
    obtain ⟨p, hp, rfl⟩ := List.mem_map.1 hc
    exact ⟨fragOK_plain (hs p hp).2, (hs p hp).1, ph_ok p.2, by simp [Col.val]⟩
  intro f hf
  unfold createFrags at hf
  rcases List.mem_append.1 hf with hf | hf
  · simp only [insertFrags, List.mem_cons, List.not_mem_nil, or_false] at hf
    rcases hf with rfl | rfl | rfl | rfl
    · exact ⟨FragLocal.mk' ht (by decide) (by decide) (by decide) sepOK_comma, by simp [canonical, posInsert]⟩
    · exact ⟨FragLocal.mk' hE (by decide) (by decide) (by decide) sepOK_nil, by simp [canonical]⟩
    · exact ⟨FragLocal.mk' hE (by decide) (by decide) (by decide) sepOK_nil, by simp [canonical]⟩
    · exact ⟨FragLocal.mk' hE (by decide) (by decide) (by decide) sepOK_nil, by simp [canonical]⟩
  · rcases List.mem_append.1 hf with hf | hf
    · obtain ⟨h1, -, h2⟩ := pairFrags_local hok f hf
      refine ⟨h1, ?_⟩
      rcases h2 with h | h <;> rw [h] <;> simp [canonical, posValues, posInsertFields]
    · obtain ⟨c, hc, rfl⟩ := List.mem_map.1 hf
      exact ⟨FragLocal.mk' (fragOK_plain (hr c hc).2) (by decide) (by decide) (show ¬ single posReturning by decide) sepOK_comma, by simp [canonical, posReturning]⟩

/-- A clause without a keyword. -/
theorem bare_join (nl : Bool) (sep : Bytes) (p : Nat) (hp : ¬ single p) (fs : List (Frag α)) (h0 : fs ≠ []) (h : ∀ f ∈ fs, f.pos = p ∧ f.kw = [] ∧ f.sep = sep ∧ f.expr ≠ []) :
    clauseText nl fs = joinBytes sep (fs.map Frag.expr) ∧ clauseArgs fs = fs.flatMap Frag.args := by
  obtain ⟨f, r, rfl⟩ := List.exists_cons_of_ne_nil h0
  obtain ⟨h1, h2, h3, h4⟩ := h f (by simp)
  constructor
  · have hm := moreText_sep sep r (fun g hg => ⟨(h g (by simp [hg])).2.2.2, (h g (by simp [hg])).2.2.1⟩)
    rw [List.map_cons, joinBytes_cons, ← hm]
    simp [clauseText, h2, h4]
  · unfold clauseArgs
    cases hl : (f :: r).getLast? with
    | none => simp at hl
    | some g => exact if_neg (by rw [(h g (List.mem_of_getLast? hl)).1]; exact hp)

theorem seven_p (P : Nat → Bool) (h : ∀ p, p ∉ [300, 399, 400, 499, 500, 501, 1900] → P p = false) : canonical.filter P = [300, 399, 400, 499, 500, 501, 1900].filter P := by
  have g := fun p hp => h p hp
  simp only [canonical, List.filter_cons, List.filter_nil, g 200 (by decide), g 600 (by decide), g 700 (by decide), g 800 (by decide), g 900 (by decide), g 1100 (by decide), g 1200 (by decide),
    g 1300 (by decide), g 1400 (by decide), g 1600 (by decide), g 1700 (by decide), g 1800 (by decide)]
  simp

theorem seven_p_args (F : Nat → List α) (h : ∀ p, p ∉ [300, 399, 400, 499, 500, 501, 1900] → F p = []) : canonical.flatMap F = [300, 399, 400, 499, 500, 501, 1900].flatMap F := by
  have g := fun p hp => h p hp
  simp only [canonical, List.flatMap_cons, List.flatMap_nil, g 200 (by decide), g 600 (by decide), g 700 (by decide), g 800 (by decide), g 900 (by decide), g 1100 (by decide), g 1200 (by decide),
    g 1300 (by decide), g 1400 (by decide), g 1600 (by decide), g 1700 (by decide), g 1800 (by decide)]
  simp

theorem create_at (t : Bytes) (sets : List (Bytes × α)) (ret : List Bytes) (p : Nat) :
    fragsAt p (createFrags t sets ret) = fragsAt p (insertFrags t) ++ ((if p = 400 then sets.map (fun s => ⟨posInsertFields, [], s.1, [], b!", "⟩) else [])
      ++ (if p = 500 then sets.map (fun s => ⟨posValues, [], b!"?", [s.2], b!", "⟩) else [])) ++ (if p = 1900 then ret.map (fun c => ⟨posReturning, b!"RETURNING", c, [], b!", "⟩) else []) := by
  have hret : fragsAt p (ret.map fun c => (⟨posReturning, b!"RETURNING", c, [], b!", "⟩ : Frag α)) = if p = 1900 then ret.map (fun c => ⟨posReturning, b!"RETURNING", c, [], b!", "⟩) else [] := by
    unfold fragsAt
    by_cases h : p = 1900
    · rw [if_pos h, List.filter_eq_self.2]
      intro f hf
      obtain ⟨c, -, rfl⟩ := List.mem_map.1 hf
      simp [posReturning, h]
    · rw [if_neg h, List.filter_eq_nil_iff]
      intro f hf
      obtain ⟨c, -, rfl⟩ := List.mem_map.1 hf
      intro e
      exact h (of_decide_eq_true e).symm
  have hpair : fragsAt p (pairFrags (setCols sets)) = (if p = 400 then sets.map (fun s => (⟨posInsertFields, [], s.1, [], b!", "⟩ : Frag α)) else [])
      ++ (if p = 500 then sets.map (fun s => ⟨posValues, [], b!"?", [s.2], b!", "⟩) else []) := by
    have hcell : ∀ sets : List (Bytes × α), cellFrags true true (setCols sets) = sets.map (fun s => (⟨posValues, [], b!"?", [s.2], b!", "⟩ : Frag α)) := by
      intro sets
      induction sets with
      | nil => rfl
      | cons s sets ih => rw [setCols, List.map_cons, cellFrags, List.map_cons]; rw [setCols] at ih; rw [ih]; rfl
    by_cases h4 : p = 400
    · subst h4
      rw [if_pos rfl, if_neg (by decide), List.append_nil]
      exact (pairFrags_at (setCols sets)).2.trans (by simp [fieldFrags, setCols, Col.val])
    · by_cases h5 : p = 500
      · subst h5
        rw [if_neg (by decide), if_pos rfl, List.nil_append]
        exact (pairFrags_at (setCols sets)).1.trans (hcell sets)
      · rw [if_neg h4, if_neg h5, List.append_nil, fragsAt, List.filter_eq_nil_iff]
        intro f hf
        obtain ⟨c, -, hf⟩ := List.mem_flatMap.1 hf
        simp only [List.mem_cons, List.not_mem_nil, or_false] at hf
        rcases hf with rfl | rfl
        · exact fun e => h4 (of_decide_eq_true e).symm
        · exact fun e => h5 (of_decide_eq_true e).symm
  unfold createFrags
  rw [show ∀ a b c : List (Frag α), fragsAt p (a ++ (b ++ c)) = fragsAt p a ++ fragsAt p b ++ fragsAt p c from fun a b c => by simp [fragsAt, List.filter_append], hret, hpair]

/-- The text and the arguments of the statement on every dialect. -/
theorem create_text (d : Dia) (nl : Bool) (st : Nat) (t : Bytes) (ht0 : t ≠ []) (ht : Plain t) (sets : List (Bytes × α)) (hs0 : sets ≠ []) (hs : ∀ p ∈ sets, NameOK p.1)
    (ret : List Bytes) (hr0 : ret ≠ []) (hr : ∀ c ∈ ret, NameOK c) (hz : ∃ z, (joinBytes b!", " ret).getLast? = some z ∧ isCut z = false) :
    (build d nl st (createCalls t sets ret)).render = createSql (decide (d = .postgres)) nl t (sets.map (·.1)) ret ∧ (build d nl st (createCalls t sets ret)).args = sets.map (·.2) := by
  have hF := fragOK_plain (α := α) ht
  obtain ⟨hcs, hfr⟩ := create_frags hF sets ret hs hr nl st
  obtain ⟨e1, e2⟩ := closed_render .default (by simp) hcs hfr (create_local hF sets ret hs hr)
  have hother : ∀ q, q ∉ [300, 399, 400, 499, 500, 501, 1900] → fragsAt q (createFrags t sets ret) = [] := by
    intro q hq
    simp only [List.mem_cons, List.not_mem_nil, or_false, not_or] at hq
    obtain ⟨h1, h2, h3, h4, h5, h6, h7⟩ := hq
    rw [create_at]
    have : fragsAt q (insertFrags (α := α) t) = [] := by
      rw [fragsAt, List.filter_eq_nil_iff]
      intro f hf
      simp only [insertFrags, List.mem_cons, List.not_mem_nil, or_false] at hf
      rcases hf with rfl | rfl | rfl | rfl
      · exact fun e => h1 (of_decide_eq_true e).symm
      · exact fun e => h2 (of_decide_eq_true e).symm
      · exact fun e => h4 (of_decide_eq_true e).symm
      · exact fun e => h6 (of_decide_eq_true e).symm
    rw [this]; simp [*]
  rw [seven_p _ (fun q hq => by rw [hother q hq]; rfl)] at e1
  rw [seven_p_args _ (fun q hq => by rw [hother q hq]; rfl)] at e2
  have k300 : fragsAt 300 (createFrags t sets ret) = [⟨posInsert, b!"INSERT INTO", t, [], b!", "⟩] := by rw [create_at]; simp [fragsAt, insertFrags, posInsert]
  have k399 : fragsAt 399 (createFrags t sets ret) = [⟨399, b!"(", [], [], []⟩] := by rw [create_at]; simp [fragsAt, insertFrags, posInsert]
  have k400 : fragsAt 400 (createFrags t sets ret) = sets.map (fun s => ⟨posInsertFields, [], s.1, [], b!", "⟩) := by rw [create_at]; simp [fragsAt, insertFrags, posInsert]
  have k499 : fragsAt 499 (createFrags t sets ret) = [⟨499, b!") VALUES (", [], [], []⟩] := by rw [create_at]; simp [fragsAt, insertFrags, posInsert]
  have k500 : fragsAt 500 (createFrags t sets ret) = sets.map (fun s => ⟨posValues, [], b!"?", [s.2], b!", "⟩) := by rw [create_at]; simp [fragsAt, insertFrags, posInsert]
  have k501 : fragsAt 501 (createFrags t sets ret) = [⟨501, b!")", [], [], []⟩] := by rw [create_at]; simp [fragsAt, insertFrags, posInsert]
  have k1900 : fragsAt 1900 (createFrags t sets ret) = ret.map (fun c => ⟨posReturning, b!"RETURNING", c, [], b!", "⟩) := by rw [create_at]; simp [fragsAt, insertFrags, posInsert]
  have a1 : clauseText nl [(⟨posInsert, b!"INSERT INTO", t, [], b!", "⟩ : Frag α)] = (if nl then b!"\n" else []) ++ b!"INSERT INTO" ++ b!" " ++ t := by simp [clauseText, moreText, ht0]
  obtain ⟨f1, f2⟩ := bare_join (α := α) nl b!", " posInsertFields (by decide) (sets.map fun s => ⟨posInsertFields, [], s.1, [], b!", "⟩) (by simpa using hs0) (by
    intro f hf
    obtain ⟨c, hc', rfl⟩ := List.mem_map.1 hf
    exact ⟨rfl, rfl, rfl, (hs c hc').1⟩)
  obtain ⟨v1, v2⟩ := bare_join (α := α) nl b!", " posValues (by decide) (sets.map fun s => ⟨posValues, [], b!"?", [s.2], b!", "⟩) (by simpa using hs0) (by
    intro f hf
    obtain ⟨c, hc', rfl⟩ := List.mem_map.1 hf
    exact ⟨rfl, rfl, rfl, by simp⟩)
  obtain ⟨b1, b2⟩ := clause_join (α := α) nl b!"RETURNING" b!", " (by decide) posReturning (by decide) (ret.map fun c => ⟨posReturning, b!"RETURNING", c, [], b!", "⟩) (by simpa using hr0) (by
    intro f hf
    obtain ⟨c, hc', rfl⟩ := List.mem_map.1 hf
    exact ⟨rfl, rfl, rfl, (hr c hc').1⟩)
  have ne1 : (sets.map fun s => (⟨posInsertFields, [], s.1, [], b!", "⟩ : Frag α)).isEmpty = false := by simpa using hs0
  have ne2 : (sets.map fun s => (⟨posValues, [], b!"?", [s.2], b!", "⟩ : Frag α)).isEmpty = false := by simpa using hs0
  have ne3 : (ret.map fun c => (⟨posReturning, b!"RETURNING", c, [], b!", "⟩ : Frag α)).isEmpty = false := by simpa using hr0
  have hph : phFrom false 1 sets.length = sets.map fun _ => b!"?" := by rw [phFrom_eq, List.map_const']; rfl
  obtain ⟨z, hz1, hz2⟩ := hz
  have hlast : (createSql false nl t (sets.map (·.1)) ret).getLast? = some z := by rw [createSql, List.getLast?_append, List.getLast?_append, hz1]; rfl
  have key1 : (build .default nl st (createCalls t sets ret)).render = createSql false nl t (sets.map (·.1)) ret := by
    rw [e1]
    have hh : (createSql false nl t (sets.map (·.1)) ret).head? = some 73 := by simp [createSql, insertSQL]
    have hsol := solid nl 73 z hh (by decide) hlast hz2
    generalize hS : createSql false nl t (sets.map (·.1)) ret = S at hsol ⊢
    rw [← hsol]
    congr 1
    rw [← hS]
    simp only [List.filter_cons, List.filter_nil, k300, k399, k400, k499, k500, k501, k1900, ne1, ne2, ne3, List.isEmpty_cons, List.isEmpty_nil, Bool.not_false, Bool.not_true, if_true, if_false, Bool.false_eq_true,
      List.map_cons, List.map_nil]
    rw [a1, f1, v1, b1]
    simp [joinBytes, createSql, insertSQL, hph, Function.comp_def, clauseText, moreText]
  have key2 : (build .default nl st (createCalls t sets ret)).args = sets.map (·.2) := by
    rw [e2]
    simp only [List.flatMap_cons, List.flatMap_nil, k300, k399, k400, k499, k500, k501, k1900, f2, v2, b2]
    have h2 : ∀ l : List (Bytes × α), l.flatMap (fun s => [s.2]) = l.map (·.2) := fun l => by induction l with
      | nil => rfl
      | cons s l ih => rw [List.flatMap_cons, ih]; rfl
    have h3 : ∀ {β : Type} (l : List β), l.flatMap (fun _ => ([] : List α)) = [] := fun l => by induction l with
      | nil => rfl
      | cons s l ih => rw [List.flatMap_cons, ih]; rfl
    simp [clauseArgs, List.flatMap_map, h2, h3]
  obtain ⟨i1, i2, i3, i4, i5⟩ := valToks_spec (sets.map (·.2))
  let br : Bytes := if nl then b!"\n" else []
  let A : Bytes := b!"INSERT INTO " ++ t ++ b!" " ++ br ++ b!"( " ++ joinBytes b!", " (sets.map (·.1)) ++ (b!" " ++ br ++ b!") VALUES ( ")
  let B : Bytes := b!" " ++ br ++ b!")" ++ (b!" " ++ br ++ b!"RETURNING " ++ joinBytes b!", " ret)
  let ts : List (Tok α) := lits A ++ (valToks (sets.map (·.2)) ++ lits B)
  have hw : ∀ pg, Xsql.written pg 1 (valToks (sets.map (·.2))) = joinBytes b!", " (phFrom pg 1 sets.length) := by
    intro pg
    cases pg
    · rw [show Xsql.written false 1 (valToks (sets.map (·.2))) = _ from i3, hph]; simp [Function.comp_def]
    · rw [show Xsql.written true 1 (valToks (sets.map (·.2))) = _ from i4 1, phFrom_eq]; simp
  have hts : ∀ pg, Xsql.written pg 1 ts = createSql pg nl t (sets.map (·.1)) ret := by
    intro pg
    rw [show ts = _ from rfl, written_append, written_lits, written_append, written_lits, vals_lits, show 1 + ([] : List α).length = 1 from rfl, hw]
    simp [createSql, insertSQL, A, B, br]
  have hjq : (63 : UInt8) ∉ joinBytes b!", " (sets.map (·.1)) := join_no (by decide) fun c h => by obtain ⟨p, hp, rfl⟩ := List.mem_map.1 h; exact (hs p hp).2.1
  have hrq : (63 : UInt8) ∉ joinBytes b!", " ret := join_no (by decide) fun c h => (hr c h).2.1
  have htq : (63 : UInt8) ∉ t := ht.1
  have hcl : Clean ts := by
    refine (clean_lits A ?_).append (i1.append (clean_lits _ ?_) i5) ?_
    · cases nl <;> simp [A, br, hjq, htq]
    · cases nl <;> simp [B, br, hrq]
    · rw [raw_lits, show A = _ from rfl, List.getLast?_append, List.getLast?_append]; exact fun h => absurd (show some (32 : UInt8) = some 92 from h) (by decide)
  obtain ⟨g1, g2⟩ := every_dialect d hcs (ts := ts) hcl (by rw [key1, raw_written ts 1, hts]) (by rw [key2]; simp [ts, vals_append, i2])
  exact ⟨by rw [g1, hts], by rw [g2]; simp [ts, vals_append, i2]⟩

end Gen
