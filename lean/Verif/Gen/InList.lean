import Verif.Gen.Keyset
set_option linter.unusedVariables false
set_option linter.unusedSimpArgs false
set_option linter.unusedSectionVars false
/-!
Rows by a list of values: `SELECT … FROM t WHERE key IN (…)`, built with `From`, `Select`, `Where` and `In` (xsql/stmt.go:552-555, 691-731).  C119.
-/
namespace Gen
open Schema Types Xsql

variable {α : Type}

/-! ### The statement -/

/-- The calls: `From(t)`, `Select(column)` for each column, `Where(key)`, `In(values…)`. -/
def inCalls (t : Bytes) (cols : List Bytes) (key : Bytes) (vs : List α) : List (Call α) :=
  .from_ t [] :: cols.map (fun c => .select c []) ++ [.where_ key [], .in_ vs]

/-- The placeholders number `i`, `i + 1`, …, `n` of them. -/
def phFrom (pg : Bool) : Nat → Nat → List Bytes
  | _, 0 => []
  | i, n + 1 => phText pg i :: phFrom pg (i + 1) n

/-- The text. -/
def inSql (pg nl : Bool) (t : Bytes) (cols : List Bytes) (key : Bytes) (n : Nat) : Bytes :=
  b!"SELECT " ++ joinBytes b!", " cols ++ b!" " ++ (if nl then b!"\n" else []) ++ b!"FROM " ++ t
    ++ (b!" " ++ (if nl then b!"\n" else []) ++ b!"WHERE " ++ key ++ b!" IN (" ++ joinBytes b!"," (phFrom pg 1 n) ++ b!")")

/-- The fragments of these calls. -/
def inFrags (t : Bytes) (cols : List Bytes) (key : Bytes) (vs : List α) : List (Frag α) :=
  ⟨posFrom, b!"FROM", t, [], b!", "⟩ :: cols.map (fun c => ⟨posSelect, b!"SELECT", c, [], b!", "⟩)
    ++ [⟨posWhere, b!"WHERE", key, [], b!" AND "⟩, ⟨posWhere, [], inList vs.length, vs, b!" "⟩]

theorem in_frags {t key : Bytes} (ht : FragOK (α := α) t []) (hk : NameOK key) (vs : List α) : ∀ (cols : List Bytes) (s : SpecState α), (∀ c ∈ cols, NameOK c) →
    CallsOK s (inCalls t cols key vs) ∧ fragsOf s (inCalls t cols key vs) = inFrags t cols key vs := by
  intro cols s hc
  have main : ∀ (cols : List Bytes) (s : SpecState α), (∀ c ∈ cols, NameOK c) →
      CallsOK s (cols.map (fun c => Call.select c []) ++ [.where_ key [], .in_ vs])
      ∧ fragsOf s (cols.map (fun c => Call.select c []) ++ [.where_ key [], .in_ vs])
        = cols.map (fun c => (⟨posSelect, b!"SELECT", c, [], b!", "⟩ : Frag α)) ++ [⟨posWhere, b!"WHERE", key, [], b!" AND "⟩, ⟨posWhere, [], inList vs.length, vs, b!" "⟩] := by
    intro cols
    induction cols with
    | nil =>
      intro s _
      exact ⟨⟨fragOK_plain hk.2, trivial, trivial⟩, rfl⟩
    | cons c cols ih =>
      intro s hc
      obtain ⟨i1, i2⟩ := ih (s.call (.select c [])) (fun c' h => hc c' (by simp [h]))
      refine ⟨⟨fragOK_plain (hc c (by simp)).2, i1⟩, ?_⟩
      rw [List.map_cons, List.map_cons, List.cons_append, fragsOf, i2]; rfl
  obtain ⟨m1, m2⟩ := main cols (s.call (.from_ t [])) hc
  refine ⟨⟨ht, m1⟩, ?_⟩
  unfold inCalls inFrags
  rw [List.cons_append, fragsOf, m2]; rfl

theorem in_local {t key : Bytes} (ht : FragOK (α := α) t []) (hk : NameOK key) (vs : List α) (cols : List Bytes) (hc : ∀ c ∈ cols, NameOK c) :
    ∀ f ∈ inFrags t cols key vs, FragLocal f ∧ f.pos ∈ canonical := by
  intro f hf
  unfold inFrags at hf
  simp only [List.cons_append, List.mem_cons, List.mem_append, List.mem_map, List.not_mem_nil, or_false] at hf
  rcases hf with rfl | ⟨c, hc', rfl⟩ | rfl | rfl
  · exact ⟨FragLocal.mk' ht (by decide) (by decide) (show ¬ single posFrom by decide) sepOK_comma, by simp [canonical, posFrom]⟩
  · exact ⟨FragLocal.mk' (fragOK_plain (hc c hc').2) (by decide) (by decide) (show ¬ single posSelect by decide) sepOK_comma, by simp [canonical, posSelect]⟩
  · exact ⟨FragLocal.mk' (fragOK_plain hk.2) (by decide) (by decide) (show ¬ single posWhere by decide) sepOK_and, by simp [canonical, posWhere]⟩
  · exact ⟨FragLocal.mk' (inText_ok vs) (by decide) (by decide) (show ¬ single posWhere by decide) sepOK_space, by simp [canonical, posWhere]⟩

theorem in_at (t : Bytes) (cols : List Bytes) (key : Bytes) (vs : List α) (p : Nat) :
    fragsAt p (inFrags t cols key vs) = (if p = 1100 then [⟨posFrom, b!"FROM", t, [], b!", "⟩] else []) ++ (if p = 900 then cols.map (fun c => ⟨posSelect, b!"SELECT", c, [], b!", "⟩) else [])
      ++ (if p = 1200 then [⟨posWhere, b!"WHERE", key, [], b!" AND "⟩, ⟨posWhere, [], inList vs.length, vs, b!" "⟩] else []) := by
  have hcols : (cols.map fun c => (⟨posSelect, b!"SELECT", c, [], b!", "⟩ : Frag α)).filter (fun f => decide (f.pos = p)) = if p = 900 then cols.map (fun c => ⟨posSelect, b!"SELECT", c, [], b!", "⟩) else [] := by
    by_cases h : p = 900
    · rw [if_pos h, List.filter_eq_self.2]
      intro f hf
      obtain ⟨c, -, rfl⟩ := List.mem_map.1 hf
      simp [posSelect, h]
    · rw [if_neg h, List.filter_eq_nil_iff]
      intro f hf
      obtain ⟨c, -, rfl⟩ := List.mem_map.1 hf
      intro e
      exact h (of_decide_eq_true e).symm
  have one : ∀ (f : Frag α) (q : Nat), f.pos = q → [f].filter (fun f => decide (f.pos = p)) = if p = q then [f] else [] := by
    intro f q e
    by_cases h : p = q
    · simp [e, h]
    · have : ¬ q = p := fun e => h e.symm
      simp [e, h, this]
  have two : ∀ (f g : Frag α) (q : Nat), f.pos = q → g.pos = q → [f, g].filter (fun f => decide (f.pos = p)) = if p = q then [f, g] else [] := by
    intro f g q e e'
    by_cases h : p = q
    · simp [e, e', h]
    · have : ¬ q = p := fun e => h e.symm
      simp [e, e', this, h]
  unfold fragsAt inFrags
  rw [show ∀ (x : Frag α) l, x :: l = [x] ++ l from fun _ _ => rfl]
  simp only [List.filter_append, hcols, two ⟨posWhere, b!"WHERE", key, [], b!" AND "⟩ ⟨posWhere, [], inList vs.length, vs, b!" "⟩ 1200 rfl rfl, one ⟨posFrom, b!"FROM", t, [], b!", "⟩ 1100 rfl, List.append_assoc]

/-- The list as tokens. -/
def inToks : List α → List (Tok α)
  | [] => []
  | [v] => [.ph v]
  | v :: l => [.ph v] ++ (lits b!"," ++ inToks l)

theorem written_ph (pg : Bool) (n : Nat) (v : α) : Xsql.written pg n [Tok.ph v] = phText pg n := by
  cases pg
  · rfl
  · simp [Xsql.written, numbered, phText]

theorem ph_end (v : α) : (raw [Tok.ph v]).getLast? ≠ some 92 := by
  rw [show raw [Tok.ph v] = [63] from rfl]; decide

theorem inToks_ok : ∀ (l : List α), Clean (inToks l) ∧ vals (inToks l) = l ∧ (∀ pg n, Xsql.written pg n (inToks l) = joinBytes b!"," (phFrom pg n l.length)) ∧ (raw (inToks l)).getLast? ≠ some 92 := by
  intro l
  induction l with
  | nil => exact ⟨clean_lits [] (by simp), rfl, fun pg n => by cases pg <;> rfl, by simp [inToks, raw]⟩
  | cons v l ih =>
    obtain ⟨h1, h2, h3, h4⟩ := ih
    cases l with
    | nil => exact ⟨clean_ph v, rfl, fun pg n => written_ph pg n v, ph_end v⟩
    | cons w l =>
      have e : inToks (v :: w :: l) = [.ph v] ++ (lits b!"," ++ inToks (w :: l)) := rfl
      rw [e]
      refine ⟨(clean_ph v).append ((clean_lits _ (by decide)).append h1 (by rw [raw_lits]; decide)) (ph_end v), by rw [vals_append, vals_append, vals_lits, h2]; rfl, ?_, ?_⟩
      · intro pg n
        rw [written_append, written_ph, written_append, written_lits, h3]
        simp only [vals_lits, List.length_nil, Nat.add_zero]
        show phText pg n ++ (b!"," ++ joinBytes b!"," (phFrom pg (n + 1) (w :: l).length)) = _
        rw [← List.append_assoc]; rfl
      · rw [raw_append, raw_append, List.getLast?_append, List.getLast?_append]
        cases hl : (raw (inToks (w :: l))).getLast? with
        | none => exact fun h => absurd (show some (44 : UInt8) = some 92 from h) (by decide)
        | some x => rw [hl] at h4; simpa using h4

/-- The text and the arguments of the statement on every dialect. -/
theorem in_text (d : Dia) (nl : Bool) (st : Nat) (t : Bytes) (ht0 : t ≠ []) (ht : Plain t) (cols : List Bytes) (hc0 : cols ≠ []) (hc : ∀ c ∈ cols, NameOK c) (key : Bytes) (hk : NameOK key) (vs : List α) :
    (build d nl st (inCalls t cols key vs)).render = inSql (decide (d = .postgres)) nl t cols key vs.length ∧ (build d nl st (inCalls t cols key vs)).args = vs := by
  have hF := fragOK_plain (α := α) ht
  obtain ⟨hcs, hfr⟩ := in_frags hF hk vs cols (SpecState.fresh nl st) hc
  obtain ⟨e1, e2⟩ := closed_render .default (by simp) hcs hfr (in_local hF hk vs cols hc)
  have hother : ∀ q, q ∉ [900, 1100, 1200, 1600, 1700, 1800] → fragsAt q (inFrags t cols key vs) = [] := by
    intro q hq
    simp only [List.mem_cons, List.not_mem_nil, or_false, not_or] at hq
    obtain ⟨h1, h2, h3, h4, h5, h6⟩ := hq
    rw [in_at]; simp [*]
  rw [six_p _ (fun q hq => by rw [hother q hq]; rfl)] at e1
  rw [six_p_args _ (fun q hq => by rw [hother q hq]; rfl)] at e2
  have k900 : fragsAt 900 (inFrags t cols key vs) = cols.map fun c => ⟨posSelect, b!"SELECT", c, [], b!", "⟩ := by rw [in_at]; simp
  have k1100 : fragsAt 1100 (inFrags t cols key vs) = [⟨posFrom, b!"FROM", t, [], b!", "⟩] := by rw [in_at]; simp
  have k1200 : fragsAt 1200 (inFrags t cols key vs) = [⟨posWhere, b!"WHERE", key, [], b!" AND "⟩, ⟨posWhere, [], inList vs.length, vs, b!" "⟩] := by rw [in_at]; simp
  have k1600 : fragsAt 1600 (inFrags t cols key vs) = [] := by rw [in_at]; simp
  have k1700 : fragsAt 1700 (inFrags t cols key vs) = [] := by rw [in_at]; simp
  have k1800 : fragsAt 1800 (inFrags t cols key vs) = [] := by rw [in_at]; simp
  have a1 : clauseText nl [(⟨posFrom, b!"FROM", t, [], b!", "⟩ : Frag α)] = (if nl then b!"\n" else []) ++ b!"FROM" ++ b!" " ++ t := by simp [clauseText, moreText, ht0]
  have hin : inList vs.length ≠ [] := by simp [inList]
  have w1 : clauseText nl [(⟨posWhere, b!"WHERE", key, [], b!" AND "⟩ : Frag α), ⟨posWhere, [], inList vs.length, vs, b!" "⟩] = (if nl then b!"\n" else []) ++ b!"WHERE" ++ b!" " ++ key ++ b!" " ++ inList vs.length := by
    simp [clauseText, moreText, hk.1, hin]
  have w2 : clauseArgs [(⟨posWhere, b!"WHERE", key, [], b!" AND "⟩ : Frag α), ⟨posWhere, [], inList vs.length, vs, b!" "⟩] = vs := by
    simp [clauseArgs, single, posWhere]
  obtain ⟨b1, b2⟩ := clause_join (α := α) nl b!"SELECT" b!", " (by decide) posSelect (by decide) (cols.map fun c => ⟨posSelect, b!"SELECT", c, [], b!", "⟩) (by simpa using hc0) (by
    intro f hf
    obtain ⟨c, hc', rfl⟩ := List.mem_map.1 hf
    exact ⟨rfl, rfl, rfl, (hc c hc').1⟩)
  have hne : (cols.map fun c => (⟨posSelect, b!"SELECT", c, [], b!", "⟩ : Frag α)).isEmpty = false := by simpa using hc0
  have hph : ∀ n i, phFrom false i n = List.replicate n b!"?" := by
    intro n
    induction n with
    | zero => intro i; rfl
    | succ n ih => intro i; rw [phFrom, ih]; rfl
  have key1 : (build .default nl st (inCalls t cols key vs)).render = inSql false nl t cols key vs.length := by
    rw [e1]
    refine Eq.trans ?_ (solid nl 83 41 (s := inSql false nl t cols key vs.length) (by simp [inSql]) (by decide) (by rw [inSql, List.getLast?_append, List.getLast?_append]; rfl) (by decide))
    congr 1
    simp only [List.filter_cons, List.filter_nil, k900, k1100, k1200, k1600, k1700, k1800, hne, List.isEmpty_cons, List.isEmpty_nil, Bool.not_false, Bool.not_true, if_true, if_false, Bool.false_eq_true,
      List.map_cons, List.map_nil]
    rw [a1, w1, b1]
    simp [joinBytes, inSql, inList, hph, Function.comp_def]
  have key2 : (build .default nl st (inCalls t cols key vs)).args = vs := by
    rw [e2]
    simp only [List.flatMap_cons, List.flatMap_nil, k900, k1100, k1200, k1600, k1700, k1800, w2, b2]
    simp [clauseArgs, List.flatMap_map]
  obtain ⟨i1, i2, i3, i4⟩ := inToks_ok vs
  let A : Bytes := b!"SELECT " ++ joinBytes b!", " cols ++ b!" " ++ (if nl then b!"\n" else []) ++ b!"FROM " ++ t ++ (b!" " ++ (if nl then b!"\n" else []) ++ b!"WHERE " ++ key ++ b!" IN (")
  let ts : List (Tok α) := lits A ++ (inToks vs ++ lits b!")")
  have hts : ∀ pg, Xsql.written pg 1 ts = inSql pg nl t cols key vs.length := by
    intro pg
    rw [show ts = _ from rfl, written_append, written_lits, written_append, written_lits, i3]
    simp [inSql, A]
  have hjq : (63 : UInt8) ∉ joinBytes b!", " cols := join_no (by decide) fun c h => (hc c h).2.1
  have hkq : (63 : UInt8) ∉ key := hk.2.1
  have htq : (63 : UInt8) ∉ t := ht.1
  have hcl : Clean ts := by
    refine (clean_lits A ?_).append (i1.append (clean_lits _ (by decide)) i4) ?_
    · cases nl <;> simp [A, hjq, hkq, htq]
    · rw [raw_lits, show A = _ from rfl, List.getLast?_append, List.getLast?_append]; exact fun h => absurd (show some (40 : UInt8) = some 92 from h) (by decide)
  obtain ⟨f1, f2⟩ := every_dialect d hcs (ts := ts) hcl (by rw [key1, raw_written ts 1, hts]) (by rw [key2]; simp [ts, vals_append, i2])
  exact ⟨by rw [f1, hts], by rw [f2]; simp [ts, vals_append, i2]⟩

end Gen
