import Verif.Gen.Endpoint
import Verif.Query.Changing
set_option linter.unusedVariables false
set_option linter.unusedSimpArgs false
set_option linter.unusedSectionVars false
/-!
An endpoint that pages by key: `SELECT … FROM t WHERE key > ? ORDER BY key LIMIT ?`, built with the statement builder (xsql/stmt.go:552-808), read with `ExecuteQueryWithCursor` (query.go:104-133) from a small
database that reads the statement as text, with cursors written and read by `EncodeCursor` and `DecodeCursor` (query.go:152-168).  C118.
-/
namespace Gen
open Schema Types Xsql

variable {α : Type}

/-! ### The statement -/

/-- The calls: `From(t)`, `Select(column)` for each column, `Where("key > ?", v)`, `OrderBy("key")`, `Limit(n)` (xsql/stmt.go:552-555, 691-707, 766-788). -/
def keysetCalls (t : Bytes) (cols : List Bytes) (key : Bytes) (v n : α) : List (Call α) :=
  .from_ t [] :: cols.map (fun c => .select c []) ++ [.where_ (key ++ b!" > ?") [v], .orderBy [key], .limit n]

/-- Its text. -/
def keysetText (pg nl : Bool) (t : Bytes) (cols : List Bytes) (key : Bytes) : Bytes :=
  b!"SELECT " ++ joinBytes b!", " cols ++ b!" " ++ (if nl then b!"\n" else []) ++ b!"FROM " ++ t
    ++ (b!" " ++ (if nl then b!"\n" else []) ++ b!"WHERE " ++ key ++ b!" > " ++ phText pg 1)
    ++ (b!" " ++ (if nl then b!"\n" else []) ++ b!"ORDER BY " ++ key)
    ++ (b!" " ++ (if nl then b!"\n" else []) ++ b!"LIMIT " ++ phText pg 2)

/-- The fragments of these calls. -/
def keysetFrags (t : Bytes) (cols : List Bytes) (key : Bytes) (v n : α) : List (Frag α) :=
  ⟨posFrom, b!"FROM", t, [], b!", "⟩ :: cols.map (fun c => ⟨posSelect, b!"SELECT", c, [], b!", "⟩)
    ++ [⟨posWhere, b!"WHERE", key ++ b!" > ?", [v], b!" AND "⟩, ⟨posOrderBy, b!"ORDER BY", key, [], b!", "⟩, ⟨posLimit, b!"LIMIT ?", [], [n], []⟩]

theorem gtph_ok (v : α) : FragOK b!" > ?" [v] := ⟨rfl, by decide, by simp⟩

theorem keyset_frags {t key : Bytes} (ht : FragOK (α := α) t []) (hk : NameOK key) (v n : α) : ∀ (cols : List Bytes) (s : SpecState α), (∀ c ∈ cols, NameOK c) →
    CallsOK s (keysetCalls t cols key v n) ∧ fragsOf s (keysetCalls t cols key v n) = keysetFrags t cols key v n := by
  intro cols s hc
  have hgt : FragOK (key ++ b!" > ?") [v] := (fragOK_plain (α := α) hk.2).append (gtph_ok v)
  have main : ∀ (cols : List Bytes) (s : SpecState α), (∀ c ∈ cols, NameOK c) →
      CallsOK s (cols.map (fun c => Call.select c []) ++ [.where_ (key ++ b!" > ?") [v], .orderBy [key], .limit n])
      ∧ fragsOf s (cols.map (fun c => Call.select c []) ++ [.where_ (key ++ b!" > ?") [v], .orderBy [key], .limit n])
        = cols.map (fun c => (⟨posSelect, b!"SELECT", c, [], b!", "⟩ : Frag α)) ++ [⟨posWhere, b!"WHERE", key ++ b!" > ?", [v], b!" AND "⟩, ⟨posOrderBy, b!"ORDER BY", key, [], b!", "⟩, ⟨posLimit, b!"LIMIT ?", [], [n], []⟩] := by
    intro cols
    induction cols with
    | nil =>
      intro s _
      refine ⟨⟨hgt, ?_, trivial, trivial⟩, rfl⟩
      intro e he
      rw [List.mem_singleton] at he
      subst he
      exact fragOK_plain hk.2
    | cons c cols ih =>
      intro s hc
      obtain ⟨i1, i2⟩ := ih (s.call (.select c [])) (fun c' h => hc c' (by simp [h]))
      refine ⟨⟨fragOK_plain (hc c (by simp)).2, i1⟩, ?_⟩
      rw [List.map_cons, List.map_cons, List.cons_append, fragsOf, i2]; rfl
  obtain ⟨m1, m2⟩ := main cols (s.call (.from_ t [])) hc
  refine ⟨⟨ht, m1⟩, ?_⟩
  unfold keysetCalls keysetFrags
  rw [List.cons_append, fragsOf, m2]; rfl

theorem keyset_local {t key : Bytes} (ht : FragOK (α := α) t []) (hk : NameOK key) (v n : α) (cols : List Bytes) (hc : ∀ c ∈ cols, NameOK c) :
    ∀ f ∈ keysetFrags t cols key v n, FragLocal f ∧ f.pos ∈ canonical := by
  intro f hf
  unfold keysetFrags at hf
  simp only [List.cons_append, List.mem_cons, List.mem_append, List.mem_map, List.not_mem_nil, or_false] at hf
  rcases hf with rfl | ⟨c, hc', rfl⟩ | rfl | rfl | rfl
  · exact ⟨FragLocal.mk' ht (by decide) (by decide) (show ¬ single posFrom by decide) sepOK_comma, by simp [canonical, posFrom]⟩
  · exact ⟨FragLocal.mk' (fragOK_plain (hc c hc').2) (by decide) (by decide) (show ¬ single posSelect by decide) sepOK_comma, by simp [canonical, posSelect]⟩
  · have := (fragOK_plain (α := α) hk.2).append (gtph_ok v)
    exact ⟨FragLocal.mk' this (by decide) (by decide) (show ¬ single posWhere by decide) sepOK_and, by simp [canonical, posWhere]⟩
  · exact ⟨FragLocal.mk' (fragOK_plain hk.2) (by decide) (by decide) (show ¬ single posOrderBy by decide) sepOK_comma, by simp [canonical, posOrderBy]⟩
  · exact ⟨limit_local _ _ (by decide) (fun x => ⟨rfl, by decide, by simp⟩) _, by simp [canonical, posLimit]⟩

theorem keyset_at (t : Bytes) (cols : List Bytes) (key : Bytes) (v n : α) (p : Nat) :
    fragsAt p (keysetFrags t cols key v n) = (if p = 1100 then [⟨posFrom, b!"FROM", t, [], b!", "⟩] else []) ++ (if p = 900 then cols.map (fun c => ⟨posSelect, b!"SELECT", c, [], b!", "⟩) else [])
      ++ (if p = 1200 then [⟨posWhere, b!"WHERE", key ++ b!" > ?", [v], b!" AND "⟩] else []) ++ (if p = 1600 then [⟨posOrderBy, b!"ORDER BY", key, [], b!", "⟩] else [])
      ++ (if p = 1700 then [⟨posLimit, b!"LIMIT ?", [], [n], []⟩] else []) := by
  have hcols : (cols.map fun c => (⟨posSelect, b!"SELECT", c, [], b!", "⟩ : Frag α)).filter (fun f => decide (f.pos = p)) = if p = 900 then cols.map (fun c => ⟨posSelect, b!"SELECT", c, [], b!", "⟩) else [] := by
    by_cases h : p = 900
    · rw [if_pos h, List.filter_eq_self.2]
      intro f hf
      obtain ⟨c, -, rfl⟩ := List.mem_map.1 hf
      simp [posSelect, h]
    · rw [if_neg h, List.filter_eq_nil_iff]
      intro f hf
      obtain ⟨c, -, rfl⟩ := List.mem_map.1 hf
      intro e
      exact h (of_decide_eq_true e).symm
  have one : ∀ (f : Frag α) (q : Nat), f.pos = q → [f].filter (fun f => decide (f.pos = p)) = if p = q then [f] else [] := by
    intro f q e
    by_cases h : p = q
    · simp [e, h]
    · have : ¬ q = p := fun e => h e.symm
      simp [e, h, this]
  have e : ∀ a b c d : Frag α, [b, c, d] = [b] ++ [c] ++ [d] := fun _ _ _ _ => rfl
  unfold fragsAt keysetFrags
  rw [e ⟨posFrom, b!"FROM", t, [], b!", "⟩, show ∀ (x : Frag α) l, x :: l = [x] ++ l from fun _ _ => rfl]
  simp only [List.filter_append, hcols, one ⟨posWhere, b!"WHERE", key ++ b!" > ?", [v], b!" AND "⟩ 1200 rfl, one ⟨posOrderBy, b!"ORDER BY", key, [], b!", "⟩ 1600 rfl,
    one ⟨posLimit, b!"LIMIT ?", [], [n], []⟩ 1700 rfl, one ⟨posFrom, b!"FROM", t, [], b!", "⟩ 1100 rfl, List.append_assoc]

/-- The text and the arguments of the statement on every dialect. -/
theorem keyset_text (d : Dia) (nl : Bool) (st : Nat) (t : Bytes) (ht0 : t ≠ []) (ht : Plain t) (cols : List Bytes) (hc0 : cols ≠ []) (hc : ∀ c ∈ cols, NameOK c) (key : Bytes) (hk : NameOK key) (v n : α) :
    (build d nl st (keysetCalls t cols key v n)).render = keysetText (decide (d = .postgres)) nl t cols key ∧ (build d nl st (keysetCalls t cols key v n)).args = [v, n] := by
  have hF := fragOK_plain (α := α) ht
  obtain ⟨hcs, hfr⟩ := keyset_frags hF hk v n cols (SpecState.fresh nl st) hc
  obtain ⟨e1, e2⟩ := closed_render .default (by simp) hcs hfr (keyset_local hF hk v n cols hc)
  have hother : ∀ q, q ∉ [900, 1100, 1200, 1600, 1700, 1800] → fragsAt q (keysetFrags t cols key v n) = [] := by
    intro q hq
    simp only [List.mem_cons, List.not_mem_nil, or_false, not_or] at hq
    obtain ⟨h1, h2, h3, h4, h5, h6⟩ := hq
    rw [keyset_at]; simp [*]
  rw [six_p _ (fun q hq => by rw [hother q hq]; rfl)] at e1
  rw [six_p_args _ (fun q hq => by rw [hother q hq]; rfl)] at e2
  have k900 : fragsAt 900 (keysetFrags t cols key v n) = cols.map fun c => ⟨posSelect, b!"SELECT", c, [], b!", "⟩ := by rw [keyset_at]; simp
  have k1100 : fragsAt 1100 (keysetFrags t cols key v n) = [⟨posFrom, b!"FROM", t, [], b!", "⟩] := by rw [keyset_at]; simp
  have k1200 : fragsAt 1200 (keysetFrags t cols key v n) = [⟨posWhere, b!"WHERE", key ++ b!" > ?", [v], b!" AND "⟩] := by rw [keyset_at]; simp
  have k1600 : fragsAt 1600 (keysetFrags t cols key v n) = [⟨posOrderBy, b!"ORDER BY", key, [], b!", "⟩] := by rw [keyset_at]; simp
  have k1700 : fragsAt 1700 (keysetFrags t cols key v n) = [⟨posLimit, b!"LIMIT ?", [], [n], []⟩] := by rw [keyset_at]; simp
  have k1800 : fragsAt 1800 (keysetFrags t cols key v n) = [] := by rw [keyset_at]; simp
  have pc : ∀ (kw sep x : Bytes) (as : List α) (p : Nat), kw ≠ [] → ¬ single p → x ≠ [] →
      clauseText nl [(⟨p, kw, x, as, sep⟩ : Frag α)] = (if nl then b!"\n" else []) ++ kw ++ b!" " ++ x ∧ clauseArgs [(⟨p, kw, x, as, sep⟩ : Frag α)] = as := by
    intro kw sep x as p h1 h2 h3
    obtain ⟨a, b⟩ := clause_join (α := α) nl kw sep h1 p h2 [⟨p, kw, x, as, sep⟩] (by simp) (by intro f hf; simp at hf; subst hf; exact ⟨rfl, rfl, rfl, h3⟩)
    exact ⟨by simpa [joinBytes] using a, by simpa using b⟩
  obtain ⟨a1, a2⟩ := pc b!"FROM" b!", " t [] posFrom (by decide) (by decide) ht0
  obtain ⟨w1, w2⟩ := pc b!"WHERE" b!" AND " (key ++ b!" > ?") [v] posWhere (by decide) (by decide) (by simp)
  obtain ⟨o1, o2⟩ := pc b!"ORDER BY" b!", " key [] posOrderBy (by decide) (by decide) hk.1
  obtain ⟨l1, l2⟩ := limit_clause (α := α) nl posLimit b!"LIMIT ?" (by decide) (by decide) n
  obtain ⟨b1, b2⟩ := clause_join (α := α) nl b!"SELECT" b!", " (by decide) posSelect (by decide) (cols.map fun c => ⟨posSelect, b!"SELECT", c, [], b!", "⟩) (by simpa using hc0) (by
    intro f hf
    obtain ⟨c, hc', rfl⟩ := List.mem_map.1 hf
    exact ⟨rfl, rfl, rfl, (hc c hc').1⟩)
  have hne : (cols.map fun c => (⟨posSelect, b!"SELECT", c, [], b!", "⟩ : Frag α)).isEmpty = false := by simpa using hc0
  have key1 : (build .default nl st (keysetCalls t cols key v n)).render = keysetText false nl t cols key := by
    rw [e1]
    refine Eq.trans ?_ (solid nl 83 63 (s := keysetText false nl t cols key) (by simp [keysetText]) (by decide) (by rw [keysetText, List.getLast?_append, List.getLast?_append]; rfl) (by decide))
    congr 1
    simp only [List.filter_cons, List.filter_nil, k900, k1100, k1200, k1600, k1700, k1800, hne, List.isEmpty_cons, List.isEmpty_nil, Bool.not_false, Bool.not_true, if_true, if_false, Bool.false_eq_true,
      List.map_cons, List.map_nil]
    rw [a1, w1, o1, l1, b1]
    simp [joinBytes, keysetText, phText, Function.comp_def]
  have key2 : (build .default nl st (keysetCalls t cols key v n)).args = [v, n] := by
    rw [e2]
    simp only [List.flatMap_cons, List.flatMap_nil, k900, k1100, k1200, k1600, k1700, k1800, a2, w2, o2, l2, b2]
    simp [clauseArgs, List.flatMap_map]
  let A : Bytes := b!"SELECT " ++ joinBytes b!", " cols ++ b!" " ++ (if nl then b!"\n" else []) ++ b!"FROM " ++ t ++ (b!" " ++ (if nl then b!"\n" else []) ++ b!"WHERE " ++ key ++ b!" > ")
  let B : Bytes := b!" " ++ (if nl then b!"\n" else []) ++ b!"ORDER BY " ++ key ++ (b!" " ++ (if nl then b!"\n" else []) ++ b!"LIMIT ")
  let ts : List (Tok α) := (lits A ++ [.ph v]) ++ (lits B ++ [.ph n])
  have hw : ∀ (pg : Bool) i (x : Bytes) (v : α), Xsql.written pg i (lits x ++ [Tok.ph v]) = x ++ phText pg i := by
    intro pg n x v
    cases pg
    · simp only [Xsql.written, raw_append, raw_lits, phText]; rfl
    · simp only [Xsql.written, numbered_append, numbered_lits, phText, if_true, vals_lits, List.length_nil, Nat.add_zero]
      simp [numbered]
  have hts : ∀ pg, Xsql.written pg 1 ts = keysetText pg nl t cols key := by
    intro pg
    rw [show ts = _ from rfl, written_append, hw, hw, vals_append, vals_lits]
    simp [keysetText, A, B]
  have hjq : (63 : UInt8) ∉ joinBytes b!", " cols := join_no (by decide) fun c h => (hc c h).2.1
  have hkq : (63 : UInt8) ∉ key := hk.2.1
  have htq : (63 : UInt8) ∉ t := ht.1
  have hcl : Clean ts := by
    refine ((clean_lits A ?_).append (clean_ph _) ?_).append ((clean_lits B ?_).append (clean_ph _) ?_) ?_
    · cases nl <;> simp [A, hjq, hkq, htq]
    · rw [raw_lits, show A = _ from rfl, List.getLast?_append, List.getLast?_append]; exact fun h => absurd (show some (32 : UInt8) = some 92 from h) (by decide)
    · cases nl <;> simp [B, hkq]
    · rw [raw_lits, show B = _ from rfl, List.getLast?_append, List.getLast?_append]; exact fun h => absurd (show some (32 : UInt8) = some 92 from h) (by decide)
    · rw [raw_append, List.getLast?_append]; exact fun h => absurd (show some (63 : UInt8) = some 92 from h) (by decide)
  obtain ⟨f1, f2⟩ := every_dialect d hcs (ts := ts) hcl (by rw [key1, raw_written ts 1, hts]) (by rw [key2]; simp [ts, vals_append])
  exact ⟨by rw [f1, hts], by rw [f2]; simp [ts, vals_append]⟩

end Gen
