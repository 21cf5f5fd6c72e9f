import Verif.Gen.ListText
set_option linter.unusedVariables false
set_option linter.unusedSimpArgs false
set_option linter.unusedSectionVars false
/-!
A list endpoint: a query built with the statement builder (xsql/stmt.go), arguments collected with the parameter builder (params.go:88-212), pages read with `ExecuteQueryWithPagination` (query.go:67-99) from a
small database that reads the statement as text, and a client that goes on at `nextOffset`.  C115.
-/
namespace Gen
open Schema Types Xsql

/-- What the driver is sent for an argument (database/sql's default conversion: integers as `int64`, `nil` as NULL; named arguments are refused, as lib/pq does); `val` says it for other types. -/
def sentArg {V : Type} (val : V → Option Given) : Query.Arg V → Option Given
  | .nil => some (.dv .null)
  | .int i => some (.dv (.i64 (Int64.ofInt i)))
  | .u32 n => some (.dv (.i64 (Int64.ofInt n.toNat)))
  | .named .. => none
  | .other v => val v

/-! ### Specification -/

/-- A database connection that answers the query `sql` whenever the table has an answer to it, with one of the possible answers. -/
def Spec.Answers {V E : Type} (drv : Driver) (eq : Equal) (le : Order) (T : Table) (val : V → Option Given) (sql : Bytes) (db : List (Query.Arg V) → Sql.Answer (List Given) E) : Prop :=
  ∀ passed args, each (sentArg val) passed = some args → (∃ out, T.MayAnswer drv eq le sql args out) →
    ∃ out, T.MayAnswer drv eq le sql args out ∧ db passed = .ok (.fresh (out.map fun r => ⟨r, none⟩) none none)

/-- The parameters of a call: whatever was called on a fresh builder, the values added since the last `Reset` are the values `vs` in this order, and the page is set last. -/
def Spec.CallsFor {V : Type} [DecidableEq V] (H : Bytes → UInt64) (val : V → Option Given) (vs : List Given) (limit offset : UInt32) (q : Query.QArgs V) : Prop :=
  ∃ name ops b, (Query.new name).run H (ops ++ [.setPage limit offset]) = some b ∧ each (sentArg val) ((Query.sinceReset ops).flatMap Query.POp.args) = some vs ∧ q = .params b

/-! ### One page -/

variable {α : Type}

theorem u32_count (n : UInt32) : rowCount (.dv (.i64 (Int64.ofInt n.toNat))) = some n.toNat := by
  have hn := n.toNat_lt
  have : (Int64.ofInt n.toNat).toInt = n.toNat := Int64.toInt_ofInt_of_le (by omega) (by omega)
  simp [rowCount, this]

section
variable (drv : Driver) (eq : Equal) (le : Order) (T : Table) (hnd : (T.cols.map (·.col.name)).Nodup) (htn : Plain T.name) (htw : IsWord T.name) (dia : Dia) (nl : Bool) (st : Nat)
include hnd htn htw

/-- What the database may answer to a list query. -/
theorem list_answer (l : List (LStep α)) (hl : Spec.IsList l) (hok : ∀ x ∈ unpaged l, x.OK) (hw : Spec.PageWords (unpaged l)) (hcols : colsOf (baseOf (unpaged l)) ≠ [])
    (horders : ∀ o ∈ ordersOf (unpaged l), ∃ c ∈ T.cols, c.col.name = o.1) {C : List (Bytes × Given)} (hC : (condsOf (baseOf (unpaged l))).map (·.1) = C.map (·.1)) (hCs : Spec.Sensible T.cols C)
    {gl go : Given} {L O : Nat} (h1 : rowCount gl = some L) (h2 : rowCount go = some O) (out : List (List Given)) :
    T.MayAnswer drv eq le (build dia nl st (l.map (LStep.call T.name))).render (C.map (·.2) ++ [gl, go]) out
      ↔ ∃ S, Spec.Ordering eq le T C (ordersOf (unpaged l)) S ∧ Spec.Shown drv T (colsOf (baseOf (unpaged l))) ((S.drop O).take L) out := by
  classical
  rw [list_text dia nl st T.name htw.1 htn l hl hok hcols]
  generalize decide (dia = .postgres) = pg
  have hl2 : (condsOf (baseOf (unpaged l))).length = C.length := by have := congrArg List.length hC; simpa using this
  have hread := page_read pg nl T.name htw (colsOf (baseOf (unpaged l))) hcols hw.1 (condsOf (baseOf (unpaged l))) hw.2.1 (ordersOf (unpaged l)) hw.2.2 3
  have hph : (phPairs pg 1 (condsOf (baseOf (unpaged l)))).map (·.2) ++ limitPhs pg (1 + (condsOf (baseOf (unpaged l))).length) 3
      = if pg then dollars 1 (C.map (·.2) ++ [gl, go]).length else List.replicate (C.map (·.2) ++ [gl, go]).length b!"?" := by
    have : limitPhs pg (1 + (condsOf (baseOf (unpaged l))).length) 3 = if pg then dollars (1 + (condsOf (baseOf (unpaged l))).length) [gl, go].length else List.replicate [gl, go].length b!"?" := by
      cases pg <;> simp [limitPhs, dollars, phText, List.replicate]
    rw [phPairs_snd, this]
    cases pg
    · simp [hl2, ← List.replicate_append_replicate]
    · simp only [if_true, List.length_append, dollars_append]; simp [hl2]
  have hga := all_args pg (C.map (·.2) ++ [gl, go])
  rw [← hph] at hga
  have hlen : (phPairs pg 1 (condsOf (baseOf (unpaged l)))).length = C.length := by rw [phPairs_length, hl2]
  have hzip : ((phPairs pg 1 (condsOf (baseOf (unpaged l)))).map (·.1)).zip ((C.map (·.2) ++ [gl, go]).take (phPairs pg 1 (condsOf (baseOf (unpaged l)))).length) = C := by
    rw [phPairs_fst, hC, hlen, List.take_left' (by simp), zip_unzip]
  have hdrop : (C.map (·.2) ++ [gl, go]).drop (phPairs pg 1 (condsOf (baseOf (unpaged l)))).length = [gl, go] := by
    rw [hlen, List.drop_left' (by simp)]
  have hfilter : (T.rows.filter fun row => C.all (holds eq T.cols row)) = T.rows.filter fun row => decide (Spec.Matches eq T.cols C row) := by
    refine List.filter_congr fun row _ => ?_
    rw [Bool.eq_iff_iff, matches_iff eq hnd C row, decide_eq_true_iff]
  have hcount : ∀ limits, each rowCount [gl, go] = some limits ↔ limits = [L, O] := by
    intro limits; simp [each, h1, h2, bind, eq_comm]
  constructor
  · rintro ⟨q, vs, cs, limits, a1, a2, a3, a4, a5, a6, a7, a8, S, a9, a10, a11⟩
    rw [hread, Option.some.injEq] at a1
    subst a1
    rw [hga, Option.some.injEq] at a4
    subst a4
    rw [hzip] at a5
    subst a5
    rw [hdrop] at a8
    have := (hcount limits).1 a8
    subst this
    refine ⟨S, ⟨by rw [← hfilter]; exact a9, a10⟩, ?_⟩
    rw [shown_iff drv T hnd] at a11
    exact a11
  · rintro ⟨S, ⟨a9, a10⟩, a11⟩
    refine ⟨_, _, C, _, hread, rfl, ?_, hga, hzip.symm, (sensible_iff hnd C).2 hCs, ?_, by rw [hdrop]; exact (hcount _).2 rfl, S, by rw [hfilter]; exact a9, a10, ?_⟩
    · simp only [List.length_append, List.length_map, hlen]; rfl
    · intro o ho
      obtain ⟨c, hc, e⟩ := horders o ho
      exact List.mem_map.2 ⟨c, hc, e⟩
    · rw [shown_iff drv T hnd]; exact a11

end

/-! ### All pages -/

theorem each_unique_shown {drv : Driver} {T : Table} (hnd : (T.cols.map (·.col.name)).Nodup) {ns : List Bytes} {S : List (List Cell)} {o o' : List (List Given)}
    (h : Spec.Shown drv T ns S o) (h' : Spec.Shown drv T ns S o') : o = o' := by
  rw [← shown_iff drv T hnd] at h h'
  rw [h] at h'
  exact Option.some.inj h'

theorem shown_window {drv : Driver} {T : Table} {ns : List Bytes} {S : List (List Cell)} {o : List (List Given)} (h : Spec.Shown drv T ns S o) (a b : Nat) :
    Spec.Shown drv T ns ((S.drop a).take b) ((o.drop a).take b) :=
  List.forall₂_take b (List.forall₂_drop a h)

theorem ordering_unique {eq : Equal} {le : Order} {T : Table} {C : List (Bytes × Given)} {os : List (Bytes × Bool)}
    (hdist : ∀ a ∈ T.rows, ∀ b ∈ T.rows, Spec.Matches eq T.cols C a → Spec.Matches eq T.cols C b → rowLe le T.cols a b os = true → rowLe le T.cols b a os = true → a = b)
    {S S' : List (List Cell)} (hS : Spec.Ordering eq le T C os S) (hS' : Spec.Ordering eq le T C os S') : S' = S := by
  have hmem : ∀ S, Spec.Ordering eq le T C os S → ∀ a, a ∈ S → a ∈ T.rows ∧ Spec.Matches eq T.cols C a := by
    intro S hS a ha
    have := hS.1.mem_iff.1 ha
    rw [List.mem_filter] at this
    simpa using this
  exact List.Perm.eq_of_pairwise (fun a b ha hb hab hba => hdist a (hmem S' hS' a ha).1 b (hmem S hS b hb).1 (hmem S' hS' a ha).2 (hmem S hS b hb).2 hab hba) hS'.2 hS.2 (hS'.1.trans hS.1.symm)

/-- A query-parameter call of the right form asks for its page, and these are its arguments. -/
theorem calls_for_asks {V : Type} [DecidableEq V] {H : Bytes → UInt64} {val : V → Option Given} {vs : List Given} {limit offset : UInt32} {q : Query.QArgs V} (h : Spec.CallsFor H val vs limit offset q) :
    ∃ passed, Query.AsksPage q (Query.pageSize limit) offset passed
      ∧ each (sentArg val) passed = some (vs ++ [.dv (.i64 (Int64.ofInt (Query.pageSize limit).toNat)), .dv (.i64 (Int64.ofInt offset.toNat))]) := by
  obtain ⟨name, ops, b, h1, h2, rfl⟩ := h
  unfold Query.Builder.run at h1
  rw [List.foldlM_append] at h1
  obtain ⟨b0, h3, h4⟩ := Option.bind_eq_some_iff.1 h1
  have h5 : b0.setPage limit offset = some b := by simpa [Query.Builder.step] using h4
  obtain ⟨a1, a2⟩ := Query.C36_query_params_ask_for_their_page b0 b limit offset h5
  refine ⟨_, a1, ?_⟩
  rw [Query.C41_args_in_call_order H name ops b0 h3, each_append, h2]
  simp [each, sentArg]

section
variable (drv : Driver) (eq : Equal) (le : Order) (T : Table) (hnd : (T.cols.map (·.col.name)).Nodup) (hrows : ∀ row ∈ T.rows, row.length = T.cols.length)
  (htn : Plain T.name) (htw : IsWord T.name) (dia : Dia) (nl : Bool) (st : Nat) {V E τ : Type}
include hnd hrows htn htw

/-- What every call that asks for a page in the right way gets. -/
theorem pages_core (hle : Spec.IsTotalOrder le) (hsize : T.rows.length < 2 ^ 32) (l : List (LStep α)) (hl : Spec.IsList l) (hok : ∀ x ∈ unpaged l, x.OK) (hw : Spec.PageWords (unpaged l))
    (hcols : colsOf (baseOf (unpaged l)) ≠ []) (hknown : ∀ n ∈ colsOf (baseOf (unpaged l)), ∃ c ∈ T.cols, c.col.name = n) (horders : ∀ o ∈ ordersOf (unpaged l), ∃ c ∈ T.cols, c.col.name = o.1)
    {C : List (Bytes × Given)} (hC : (condsOf (baseOf (unpaged l))).map (·.1) = C.map (·.1)) (hCs : Spec.Sensible T.cols C)
    (hdist : ∀ a ∈ T.rows, ∀ b ∈ T.rows, Spec.Matches eq T.cols C a → Spec.Matches eq T.cols C b → rowLe le T.cols a b (ordersOf (unpaged l)) = true →
      rowLe le T.cols b a (ordersOf (unpaged l)) = true → a = b)
    (val : V → Option Given) (db : List (Query.Arg V) → Sql.Answer (List Given) E) (hdb : Spec.Answers drv eq le T val (build dia nl st (l.map (LStep.call T.name))).render db)
    (conv : List Given → τ) (limit : UInt32) (hl0 : limit ≠ 0) (ask : UInt32 → Query.QArgs V)
    (hask : ∀ o : UInt32, ∃ passed gl go, Query.AsksPage (ask o) limit o passed ∧ each (sentArg val) passed = some (C.map (·.2) ++ [gl, go]) ∧ rowCount gl = some limit.toNat ∧ rowCount go = some o.toNat) :
    ∃ S rows pages, Spec.Ordering eq le T C (ordersOf (unpaged l)) S ∧ Spec.Shown drv T (colsOf (baseOf (unpaged l))) S rows
      ∧ Query.followPages (fun o => Query.execPage db (fun r => .ok (conv r)) (ask o)) (S.length / limit.toNat + 1) 0 = some pages
      ∧ pages.flatten = rows.map conv ∧ pages.length = S.length / limit.toNat + 1 ∧ ∀ p ∈ pages.dropLast, p.length = limit.toNat := by
  classical
  obtain ⟨S, hS⟩ := ordering_exists eq le hle T C (ordersOf (unpaged l))
  obtain ⟨rows, hrs⟩ := each_some (fun row => each (selected drv T.cols row) (colsOf (baseOf (unpaged l)))) S (by
    intro row hr
    have hr' := (List.mem_filter.1 (hS.1.mem_iff.1 hr)).1
    obtain ⟨r, e⟩ := each_some (selected drv T.cols row) (colsOf (baseOf (unpaged l))) (by
      intro n hn
      obtain ⟨c, hc, rfl⟩ := hknown n hn
      obtain ⟨j, hj⟩ := List.getElem?_of_mem hc
      have hlt := (List.getElem?_eq_some_iff.1 hj).1
      have hl := hrows row hr'
      unfold selected
      rw [find_at hnd hj (List.getElem?_eq_getElem (by omega))]; rfl)
    rw [e]; rfl)
  rw [shown_iff drv T hnd] at hrs
  have hlen : S.length = rows.length := List.Forall₂.length_eq hrs
  have hS32 : rows.length < 2 ^ 32 := by
    rw [← hlen, hS.1.length_eq]
    exact lt_of_le_of_lt (List.length_filter_le _ _) hsize
  have hserve : Query.ServesPages db rows ask limit := by
    intro o
    obtain ⟨passed, gl, go, a1, a2, a3, a4⟩ := hask o
    refine ⟨passed, a1, ?_⟩
    have hexact := list_answer drv eq le T hnd htn htw dia nl st l hl hok hw hcols horders hC hCs a3 a4
    obtain ⟨out, o1, o2⟩ := hdb passed _ a2 ⟨_, (hexact _).2 ⟨S, hS, shown_window hrs o.toNat limit.toNat⟩⟩
    obtain ⟨S', s1, s2⟩ := (hexact out).1 o1
    rw [ordering_unique hdist hS s1] at s2
    rw [o2, each_unique_shown hnd s2 (shown_window hrs o.toNat limit.toNat)]
  obtain ⟨pages, p1, p2, p3, p4⟩ := Query.C36_every_row_once db conv rows hS32 ask limit hl0 hserve
  rw [← hlen] at p1 p3
  exact ⟨S, rows, pages, hS, hrs, p1, p2, p3, p4⟩

/-- **C115**: a client that goes on at `nextOffset` while there is a next page receives every matching row exactly once, in the order asked for, and nothing else; every page but the last is full. -/
theorem C115_every_matching_row_once [DecidableEq V] (hle : Spec.IsTotalOrder le) (hsize : T.rows.length < 2 ^ 32) (l : List (LStep α)) (hl : Spec.IsList l) (hok : ∀ x ∈ unpaged l, x.OK)
    (hw : Spec.PageWords (unpaged l)) (hcols : colsOf (baseOf (unpaged l)) ≠ []) (hknown : ∀ n ∈ colsOf (baseOf (unpaged l)), ∃ c ∈ T.cols, c.col.name = n)
    (horders : ∀ o ∈ ordersOf (unpaged l), ∃ c ∈ T.cols, c.col.name = o.1)
    {C : List (Bytes × Given)} (hC : (condsOf (baseOf (unpaged l))).map (·.1) = C.map (·.1)) (hCs : Spec.Sensible T.cols C)
    (hdist : ∀ a ∈ T.rows, ∀ b ∈ T.rows, Spec.Matches eq T.cols C a → Spec.Matches eq T.cols C b → rowLe le T.cols a b (ordersOf (unpaged l)) = true →
      rowLe le T.cols b a (ordersOf (unpaged l)) = true → a = b)
    (val : V → Option Given) (db : List (Query.Arg V) → Sql.Answer (List Given) E) (hdb : Spec.Answers drv eq le T val (build dia nl st (l.map (LStep.call T.name))).render db)
    (conv : List Given → τ) (H : Bytes → UInt64) (limit : UInt32) (ask : UInt32 → Query.QArgs V) (hask : ∀ o, Spec.CallsFor H val (C.map (·.2)) limit o (ask o)) :
    ∃ S rows pages, Spec.Ordering eq le T C (ordersOf (unpaged l)) S ∧ Spec.Shown drv T (colsOf (baseOf (unpaged l))) S rows
      ∧ Query.followPages (fun o => Query.execPage db (fun r => .ok (conv r)) (ask o)) (S.length / (if limit = 0 then 500 else limit).toNat + 1) 0 = some pages
      ∧ pages.flatten = rows.map conv ∧ pages.length = S.length / (if limit = 0 then 500 else limit).toNat + 1 ∧ ∀ p ∈ pages.dropLast, p.length = (if limit = 0 then 500 else limit).toNat := by
  have h0 : Query.pageSize limit ≠ 0 := by
    unfold Query.pageSize
    by_cases h : limit = 0
    · rw [if_pos h]; decide
    · rw [if_neg h]; exact h
  refine pages_core drv eq le T hnd hrows htn htw dia nl st hle hsize l hl hok hw hcols hknown horders hC hCs hdist val db hdb conv (Query.pageSize limit) h0 ask ?_
  intro o
  obtain ⟨passed, a1, a2⟩ := calls_for_asks (hask o)
  exact ⟨passed, _, _, a1, a2, u32_count _, u32_count _⟩

/-- **C115**, plain arguments: the same holds for a client that passes the values of the conditions and then the limit and the offset as Go integers. -/
theorem C115_plain_arguments (hle : Spec.IsTotalOrder le) (hsize : T.rows.length < 2 ^ 32) (l : List (LStep α)) (hl : Spec.IsList l) (hok : ∀ x ∈ unpaged l, x.OK)
    (hw : Spec.PageWords (unpaged l)) (hcols : colsOf (baseOf (unpaged l)) ≠ []) (hknown : ∀ n ∈ colsOf (baseOf (unpaged l)), ∃ c ∈ T.cols, c.col.name = n)
    (horders : ∀ o ∈ ordersOf (unpaged l), ∃ c ∈ T.cols, c.col.name = o.1)
    {C : List (Bytes × Given)} (hC : (condsOf (baseOf (unpaged l))).map (·.1) = C.map (·.1)) (hCs : Spec.Sensible T.cols C)
    (hdist : ∀ a ∈ T.rows, ∀ b ∈ T.rows, Spec.Matches eq T.cols C a → Spec.Matches eq T.cols C b → rowLe le T.cols a b (ordersOf (unpaged l)) = true →
      rowLe le T.cols b a (ordersOf (unpaged l)) = true → a = b)
    (val : V → Option Given) (db : List (Query.Arg V) → Sql.Answer (List Given) E) (hdb : Spec.Answers drv eq le T val (build dia nl st (l.map (LStep.call T.name))).render db)
    (conv : List Given → τ) (vs : List (Query.Arg V)) (hvs : each (sentArg val) vs = some (C.map (·.2))) {limit : Nat} (hl0 : 0 < limit) (hl1 : limit < 2 ^ 32) :
    ∃ S rows pages, Spec.Ordering eq le T C (ordersOf (unpaged l)) S ∧ Spec.Shown drv T (colsOf (baseOf (unpaged l))) S rows
      ∧ Query.followPages (fun o => Query.execPage db (fun r => .ok (conv r)) (.plain (vs ++ [.int limit, .int o.toNat]))) (S.length / limit + 1) 0 = some pages
      ∧ pages.flatten = rows.map conv ∧ pages.length = S.length / limit + 1 ∧ ∀ p ∈ pages.dropLast, p.length = limit := by
  have e : (UInt32.ofNat limit).toNat = limit := by rw [UInt32.toNat_ofNat']; exact Nat.mod_eq_of_lt hl1
  have := pages_core drv eq le T hnd hrows htn htw dia nl st hle hsize l hl hok hw hcols hknown horders hC hCs hdist val db hdb conv (UInt32.ofNat limit)
    (by intro h; rw [h] at e; simp at e; omega) (fun o => .plain (vs ++ [.int limit, .int o.toNat])) (by
      intro o
      have ho := o.toNat_lt
      refine ⟨_, .dv (.i64 (Int64.ofInt limit)), .dv (.i64 (Int64.ofInt o.toNat)), ⟨rfl, vs, _, _, rfl, .int _ _ ?_, .int _ _ ?_⟩, ?_, ?_, u32_count o⟩
      · rw [e]; omega
      · omega
      · rw [each_append, hvs]; simp [each, sentArg]
      · have := u32_count (UInt32.ofNat limit)
        rw [e] at this; rw [this, e])
  rw [e] at this
  exact this
end

/-! ### Ties, and concrete cases -/

/-- The users by name, without a page. -/
def namesList : List (LStep Given) := [.limit (.dv .null), .base .from_, .offset (.dv .null), .base (.col b!"id"), .order b!"name" false]

/-- A database that has chosen one order of the two users for the first page, and another for the second. -/
def moody : List (Query.Arg Given) → Sql.Answer (List Given) Unit
  | [.u32 1, .u32 0] => .ok (.fresh [⟨[.dv (.i64 7)], none⟩] none none)
  | [.u32 1, .u32 1] => .ok (.fresh [⟨[.dv (.i64 7)], none⟩] none none)
  | _ => .ok (.fresh [] none none)

/-- **C115**, ties: if the order does not distinguish the rows, the client may receive one row twice and never the other, although every answer is a possible one. -/
theorem C115_ties_can_repeat :
    (build .postgres false 0 (namesList.map (LStep.call b!"users"))).render = b!"SELECT id FROM users ORDER BY name LIMIT $1 OFFSET $2"
    ∧ (∀ o : Nat, o < 3 → ∃ out, twins.MayAnswer .pg plainEqual plainOrder b!"SELECT id FROM users ORDER BY name LIMIT $1 OFFSET $2" [goInt 1, goInt o] out
        ∧ moody [.u32 1, .u32 (UInt32.ofNat o)] = .ok (.fresh (out.map fun r => ⟨r, none⟩) none none))
    ∧ (∃ q0 q1 q2 : Query.Builder Given, (Query.new b!"users").setPage 1 0 = some q0 ∧ (Query.new b!"users").setPage 1 1 = some q1 ∧ (Query.new b!"users").setPage 1 2 = some q2
        ∧ Query.followPages (fun o => Query.execPage moody (fun r => .ok r) (.params (if o = 0 then q0 else if o = 1 then q1 else q2))) 3 0 = some [[[.dv (.i64 7)]], [[.dv (.i64 7)]], []])
    ∧ twins.rows.length = 2 := by
  refine ⟨by decide +kernel, ?_, ⟨_, _, _, rfl, rfl, rfl, by decide +kernel⟩, rfl⟩
  intro o ho
  have hcase : ∀ (S : List (List Cell)) (o : Nat) (out : List (List Given)), S.Perm twins.rows → S.Pairwise (fun a b => rowLe plainOrder twins.cols a b [(b!"name", false)] = true) → rowCount (goInt o) = some o →
      each (fun row => each (selected .pg twins.cols row) [b!"id"]) ((S.drop o).take 1) = some out →
      twins.MayAnswer .pg plainEqual plainOrder b!"SELECT id FROM users ORDER BY name LIMIT $1 OFFSET $2" [goInt 1, goInt o] out := by
    intro S o out h1 h2 h3 h4
    refine ⟨⟨[b!"id"], b!"users", [], [(b!"name", false)], [b!"$1", b!"$2"]⟩, [goInt 1, goInt o], [], [1, o], by decide +kernel, rfl, rfl, rfl, rfl, rfl, by decide +kernel, ?_, S, h1, h2, h4⟩
    have : rowCount (goInt 1) = some 1 := by decide +kernel
    show each rowCount [goInt 1, goInt o] = some [1, o]
    simp [each, this, h3]
  obtain rfl | rfl | rfl : o = 0 ∨ o = 1 ∨ o = 2 := by omega
  · exact ⟨[[.dv (.i64 7)]], hcase [[.int 7, .text b!"x", .text b!"Ann"], [.int 8, .text b!"y", .text b!"Ann"]] 0 _ (List.Perm.refl _) (by rw [List.pairwise_pair]; decide +kernel) (by decide +kernel) (by decide +kernel), rfl⟩
  · exact ⟨[[.dv (.i64 7)]], hcase [[.int 8, .text b!"y", .text b!"Ann"], [.int 7, .text b!"x", .text b!"Ann"]] 1 _ (List.Perm.swap _ _ _) (by rw [List.pairwise_pair]; decide +kernel) (by decide +kernel) (by decide +kernel), rfl⟩
  · exact ⟨[], hcase [[.int 8, .text b!"y", .text b!"Ann"], [.int 7, .text b!"x", .text b!"Ann"]] 2 _ (List.Perm.swap _ _ _) (by rw [List.pairwise_pair]; decide +kernel) (by decide +kernel) (by decide +kernel), rfl⟩

open Classical in
/-- There always is a database as assumed. -/
theorem answers_exists {V : Type} (drv : Driver) (eq : Equal) (le : Order) (T : Table) (val : V → Option Given) (sql : Bytes) :
    ∃ db : List (Query.Arg V) → Sql.Answer (List Given) Unit, Spec.Answers drv eq le T val sql db := by
  refine ⟨fun passed => if h : ∃ args out, each (sentArg val) passed = some args ∧ T.MayAnswer drv eq le sql args out then .ok (.fresh (h.choose_spec.choose.map fun r => ⟨r, none⟩) none none) else .error (), ?_⟩
  rintro passed args h ⟨out, ho⟩
  have hx : ∃ args out, each (sentArg val) passed = some args ∧ T.MayAnswer drv eq le sql args out := ⟨args, out, h, ho⟩
  have hs := hx.choose_spec.choose_spec
  have key : ∀ a, each (sentArg val) passed = some a → ∀ o, T.MayAnswer drv eq le sql a o → T.MayAnswer drv eq le sql args o := by
    intro a ha o hao
    rw [h, Option.some.injEq] at ha
    exact ha ▸ hao
  exact ⟨hx.choose_spec.choose, key _ hs.1 _ hs.2, dif_pos hx⟩

/-- Numbers by size, all other values alike, after the numbers. -/
def numberOrder : Order := fun _ x y => match x, y with
  | .int a, .int b => decide (a ≤ b)
  | _, .int _ => false
  | _, _ => true

theorem numberOrder_total : Spec.IsTotalOrder numberOrder := by
  constructor
  · intro c x y
    cases x <;> cases y <;> simp [numberOrder]
    omega
  · intro c x y z
    cases x <;> cases y <;> cases z <;> simp [numberOrder]
    omega

/-- Ann's users, newest first; the calls in another order than the clauses. -/
def annList : List (LStep Given) := [.order b!"id" true, .offset (.dv .null), .base .from_, .limit (.dv .null), .base (.cond b!"name" (.dv .null)), .base (.col b!"id")]

example : (build .postgres true 0 (annList.map (LStep.call b!"users"))).render = b!"SELECT id \nFROM users \nWHERE name = $1 \nORDER BY id DESC \nLIMIT $2 \nOFFSET $3" := by decide +kernel

/-- Her name is the parameter at position 3. -/
def annCall (limit o : UInt32) : Option (Query.Builder Given) := (Query.new b!"users").run (fun _ => 0) ([.set 3 (.other (.dv (.text b!"Ann"))), .setFlags [1]] ++ [.setPage limit o])

/-- The hypotheses of `C115_every_matching_row_once` can be met. -/
example : Spec.IsList annList ∧ (∀ x ∈ unpaged annList, x.OK) ∧ Spec.PageWords (unpaged annList) ∧ (condsOf (baseOf (unpaged annList))).map (·.1) = [(b!"name", Given.dv (.text b!"Ann"))].map (·.1)
    ∧ Spec.IsTotalOrder numberOrder
    ∧ (∀ a ∈ twins.rows, ∀ b ∈ twins.rows, rowLe numberOrder twins.cols a b (ordersOf (unpaged annList)) = true → rowLe numberOrder twins.cols b a (ordersOf (unpaged annList)) = true → a = b)
    ∧ ∃ ask : UInt32 → Query.QArgs Given, ∀ o, Spec.CallsFor (fun _ => 0) some [Given.dv (.text b!"Ann")] 1 o (ask o) := by
  refine ⟨⟨⟨[], [_, _], rfl, by simp⟩, rfl, rfl⟩, ?_, ⟨?_, ?_, ?_⟩, rfl, numberOrder_total, ?_, ⟨fun o => .params ((annCall 1 o).getD (Query.new [])), fun o => ⟨b!"users", [.set 3 (.other (.dv (.text b!"Ann"))), .setFlags [1]], _, rfl, rfl, rfl⟩⟩⟩
  · intro x hx
    simp only [annList, unpaged, List.filterMap_cons, List.filterMap_nil, List.mem_cons, List.not_mem_nil, or_false] at hx
    rcases hx with rfl | rfl | rfl | rfl
    · exact ⟨by decide, by unfold Plain; decide⟩
    · trivial
    · exact ⟨by decide, by unfold Plain; decide⟩
    · exact ⟨by decide, by unfold Plain; decide⟩
  · intro n hn
    have : n = b!"id" := by simpa [annList, unpaged, baseOf, colsOf] using hn
    subst this; exact ⟨by decide, by decide⟩
  · intro p hp
    have : p = (b!"name", .dv .null) := by simpa [annList, unpaged, baseOf, condsOf] using hp
    subst this; exact ⟨by decide, by decide⟩
  · intro o ho
    have : o = (b!"id", true) := by simpa [annList, unpaged, ordersOf] using ho
    subst this; exact ⟨by decide, by decide⟩
  · intro a ha b hb h1 h2
    simp only [twins, List.mem_cons, List.not_mem_nil, or_false] at ha hb
    rcases ha with rfl | rfl <;> rcases hb with rfl | rfl
    · rfl
    · exact absurd h1 (by decide +kernel)
    · exact absurd h2 (by decide +kernel)
    · rfl

end Gen
