import Verif.Query.Model
import Verif.Query.ParamsProps
import Verif.Sql.ExecProps
/-
C36, C37, C38: list queries and pagination.
-/
set_option linter.unusedSimpArgs false
set_option linter.unusedVariables false
namespace Query
open Sql
variable {V R T E : Type}

/-! ### The loop -/

/-- What becomes of one delivered row. -/
def convert (conv : R → Except E T) (x : Fetched R E) : Except E T :=
  match x.scanErr with
  | some e => .error e
  | none => conv x.row

/-- All rows converted in order, or the first error. -/
def convertAll (conv : R → Except E T) : List (Fetched R E) → Except E (List T)
  | [] => .ok []
  | x :: xs => match convert conv x with
    | .error e => .error e
    | .ok t => match convertAll conv xs with
      | .error e => .error e
      | .ok ts => .ok (t :: ts)

/-- A driver error as an error of `database/sql`. -/
def liftErr {X : Type} : Except E X → Except (Err E) X
  | .error e => .error (.drv e)
  | .ok x => .ok x

theorem scanRow_eq (conv : R → Except E T) (r : Rows R E) (x : Fetched R E) (hc : r.closed = false) (hl : r.lasterr = none)
    (hx : r.cur = some x) : scanRow conv r = liftErr (convert conv x) := by
  simp only [scanRow, Rows.scan, hl, hc, hx, Bool.false_eq_true, if_false, convert]
  cases x.scanErr with
  | some e => rfl
  | none => simp only; cases conv x.row <;> rfl

theorem listLoop_eq (conv : R → Except E T) : ∀ (n : Nat) (r : Rows R E) (acc : List T), r.todo.length < n → r.closed = false →
    r.lasterr = none →
    (listLoop conv n r acc).1 = liftErr (match convertAll conv r.todo with | .error e => .error e | .ok ts => .ok (acc ++ ts)) := by
  intro n
  induction n with
  | zero => intro r acc h; omega
  | succ n ih =>
    intro r acc hn hc hl
    rw [listLoop]
    cases ht : r.todo with
    | nil => rw [next_nil r ht hc]; simp [convertAll, liftErr]
    | cons x xs =>
      rw [next_cons x xs r ht hc]
      simp only [Bool.not_true, Bool.false_eq_true, if_false]
      rw [scanRow_eq conv { r with todo := xs, cur := some x } x hc hl rfl]
      simp only [convertAll]
      cases hx : convert conv x with
      | error e => simp [liftErr]
      | ok t =>
        simp only [liftErr]
        have hlen : xs.length < n := by rw [ht] at hn; simpa using hn
        have := ih { r with todo := xs, cur := some x } (acc ++ [t]) hlen hc hl
        rw [this]
        cases convertAll conv xs with
        | error e => rfl
        | ok ts => simp [liftErr]

theorem execList_eq (db : List (Arg V) → Answer R E) (conv : R → Except E T) (args : List (Arg V)) (r : Rows R E)
    (hdb : db args = .ok r) (hc : r.closed = false) (hl : r.lasterr = none) :
    (execList db conv args).1 = liftErr (convertAll conv r.todo) := by
  simp only [execList, hdb]
  rw [listLoop_eq conv _ r [] (by omega) hc hl]
  cases convertAll conv r.todo <;> simp

theorem convertAll_ok (conv : R → Except E T) : ∀ (l : List (Fetched R E)) (ts : List T), convertAll conv l = .ok ts →
    l.map (convert conv) = ts.map .ok := by
  intro l
  induction l with
  | nil => intro ts h; simp only [convertAll, Except.ok.injEq] at h; subst h; rfl
  | cons x xs ih =>
    intro ts h
    simp only [convertAll] at h
    cases hx : convert conv x with
    | error e => simp [hx] at h
    | ok t =>
      cases hxs : convertAll conv xs with
      | error e => simp [hx, hxs] at h
      | ok ts' =>
        simp only [hx, hxs, Except.ok.injEq] at h
        subst h
        simp [hx, ih ts' hxs]

theorem convertAll_clean (conv : R → T) (l : List R) :
    convertAll (E := E) (fun r => .ok (conv r)) (l.map fun r => ⟨r, none⟩) = .ok (l.map conv) := by
  induction l with
  | nil => rfl
  | cons x xs ih => simp [convertAll, convert, ih]

/-! ### C38 -/

/-- Whatever happens, the rows are closed afterwards. -/
theorem C38_rows_are_closed (db : List (Arg V) → Answer R E) (conv : R → Except E T) (args : List (Arg V)) (r : Rows R E)
    (h : (execList db conv args).2 = some r) : r.closed = true := by
  unfold execList at h
  cases hdb : db args with
  | error e => simp [hdb] at h
  | ok r0 =>
    simp only [hdb, Option.some.injEq] at h
    subst h
    unfold Rows.close
    split
    · assumption
    · rfl

/-- If the stream of rows was not cut short, `ExecuteListQuery` returns one element per row of the result set, in order, or an error;
a refused query and a row that cannot be read are always reported.  (What is missing: streams that were cut short.) -/
theorem C38_all_rows_or_error_partial (db : List (Arg V) → Answer R E) (conv : R → Except E T) (args : List (Arg V)) :
    (∀ e, db args = .error e → (execList db conv args).1 = .error (.drv e)) ∧
    (∀ full r list, db args = .ok r → Delivers full r → r.fin = none → (execList db conv args).1 = .ok list →
      list.map .ok = full.map conv) ∧
    (∀ full r, db args = .ok r → Delivers full r → (∃ x ∈ r.todo, ∃ e, convert conv x = .error e) →
      ∃ e, (execList db conv args).1 = .error e) := by
  refine ⟨?_, ?_, ?_⟩
  · intro e h; simp [execList, h]
  · intro full r list hdb hd hf hok
    rw [execList_eq db conv args r hdb hd.isOpen hd.clean] at hok
    cases hc : convertAll conv r.todo with
    | error e => simp [hc, liftErr] at hok
    | ok ts =>
      simp only [hc, liftErr, Except.ok.injEq] at hok
      subst hok
      have h1 := convertAll_ok conv r.todo ts hc
      rw [← h1, ← hd.complete hf, List.map_map]
      apply List.map_congr_left
      intro x hx
      have : ∃ t, convert conv x = .ok t := by
        have hm : convert conv x ∈ r.todo.map (convert conv) := List.mem_map_of_mem hx
        rw [h1] at hm
        obtain ⟨t, _, ht⟩ := List.mem_map.1 hm
        exact ⟨t, ht.symm⟩
      obtain ⟨t, ht⟩ := this
      simp only [Function.comp_apply]
      unfold convert at ht ⊢
      cases hs : x.scanErr with
      | some e => simp [hs] at ht
      | none => rfl
  · intro full r hdb hd ⟨x, hx, e, he⟩
    rw [execList_eq db conv args r hdb hd.isOpen hd.clean]
    cases hc : convertAll conv r.todo with
    | error e' => exact ⟨_, rfl⟩
    | ok ts =>
      have hm : convert conv x ∈ r.todo.map (convert conv) := List.mem_map_of_mem hx
      rw [convertAll_ok conv r.todo ts hc, he] at hm
      obtain ⟨t, _, ht⟩ := List.mem_map.1 hm
      cases ht

/-- The full statement is false: a stream cut short by an error (connection lost, context cancelled) is returned as a complete list
without error, for every error and every point at which it is cut. -/
theorem C38_cut_stream_is_not_reported (db : List (Arg V) → Answer R E) (conv : R → T) (args : List (Arg V)) (full : List R) (k : Nat) (e : E)
    (hdb : db args = .ok (.fresh ((full.take k).map fun r => ⟨r, none⟩) (some e) none)) :
    (execList db (fun r => .ok (conv r)) args).1 = .ok ((full.take k).map conv) := by
  rw [execList_eq db _ args _ hdb rfl rfl]
  simp only [Rows.fresh]
  rw [convertAll_clean]; rfl

example : Delivers [1, 2, 3] (.fresh (([1, 2, 3].take 1).map fun r => ⟨r, none⟩) (some 5) none : Rows Nat Nat) :=
  ⟨⟨[2, 3], rfl⟩, fun h => (Option.some_ne_none _ h).elim, rfl, rfl⟩
example : (execList (V := Nat) (E := Nat) (fun _ => .ok (.fresh [⟨1, none⟩, ⟨2, none⟩] none none)) (fun r => .ok (r + 1)) []).1 = .ok [2, 3] := by rfl
example : (execList (V := Nat) (E := Nat) (fun _ => .ok (.fresh [⟨1, none⟩, ⟨2, some 7⟩, ⟨3, none⟩] none none)) (fun r => .ok (r + 1)) []).1 =
    .error (.drv 7) := by rfl

/-- `ExecuteQuery` reports exactly what the list query does, with no next page. -/
theorem C38_execute_query (db : List (Arg V) → Answer R E) (conv : R → Except E T) (as : List (Arg V)) (b : Builder V) :
    execAll db conv (.plain as) = (match (execList db conv as).1 with | .error e => .err e | .ok l => .set l false 0) ∧
    execAll db conv (.params b) = (match (execList db conv b.args).1 with | .error e => .err e | .ok l => .set l false 0) := ⟨rfl, rfl⟩

/-- `QueryRow`: the first row converted; `ErrNoRows` when there is none; every error reported. -/
theorem C38_query_row (db : List (Arg V) → Answer R E) (conv : R → Except E T) (args : List (Arg V)) :
    (∀ e, db args = .error e → queryOne db conv args = .error (.drv e)) ∧
    (∀ r, db args = .ok r → r.closed = false → r.lasterr = none →
      (r.todo = [] → queryOne db conv args = .error (match r.fin with | some e => .drv e | none => .noRows)) ∧
      (∀ x xs, r.todo = x :: xs → r.closeErr = none → queryOne db conv args = liftErr (convert conv x))) := by
  refine ⟨?_, ?_⟩
  · intro e h; simp [queryOne, h, rowScan]
  · intro r hdb hc hl
    constructor
    · intro ht
      simp only [queryOne, hdb, rowScan, next_nil r ht hc, Bool.false_eq_true, if_false, Rows.err]
      cases r.fin <;> rfl
    · intro x xs ht hce
      simp only [queryOne, hdb, rowScan, next_cons x xs r ht hc, if_true, Rows.scan, hl, hc, Bool.false_eq_true, if_false, Rows.close, hce,
        convert]
      cases x.scanErr with
      | some e => rfl
      | none => simp only [Option.map_none]; cases conv x.row <;> rfl

/-! ### C36 -/

/-- The value carries the number `n`: it is an `int` with `n` as its low 32 bits (so `n` itself when it fits), a `uint32`, or a named
argument holding such a value. -/
inductive Carries : Arg V → UInt32 → Prop where
  | int (i : Int) (n : UInt32) : (n.toNat : Int) = i % 4294967296 → Carries (.int i) n
  | u32 (n : UInt32) : Carries (.u32 n) n
  | named (name : Bytes) (v : Arg V) (n : UInt32) : Carries v n → Carries (.named name v) n

/-- `PageParam` accepts exactly the values that carry a number, and returns it. -/
theorem C36_page_param (a : Arg V) (n : UInt32) : pageParam a = some n ↔ Carries a n := by
  constructor
  · intro h
    induction a with
    | nil => cases h
    | int i =>
      simp only [pageParam, Option.some.injEq] at h
      subst h
      refine .int i _ ?_
      have h0 : (0 : Int) ≤ i % 2 ^ 32 := Int.emod_nonneg _ (by decide)
      have h1 : i % 2 ^ 32 < 2 ^ 32 := Int.emod_lt_of_pos _ (by decide)
      have e : (UInt32.ofNat (i % 2 ^ 32).toNat).toNat = (i % 2 ^ 32).toNat := by
        rw [UInt32.toNat_ofNat']; apply Nat.mod_eq_of_lt; omega
      rw [e]; omega
    | u32 m => simp only [pageParam, Option.some.injEq] at h; subst h; exact .u32 _
    | named nm v ih => exact .named nm v n (ih h)
    | other v => cases h
  · intro h
    induction h with
    | int i n h =>
      simp only [pageParam, Option.some.injEq]
      apply UInt32.toNat.inj
      have hn := n.toNat_lt
      rw [UInt32.toNat_ofNat']
      have : (i % 2 ^ 32).toNat = n.toNat := by
        have e : (2 : Int) ^ 32 = 4294967296 := by decide
        rw [e]; omega
      rw [this]; exact Nat.mod_eq_of_lt hn
    | u32 n => rfl
    | named nm v n _ ih => exact ih

/-- The call asks for `limit` rows from `offset` on: the last two values (an `int`, a `uint32`, or a named argument holding one), or
a `QueryParams` with that page.  `passed` are the arguments the database gets. -/
def AsksPage (q : QArgs V) (limit offset : UInt32) (passed : List (Arg V)) : Prop :=
  match q with
  | .params b => b.page = (limit, offset) ∧ passed = b.args
  | .plain as => passed = as ∧ ∃ pre l o, as = pre ++ [l, o] ∧ Carries l limit ∧ Carries o offset

theorem pageOf_asks {q : QArgs V} {limit offset : UInt32} {passed : List (Arg V)} (h : AsksPage q limit offset passed) :
    pageOf q = some (limit, offset, passed) := by
  cases q with
  | params b =>
    obtain ⟨h1, h2⟩ := h
    simp [pageOf, h1, h2]
  | plain as =>
    obtain ⟨h1, pre, l, o, rfl, h3, h4⟩ := h
    rw [← C36_page_param] at h3 h4
    simp [pageOf, List.reverse_append, h3, h4, h1]

/-- The loop of a client that pages through a query: ask for the page at `offset`, keep its rows, go on at `nextOffset` while there is a
next page.  The pages received, or `none` if it did not end within `fuel` calls (or a call failed). -/
def followPages (ask : UInt32 → PRes T E) : Nat → UInt32 → Option (List (List T))
  | 0, _ => none
  | fuel + 1, offset =>
    match ask offset with
    | .set rows hasNext next =>
      if hasNext then (followPages ask fuel next).map fun ps => rows :: ps else some [rows]
    | _ => none

/-- A database holding `data`, answering every call with the requested window of it. -/
def ServesPages (db : List (Arg V) → Answer R E) (data : List R) (ask : UInt32 → QArgs V) (limit : UInt32) : Prop :=
  ∀ offset : UInt32, ∃ passed, AsksPage (ask offset) limit offset passed ∧
    db passed = .ok (.fresh (((data.drop offset.toNat).take limit.toNat).map fun r => ⟨r, none⟩) none none)

theorem execPage_served (db : List (Arg V) → Answer R E) (conv : R → T) (data : List R) (ask : UInt32 → QArgs V) (limit : UInt32)
    (hs : ServesPages db data ask limit) (offset : UInt32) :
    execPage db (fun r => .ok (conv r)) (ask offset) =
      (let page := ((data.drop offset.toNat).take limit.toNat).map conv
       let more : Bool := UInt32.ofNat page.length ≥ limit
       .set page more (if more then offset + UInt32.ofNat page.length else 0)) := by
  obtain ⟨passed, h1, h2⟩ := hs offset
  simp only [execPage, pageOf_asks h1, execList_eq db _ passed _ h2 rfl rfl]
  simp only [Rows.fresh, convertAll_clean, liftErr]
  simp

theorem follow_eq (db : List (Arg V) → Answer R E) (conv : R → T) (data : List R) (hsize : data.length < 2 ^ 32)
    (ask : UInt32 → QArgs V) (limit : UInt32) (hl : limit ≠ 0) (hs : ServesPages db data ask limit) :
    ∀ (n : Nat) (offset : UInt32), offset.toNat ≤ data.length → (data.length - offset.toNat) / limit.toNat + 1 ≤ n →
      ∃ pages, followPages (fun o => execPage db (fun r => .ok (conv r)) (ask o)) n offset = some pages ∧
        pages.flatten = (data.drop offset.toNat).map conv ∧ pages.length = (data.length - offset.toNat) / limit.toNat + 1 ∧
        (∀ p ∈ pages.dropLast, p.length = limit.toNat) := by
  have hlpos : 0 < limit.toNat := Nat.pos_of_ne_zero fun h => hl (UInt32.toNat.inj (by simpa using h))
  have hllt : limit.toNat < 2 ^ 32 := limit.toNat_lt
  intro n
  induction n with
  | zero => intro offset _ h; exact absurd h (Nat.not_succ_le_zero _)
  | succ n ih =>
    intro offset ho hn
    rw [followPages]
    simp only [execPage_served db conv data ask limit hs offset]
    have hplen : (((data.drop offset.toNat).take limit.toNat).map conv).length = min limit.toNat (data.length - offset.toNat) := by simp
    have hge : (UInt32.ofNat (((data.drop offset.toNat).take limit.toNat).map conv).length ≥ limit) ↔ limit.toNat ≤ data.length - offset.toNat := by
      rw [hplen, ge_iff_le, UInt32.le_iff_toNat_le]
      have : (UInt32.ofNat (min limit.toNat (data.length - offset.toNat))).toNat = min limit.toNat (data.length - offset.toNat) := by
        rw [UInt32.toNat_ofNat']; apply Nat.mod_eq_of_lt; omega
      rw [this]; omega
    by_cases hm : limit.toNat ≤ data.length - offset.toNat
    · have hlen' : (((data.drop offset.toNat).take limit.toNat).map conv).length = limit.toNat := by rw [hplen]; omega
      simp only [hge, hm, decide_true, if_true]
      have hnext : (offset + UInt32.ofNat (((data.drop offset.toNat).take limit.toNat).map conv).length).toNat = offset.toNat + limit.toNat := by
        rw [hlen', UInt32.toNat_add, UInt32.ofNat_toNat]; apply Nat.mod_eq_of_lt; omega
      have hdiv : (data.length - offset.toNat) / limit.toNat = (data.length - (offset.toNat + limit.toNat)) / limit.toNat + 1 := by
        have : data.length - offset.toNat = (data.length - (offset.toNat + limit.toNat)) + limit.toNat := by omega
        rw [this, Nat.add_div_right _ hlpos]
      obtain ⟨pages, h1, h2, h3, h4⟩ := ih (offset + UInt32.ofNat (((data.drop offset.toNat).take limit.toNat).map conv).length)
        (by rw [hnext]; omega) (by rw [hnext]; omega)
      rw [h1]
      refine ⟨_ :: pages, rfl, ?_, ?_, ?_⟩
      · rw [List.flatten_cons, h2, hnext, ← List.map_append]
        congr 1
        rw [← List.drop_drop, List.take_append_drop]
      · rw [List.length_cons, h3, hnext, hdiv]
      · intro p hp
        have hne : pages ≠ [] := by intro h; rw [h] at h3; simp at h3
        rw [List.dropLast_cons_of_ne_nil hne] at hp
        rcases List.mem_cons.1 hp with rfl | hp
        · exact hlen'
        · exact h4 p hp
    · simp only [hge, hm, decide_false, Bool.false_eq_true, if_false]
      refine ⟨_, rfl, ?_, ?_, by simp⟩
      · simp only [List.flatten_cons, List.flatten_nil, List.append_nil]
        rw [List.take_of_length_le]; simp; omega
      · rw [Nat.div_eq_of_lt (by omega)]; rfl

/-- Following `nextOffset` from 0 while there is a next page gives exactly the result set, every row once, in order, with
⌊total/limit⌋ + 1 calls; every page but the last is full. -/
theorem C36_every_row_once (db : List (Arg V) → Answer R E) (conv : R → T) (data : List R) (hsize : data.length < 2 ^ 32)
    (ask : UInt32 → QArgs V) (limit : UInt32) (hl : limit ≠ 0) (hs : ServesPages db data ask limit) :
    ∃ pages, followPages (fun o => execPage db (fun r => .ok (conv r)) (ask o)) (data.length / limit.toNat + 1) 0 = some pages ∧
      pages.flatten = data.map conv ∧ pages.length = data.length / limit.toNat + 1 ∧ (∀ p ∈ pages.dropLast, p.length = limit.toNat) := by
  simpa using follow_eq db conv data hsize ask limit hl hs (data.length / limit.toNat + 1) 0 (by simp) (by simp)

/-- The builder's page is what `SetPage` was given (500 for 0), so a call with query parameters asks for that page. -/
theorem C36_query_params_ask_for_their_page [DecidableEq V] (b b' : Builder V) (l o : UInt32) (h : b.setPage l o = some b') :
    AsksPage (.params b') (pageSize l) o (b.args ++ [.u32 (pageSize l), .u32 o]) ∧ pageSize l ≠ 0 := by
  simp only [Builder.setPage] at h
  split at h
  · cases h
  simp only [Option.some.injEq, coalesce_eq] at h
  subst h
  refine ⟨⟨rfl, rfl⟩, ?_⟩
  have := pageSize_pos l
  intro h0; rw [h0] at this; exact absurd this (by decide)

/-- A database with a table, answering queries whose last two arguments are limit and offset. -/
def tableDb (data : List Nat) : List (Arg Nat) → Answer Nat Nat := fun as =>
  match pageOf (.plain as) with
  | some (l, o, _) => .ok (.fresh (((data.drop o.toNat).take l.toNat).map fun r => ⟨r, none⟩) none none)
  | none => .error 0

example (data : List Nat) : ServesPages (tableDb data) data (fun o => .plain [.other 5, .named b!"limit" (.int 2), .u32 o]) 2 :=
  fun o => ⟨[.other 5, .named b!"limit" (.int 2), .u32 o], ⟨rfl, [.other 5], _, _, rfl, .named _ _ _ (.int 2 2 rfl), .u32 o⟩, rfl⟩
example : followPages (fun o => execPage (tableDb [1, 2, 3, 4]) (fun r => .ok r) (.plain [.int 2, .u32 o])) 9 0 = some [[1, 2], [3, 4], []] := by
  decide +kernel
example : followPages (fun o => execPage (tableDb [1, 2, 3]) (fun r => .ok r) (.plain [.int 2, .u32 o])) 9 0 = some [[1, 2], [3]] := by
  decide +kernel

/-- With fewer than two plain arguments there is no limit, and every result claims to have a next page. -/
theorem C36_no_limit_always_has_next_page (db : List (Arg V) → Answer R E) (conv : R → Except E T) (as : List (Arg V)) (ha : as.length < 2)
    (list : List T) (more : Bool) (next : UInt32) (h : execPage db conv (.plain as) = .set list more next) : more = true := by
  have : pageOf (.plain as) = some (0, 0, as) := by
    match as, ha with
    | [], _ => rfl
    | [a], _ => rfl
  simp only [execPage, this] at h
  split at h
  · cases h
  · simp only [ge_iff_le, PRes.set.injEq] at h
    obtain ⟨_, h2, _⟩ := h
    rw [← h2]; simp

/-- A page whose stream was cut short is taken for the last page: the rest of the result set is silently left out. -/
theorem C36_cut_page_ends_the_loop (db : List (Arg V) → Answer R E) (conv : R → T) (q : QArgs V) (limit offset : UInt32) (passed : List (Arg V))
    (hq : AsksPage q limit offset passed) (rows : List R) (hshort : rows.length < limit.toNat) (e : E)
    (hdb : db passed = .ok (.fresh (rows.map fun r => ⟨r, none⟩) (some e) none)) :
    execPage db (fun r => .ok (conv r)) q = .set (rows.map conv) false 0 := by
  have hlt : limit.toNat < 2 ^ 32 := limit.toNat_lt
  simp only [execPage, pageOf_asks hq, execList_eq db _ passed _ hdb rfl rfl, Rows.fresh, convertAll_clean, liftErr]
  have : ¬ (UInt32.ofNat (rows.map conv).length ≥ limit) := by
    rw [ge_iff_le, UInt32.le_iff_toNat_le, UInt32.toNat_ofNat', List.length_map, Nat.mod_eq_of_lt (by omega)]
    omega
  simp only [this, decide_false, Bool.false_eq_true, if_false]

example : AsksPage (.plain [.int 3, .int 0] : QArgs Nat) 3 0 [.int 3, .int 0] := ⟨rfl, [], _, _, rfl, .int 3 3 rfl, .int 0 0 rfl⟩

/-! ### C37 -/

/-- The call asks for `limit` rows after cursor `c` (the last two values are cursor and limit). -/
def AsksCursor (q : QArgs V) (limit : UInt32) (passed : List (Arg V)) : Prop :=
  match q with
  | .params b => b.limit = limit ∧ passed = b.args
  | .plain as => passed = as ∧ ∃ pre c l, as = pre ++ [c, l] ∧ Carries l limit

theorem cursorOf_asks {q : QArgs V} {limit : UInt32} {passed : List (Arg V)} (h : AsksCursor q limit passed) :
    cursorOf q = some (limit, passed) := by
  cases q with
  | params b => obtain ⟨h1, h2⟩ := h; simp [cursorOf, Builder.getCursor, h1, h2]
  | plain as => obtain ⟨h1, pre, c, l, rfl, h3⟩ := h; rw [← C36_page_param] at h3; simp [cursorOf, List.reverse_append, h3, h1]

/-- The loop of a client that follows cursors. -/
def followCursor (ask : Bytes → CRes T E) : Nat → Bytes → Option (List (List T))
  | 0, _ => none
  | fuel + 1, c =>
    match ask c with
    | .set rows hasNext next => if hasNext then (followCursor ask fuel next).map fun ps => rows :: ps else some [rows]
    | _ => none

/-- A database holding `data`, answering with the first `limit` rows after the cursor (`WHERE key > cursor ORDER BY key LIMIT limit`);
`after c r` says that row `r` comes after cursor `c`. -/
def ServesCursor (db : List (Arg V) → Answer R E) (data : List R) (after : Bytes → R → Bool) (ask : Bytes → QArgs V) (limit : UInt32) : Prop :=
  ∀ c, ∃ passed, AsksCursor (ask c) limit passed ∧
    db passed = .ok (.fresh (((data.filter (after c)).take limit.toNat).map fun r => ⟨r, none⟩) none none)

theorem execCursor_served (db : List (Arg V) → Answer R E) (conv : R → T) (cursor : T → Bytes) (data : List R) (after : Bytes → R → Bool)
    (ask : Bytes → QArgs V) (limit : UInt32) (hs : ServesCursor db data after ask limit) (c : Bytes) :
    execCursor db (fun r => .ok (conv r)) cursor (ask c) =
      (let page := ((data.filter (after c)).take limit.toNat).map conv
       let more : Bool := UInt32.ofNat page.length ≥ limit
       .set page more (match page.getLast? with | some last => if more then cursor last else [] | none => [])) := by
  obtain ⟨passed, h1, h2⟩ := hs c
  simp only [execCursor, cursorOf_asks h1, execList_eq db _ passed _ h2 rfl rfl]
  simp only [Rows.fresh, convertAll_clean, liftErr]
  cases (List.map conv (List.take limit.toNat (List.filter (after c) data))).getLast? <;> rfl

/-- The rows are ordered by a unique cursor key: the cursor made from a row is before exactly the rows that follow it. -/
def OrderedBy (data : List R) (after : Bytes → R → Bool) (cursor : R → Bytes) : Prop :=
  ∀ pre r post, data = pre ++ r :: post → (∀ x ∈ pre, after (cursor r) x = false) ∧ after (cursor r) r = false ∧ ∀ x ∈ post, after (cursor r) x = true

theorem filter_after {data : List R} {after : Bytes → R → Bool} {cursor : R → Bytes} (ho : OrderedBy data after cursor) (pre : List R) (r : R)
    (post : List R) (hd : data = pre ++ r :: post) : data.filter (after (cursor r)) = post := by
  obtain ⟨h1, h2, h3⟩ := ho pre r post hd
  rw [hd, List.filter_append, List.filter_cons, h2, List.filter_eq_nil_iff.2 (fun x hx => by simp [h1 x hx]), List.filter_eq_self.2 h3]
  simp

theorem followCursor_eq (db : List (Arg V) → Answer R E) (conv : R → T) (cursor : T → Bytes) (data : List R) (hsize : data.length < 2 ^ 32)
    (after : Bytes → R → Bool) (ask : Bytes → QArgs V) (limit : UInt32) (hl : limit ≠ 0) (hs : ServesCursor db data after ask limit)
    (ho : OrderedBy data after (fun r => cursor (conv r))) :
    ∀ (n : Nat) (c : Bytes) (pre rest : List R), data = pre ++ rest → data.filter (after c) = rest → rest.length / limit.toNat + 1 ≤ n →
      ∃ pages, followCursor (fun c => execCursor db (fun r => .ok (conv r)) cursor (ask c)) n c = some pages ∧
        pages.flatten = rest.map conv ∧ pages.length = rest.length / limit.toNat + 1 := by
  have hlpos : 0 < limit.toNat := Nat.pos_of_ne_zero fun h => hl (UInt32.toNat.inj (by simpa using h))
  have hllt : limit.toNat < 2 ^ 32 := limit.toNat_lt
  intro n
  induction n with
  | zero => intro c pre rest _ _ h; exact absurd h (Nat.not_succ_le_zero _)
  | succ n ih =>
    intro c pre rest hd hf hn
    have hrest : rest.length ≤ data.length := by rw [hd]; simp
    rw [followCursor]
    simp only [execCursor_served db conv cursor data after ask limit hs c, hf]
    have hplen : ((rest.take limit.toNat).map conv).length = min limit.toNat rest.length := by simp
    have hge : (UInt32.ofNat ((rest.take limit.toNat).map conv).length ≥ limit) ↔ limit.toNat ≤ rest.length := by
      rw [hplen, ge_iff_le, UInt32.le_iff_toNat_le]
      have : (UInt32.ofNat (min limit.toNat rest.length)).toNat = min limit.toNat rest.length := by
        rw [UInt32.toNat_ofNat']; apply Nat.mod_eq_of_lt; omega
      rw [this]; omega
    by_cases hm : limit.toNat ≤ rest.length
    · simp only [hge, hm, decide_true, if_true]
      -- the last row of the page
      obtain ⟨r, hr⟩ : ∃ r, (rest.take limit.toNat).getLast? = some r := by
        cases h : (rest.take limit.toNat).getLast? with
        | some r => exact ⟨r, rfl⟩
        | none =>
          rw [List.getLast?_eq_none_iff] at h
          have := congrArg List.length h
          rw [List.length_take] at this; simp only [List.length_nil] at this; omega
      have hsplit : rest.take limit.toNat = (rest.take limit.toNat).dropLast ++ [r] := by
        rw [List.getLast?_eq_some_iff] at hr
        obtain ⟨ys, hys⟩ := hr
        rw [hys]; simp
      have hd' : data = (pre ++ (rest.take limit.toNat).dropLast) ++ r :: rest.drop limit.toNat := by
        rw [hd]
        conv => lhs; rw [← List.take_append_drop limit.toNat rest, hsplit]
        simp
      have hfilter := filter_after ho _ r _ hd'
      have hlast : ((rest.take limit.toNat).map conv).getLast? = some (conv r) := by rw [List.getLast?_map, hr]; rfl
      rw [hlast]
      have hlen : (rest.drop limit.toNat).length = rest.length - limit.toNat := by simp
      have hdiv : rest.length / limit.toNat = (rest.length - limit.toNat) / limit.toNat + 1 := by
        have : rest.length = (rest.length - limit.toNat) + limit.toNat := by omega
        conv => lhs; rw [this, Nat.add_div_right _ hlpos]
      obtain ⟨pages, h1, h2, h3⟩ := ih (cursor (conv r)) (pre ++ rest.take limit.toNat) (rest.drop limit.toNat)
        (by rw [List.append_assoc, List.take_append_drop]; exact hd) hfilter (by rw [hlen]; omega)
      simp only
      rw [h1]
      refine ⟨_ :: pages, rfl, ?_, ?_⟩
      · rw [List.flatten_cons, h2, ← List.map_append, List.take_append_drop]
      · rw [List.length_cons, h3, hlen, hdiv]
    · simp only [hge, hm, decide_false, Bool.false_eq_true, if_false]
      refine ⟨_, rfl, ?_, ?_⟩
      · simp only [List.flatten_cons, List.flatten_nil, List.append_nil]
        rw [List.take_of_length_le (by omega)]
      · rw [Nat.div_eq_of_lt (by omega)]; rfl

/-- Following the cursor of the last row of each page, from a cursor before every row, gives every row exactly once, in order, in
⌊total/limit⌋ + 1 calls. -/
theorem C37_every_row_once (db : List (Arg V) → Answer R E) (conv : R → T) (cursor : T → Bytes) (data : List R) (hsize : data.length < 2 ^ 32)
    (after : Bytes → R → Bool) (ask : Bytes → QArgs V) (limit : UInt32) (hl : limit ≠ 0) (hs : ServesCursor db data after ask limit)
    (ho : OrderedBy data after (fun r => cursor (conv r))) (start : Bytes) (hstart : ∀ r ∈ data, after start r = true) :
    ∃ pages, followCursor (fun c => execCursor db (fun r => .ok (conv r)) cursor (ask c)) (data.length / limit.toNat + 1) start = some pages ∧
      pages.flatten = data.map conv ∧ pages.length = data.length / limit.toNat + 1 :=
  followCursor_eq db conv cursor data hsize after ask limit hl hs ho _ start [] data rfl (List.filter_eq_self.2 hstart) (Nat.le_refl _)

/-- Rows that are numbers, the cursor their decimal text. -/
def afterDec (c : Bytes) (r : Nat) : Bool := match Num.parseNat 10 c with
  | some k => k < r
  | none => false

/-- A strictly increasing table is ordered by its decimal cursor. -/
theorem orderedBy_dec (data : List Nat) (h : data.Pairwise (· < ·)) : OrderedBy data afterDec Num.dec := by
  intro pre r post hd
  subst hd
  rw [List.pairwise_append] at h
  obtain ⟨_, h2, h3⟩ := h
  rw [List.pairwise_cons] at h2
  have e : ∀ x, afterDec (Num.dec r) x = decide (r < x) := by
    intro x; simp [afterDec, Num.dec, Num.parse_fmtNat 10 (by omega) (by omega)]
  simp only [e, decide_eq_false_iff_not, decide_eq_true_eq]
  refine ⟨fun x hx => ?_, Nat.lt_irrefl r, h2.1⟩
  have := h3 x hx r (by simp)
  omega

/-- A database answering cursor queries. -/
def cursorDb (data : List Nat) : List (Arg Bytes) → Answer Nat Nat
  | [.other c, .u32 l] => .ok (.fresh (((data.filter (afterDec c)).take l.toNat).map fun r => ⟨r, none⟩) none none)
  | _ => .error 0

example (data : List Nat) : ServesCursor (cursorDb data) data afterDec (fun c => .plain [.other c, .u32 2]) 2 :=
  fun c => ⟨[.other c, .u32 2], ⟨rfl, [], _, _, rfl, .u32 2⟩, rfl⟩
example : followCursor (fun c => execCursor (cursorDb [3, 5, 8, 9, 11]) (fun r => .ok r) Num.dec (.plain [.other c, .u32 2])) 9 b!"0" =
    some [[3, 5], [8, 9], [11]] := by decide +kernel

end Query
