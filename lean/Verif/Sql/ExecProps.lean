import Verif.Sql.Exec
/-
C39: the statement executor returns all rows or an error.
-/
set_option linter.unusedSimpArgs false
set_option linter.unusedVariables false
namespace Sql
open Xsql
variable {R E α : Type}

/-! ### Specification -/

/-- What a driver may deliver for a query whose result set is `full`: the rows in order, possibly cut short; a stream that was cut
short ends with an error (the contract of `driver.Rows.Next`: `io.EOF` only when there are no more rows). -/
structure Delivers (full : List R) (r : Rows R E) : Prop where
  inOrder : r.todo.map Fetched.row <+: full
  complete : r.fin = none → r.todo.map Fetched.row = full
  isOpen : r.closed = false
  clean : r.lasterr = none

/-- What the caller sees for one row: the row is stored through the destinations (if any), then the callback runs (if any). -/
def rowEvents (dest : List Nat) (cb : Bool) (row : R) : List (Event R α) :=
  (if dest = [] then [] else [.scanned dest row]) ++ (if cb then [.handled row] else [])

/-- The rows before the first one that cannot be stored (all of them when there are no destinations). -/
def goodRows (dest : List Nat) (rows : List (Fetched R E)) : List (Fetched R E) :=
  if dest = [] then rows else rows.takeWhile fun x => x.scanErr.isNone

/-- The first scan error. -/
def firstScanErr (dest : List Nat) (rows : List (Fetched R E)) : Option E :=
  if dest = [] then none else rows.findSome? Fetched.scanErr

/-- The callback of a caller that does not panic. -/
def Calm (handler : Option (R → Bool)) : Prop := ∀ f, handler = some f → ∀ x, f x = false

/-! ### The loop -/

theorem next_cons (x : Fetched R E) (xs : List (Fetched R E)) (r : Rows R E) (ht : r.todo = x :: xs) (hc : r.closed = false) :
    r.next = ({ r with todo := xs, cur := some x }, true) := by
  simp [Rows.next, ht, hc]

theorem next_nil (r : Rows R E) (ht : r.todo = []) (hc : r.closed = false) :
    r.next = ({ r with cur := none, lasterr := r.fin, closed := true }, false) := by
  simp [Rows.next, ht, hc]

/-- Closed form of the loop. -/
theorem queryLoop_eq (dest : List Nat) (handler : Option (R → Bool)) (hcalm : Calm handler) :
    ∀ (n : Nat) (r : Rows R E) (log : List (Event R α)), r.todo.length < n → r.closed = false → r.lasterr = none →
      ∃ r', queryLoop dest handler n r log =
          (.done ((firstScanErr dest r.todo).map .drv), r',
            log ++ (goodRows dest r.todo).flatMap fun x => rowEvents dest handler.isSome x.row)
        ∧ r'.closeErr = r.closeErr
        ∧ (firstScanErr dest r.todo = none → r'.closed = true ∧ r'.lasterr = r.fin)
        ∧ (firstScanErr dest r.todo ≠ none → r'.closed = false) := by
  intro n
  induction n with
  | zero => intro r log h; omega
  | succ n ih =>
    intro r log hn hc hl
    rw [queryLoop]
    cases ht : r.todo with
    | nil =>
      rw [next_nil r ht hc]
      refine ⟨{ r with cur := none, lasterr := r.fin, closed := true }, ?_, ?_⟩
      · simp [firstScanErr, goodRows]
      · simp [firstScanErr]
    | cons x xs =>
      rw [next_cons x xs r ht hc]
      simp only [Bool.not_true, Bool.false_eq_true, if_false]
      have hlen : xs.length < n := by rw [ht] at hn; simpa using hn
      by_cases hd : dest = []
      · subst hd
        simp only [List.length_nil, Nat.lt_irrefl, if_false, gt_iff_lt]
        cases hh : handler with
        | none =>
          obtain ⟨r', h1, h2, h3, h4⟩ := ih { r with todo := xs, cur := some x } log hlen hc hl
          rw [hh] at h1
          refine ⟨r', ?_, h2, h3, h4⟩
          simp only
          rw [h1]
          simp [firstScanErr, goodRows, rowEvents]
        | some f =>
          simp only [hcalm f hh x.row, Bool.false_eq_true, if_false]
          obtain ⟨r', h1, h2, h3, h4⟩ := ih { r with todo := xs, cur := some x } (log ++ [.handled x.row]) hlen hc hl
          rw [hh] at h1
          refine ⟨r', ?_, h2, h3, h4⟩
          rw [h1]
          simp [firstScanErr, goodRows, rowEvents]
      · have hpos : dest.length > 0 := List.length_pos_iff.2 hd
        simp only [if_pos hpos]
        have hscan : ({ r with todo := xs, cur := some x } : Rows R E).scan =
            (match x.scanErr with | some e => .error (.drv e) | none => .ok x.row) := by
          simp only [Rows.scan, hl, hc, Bool.false_eq_true, if_false]
          cases x.scanErr <;> rfl
        rw [hscan]
        cases hx : x.scanErr with
        | some e =>
          refine ⟨{ r with todo := xs, cur := some x }, ?_, rfl, ?_, ?_⟩
          · simp [firstScanErr, goodRows, hd, hx]
          · simp [firstScanErr, hd, hx]
          · intro _; exact hc
        | none =>
          simp only
          have key : ∀ log' : List (Event R α), ∃ r', queryLoop dest handler n { r with todo := xs, cur := some x } log' =
              (.done ((firstScanErr dest (x :: xs)).map .drv), r',
                log' ++ (goodRows dest xs).flatMap fun x => rowEvents dest handler.isSome x.row)
            ∧ r'.closeErr = r.closeErr
            ∧ (firstScanErr dest (x :: xs) = none → r'.closed = true ∧ r'.lasterr = r.fin)
            ∧ (firstScanErr dest (x :: xs) ≠ none → r'.closed = false) := by
            intro log'
            obtain ⟨r', h1, h2, h3, h4⟩ := ih { r with todo := xs, cur := some x } log' hlen hc hl
            have e1 : firstScanErr dest (x :: xs) = firstScanErr dest xs := by
              simp [firstScanErr, hx]
            rw [e1]
            exact ⟨r', h1, h2, h3, h4⟩
          have e2 : goodRows dest (x :: xs) = x :: goodRows dest xs := by
            simp [goodRows, hd, hx]
          rw [e2]
          cases hh : handler with
          | none =>
            obtain ⟨r', h1, h2, h3, h4⟩ := key (log ++ [.scanned dest x.row])
            rw [hh] at h1
            refine ⟨r', ?_, h2, h3, h4⟩
            simp only
            rw [h1]
            simp [rowEvents, hd]
          | some f =>
            simp only [hcalm f hh x.row, Bool.false_eq_true, if_false]
            obtain ⟨r', h1, h2, h3, h4⟩ := key (log ++ [.scanned dest x.row] ++ [.handled x.row])
            rw [hh] at h1
            refine ⟨r', ?_, h2, h3, h4⟩
            rw [h1]
            simp [rowEvents, hd]

/-- The whole `Query` in closed form, for rows just returned by the database. -/
theorem queryText_eq (db : Bytes → List α → Answer R E) (text : Bytes) (args : List α) (dest : List Nat)
    (handler : Option (R → Bool)) (hcalm : Calm handler) (r : Rows R E) (hdb : db text args = .ok r)
    (hc : r.closed = false) (hl : r.lasterr = none) :
    ∃ r', queryText db text args dest handler = ⟨match firstScanErr dest r.todo, r.closeErr, r.fin with
          | some _, some c, _ => .err (.drv c)
          | some e, none, _ => .err (.drv e)
          | none, _, some e => .err (.drv e)
          | none, _, none => .ok, some r',
        .sent text args :: (goodRows dest r.todo).flatMap fun x => rowEvents dest handler.isSome x.row⟩
      ∧ r'.closed = true := by
  obtain ⟨r', h1, h2, h3, h4⟩ := queryLoop_eq (α := α) dest handler hcalm (r.todo.length + 1) r [.sent text args] (by omega) hc hl
  simp only [queryText, hdb]
  rw [h1]
  cases hs : firstScanErr dest r.todo with
  | none =>
    obtain ⟨h5, h6⟩ := h3 hs
    refine ⟨r', ?_, h5⟩
    simp only [Option.map_none, queryEnd, Rows.close, h5, if_true, Rows.err, h6]
    cases r.closeErr <;> cases r.fin <;> rfl
  | some e =>
    have h5 := h4 (by rw [hs]; simp)
    refine ⟨{ r' with closed := true }, ?_, rfl⟩
    simp only [Option.map_some, queryEnd, Rows.close, h5, Bool.false_eq_true, if_false, h2]
    cases r.closeErr <;> cases r.fin <;> rfl

theorem goodRows_all (dest : List Nat) (rows : List (Fetched R E)) (h : firstScanErr dest rows = none) : goodRows dest rows = rows := by
  unfold firstScanErr at h
  unfold goodRows
  split
  · rfl
  · rename_i hd
    rw [if_neg hd, List.findSome?_eq_none_iff] at h
    induction rows with
    | nil => rfl
    | cons x xs ih =>
      rw [List.takeWhile_cons, h x (by simp)]
      simp only [Option.isNone_none, if_true]
      rw [ih (fun y hy => h y (by simp [hy]))]

theorem goodRows_prefix (dest : List Nat) (rows : List (Fetched R E)) : goodRows dest rows <+: rows := by
  unfold goodRows
  split
  · exact List.prefix_refl _
  · exact List.takeWhile_prefix _

/-! ### C39 -/

/-- If `Query` returns no error, then the whole result set was read: for every row of it, in order, the row was stored through the
destinations and then the callback was called; nothing else happened. -/
theorem C39_all_rows_or_error (db : Bytes → List α → Answer R E) (text : Bytes) (args : List α) (dest : List Nat)
    (handler : Option (R → Bool)) (hcalm : Calm handler) (full : List R) (r : Rows R E) (hdb : db text args = .ok r)
    (hd : Delivers full r) (hok : (queryText db text args dest handler).ret = .ok) :
    (queryText db text args dest handler).log = .sent text args :: full.flatMap (rowEvents dest handler.isSome) := by
  obtain ⟨r', h, _⟩ := queryText_eq db text args dest handler hcalm r hdb hd.isOpen hd.clean
  rw [h] at hok ⊢
  have hs : firstScanErr dest r.todo = none ∧ r.fin = none := by
    cases h1 : firstScanErr dest r.todo <;> cases h2 : r.closeErr <;> cases h3 : r.fin <;> simp [h1, h2, h3] at hok ⊢
  rw [goodRows_all dest r.todo hs.1, ← hd.complete hs.2, List.flatMap_map]

/-- `Query` returns an error exactly when the database refused the query, the stream was cut short, or a row could not be stored. -/
theorem C39_every_error_is_reported (db : Bytes → List α → Answer R E) (text : Bytes) (args : List α) (dest : List Nat)
    (handler : Option (R → Bool)) (hcalm : Calm handler)
    (hfresh : ∀ r, db text args = .ok r → r.closed = false ∧ r.lasterr = none) :
    (queryText db text args dest handler).ret = .ok ↔
      ∃ r, db text args = .ok r ∧ r.fin = none ∧ (dest ≠ [] → ∀ x ∈ r.todo, x.scanErr = none) := by
  cases hdb : db text args with
  | error e => simp [queryText, hdb]
  | ok r =>
    obtain ⟨hc, hl⟩ := hfresh r hdb
    obtain ⟨r', h, _⟩ := queryText_eq db text args dest handler hcalm r hdb hc hl
    rw [h]
    have hiff : firstScanErr dest r.todo = none ↔ (dest ≠ [] → ∀ x ∈ r.todo, x.scanErr = none) := by
      unfold firstScanErr
      by_cases hd : dest = []
      · simp [hd]
      · simp [hd, List.findSome?_eq_none_iff]
    simp only [Except.ok.injEq, exists_eq_left']
    rw [← hiff]
    cases h1 : firstScanErr dest r.todo <;> cases h2 : r.closeErr <;> cases h3 : r.fin <;> simp

/-- When reading stops early, what the callback saw is the beginning of the result set, in order: no row twice, none skipped. -/
theorem C39_rows_in_order (db : Bytes → List α → Answer R E) (text : Bytes) (args : List α) (dest : List Nat)
    (handler : Option (R → Bool)) (hcalm : Calm handler) (full : List R) (r : Rows R E) (hdb : db text args = .ok r)
    (hd : Delivers full r) :
    ∃ seen, seen <+: full ∧
      (queryText db text args dest handler).log = .sent text args :: seen.flatMap (rowEvents dest handler.isSome) := by
  obtain ⟨r', h, _⟩ := queryText_eq db text args dest handler hcalm r hdb hd.isOpen hd.clean
  refine ⟨(goodRows dest r.todo).map Fetched.row, ?_, ?_⟩
  · exact ((goodRows_prefix dest r.todo).map _).trans hd.inOrder
  · rw [h, List.flatMap_map]

/-- The error returned when a row cannot be stored is that error (or, if closing fails as well, the error of closing); when the
stream is cut short it is the error it was cut with. -/
theorem C39_which_error (db : Bytes → List α → Answer R E) (text : Bytes) (args : List α) (dest : List Nat)
    (handler : Option (R → Bool)) (hcalm : Calm handler) (r : Rows R E) (hdb : db text args = .ok r)
    (hc : r.closed = false) (hl : r.lasterr = none) :
    ((dest = [] ∨ ∀ x ∈ r.todo, x.scanErr = none) →
        (queryText db text args dest handler).ret = Ret.of (r.fin.map .drv)) ∧
    (∀ pre x post e, dest ≠ [] → r.todo = pre ++ x :: post → (∀ y ∈ pre, y.scanErr = none) → x.scanErr = some e →
        (queryText db text args dest handler).ret = .err (.drv (r.closeErr.getD e))) := by
  obtain ⟨r', h, _⟩ := queryText_eq db text args dest handler hcalm r hdb hc hl
  rw [h]
  constructor
  · intro hs
    have h1 : firstScanErr dest r.todo = none := by
      unfold firstScanErr
      rcases hs with rfl | hs
      · rfl
      · split
        · rfl
        · exact List.findSome?_eq_none_iff.2 hs
    rw [h1]
    cases r.fin <;> cases r.closeErr <;> rfl
  · intro pre x post e hd ht hp hx
    have h1 : firstScanErr dest r.todo = some e := by
      unfold firstScanErr
      rw [if_neg hd, ht, List.findSome?_append, List.findSome?_eq_none_iff.2 hp]
      simp [hx]
    rw [h1]
    cases r.closeErr <;> rfl

/-- Whatever happens, as long as the callback does not panic, no rows are left open. -/
theorem C39_rows_are_closed (db : Bytes → List α → Answer R E) (text : Bytes) (args : List α) (dest : List Nat)
    (handler : Option (R → Bool)) (hcalm : Calm handler)
    (hfresh : ∀ r, db text args = .ok r → r.closed = false ∧ r.lasterr = none) :
    ∀ r, (queryText db text args dest handler).rows = some r → r.closed = true := by
  intro r hr
  cases hdb : db text args with
  | error e => simp [queryText, hdb] at hr
  | ok r0 =>
    obtain ⟨hc, hl⟩ := hfresh r0 hdb
    obtain ⟨r', h, h'⟩ := queryText_eq db text args dest handler hcalm r0 hdb hc hl
    rw [h] at hr
    simp only [Option.some.injEq] at hr
    exact hr ▸ h'

/-- Two rows, the stream cut with error 9 after them. -/
def sampleCut : Rows Nat Nat := .fresh [⟨10, none⟩, ⟨11, none⟩] (some 9) none
/-- Three rows, complete. -/
def sampleAll : Rows Nat Nat := .fresh [⟨10, none⟩, ⟨11, none⟩, ⟨12, none⟩] none (some 3)
/-- The second row cannot be stored. -/
def sampleBad : Rows Nat Nat := .fresh [⟨10, none⟩, ⟨11, some 4⟩, ⟨12, none⟩] none none

/-- Without the calm-callback hypothesis it is false: a callback that panics leaves the rows (and their connection) open, because
`Close` is not deferred (executor.go:31-46). -/
theorem C39_panicking_callback_leaks_rows :
    ∃ (db : Bytes → List Nat → Answer Nat Nat) (handler : Option (Nat → Bool)) (r : Rows Nat Nat),
      (queryText db b!"SELECT 1" [] [] handler).rows = some r ∧ r.closed = false :=
  ⟨fun _ _ => .ok sampleAll, some fun _ => true, { sampleAll with todo := [⟨11, none⟩, ⟨12, none⟩], cur := some ⟨10, none⟩ }, by decide, rfl⟩

example : Delivers [10, 11, 12] sampleCut := ⟨⟨[12], rfl⟩, fun h => (Option.some_ne_none _ h).elim, rfl, rfl⟩
example : Delivers [10, 11, 12] sampleAll := ⟨⟨[], rfl⟩, fun _ => rfl, rfl, rfl⟩
example : (queryText (fun _ (_ : List Nat) => .ok sampleAll) b!"q" [5] [1, 2] (some fun _ => false)).ret = .ok := by decide
example : (queryText (fun _ (_ : List Nat) => .ok sampleAll) b!"q" [5] [1] (some fun _ => false)).log =
    [.sent b!"q" [5], .scanned [1] 10, .handled 10, .scanned [1] 11, .handled 11, .scanned [1] 12, .handled 12] := by decide
example : (queryText (fun _ (_ : List Nat) => .ok sampleCut) b!"q" [5] [1] none).ret = .err (.drv 9) := by decide
example : (queryText (fun _ (_ : List Nat) => .ok sampleBad) b!"q" [5] [1] (some fun _ => false)).ret = .err (.drv 4) := by decide
example : (queryText (fun _ (_ : List Nat) => .ok sampleBad) b!"q" [5] [] (some fun _ => false)).ret = .ok := by decide

/-- `QueryRow`: the statement's text and arguments are sent; with a row, the first one is stored; with none, the result is
`ErrNoRows`; a refused query, a row that cannot be stored and a stream cut before the first row are reported; the rows are closed. -/
theorem C39_query_row (db : Bytes → List α → Answer R E) (w : World α) (h : Nat) (q : Stmt α) (hq : w.live h = some q)
    (hfresh : ∀ t as r, db t as = .ok r → r.closed = false ∧ r.lasterr = none) :
    ∃ text, (w.step (.str h)).2 = some text ∧ ∃ res, (queryRow db w h).2 = some res ∧
      (∀ e, db text q.args = .error e → res = (.err (.drv e), none, [.sent text q.args])) ∧
      (∀ r, db text q.args = .ok r →
        (r.todo = [] → r.fin = none → res.1 = .err .noRows) ∧
        (∀ e, r.todo = [] → r.fin = some e → res.1 = .err (.drv e)) ∧
        (∀ x xs e, r.todo = x :: xs → x.scanErr = some e → res.1 = .err (.drv e)) ∧
        (∀ x xs, r.todo = x :: xs → x.scanErr = none →
          res.1 = Ret.of (r.closeErr.map .drv) ∧
          (r.closeErr = none → res.2.2 = [.sent text q.args, .scanned q.dest x.row])) ∧
        (∃ r', res.2.1 = some r' ∧ r'.closed = true)) := by
  have hargs : (w.str q).2.args = q.args ∧ (w.str q).2.dest = q.dest := by
    unfold World.str; split
    · exact ⟨rfl, rfl⟩
    · split <;> exact ⟨rfl, rfl⟩
  refine ⟨(w.str q).2.sql, ?_, ?_⟩
  · simp [World.step, World.stepBy, hq]
  simp only [queryRow, hq, hargs.1, hargs.2]
  refine ⟨_, rfl, ?_, ?_⟩
  · intro e he
    rw [he]; rfl
  · intro r hr
    obtain ⟨hc, hl⟩ := hfresh _ _ _ hr
    rw [hr]
    cases ht : r.todo with
    | nil =>
      have hn := next_nil r ht hc
      refine ⟨?_, ?_, by intro x xs e h; simp at h, by intro x xs h; simp at h, ?_⟩
      · intro _ hf; simp [rowScan, hn, Rows.err, hf]
      · intro e _ hf; simp [rowScan, hn, Rows.err, hf]
      · simp only [rowScan, hn, Bool.false_eq_true, if_false, Rows.err, Rows.close, if_true]
        cases r.fin <;> exact ⟨_, rfl, rfl⟩
    | cons x xs =>
      have hn := next_cons x xs r ht hc
      refine ⟨by intro h; simp at h, by intro e h; simp at h, ?_, ?_, ?_⟩
      · intro y ys e h hy
        cases h
        simp [rowScan, hn, Rows.scan, hl, hc, hy]
      · intro y ys h hy
        cases h
        simp only [rowScan, hn, if_true, Rows.scan, hl, hc, Bool.false_eq_true, if_false, hy, Rows.close]
        cases hce : r.closeErr <;> simp [Ret.of]
      · simp only [rowScan, hn, if_true, Rows.scan, hl, hc, Bool.false_eq_true, if_false]
        cases hs : x.scanErr with
        | some e => exact ⟨_, rfl, by simp [Rows.close, hc]⟩
        | none =>
          simp only [Rows.close, hc, Bool.false_eq_true, if_false]
          cases hce : r.closeErr <;> exact ⟨_, rfl, rfl⟩

/-- `Query` and `Exec` send exactly the text `String` returns and the statement's arguments; `Exec` returns the database's answer. -/
theorem C39_sends_own_text_and_args (db : Bytes → List α → Answer R E) {X : Type} (dbx : Bytes → List α → X) (w : World α) (h : Nat)
    (q : Stmt α) (hq : w.live h = some q) (handler : Option (R → Bool)) :
    ∃ text, (w.step (.str h)).2 = some text ∧
      (query db w h handler).2 = some (queryText db text q.args q.dest handler) ∧
      (exec (R := R) dbx w h).2 = some (dbx text q.args, [.sent text q.args]) ∧
      (query db w h handler).1 = (w.step (.str h)).1 ∧ (exec (R := R) dbx w h).1 = (w.step (.str h)).1 := by
  have hargs : (w.str q).2.args = q.args ∧ (w.str q).2.dest = q.dest := by
    unfold World.str; split
    · exact ⟨rfl, rfl⟩
    · split <;> exact ⟨rfl, rfl⟩
  refine ⟨(w.str q).2.sql, ?_, ?_⟩
  · simp [World.step, World.stepBy, hq]
  · simp [query, exec, hq, hargs, World.step, World.stepBy]

/-- The `...AndClose` forms return what the plain forms return, and give the statement back (unless the callback panics). -/
theorem C39_and_close (db : Bytes → List α → Answer R E) {X : Type} (dbx : Bytes → List α → X) (w : World α) (h : Nat)
    (q : Stmt α) (hq : w.live h = some q) (handler : Option (R → Bool)) :
    (queryAndClose db w h handler).2 = (query db w h handler).2 ∧
    (queryRowAndClose db w h).2 = (queryRow db w h).2 ∧
    (execAndClose (R := R) dbx w h).2 = (exec (R := R) dbx w h).2 ∧
    (queryRowAndClose db w h).1.live h = none ∧ (execAndClose (R := R) dbx w h).1.live h = none ∧
    (∀ run, (query db w h handler).2 = some run → run.ret ≠ .panic → (queryAndClose db w h handler).1.live h = none) := by
  have hclose : ∀ w' : World α, ∀ q' : Stmt α, ((w'.set h (some q')).step (.close h)).1.live h = none := by
    intro w' q'
    simp [World.step, World.stepBy, World.set, World.reuse]
  refine ⟨?_, rfl, rfl, ?_, ?_, ?_⟩
  · simp only [queryAndClose]
    cases hr : (query db w h handler).2 with
    | none => simp [hr]
    | some run => rfl
  · simp only [queryRowAndClose, queryRow, hq]; exact hclose _ _
  · simp only [execAndClose, exec, hq]; exact hclose _ _
  · intro run hrun hp
    simp only [queryAndClose, hrun]
    cases hret : run.ret with
    | panic => exact absurd hret hp
    | ok => simp only [query, hq]; exact hclose _ _
    | err e => simp only [query, hq]; exact hclose _ _

example : (((World.init (α := Nat)).step (.open 0 .postgres none)).1.live 0).isSome = true := by decide
example : let w := ((World.init (α := Nat)).step (.open 0 .postgres none)).1
    let w := (w.step (.call 0 (.select b!"a" []))).1
    (queryRow (R := Nat) (E := Nat) (fun _ _ => .ok (.fresh [] none none)) w 0).2.map (·.1) = some (.err .noRows) := by decide

end Sql
