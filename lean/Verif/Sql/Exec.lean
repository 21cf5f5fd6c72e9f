import Verif.Sql.Rows
import Verif.Xsql.World
/-
Model of xsql/executor.go: running a statement.
-/
namespace Sql
open Xsql
variable {R E α : Type}

/-- What the caller and the database can see of one `Query`. -/
inductive Event (R α : Type) where
  /-- The database gets the text and the arguments. -/
  | sent (text : Bytes) (args : List α)
  /-- The row was stored through these destinations. -/
  | scanned (dest : List Nat) (row : R)
  /-- The callback ran with this row current. -/
  | handled (row : R)
  deriving DecidableEq, Repr

/-- How a call ends. -/
inductive Ret (E : Type) where
  | ok
  | err (e : Err E)
  /-- The caller's callback panicked. -/
  | panic
  deriving DecidableEq, Repr

/-- An error value as a Go result. -/
def Ret.of : Option (Err E) → Ret E
  | none => .ok
  | some e => .err e

/-- What the loop of `Query` leaves with: fall through (with the scan error, if any), or a panic of the callback. -/
inductive LoopEnd (E : Type) where
  | done (scanErr : Option (Err E))
  | panic

/-- executor.go:31-42: the loop.  `handler row = true` stands for a callback that panics; `none` for a nil callback.
`fuel` bounds the number of turns (one more than the number of rows is enough, see `queryLoop_eq`). -/
def queryLoop (dest : List Nat) (handler : Option (R → Bool)) : Nat → Rows R E → List (Event R α) →
    LoopEnd E × Rows R E × List (Event R α)
  | 0, r, log => (.done none, r, log)
  | fuel + 1, r, log =>
    let (r, more) := r.next
    if !more then (.done none, r, log)
    else
      let sc : Option (Err E) × List (Event R α) :=
        if dest.length > 0 then
          match r.scan with
          | .error e => (some e, log)
          | .ok v => (none, log ++ [.scanned dest v])
        else (none, log)
      match sc with
      | (some e, log) => (.done (some e), r, log)
      | (none, log) =>
        match handler, r.cur with
        | some f, some x =>
          if f x.row then (.panic, r, log ++ [.handled x.row])
          else queryLoop dest handler fuel r (log ++ [.handled x.row])
        | _, _ => queryLoop dest handler fuel r log

/-- executor.go:43-54: after the loop: error of `Close`, else the scan error, else `rows.Err()`. -/
def queryEnd (scanErr : Option (Err E)) (r : Rows R E) : Ret E × Rows R E :=
  let (r, ce) := r.close
  (match ce with
    | some e => .err e
    | none => match scanErr with
      | some e => .err e
      | none => Ret.of r.err, r)

/-- Result of a run: what is returned, the rows afterwards (none if the query was refused), the events. -/
structure Run (R E α : Type) where
  ret : Ret E
  rows : Option (Rows R E)
  log : List (Event R α)

/-- executor.go:22-55 `Query`, once the text is computed: `db` answers the text and arguments. -/
def queryText (db : Bytes → List α → Answer R E) (text : Bytes) (args : List α) (dest : List Nat) (handler : Option (R → Bool)) :
    Run R E α :=
  match db text args with
  | .error e => ⟨.err (.drv e), none, [.sent text args]⟩
  | .ok rows =>
    match queryLoop dest handler (rows.todo.length + 1) rows [.sent text args] with
    | (.panic, r, log) => ⟨.panic, some r, log⟩
    | (.done se, r, log) => let (ret, r) := queryEnd se r; ⟨ret, some r, log⟩

/-- executor.go:22-55 `Query` of the statement held by variable `h`. -/
def query (db : Bytes → List α → Answer R E) (w : World α) (h : Nat) (handler : Option (R → Bool)) : World α × Option (Run R E α) :=
  match w.live h with
  | none => (w, none)
  | some q =>
    let r := w.str q
    (r.1.set h (some r.2), some (queryText db r.2.sql r.2.args r.2.dest handler))

/-- executor.go:70-73 `QueryRow`: the row stored through the destinations, or the error. -/
def queryRow (db : Bytes → List α → Answer R E) (w : World α) (h : Nat) :
    World α × Option (Ret E × Option (Rows R E) × List (Event R α)) :=
  match w.live h with
  | none => (w, none)
  | some q =>
    let r := w.str q
    let s := rowScan (db r.2.sql r.2.args)
    (r.1.set h (some r.2), some (
      match s.1 with
      | .ok v => (.ok, s.2, [.sent r.2.sql r.2.args, .scanned r.2.dest v])
      | .error e => (.err e, s.2, [.sent r.2.sql r.2.args])))

/-- executor.go:89-91 `Exec`: the database's answer is returned as it is. -/
def exec {X : Type} (db : Bytes → List α → X) (w : World α) (h : Nat) : World α × Option (X × List (Event R α)) :=
  match w.live h with
  | none => (w, none)
  | some q =>
    let r := w.str q
    (r.1.set h (some r.2), some (db r.2.sql r.2.args, [.sent r.2.sql r.2.args]))

/-- executor.go:62-66 `QueryAndClose`.  When the callback panics `Close` is not reached. -/
def queryAndClose (db : Bytes → List α → Answer R E) (w : World α) (h : Nat) (handler : Option (R → Bool)) :
    World α × Option (Run R E α) :=
  let r := query db w h handler
  match r.2 with
  | some run => (match run.ret with | .panic => r.1 | _ => (r.1.step (.close h)).1, some run)
  | none => r

/-- executor.go:81-85 `QueryRowAndClose`. -/
def queryRowAndClose (db : Bytes → List α → Answer R E) (w : World α) (h : Nat) :
    World α × Option (Ret E × Option (Rows R E) × List (Event R α)) :=
  let r := queryRow db w h
  ((r.1.step (.close h)).1, r.2)

/-- executor.go:97-101 `ExecAndClose`. -/
def execAndClose {X : Type} (db : Bytes → List α → X) (w : World α) (h : Nat) : World α × Option (X × List (Event R α)) :=
  let r := exec (R := R) db w h
  ((r.1.step (.close h)).1, r.2)

end Sql
