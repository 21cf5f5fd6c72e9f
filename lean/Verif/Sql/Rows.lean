import Verif.Base
/-
The part of Go's `database/sql` the repository reads results through: `Rows` (`Next`, `Scan`, `Err`, `Close`) and `Row.Scan`.
This is not code of the repository: it is the documented contract of the standard library, taken as an assumption.

What the driver delivers is an arbitrary finite stream: the rows it hands over (each with what `Scan` of that row says), and how
the stream ends: with `io.EOF`, or with an error (connection lost, context cancelled, server error) after any number of rows.
-/
namespace Sql

/-- Errors: the ones `database/sql` makes up, and the ones coming from the driver or from a conversion. -/
inductive Err (E : Type) where
  /-- `sql.ErrNoRows`. -/
  | noRows
  /-- "sql: Rows are closed". -/
  | rowsClosed
  /-- "sql: Scan called without calling Next". -/
  | notReady
  | drv (e : E)
  deriving DecidableEq, Repr

/-- A row as it arrives, and the error (if any) `Scan` reports for it (conversion failure, wrong number of destinations,
context cancelled between `Next` and `Scan`). -/
structure Fetched (R E : Type) where
  row : R
  scanErr : Option E := none
  deriving DecidableEq, Repr

/-- An open `*sql.Rows`. -/
structure Rows (R E : Type) where
  /-- Rows the driver is still going to deliver. -/
  todo : List (Fetched R E)
  /-- How the stream ends: `none` is `io.EOF`. -/
  fin : Option E := none
  /-- What the driver's `Close` reports. -/
  closeErr : Option E := none
  /-- The current row. -/
  cur : Option (Fetched R E) := none
  lasterr : Option E := none
  closed : Bool := false
  deriving DecidableEq, Repr

variable {R E : Type}

/-- `Rows.Close`: idempotent, does not affect `Err`. -/
def Rows.close (r : Rows R E) : Rows R E × Option (Err E) :=
  if r.closed then (r, none) else ({ r with closed := true }, r.closeErr.map .drv)

/-- `Rows.Next`: at the end of the stream, whatever the reason, the rows are closed automatically (an error of that close is
dropped) and the reason is kept for `Err`. -/
def Rows.next (r : Rows R E) : Rows R E × Bool :=
  if r.closed then (r, false)
  else match r.todo with
    | [] => ({ r with cur := none, lasterr := r.fin, closed := true }, false)
    | x :: xs => ({ r with todo := xs, cur := some x }, true)

/-- `Rows.Scan`. -/
def Rows.scan (r : Rows R E) : Except (Err E) R :=
  match r.lasterr with
  | some e => .error (.drv e)
  | none =>
    if r.closed then .error .rowsClosed
    else match r.cur with
      | none => .error .notReady
      | some x => match x.scanErr with
        | some e => .error (.drv e)
        | none => .ok x.row

/-- `Rows.Err`. -/
def Rows.err (r : Rows R E) : Option (Err E) := r.lasterr.map .drv

/-- What `QueryContext` returns. -/
abbrev Answer (R E : Type) := Except E (Rows R E)

/-- Freshly returned rows. -/
def Rows.fresh (rows : List (Fetched R E)) (fin closeErr : Option E) : Rows R E := { todo := rows, fin := fin, closeErr := closeErr }

/-- `Row.Scan` (what `QueryRowContext(..).Scan(..)` does): error of the query; `ErrNoRows` if there is no row; the error of the
scan; else the error of `Close`.  Also the rows afterwards, if there were any. -/
def rowScan (a : Answer R E) : Except (Err E) R × Option (Rows R E) :=
  match a with
  | .error e => (.error (.drv e), none)
  | .ok r =>
    let (r, ok) := r.next
    if ok then
      match r.scan with
      | .error e => (.error e, some r.close.1)
      | .ok v =>
        let (r, ce) := r.close
        (match ce with | some e => .error e | none => .ok v, some r)
    else
      (match r.err with | some e => .error e | none => .error .noRows, some r.close.1)

end Sql
