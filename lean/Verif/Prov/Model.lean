import Verif.Base
/-!
Model of `xdb.SQLProvider` (prov.go) over one `*sql.DB`.

`database/sql` is modelled from its documentation: a `*sql.DB` is open or closed (closing marks it closed even when the
driver reports an error, closing again is a no-op without error), a `*sql.Tx` is open or done, the first `Commit` or `Rollback`
ends it whatever the driver answers, every later use returns `ErrTxDone`.  What reaches the database is recorded in a trace.
The outcome of each call to the driver is a Boolean chosen by the environment.
-/
namespace Prov

/-- `sql.TxOptions`. -/
structure TxOptions where
  isolation : Nat
  readOnly : Bool
  deriving DecidableEq, Repr

/-- `nil` options: the defaults. -/
def TxOptions.default : TxOptions := ⟨0, false⟩

/-- What reaches the database. -/
inductive Ev where
  | begin (t : Nat) (opts : TxOptions)
  | exec (tx : Option Nat) (stmt : Bytes)
  | commit (t : Nat) (ok : Bool)
  | rollback (t : Nat) (ok : Bool)
  | close (ok : Bool)
  deriving DecidableEq, Repr

/-- What a caller sees. -/
inductive Res where
  | ok
  | provider (p : Nat)
  | alreadyStarted    -- "transaction already started"
  | noTransaction     -- "no transaction started"
  | txDone            -- sql.ErrTxDone
  | dbClosed          -- "sql: database is closed"
  | driver            -- an error of the driver
  | panic             -- nil pointer dereference
  | noSuch            -- not a call: no provider of that number
  deriving DecidableEq, Repr

/-- prov.go:15-24 `SQLProvider`: `tx`, and whether `conn` is non-nil. (`db` is `tx` if there is one, else the `*sql.DB` of `conn`;
the ticker is modelled in `Prov.KeepAlive`; name and id generator play no part here.) -/
structure SQLProvider where
  tx : Option Nat
  conn : Bool
  deriving DecidableEq, Repr

structure World where
  closed : Bool                -- the *sql.DB
  done : List Bool             -- the *sql.Tx objects made so far
  provs : List SQLProvider
  trace : List Ev
  deriving DecidableEq, Repr

def World.init : World := ⟨false, [], [], []⟩

/-- A call by a client; `drv` is the answer of the driver should it be asked. -/
inductive Op where
  | new
  | begin (p : Nat) (opts : TxOptions) (drv : Bool)
  | exec (p : Nat) (stmt : Bytes) (drv : Bool)
  | commit (p : Nat) (drv : Bool)
  | rollback (p : Nat) (drv : Bool)
  | close (p : Nat) (drv : Bool)
  | cancel (t : Nat)           -- the context of transaction `t` is cancelled
  deriving DecidableEq, Repr

/-- `sql.Tx.Commit`. -/
def txCommit (w : World) (t : Nat) (drv : Bool) : World × Res :=
  if w.done.getD t true then (w, .txDone)
  else ({ w with done := w.done.set t true, trace := w.trace ++ [.commit t drv] }, if drv then .ok else .driver)

/-- `sql.Tx.Rollback`. -/
def txRollback (w : World) (t : Nat) (drv : Bool) : World × Res :=
  if w.done.getD t true then (w, .txDone)
  else ({ w with done := w.done.set t true, trace := w.trace ++ [.rollback t drv] }, if drv then .ok else .driver)

/-- `sql.DB.Close`. -/
def dbClose (w : World) (drv : Bool) : World × Res :=
  if w.closed then (w, .ok)
  else ({ w with closed := true, trace := w.trace ++ [.close drv] }, if drv then .ok else .driver)

/-- prov.go:27-41 `New`. -/
def newProvider (w : World) : World × Res := ({ w with provs := w.provs ++ [⟨none, true⟩] }, .provider w.provs.length)

/-- prov.go:85-102 `BeginTx`: the options are not passed on (`p.conn.BeginTx(ctx, nil)`). -/
def beginTx (w : World) (p : SQLProvider) (_opts : TxOptions) (drv : Bool) : World × Res :=
  match p.tx with
  | some _ => (w, .alreadyStarted)
  | none =>
    if !p.conn then (w, .panic)
    else if w.closed then (w, .dbClosed)
    else if !drv then (w, .driver)
    else
      ({ w with done := w.done ++ [false], provs := w.provs ++ [⟨some w.done.length, p.conn⟩],
                trace := w.trace ++ [.begin w.done.length .default] }, .provider w.provs.length)

/-- prov.go:146-167 `QueryContext`, `QueryRowContext`, `ExecContext` through `p.db`. -/
def exec (w : World) (p : SQLProvider) (stmt : Bytes) (drv : Bool) : World × Res :=
  match p.tx with
  | some t =>
    if w.done.getD t true then (w, .txDone)
    else ({ w with trace := w.trace ++ [.exec (some t) stmt] }, if drv then .ok else .driver)
  | none =>
    if w.closed then (w, .dbClosed)
    else ({ w with trace := w.trace ++ [.exec none stmt] }, if drv then .ok else .driver)

/-- prov.go:169-174 `Commit`. -/
def commit (w : World) (p : SQLProvider) (drv : Bool) : World × Res :=
  match p.tx with
  | none => (w, .noTransaction)
  | some t => txCommit w t drv

/-- prov.go:176-185 `Rollback`. -/
def rollback (w : World) (p : SQLProvider) (drv : Bool) : World × Res :=
  match p.tx with
  | none => (w, .noTransaction)
  | some t =>
    match txRollback w t drv with
    | (w', .txDone) => (w', .ok)
    | r => r

/-- prov.go:105-124 `Close` of provider number `i` (without the ticker). -/
def close (w : World) (i : Nat) (p : SQLProvider) (drv : Bool) : World × Res :=
  if !p.conn then (w, .ok)
  else
    match p.tx with
    | some _ => rollback w p drv
    | none =>
      match dbClose w drv with
      | (w', .ok) => ({ w' with provs := w'.provs.set i { p with conn := false } }, .ok)
      | r => r

def step (w : World) : Op → World × Res
  | .new => newProvider w
  | .begin i opts drv => match w.provs[i]? with
    | none => (w, .noSuch)
    | some p => beginTx w p opts drv
  | .exec i stmt drv => match w.provs[i]? with
    | none => (w, .noSuch)
    | some p => exec w p stmt drv
  | .commit i drv => match w.provs[i]? with
    | none => (w, .noSuch)
    | some p => commit w p drv
  | .rollback i drv => match w.provs[i]? with
    | none => (w, .noSuch)
    | some p => rollback w p drv
  | .close i drv => match w.provs[i]? with
    | none => (w, .noSuch)
    | some p => close w i p drv
  | .cancel t => ((txRollback w t true).1, .ok)

/-- Run a history. -/
def run (ops : List Op) : World := ops.foldl (fun w o => (step w o).1) World.init

end Prov
