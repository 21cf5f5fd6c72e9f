import Verif.Query.Params
import Verif.Sql.Rows
/-
Model of query.go: list queries and pagination.
-/
namespace Query
open Sql
variable {V R T E : Type}

/-- `m.ScanRow(rows)`: the row is scanned and turned into a model (generated code, internal/cli/schema/template.go:119-130);
`conv` is what the model makes of a row, possibly an error. -/
def scanRow (conv : R → Except E T) (r : Rows R E) : Except (Err E) T :=
  match r.scan with
  | .error e => .error e
  | .ok v => match conv v with
    | .error e => .error (.drv e)
    | .ok t => .ok t

/-- query.go:44-52: the loop.  `rows.Err()` is not consulted after it. -/
def listLoop (conv : R → Except E T) : Nat → Rows R E → List T → Except (Err E) (List T) × Rows R E
  | 0, r, acc => (.ok acc, r)
  | fuel + 1, r, acc =>
    let (r, more) := r.next
    if !more then (.ok acc, r)
    else match scanRow conv r with
      | .error e => (.error e, r)
      | .ok m => listLoop conv fuel r (acc ++ [m])

/-- query.go:33-53 `ExecuteListQuery`: the list or the error, and the rows after the deferred `Close`. -/
def execList (db : List (Arg V) → Answer R E) (conv : R → Except E T) (args : List (Arg V)) : Except (Err E) (List T) × Option (Rows R E) :=
  match db args with
  | .error e => (.error (.drv e), none)
  | .ok rows =>
    let (res, r) := listLoop conv (rows.todo.length + 1) rows []
    (res, some r.close.1)

/-- query.go:22-30 `QueryRow`. -/
def queryOne (db : List (Arg V) → Answer R E) (conv : R → Except E T) (args : List (Arg V)) : Except (Err E) T :=
  match (rowScan (db args)).1 with
  | .error e => .error e
  | .ok v => match conv v with
    | .error e => .error (.drv e)
    | .ok t => .ok t

/-- The `args ...any` of the query functions: one `QueryParams`, or a list of values. -/
inductive QArgs (V : Type) where
  | params (b : Builder V)
  | plain (as : List (Arg V))

/-- What a query function does. -/
inductive PRes (T E : Type) where
  /-- `PageParam` panicked. -/
  | panic
  | err (e : Err E)
  /-- `res.SetResult(rows, hasNextPage, nextOffset)` was called. -/
  | set (rows : List T) (hasNextPage : Bool) (nextOffset : UInt32)
  deriving DecidableEq

/-- query.go:71-85: limit, offset and the arguments passed on; `none` is a panic. -/
def pageOf : QArgs V → Option (UInt32 × UInt32 × List (Arg V))
  | .params b => some (b.page.1, b.page.2, b.args)
  | .plain as =>
    match as.reverse with
    | o :: l :: _ => match pageParam l, pageParam o with
      | some l, some o => some (l, o, as)
      | _, _ => none
    | _ => some (0, 0, as)

/-- query.go:70-99 `ExecuteQueryWithPagination`. -/
def execPage (db : List (Arg V) → Answer R E) (conv : R → Except E T) (q : QArgs V) : PRes T E :=
  match pageOf q with
  | none => .panic
  | some (limit, offset, args) =>
    match (execList db conv args).1 with
    | .error e => .err e
    | .ok list =>
      let count := UInt32.ofNat list.length
      let hasNextPage := count ≥ limit
      let nextOffset := if hasNextPage then offset + count else 0
      .set list hasNextPage nextOffset

/-- query.go:105-118: limit and arguments passed on; `none` is a panic. -/
def cursorOf : QArgs V → Option (UInt32 × List (Arg V))
  | .params b => some (b.getCursor.1, b.args)
  | .plain as =>
    match as.reverse with
    | l :: _ :: _ => match pageParam l with
      | some l => some (l, as)
      | none => none
    | _ => some (0, as)

/-- The generated result type with `SetResultWithCursor`, internal/cli/schema/template.go:146-152: the cursor text is computed from the
last row when there is a next page. -/
inductive CRes (T E : Type) where
  | panic
  | err (e : Err E)
  | set (rows : List T) (hasNextPage : Bool) (cursor : Bytes)
  deriving DecidableEq

/-- query.go:104-131 `ExecuteQueryWithCursor` into a generated result. -/
def execCursor (db : List (Arg V) → Answer R E) (conv : R → Except E T) (cursor : T → Bytes) (q : QArgs V) : CRes T E :=
  match cursorOf q with
  | none => .panic
  | some (limit, args) =>
    match (execList db conv args).1 with
    | .error e => .err e
    | .ok list =>
      let hasNextPage : Bool := UInt32.ofNat list.length ≥ limit
      .set list hasNextPage (match list.getLast? with
        | some last => if hasNextPage then cursor last else []
        | none => [])

/-- query.go:135-149 `ExecuteQuery`. -/
def execAll (db : List (Arg V) → Answer R E) (conv : R → Except E T) (q : QArgs V) : PRes T E :=
  match (execList db conv (match q with | .params b => b.args | .plain as => as)).1 with
  | .error e => .err e
  | .ok list => .set list false 0

end Query
