import Verif.Xsql.World
/-
Several goroutines using the package at the same time.  xsql/cache.go, xsql/pool.go, xsql/stmt.go (String, SubQuery, With, Union).

What goroutines share: the query cache of each dialect (dialect.go:84, a `sync.Map`), the pool of statement objects (pool.go:10,
a `sync.Pool`) and the pool of buffers.  `Load`, `Store`, `Get` and `Put` of these are atomic (the contract of package sync); everything else a
goroutine does here is on objects it took from the pools, which no other goroutine has (C93).  So an operation is split where it makes more
than one access to shared state: `String()` is a `Load` and, on a miss, a later `Store`; embedding is that plus the `Put` of the
inner statement; `GetOrCreateQuery` is a `Load` and, on a miss, the builder's operations and a `String()`.

`Dialect.UseNewLines` writes a plain `bool` (dialect.go:117-119) that every constructor reads (pool.go:25): calling it while other
goroutines use the dialect is a data race, it is only modelled before the goroutines start.
-/
namespace Xsql
variable {α : Type}

/-- What a goroutine gets back: from `String()` the text, with `Args()` and `Dest()` of the statement then; from `GetOrCreateQuery` the text. -/
inductive Seen (α : Type) where
  | stmt (sql : Bytes) (args : List α) (dest : List Nat)
  | query (sql : Bytes)
  deriving DecidableEq, Repr

/-- What becomes of the text a `String()` returns. -/
inductive Use where
  /-- Returned to the program. -/
  | stmt
  /-- Returned by `GetOrCreateQuery`. -/
  | query
  /-- Used inside the package, or dropped by the function passed to `GetOrCreateQuery`. -/
  | inside

/-- The atomic steps of goroutines. -/
inductive Micro (α : Type) where
  /-- An operation with at most one access to shared state. -/
  | op (o : Op α)
  /-- stmt.go:911-917: the memo, else the key and the `Load`. -/
  | load (h : Nat)
  /-- stmt.go:918-944: after a miss the text is built and stored; the text is returned. -/
  | store (h : Nat) (use : Use)
  /-- stmt.go:842-845, 879-882: the inner statement `g` is switched to NoDialect. -/
  | detach (h g : Nat)
  /-- stmt.go:839-852, 874-887: the inner statement's text and arguments go into the outer one, the inner one is closed. -/
  | join (h g : Nat) (e : Embed)
  /-- cache.go:24-26: on a hit the text is returned and the next `n` steps do not take place. -/
  | lookup (d : Dia) (name : Bytes) (n : Nat)

/-- The steps of an operation. -/
def Op.micros (use : Use) : Op α → List (Micro α)
  | .str h => [.load h, .store h use]
  | .embed h g e => [.detach h g, .load g, .store g .inside, .join h g e]
  | o => [.op o]

/-- cache.go:27-29: the steps of `GetOrCreateQuery` on a miss. -/
def createMicros (name : Bytes) (create : List (Op α)) (h : Nat) : List (Micro α) :=
  create.flatMap (Op.micros .inside) ++ [.op (.setName h name), .load h, .store h .query]

/-- The steps of an action. -/
def Act.micros : Act α → List (Micro α)
  | .op o => o.micros .stmt
  | .getOrCreate d name create h => .lookup d name (createMicros name create h).length :: createMicros name create h

/-- A goroutine: what it has still to do, whether its last `Load` missed, what it got back so far. -/
structure Thread (α : Type) where
  todo : List (Micro α)
  missed : Bool := false
  got : List (Seen α) := []

/-- What `String()` on `q` gives the goroutine. -/
def Use.seen (u : Use) (sql : Bytes) (q : Stmt α) : List (Seen α) := match u with
  | .stmt => [.stmt sql q.args q.dest]
  | .query => [.query sql]
  | .inside => []

/-- The result of an atomic step: the shared state, whether a `Load` missed, how many steps are left out, what the goroutine gets back. -/
structure Done (α : Type) where
  world : World α
  missed : Bool := false
  skip : Nat := 0
  got : List (Seen α) := []

/-- One atomic step. -/
def World.micro (w : World α) (missed : Bool) : Micro α → Done α
  | .op o => { world := (w.step o).1 }
  | .load h => match w.live h with
    | none => { world := w }
    | some q =>
      if q.sql ≠ [] then { world := w }
      else match w.getCached q.dialect q.key with
        | some s => { world := w.set h (some { q with sql := s }) }
        | none => { world := w, missed := true }
  | .store h use => match w.live h with
    | none => { world := w }
    | some q =>
      if missed then { world := (w.putCached q.dialect q.key q.render).set h (some { q with sql := q.render }), got := use.seen q.render q }
      else { world := w, got := use.seen q.sql q }
  | .detach h g => match w.live h, w.live g with
    | some _, some p => if h = g then { world := w, skip := 3 } else { world := w.set g (some p.noDialect) }
    | _, _ => { world := w, skip := 3 }
  | .join h g e => match w.live h, w.live g with
    | some q, some p => { world := ((w.set h (some (q.call (e.toCall p.sql p.args)))).set g none).reuse p }
    | _, _ => { world := w }
  | .lookup d name n => match w.getCached d name with
    | some s => { world := w, skip := n, got := [.query s] }
    | none => { world := w }

/-- The process with its goroutines. -/
structure Sys (α : Type) where
  world : World α
  thread : Nat → Thread α

/-- Goroutine `t` makes its next step. -/
def Sys.step (s : Sys α) (t : Nat) : Sys α :=
  match (s.thread t).todo with
  | [] => s
  | m :: ms =>
    let r := s.world.micro (s.thread t).missed m
    { world := r.world
      thread := fun i => if i = t then { todo := ms.drop r.skip, missed := r.missed, got := (s.thread t).got ++ r.got } else s.thread i }

/-- A schedule says which goroutine is next. -/
def Sys.run (s : Sys α) (sched : List Nat) : Sys α := sched.foldl Sys.step s

/-- Goroutines with their programs, started in a state of the process. -/
def Sys.start (w : World α) (prog : Nat → List (Act α)) : Sys α :=
  { world := w, thread := fun t => { todo := (prog t).flatMap Act.micros } }

end Xsql
