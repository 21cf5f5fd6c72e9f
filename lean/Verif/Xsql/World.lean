import Verif.Xsql.Spec
/-
The process-wide part of xsql: the three dialects with their query caches, the pool of statement objects,
the statements in use.  xsql/dialect.go, xsql/cache.go, xsql/pool.go, xsql/stmt.go (String, Close, Clone, SubQuery, With, Union).

Statement objects are Go pointers; a statement in use is named here by a number (the variable that holds it).  That a value
per object is enough, although objects have slices and pooled buffers, is proved in Verif/Xsql/MemProps.lean (C93).  Use of a statement after `Close`, which the documentation forbids, is not modelled: the operation has no effect.
The pool (`sync.Pool`) may hand out any object put into it, or a new one: the choice is part of the operation.
-/
namespace Xsql

/-- State of the process. -/
structure World (α : Type) where
  /-- dialect.go:85 `cache`, one per dialect. -/
  cache : Dia → Bytes → Option Bytes := fun _ _ => none
  /-- dialect.go:86 `useNewLines`, initially true (dialect.go:91-95). -/
  newLines : Dia → Bool := fun _ => true
  /-- pool.go:10 `stmtPool`. -/
  pool : List (Stmt α) := []
  /-- The statements the program holds. -/
  live : Nat → Option (Stmt α) := fun _ => none

variable {α : Type}

/-- Assign a variable. -/
def World.set (w : World α) (h : Nat) (q : Option (Stmt α)) : World α := { w with live := fun i => if i = h then q else w.live i }

/-- cache.go:9-16 `GetCachedQuery`. -/
def World.getCached (w : World α) (d : Dia) (k : Bytes) : Option Bytes := w.cache d k

/-- cache.go:18-20 `PutCachedQuery`. -/
def World.putCached (w : World α) (d : Dia) (k sql : Bytes) : World α :=
  { w with cache := fun d' k' => if d' = d ∧ k' = k then some sql else w.cache d' k' }

/-- pool.go:19-27 `getStmt`: which pooled object is used (or a new one) is the pool's choice `pick`. -/
def World.getStmt (w : World α) (d : Dia) (pick : Option Nat) : World α × Stmt α :=
  let obj := match pick with
    | some i => (w.pool[i]?).getD {}
    | none => {}
  ({ w with pool := match pick with | some i => w.pool.eraseIdx i | none => w.pool },
    { obj with dialect := d, buf := [], name := [], sql := [], useNewLines := w.newLines d })

/-- pool.go:29-49 `reuseStmt` (stmt.go:993-995 `Close`): the object goes back to the pool, `pos`, `dialect` and
`useNewLines` keep their values. -/
def World.reuse (w : World α) (q : Stmt α) : World α :=
  { w with pool := { q with chunks := [], args := [], dest := [], buf := [], sql := [], name := [] } :: w.pool }

/-- stmt.go:914: the cache key, `values.StringsCoalesce(q.name, q.buf.String())` (first non-empty). -/
def Stmt.key (q : Stmt α) : Bytes := if q.name ≠ [] then q.name else q.buf

/-- stmt.go:910-944 `String`. -/
def World.str (w : World α) (q : Stmt α) : World α × Stmt α :=
  if q.sql ≠ [] then (w, q)
  else match w.getCached q.dialect q.key with
    | some s => (w, { q with sql := s })
    | none => (w.putCached q.dialect q.key q.render, { q with sql := q.render })

/-- stmt.go:842-845, 879-882: the inner statement is switched to NoDialect before rendering. -/
def Stmt.noDialect (q : Stmt α) : Stmt α := if q.dialect = .default then q else { q with dialect := .default, sql := [] }

/-- stmt.go:998-1012 `Clone`. -/
def World.clone (w : World α) (q : Stmt α) (pick : Option Nat) : World α × Stmt α :=
  let r := w.getStmt q.dialect pick
  (r.1, { r.2 with
    chunks := r.2.chunks ++ q.chunks, args := insertAt r.2.args q.args 0, dest := insertAt r.2.dest q.dest 0,
    buf := r.2.buf ++ q.buf, sql := q.sql })

/-- How a statement is embedded in another one (stmt.go:813-816, 834-890). -/
inductive Embed where
  | subQuery (pre suf : Bytes)
  | with_ (name : Bytes)
  | union (all : Bool)

/-- The builder call of an embedding, with the inner statement's text and arguments. -/
def Embed.toCall : Embed → Bytes → List α → Call α
  | .subQuery pre suf, s, as => .subQuery pre suf s as
  | .with_ n, s, as => .with_ n s as
  | .union all, s, as => .union all s as

/-- Operations of a program on the package.  `h` names the variable of the statement. -/
inductive Op (α : Type) where
  /-- `h := dialect.New/From/Select/...` starts with `getStmt`; the builder call follows as a `call`. -/
  | open (h : Nat) (d : Dia) (pick : Option Nat)
  /-- A builder method of `h` that does not involve another statement. -/
  | call (h : Nat) (c : Call α)
  /-- `h.SubQuery/With/Union(..., g)`. -/
  | embed (h g : Nat) (e : Embed)
  /-- `h.String()`. -/
  | str (h : Nat)
  /-- `h.SetName(n)`, stmt.go:501-504. -/
  | setName (h : Nat) (n : Bytes)
  /-- `h.Invalidate()`. -/
  | invalidate (h : Nat)
  /-- `h.UseNewLines(b)`, stmt.go:490-493. -/
  | stmtNewLines (h : Nat) (b : Bool)
  /-- `dialect.UseNewLines(b)`, dialect.go:117-119. -/
  | newLines (d : Dia) (b : Bool)
  /-- `h.Close()`. -/
  | close (h : Nat)
  /-- `g := h.Clone()`. -/
  | clone (h g : Nat) (pick : Option Nat)
  /-- `dialect.PutCachedQuery(k, s)`. -/
  | put (d : Dia) (k s : Bytes)

/-- One operation; the text is what `String` returns.  `ev` is the evaluation of `String` (see `World.step`). -/
def World.stepBy (ev : World α → Stmt α → World α × Stmt α) (w : World α) : Op α → World α × Option Bytes
  | .open h d pick => let r := w.getStmt d pick; (r.1.set h (some r.2), none)
  | .call h c => (match w.live h with | some q => w.set h (some (q.call c)) | none => w, none)
  | .embed h g e =>
    (match w.live h, w.live g with
      | some q, some p =>
        if h = g then w else
        let p := p.noDialect
        let r := ev w p
        ((r.1.set h (some (q.call (e.toCall r.2.sql p.args)))).set g none).reuse r.2
      | _, _ => w, none)
  | .str h => match w.live h with
    | some q => let r := ev w q; (r.1.set h (some r.2), some r.2.sql)
    | none => (w, none)
  | .setName h n => (match w.live h with | some q => w.set h (some { q with name := n }) | none => w, none)
  | .invalidate h => (match w.live h with | some q => w.set h (some q.invalidate) | none => w, none)
  | .stmtNewLines h b => (match w.live h with | some q => w.set h (some { q with useNewLines := b }) | none => w, none)
  | .newLines d b => ({ w with newLines := fun d' => if d' = d then b else w.newLines d' }, none)
  | .close h => (match w.live h with | some q => (w.set h none).reuse q | none => w, none)
  | .clone h g pick => (match w.live h with | some q => let r := w.clone q pick; r.1.set g (some r.2) | none => w, none)
  | .put d k s => (w.putCached d k s, none)

/-- One operation of the package. -/
def World.step (w : World α) (o : Op α) : World α × Option Bytes := w.stepBy World.str o

/-- A program: the operations in order, with the texts returned. -/
def World.runBy (ev : World α → Stmt α → World α × Stmt α) (w : World α) : List (Op α) → World α × List (Option Bytes)
  | [] => (w, [])
  | o :: os => let r := w.stepBy ev o; let r' := r.1.runBy ev os; (r'.1, r.2 :: r'.2)

/-- A program of the package. -/
def World.run (w : World α) (os : List (Op α)) : World α × List (Option Bytes) := w.runBy World.str os

/-- The state before anything happened. -/
def World.init : World α := {}

/-- cache.go:23-30 `GetOrCreateQuery`: on a hit the text is returned and `create` is not called; otherwise `create`'s
operations run, and the builder it returns (in variable `h`) is named and rendered.  No text if `h` holds no statement (a panic). -/
def World.getOrCreate (w : World α) (d : Dia) (name : Bytes) (create : List (Op α)) (h : Nat) : World α × Option Bytes :=
  match w.getCached d name with
  | some s => (w, some s)
  | none =>
    let w := (w.run create).1
    match w.live h with
    | some q => let r := w.str { q with name := name }; (r.1.set h (some r.2), some r.2.sql)
    | none => (w, none)

/-- Operations including `GetOrCreateQuery`. -/
inductive Act (α : Type) where
  | op (o : Op α)
  | getOrCreate (d : Dia) (name : Bytes) (create : List (Op α)) (h : Nat)

/-- One action. -/
def World.act (w : World α) : Act α → World α × Option Bytes
  | .op o => w.step o
  | .getOrCreate d name create h => w.getOrCreate d name create h

/-- A history of actions: the final state. -/
def World.acts (w : World α) (as : List (Act α)) : World α := as.foldl (fun w a => (w.act a).1) w

end Xsql
