import Verif.Xsql.MemModel
/-
What a program that uses xsql is entitled to see, with no memory at all: a statement is a value, `Args()` gives a copy of its
arguments, a slice variable holds a list.  And which programs the documentation allows.
-/
namespace Xsql
variable {α : Type}

/-- A list of arguments in a variable; if it came from `Args()`: of which statement, and from which element on. -/
structure ArgVar (α : Type) where
  val : List α
  from_ : Option (Nat × Nat) := none

/-- The program's view: statements (World.lean) and argument lists, all of them values. -/
structure View (α : Type) where
  world : World α := {}
  /-- none: never assigned, or no longer to be used. -/
  lists : Nat → Option (ArgVar α) := fun _ => none

/-- The same call with other arguments. -/
def Call.withArgs (as : List α) : Call α → Call α
  | .verb v _ => .verb v as
  | .select e _ => .select e as
  | .setExpr f e _ => .setExpr f e as
  | .from_ e _ => .from_ e as
  | .where_ e _ => .where_ e as
  | .in_ _ => .in_ as
  | .having e _ => .having e as
  | .expr e _ => .expr e as
  | .clause e _ => .clause e as
  | .rowSetExpr r f e _ => .rowSetExpr r f e as
  | c => c

/-- Does the call bring arguments along? -/
def Call.brings : Call α → Bool
  | .verb _ as | .select _ as | .setExpr _ _ as | .from_ _ as | .where_ _ as | .in_ as | .having _ as | .expr _ as | .clause _ as | .rowSetExpr _ _ _ as => !as.isEmpty
  | .limit _ | .offset _ => true
  | _ => false

/-- A method of the builder: the embeddings have operations of their own. -/
def Call.isMethod : Call α → Bool
  | .subQuery .. | .with_ .. | .union .. => false
  | _ => true

/-- Lists taken with `Args()` from `h` are not to be used any more. -/
def View.expire (s : View α) (h : Nat) : View α :=
  { s with lists := fun v => match s.lists v with
    | some l => if l.from_.map Prod.fst = some h then none else some l
    | none => none }

/-- Assign a list. -/
def View.setList (s : View α) (v : Nat) (l : Option (ArgVar α)) : View α := { s with lists := fun i => if i = v then l else s.lists i }

/-- The statements whose `Args()` an operation may alter, by the documentation: "any method that adds a clause or an expression with
arguments", `Close` (also by embedding), and a new statement in the same variable. -/
def View.altered (s : View α) : Op α → List Nat
  | .open h _ _ => [h]
  | .call h c => if c.brings then [h] else []
  | .embed h g _ => (match s.world.live g with | some p => if p.args.isEmpty then [] else [h] | none => []) ++ [g]
  | .close h => [h]
  | .clone _ g _ => [g]
  | _ => []

/-- One operation of World.lean. -/
def View.base (s : View α) (o : Op α) : View α × Out α :=
  let r := s.world.step o
  ((s.altered o).foldl View.expire { s with world := r.1 }, match r.2 with | some t => .text t | none => .nothing)

/-- One operation. -/
def View.step (s : View α) : MOp α → View α × Out α
  | .base o => s.base o
  | .callFrom h c v => match s.lists v with
    | some l => s.base (.call h (c.withArgs l.val))
    | none => (s, .nothing)
  | .mkSlice v xs => (s.setList v (some { val := xs }), .nothing)
  | .setElem v i x => match s.lists v with
    | some l => (s.setList v (some { l with val := l.val.set i x }), .nothing)
    | none => (s, .nothing)
  | .args h v lo hi => match s.world.live h with
    | some q => (s.setList v (some { val := (q.args.take hi).drop lo, from_ := some (h, lo) }), .nothing)
    | none => (s, .nothing)
  | .look v => (s, match s.lists v with | some l => .values l.val | none => .nothing)
  | .dest h => (s, match s.world.live h with | some q => .dests q.dest | none => .nothing)

/-- A program. -/
def View.run (s : View α) : List (MOp α) → View α × List (Out α)
  | [] => (s, [])
  | o :: os => let r := s.step o; let r' := r.1.run os; (r'.1, r.2 :: r'.2)

/-- The operations the documentation allows of World.lean's: no statement is used after it was closed (by `Close` or by being
embedded), and none is embedded in itself. -/
def View.allowsBase (s : View α) : Op α → Bool
  | .open .. | .newLines .. | .put .. => true
  | .call h c => (s.world.live h).isSome && c.isMethod
  | .embed h g _ => (s.world.live h).isSome && (s.world.live g).isSome && decide (h ≠ g)
  | .str h | .setName h _ | .invalidate h | .stmtNewLines h _ | .close h | .clone h _ _ => (s.world.live h).isSome

/-- The operations allowed.  A list from `Args()` may be used until the statement is altered or closed, and is only read; passing
it back to the statement it came from is allowed if it starts at the first argument. -/
def View.allows (s : View α) : MOp α → Bool
  | .base o => s.allowsBase o
  | .callFrom h c v => (s.world.live h).isSome && c.isMethod && match s.lists v with
    | some l => (match l.from_ with | some (h', lo) => decide (h' = h → lo = 0) | none => true)
    | none => false
  | .mkSlice .. => true
  | .setElem v i _ => match s.lists v with | some l => l.from_.isNone && decide (i < l.val.length) | none => false
  | .args h _ lo hi => match s.world.live h with | some q => decide (lo ≤ hi ∧ hi ≤ q.args.length) | none => false
  | .look v => (s.lists v).isSome
  | .dest h => (s.world.live h).isSome

/-- Programs that only do what is allowed. -/
def View.legal (s : View α) : List (MOp α) → Bool
  | [] => true
  | o :: os => s.allows o && (s.step o).1.legal os

end Xsql
