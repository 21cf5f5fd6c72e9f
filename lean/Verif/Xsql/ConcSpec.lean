import Verif.Xsql.Conc
import Verif.Xsql.WorldSpec
/-
What a goroutine is supposed to see: what it would see alone, without caches, memos and object pools.
-/
namespace Xsql
variable {α : Type}

/-- Always a new object. -/
def Op.fresh : Op α → Op α
  | .open h d _ => .open h d none
  | .clone h g _ => .clone h g none
  | o => o

/-- What an operation gives back, alone and without caches. -/
def World.aloneSeen (w : World α) : Op α → List (Seen α)
  | .str h => match w.live h with
    | some q => [.stmt q.render q.args q.dest]
    | none => []
  | _ => []

/-- The state after an operation, alone, without caches, with new objects. -/
def World.aloneOp (w : World α) (o : Op α) : World α := (w.stepBy World.ownText o.fresh).1

/-- The state after several operations. -/
def World.aloneOps (w : World α) (os : List (Op α)) : World α := os.foldl World.aloneOp w

/-- An action alone: `GetOrCreateQuery` without a cache always has the query created, and returns its text. -/
def World.aloneAct (w : World α) : Act α → World α × List (Seen α)
  | .op o => (w.aloneOp o, w.aloneSeen o)
  | .getOrCreate _ name create h =>
    let w := (w.aloneOps create).aloneOp (.setName h name)
    (w.aloneOp (.str h), match w.live h with | some q => [.query q.render] | none => [])

/-- What a program gets back when it runs alone. -/
def World.alone (w : World α) : List (Act α) → List (Seen α)
  | [] => []
  | a :: as => (w.aloneAct a).2 ++ (w.aloneAct a).1.alone as

/-- The texts for cache keys an operation supplies: rendered, or stored with `PutCachedQuery`. -/
def World.opSupplies (w : World α) (o : Op α) : List (Dia × Bytes × Bytes) :=
  (w.evaluates o).map (fun q => (q.dialect, q.key, q.render)) ++ puts [o]

/-- The same for several operations. -/
def World.opsSupply (w : World α) : List (Op α) → List (Dia × Bytes × Bytes)
  | [] => []
  | o :: os => w.opSupplies o ++ (w.aloneOp o).opsSupply os

/-- The same for an action; `GetOrCreateQuery(name)` also expects its text under the name. -/
def World.actSupplies (w : World α) : Act α → List (Dia × Bytes × Bytes)
  | .op o => w.opSupplies o
  | .getOrCreate d name create h =>
    w.opsSupply (create ++ [.setName h name, .str h]) ++
      match ((w.aloneOps create).aloneOp (.setName h name)).live h with
      | some q => [(d, name, q.render)]
      | none => []

/-- The same for a program. -/
def World.actsSupply (w : World α) : List (Act α) → List (Dia × Bytes × Bytes)
  | [] => []
  | a :: as => w.actSupplies a ++ (w.aloneAct a).1.actsSupply as

/-- The variables an operation mentions. -/
def Op.mentions : Op α → List Nat
  | .open h _ _ | .call h _ | .str h | .setName h _ | .invalidate h | .stmtNewLines h _ | .close h => [h]
  | .embed h g _ => [h, g]
  | .clone h g _ => [h, g]
  | .newLines .. | .put .. => []

/-- The variables an action mentions. -/
def Act.mentions : Act α → List Nat
  | .op o => o.mentions
  | .getOrCreate _ _ create h => create.flatMap Op.mentions ++ [h]

/-- The operations an action consists of. -/
def Act.ops : Act α → List (Op α)
  | .op o => [o]
  | .getOrCreate _ name create h => create ++ [.setName h name, .str h]

/-- Which variables hold a statement whose current clause was selected since it was taken from the pool (by a call that does not
embed another statement). -/
def Op.known (kn : Nat → Bool) : Op α → Nat → Bool
  | .open h _ _ => fun x => if x = h then false else kn x
  | .clone _ g _ => fun x => if x = g then false else kn x
  | .call h c => fun x => if x = h then c.setsPos || kn x else kn x
  | _ => kn

/-- The operation does not add to the current clause of a statement when none was selected. -/
def Op.posOK (kn : Nat → Bool) : Op α → Bool
  | .call h c => !c.usesPos || kn h
  | .embed h _ e => !(e.toCall [] ([] : List Unit)).usesPos || kn h
  | _ => true

/-- `Expr` and `SubQuery` are only called on statements after a call that selects a clause. -/
def posSafe : (Nat → Bool) → List (Op α) → Bool
  | _, [] => true
  | kn, o :: os => o.posOK kn && posSafe (o.known kn) os

/-- The function passed to `GetOrCreateQuery` keeps its statements to itself: no statement it makes or changes is used later. -/
def Scoped : List (Act α) → Prop
  | [] => True
  | .op _ :: as => Scoped as
  | .getOrCreate _ name create h :: as =>
    (∀ x, (x = h ∨ ∃ o ∈ create, o.touches x) → ∀ a ∈ as, x ∉ a.mentions) ∧ Scoped as

/-- The function passed to `GetOrCreateQuery` returns a statement. -/
def World.Returns (w : World α) : List (Act α) → Prop
  | [] => True
  | .op o :: as => (w.aloneAct (.op o)).1.Returns as
  | .getOrCreate d name create h :: as =>
    ((w.aloneOps create).live h).isSome ∧ (w.aloneAct (.getOrCreate d name create h)).1.Returns as

/-- The programs considered for goroutines: no change of a dialect's line break setting, see above for the rest. -/
structure Goroutine (w : World α) (as : List (Act α)) : Prop where
  sound : ∀ a ∈ as, ∀ o ∈ a.ops, o.sound = true
  noSetting : ∀ a ∈ as, ∀ o ∈ a.ops, ∀ d b, o ≠ .newLines d b
  posSafe : posSafe (fun _ => true) (as.flatMap Act.ops) = true
  keeps : Scoped as
  returns : w.Returns as

/-- No two different texts for one key of one dialect, in the setup and in any of the goroutines. -/
def NoClash (pre : List (Op α)) (prog : Nat → List (Act α)) : Prop :=
  ∀ e e', (e ∈ World.init.supplied pre ∨ ∃ t, e ∈ (World.init.pureRun pre).1.actsSupply (prog t)) →
    (e' ∈ World.init.supplied pre ∨ ∃ t, e' ∈ (World.init.pureRun pre).1.actsSupply (prog t)) →
    e.1 = e'.1 → e.2.1 = e'.2.1 → e.2.2 = e'.2.2

/-- Each goroutine uses its own statements. -/
def OwnStatements (prog : Nat → List (Act α)) : Prop :=
  ∀ t t' x, (∃ a ∈ prog t, x ∈ a.mentions) → (∃ a ∈ prog t', x ∈ a.mentions) → t = t'

/-- The text of what a goroutine gets back. -/
def Seen.sql : Seen α → Bytes
  | .stmt s _ _ => s
  | .query s => s

end Xsql
