import Verif.Xsql.World
set_option linter.unusedVariables false
set_option linter.unusedSimpArgs false
/-!
The default dialect (xsql/dialect.go:98-114, xsql/stmt.go:351-444): `SetDialect` and the package-level functions.  C103.

`defaultDialect` is an `atomic.Value`: loading and storing are single steps, any number of goroutines take them in any order.  A package-level function loads the
default and then calls the method of the dialect it got; other goroutines may act in between.
-/
namespace Xsql

variable {α : Type}

/-- The process with its default dialect, and what each goroutine loaded last. -/
structure Pkg (α : Type) where
  dflt : Dia
  got : Nat → Dia
  world : World α

/-- dialect.go:100-103 `init`: the default is NoDialect. -/
def Pkg.init : Pkg α := ⟨.default, fun _ => .default, .init⟩

/-- What goroutines do. -/
inductive DOp (α : Type) where
  /-- `SetDialect(d)`; `none` is nil or a dialect that is not a `*Dialect` (an implementation of the interface `SQLDialect` by the user). -/
  | setDialect (d : Option Dia)
  /-- Goroutine `t` enters a package-level function: `defaultDialect.Load()`. -/
  | load (t : Nat)
  /-- `h := New/From/With/Select/Update/InsertInto/DeleteFrom(...)` of goroutine `t`, after its load: the method of the dialect, which starts with `getStmt`. -/
  | openLoaded (t h : Nat) (pick : Option Nat)
  /-- `UseNewLines(b)` of goroutine `t`, after its load. -/
  | linesLoaded (t : Nat) (b : Bool)
  /-- Anything else. -/
  | op (o : Op α)

/-- One step; `none` as state change of a panic: dialect.go:112-114 `SetDialect` panics for nil and for a value of another type than the one stored first
(sync/atomic), and the default stays. stmt.go:351-353 `New`, 356-360 `UseNewLines`, 375-444 the others. -/
def Pkg.step (p : Pkg α) : DOp α → Pkg α × Option Bytes
  | .setDialect (some d) => ({ p with dflt := d }, none)
  | .setDialect none => (p, none)
  | .load t => ({ p with got := fun u => if u = t then p.dflt else p.got u }, none)
  | .openLoaded t h pick => let r := p.world.step (.open h (p.got t) pick); ({ p with world := r.1 }, r.2)
  | .linesLoaded t b => let r := p.world.step (.newLines (p.got t) b); ({ p with world := r.1 }, r.2)
  | .op o => let r := p.world.step o; ({ p with world := r.1 }, r.2)

/-- A history: final state and the texts returned by `String`. -/
def Pkg.run (p : Pkg α) : List (DOp α) → Pkg α × List Bytes
  | [] => (p, [])
  | o :: os => let r := p.step o; let r' := r.1.run os; (r'.1, r.2.toList ++ r'.2)

/-! ### Specification -/
namespace Spec

/-- The dialect set last in a history (NoDialect if none was). -/
def current (past : List (DOp α)) : Dia := ((past.filterMap fun | .setDialect d => d | _ => none).getLast?).getD .default

/-- Is it the load of goroutine `t`? -/
def isLoad (t : Nat) : DOp α → Bool
  | .load u => u == t
  | _ => false

/-- The history up to the last load of goroutine `t`. -/
def beforeLoad (t : Nat) (past : List (DOp α)) : List (DOp α) := ((past.reverse.dropWhile fun o => !isLoad t o).drop 1).reverse

/-- What an operation is when the package-level functions are replaced by methods of the dialect that was the default when the function was entered. -/
def explicit (past : List (DOp α)) : DOp α → List (Op α)
  | .setDialect _ => []
  | .load _ => []
  | .openLoaded t h pick => [.open h (current (beforeLoad t past)) pick]
  | .linesLoaded t b => [.newLines (current (beforeLoad t past)) b]
  | .op o => [o]

/-- A program with the dialects written out. -/
def explicitAll : List (DOp α) → List (DOp α) → List (Op α)
  | _, [] => []
  | past, o :: os => explicit past o ++ explicitAll (past ++ [o]) os

end Spec

/-- What the state says about the past. -/
structure PkgInv (past : List (DOp α)) (p : Pkg α) : Prop where
  dflt : p.dflt = Spec.current past
  got : ∀ t, p.got t = Spec.current (Spec.beforeLoad t past)

theorem current_snoc (past : List (DOp α)) (o : DOp α) :
    Spec.current (past ++ [o]) = match o with | .setDialect (some d) => d | _ => Spec.current past := by
  unfold Spec.current
  rw [List.filterMap_append]
  cases o with
  | setDialect d => cases d with
    | none => simp
    | some d => simp
  | load t => simp
  | openLoaded t h p => simp
  | linesLoaded t b => simp
  | op o => simp

theorem beforeLoad_snoc (past : List (DOp α)) (o : DOp α) (t : Nat) :
    Spec.beforeLoad t (past ++ [o]) = if Spec.isLoad t o then past else Spec.beforeLoad t past := by
  unfold Spec.beforeLoad
  rw [List.reverse_append, List.reverse_singleton, List.singleton_append, List.dropWhile_cons]
  cases h : Spec.isLoad t o <;> simp

theorem beforeLoad_nil (t : Nat) : Spec.beforeLoad t ([] : List (DOp α)) = [] := rfl

theorem pkgInv_init : PkgInv ([] : List (DOp α)) Pkg.init := ⟨rfl, fun t => rfl⟩

theorem pkgInv_step {past : List (DOp α)} {p : Pkg α} (h : PkgInv past p) (o : DOp α) : PkgInv (past ++ [o]) (p.step o).1 := by
  obtain ⟨h1, h2⟩ := h
  cases o with
  | setDialect d => cases d with
    | none => exact ⟨by rw [current_snoc]; exact h1, fun t => by rw [beforeLoad_snoc]; exact h2 t⟩
    | some d => exact ⟨by rw [current_snoc]; rfl, fun t => by rw [beforeLoad_snoc]; exact h2 t⟩
  | load u =>
    refine ⟨by rw [current_snoc]; exact h1, fun t => ?_⟩
    rw [beforeLoad_snoc]
    simp only [Pkg.step, Spec.isLoad, beq_iff_eq]
    by_cases e : u = t
    · rw [if_pos e, if_pos e.symm, h1]
    · rw [if_neg e, if_neg (fun x => e x.symm), h2]
  | openLoaded t h p => exact ⟨by rw [current_snoc]; exact h1, fun t => by rw [beforeLoad_snoc]; exact h2 t⟩
  | linesLoaded t b => exact ⟨by rw [current_snoc]; exact h1, fun t => by rw [beforeLoad_snoc]; exact h2 t⟩
  | op o => exact ⟨by rw [current_snoc]; exact h1, fun t => by rw [beforeLoad_snoc]; exact h2 t⟩

theorem world_run_append (w : World α) (a b : List (Op α)) : (w.run (a ++ b)).1 = ((w.run a).1.run b).1 ∧ (w.run (a ++ b)).2 = (w.run a).2 ++ ((w.run a).1.run b).2 := by
  induction a generalizing w with
  | nil => exact ⟨rfl, rfl⟩
  | cons o os ih =>
    have := ih (w.step o).1
    constructor
    · exact this.1
    · show (w.step o).2 :: ((w.step o).1.run (os ++ b)).2 = _
      rw [this.2]; rfl

theorem run_explicit (os : List (DOp α)) : ∀ {past : List (DOp α)} {p : Pkg α}, PkgInv past p →
    (p.run os).1.world = (p.world.run (Spec.explicitAll past os)).1 ∧ (p.run os).2 = (p.world.run (Spec.explicitAll past os)).2.filterMap id := by
  induction os with
  | nil => intro past p h; exact ⟨rfl, rfl⟩
  | cons o os ih =>
    intro past p h
    have hs := pkgInv_step h o
    obtain ⟨i1, i2⟩ := ih hs
    have key : (p.step o).1.world = (p.world.run (Spec.explicit past o)).1 ∧ (p.step o).2.toList = (p.world.run (Spec.explicit past o)).2.filterMap id := by
      have one : ∀ o : Op α, (p.world.run [o]).1 = (p.world.step o).1 ∧ (p.world.run [o]).2.filterMap id = (p.world.step o).2.toList := by
        intro o
        refine ⟨rfl, ?_⟩
        show [(p.world.step o).2].filterMap id = _
        cases (p.world.step o).2 <;> rfl
      cases o with
      | setDialect d => cases d <;> exact ⟨rfl, rfl⟩
      | load t => exact ⟨rfl, rfl⟩
      | openLoaded t h' pick =>
        have e := h.got t
        simp only [Spec.explicit, ← e]
        exact ⟨(one _).1.symm, (one _).2.symm⟩
      | linesLoaded t b =>
        have e := h.got t
        simp only [Spec.explicit, ← e]
        exact ⟨(one _).1.symm, (one _).2.symm⟩
      | op o => exact ⟨(one _).1.symm, (one _).2.symm⟩
    have ha := world_run_append p.world (Spec.explicit past o) (Spec.explicitAll (past ++ [o]) os)
    simp only [Pkg.run, Spec.explicitAll]
    rw [ha.1, ha.2, i1, i2, key.1, key.2, List.filterMap_append]
    exact ⟨rfl, rfl⟩

/-- **C103**: in every history, with any number of goroutines, each package-level function acts as the method of the dialect that was set last when the function was entered: statements,
caches and all texts are those of the program in which these dialects are written out. -/
theorem C103_package_functions_use_the_dialect_set_last (ops : List (DOp α)) :
    (Pkg.init.run ops).1.world = ((World.init : World α).run (Spec.explicitAll [] ops)).1
    ∧ (Pkg.init.run ops).2 = ((World.init : World α).run (Spec.explicitAll [] ops)).2.filterMap id :=
  run_explicit ops pkgInv_init

/-- **C103**: `SetDialect` changes nothing for statements that exist and for methods of a dialect: from any point on, as long as no package-level function is called, the texts are
those without the calls of `SetDialect`. -/
theorem C103_existing_statements_unaffected (before after : List (DOp α)) (h : ∀ o ∈ after, (∃ d, o = .setDialect d) ∨ ∃ o', o = .op o') :
    (Pkg.init.run (before ++ after)).1.world = (Pkg.init.run (before ++ after.filter fun | .setDialect _ => false | _ => true)).1.world
    ∧ (Pkg.init.run (before ++ after)).2 = (Pkg.init.run (before ++ after.filter fun | .setDialect _ => false | _ => true)).2 := by
  have e : ∀ (past past' : List (DOp α)), Spec.explicitAll past after = Spec.explicitAll past' (after.filter fun | .setDialect _ => false | _ => true) := by
    induction after with
    | nil => intro _ _; rfl
    | cons o os ih =>
      intro past past'
      have ih := ih (fun x hx => h x (List.mem_cons_of_mem _ hx))
      rcases h o List.mem_cons_self with ⟨d, rfl⟩ | ⟨o', rfl⟩
      · exact ih _ _
      · show Spec.explicit past (.op o') ++ _ = Spec.explicit past' (.op o') ++ _
        exact congrArg _ (ih (past ++ [DOp.op o']) (past' ++ [DOp.op o']))
  have app : ∀ (a past b : List (DOp α)), Spec.explicitAll past (a ++ b) = Spec.explicitAll past a ++ Spec.explicitAll (past ++ a) b := by
    intro a
    induction a with
    | nil => intro past b; simp [Spec.explicitAll]
    | cons o os ih => intro past b; simp only [List.cons_append, Spec.explicitAll, ih, List.append_assoc]; simp
  have h1 := C103_package_functions_use_the_dialect_set_last (before ++ after)
  have h2 := C103_package_functions_use_the_dialect_set_last (before ++ after.filter fun | .setDialect _ => false | _ => true)
  rw [app, e _ ([] ++ before), ← app] at h1
  exact ⟨h1.1.trans h2.1.symm, h1.2.trans h2.2.symm⟩

/-- **C103**: a value that is no `*Dialect` (nil, or a user's own implementation of the interface) is never made the default: the default is always one of the three of the package,
the one set last among them. -/
theorem C103_own_dialects_are_refused (ops : List (DOp α)) : (Pkg.init.run ops).1.dflt = Spec.current ops := by
  have gen : ∀ (os past : List (DOp α)) (p : Pkg α), PkgInv past p → (p.run os).1.dflt = Spec.current (past ++ os) := by
    intro os
    induction os with
    | nil => intro past p h; rw [List.append_nil]; exact h.dflt
    | cons o os ih =>
      intro past p h
      have := ih _ _ (pkgInv_step h o)
      rw [List.append_assoc] at this
      exact this
  exact gen ops [] _ pkgInv_init

/-- Two goroutines: the first enters `From` while NoDialect is the default, then the second sets Postgres and calls `From` too. -/
def exDefault : List (DOp Nat) :=
  [.load 1, .setDialect (some .postgres), .openLoaded 1 10 none, .op (.call 10 (.from_ b!"t" [])), .op (.call 10 (.where_ b!"a = ?" [1])),
   .load 2, .setDialect none, .openLoaded 2 20 none, .op (.call 20 (.from_ b!"t" [])), .op (.call 20 (.where_ b!"a = ?" [1])), .op (.str 10), .op (.str 20)]

example : (Pkg.init.run exDefault).2 = [b!"FROM t \nWHERE a = ?", b!"FROM t \nWHERE a = $1"] := by decide +kernel

end Xsql
