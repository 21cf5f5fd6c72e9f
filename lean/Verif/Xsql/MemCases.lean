import Verif.Xsql.MemProps
set_option linter.unusedSimpArgs false
set_option linter.unusedVariables false
set_option linter.unusedSectionVars false
/- C93, continued: consequences for a program, cases that meet the hypotheses, and what the excluded programs see. -/
namespace Xsql
variable {α : Type}

/-- The operation assigns the list variable or one of its elements. -/
def MOp.assigns (v : Nat) : MOp α → Bool
  | .mkSlice v' _ | .setElem v' _ _ | .args _ v' _ _ => v' == v
  | _ => false

namespace View

theorem expire_keeps (s : View α) (h v : Nat) (l : ArgVar α) (hl : (s.expire h).lists v = some l) : s.lists v = some l := by
  simp only [View.expire] at hl
  cases e : s.lists v with
  | none => rw [e] at hl; cases hl
  | some k => rw [e] at hl; dsimp only at hl; split at hl
              · cases hl
              · exact hl

theorem expire_own (s : View α) (h v : Nat) (l : ArgVar α) (hl : s.lists v = some l) (hf : l.from_ = none) : (s.expire h).lists v = some l := by
  simp [View.expire, hl, hf]

theorem foldl_keeps (hs : List Nat) : ∀ (s : View α) (v : Nat) (l : ArgVar α), (hs.foldl View.expire s).lists v = some l → s.lists v = some l := by
  induction hs with
  | nil => exact fun _ _ _ h => h
  | cons h hs ih => exact fun s v l k => expire_keeps s h v l (ih _ v l k)

theorem foldl_own (hs : List Nat) : ∀ (s : View α) (v : Nat) (l : ArgVar α), s.lists v = some l → l.from_ = none → (hs.foldl View.expire s).lists v = some l := by
  induction hs with
  | nil => exact fun _ _ _ h _ => h
  | cons h hs ih => exact fun s v l k hf => ih _ v l (expire_own s h v l k hf) hf

theorem step_keeps (s : View α) (o : MOp α) (v : Nat) (ho : o.assigns v = false) (l : ArgVar α) (hl : (s.step o).1.lists v = some l) : s.lists v = some l := by
  have nv : ∀ {v'}, (v' == v) = false → ¬ v = v' := fun h e => by simp [e] at h
  cases o with
  | base o => have k := foldl_keeps _ _ v l hl; exact k
  | callFrom h c v' =>
    simp only [View.step] at hl
    split at hl
    · have k := foldl_keeps _ _ v l hl; exact k
    · exact hl
  | mkSlice v' xs => simp only [View.step, View.setList, nv ho, if_false] at hl; exact hl
  | setElem v' i x =>
    simp only [View.step] at hl
    split at hl
    · simp only [View.setList, nv ho, if_false] at hl; exact hl
    · exact hl
  | args h v' lo hi =>
    simp only [View.step] at hl
    split at hl
    · simp only [View.setList, nv ho, if_false] at hl; exact hl
    · exact hl
  | look v' => exact hl
  | dest h => exact hl

theorem step_own (s : View α) (o : MOp α) (v : Nat) (ho : o.assigns v = false) (l : ArgVar α) (hl : s.lists v = some l) (hf : l.from_ = none) : (s.step o).1.lists v = some l := by
  have nv : ∀ {v'}, (v' == v) = false → ¬ v = v' := fun h e => by simp [e] at h
  cases o with
  | base o => exact foldl_own _ _ v l hl hf
  | callFrom h c v' =>
    simp only [View.step]
    split
    · exact foldl_own _ _ v l hl hf
    · exact hl
  | mkSlice v' xs => simp only [View.step, View.setList, nv ho, if_false]; exact hl
  | setElem v' i x =>
    simp only [View.step]
    split
    · simp only [View.setList, nv ho, if_false]; exact hl
    · exact hl
  | args h v' lo hi =>
    simp only [View.step]
    split
    · simp only [View.setList, nv ho, if_false]; exact hl
    · exact hl
  | look v' => exact hl
  | dest h => exact hl

theorem run_keeps (os : List (MOp α)) : ∀ (s : View α) (v : Nat), (∀ o ∈ os, o.assigns v = false) → ∀ l, (s.run os).1.lists v = some l → s.lists v = some l := by
  induction os with
  | nil => exact fun _ _ _ _ h => h
  | cons o os ih => exact fun s v h l hl => step_keeps s o v (h o (by simp)) l (ih _ v (fun o' ho => h o' (by simp [ho])) l hl)

theorem run_own (os : List (MOp α)) : ∀ (s : View α) (v : Nat), (∀ o ∈ os, o.assigns v = false) → ∀ l, s.lists v = some l → l.from_ = none → (s.run os).1.lists v = some l := by
  induction os with
  | nil => exact fun _ _ _ _ h _ => h
  | cons o os ih => exact fun s v h l hl hf => ih _ v (fun o' ho => h o' (by simp [ho])) l (step_own s o v (h o (by simp)) l hl hf) hf

theorem run_append (os os' : List (MOp α)) : ∀ s : View α, s.run (os ++ os') = (((s.run os).1.run os').1, (s.run os).2 ++ ((s.run os).1.run os').2) := by
  induction os with
  | nil => intro s; rfl
  | cons o os ih => intro s; simp only [List.cons_append, View.run, ih]

theorem legal_append (os os' : List (MOp α)) : ∀ s : View α, s.legal (os ++ os') = (s.legal os && (s.run os).1.legal os') := by
  induction os with
  | nil => intro s; simp [View.legal, View.run]
  | cons o os ih => intro s; simp only [List.cons_append, View.legal, View.run, ih, Bool.and_assoc]

end View

variable [Inhabited α]

/-- C93: a slice the program made and handed to builder methods as arguments is not modified by the package, whatever the program does to any
statement afterwards: it looks as the program made it, as long as the program itself does not assign to it. -/
theorem C93_own_slice_untouched (roomA roomD roomC roomB : Nat → Nat) (pick : Nat → Option Nat) (pre mid : List (MOp α)) (v : Nat) (xs : List α)
    (hl : View.legal {} (pre ++ [.mkSlice v xs] ++ mid) = true) (hm : ∀ o ∈ mid, o.assigns v = false) :
    ((Mem.init roomA roomD roomC roomB pick).run (pre ++ [.mkSlice v xs] ++ mid ++ [.look v])).2.getLast? = some (.values xs) := by
  have h1 : ((View.run {} (pre ++ [.mkSlice v xs] ++ mid)).1).lists v = some { val := xs } := by
    rw [View.run_append]
    refine View.run_own mid _ v hm { val := xs } ?_ rfl
    rw [View.run_append]
    simp [View.run, View.step, View.setList]
  have h2 : View.legal {} (pre ++ [.mkSlice v xs] ++ mid ++ [.look v]) = true := by
    rw [View.legal_append, hl]
    generalize (View.run {} (pre ++ [.mkSlice v xs] ++ mid)).1 = s at *
    simp [View.legal, View.allows, h1]
  rw [C93_memory_invisible _ _ _ _ _ _ h2, View.run_append]
  generalize View.run {} (pre ++ [.mkSlice v xs] ++ mid) = s at *
  simp [View.run, View.step, h1]

/-- C93: what `Args()` returned stays as it is, whatever else the program does, until the statement it came from gets more arguments, is closed,
or is embedded: then looking at it is no longer among the allowed operations, and only then. -/
theorem C93_args_kept (roomA roomD roomC roomB : Nat → Nat) (pick : Nat → Option Nat) (pre mid : List (MOp α)) (h v lo hi : Nat) (q : Stmt α)
    (hq : (View.run {} pre).1.world.live h = some q) (hl : View.legal {} (pre ++ [.args h v lo hi] ++ mid ++ [.look v]) = true) (hm : ∀ o ∈ mid, o.assigns v = false) :
    ((Mem.init roomA roomD roomC roomB pick).run (pre ++ [.args h v lo hi] ++ mid ++ [.look v])).2.getLast? = some (.values ((q.args.take hi).drop lo)) := by
  rw [C93_memory_invisible _ _ _ _ _ _ hl]
  rw [View.legal_append, Bool.and_eq_true] at hl
  obtain ⟨_, hlook⟩ := hl
  simp only [View.legal, View.allows, Bool.and_true] at hlook
  obtain ⟨l, hlv⟩ := Option.isSome_iff_exists.1 hlook
  have h1 := hlv
  rw [View.run_append] at h1
  have h2 := View.run_keeps mid _ v hm l h1
  rw [View.run_append] at h2
  simp only [View.run, View.step, hq, View.setList, if_true, Option.some.injEq] at h2
  rw [View.run_append]
  generalize View.run {} (pre ++ [.args h v lo hi] ++ mid) = s at *
  simp [View.run, View.step, hlv, ← h2]

/-- C93: and so Verif/Xsql/World.lean, which the other properties of the package are about, is what the memory does: for every program of its operations that uses no
statement after it was closed, the texts are the same. -/
theorem C93_world_faithful (roomA roomD roomC roomB : Nat → Nat) (pick : Nat → Option Nat) (os : List (Op α)) (hl : View.legal {} (os.map .base) = true) :
    ((Mem.init roomA roomD roomC roomB pick).run (os.map .base)).2 = (World.run {} os).2.map (fun r => match r with | some t => .text t | none => .nothing) := by
  rw [C93_memory_invisible _ _ _ _ _ _ hl]
  have hw : ∀ (hs : List Nat) (s : View α), (hs.foldl View.expire s).world = s.world := by
    intro hs; induction hs with
    | nil => exact fun _ => rfl
    | cons h hs ih => exact fun s => ih _
  have : ∀ (os : List (Op α)) (s : View α), (s.run (os.map .base)).2 = (s.world.run os).2.map (fun r => match r with | some t => .text t | none => .nothing) := by
    intro os
    induction os with
    | nil => intro s; rfl
    | cons o os ih =>
      intro s
      simp only [List.map_cons, View.run, View.step, World.run, World.runBy, ih]
      have e : (s.base o).1.world = (s.world.step o).1 := by simp only [View.base, hw]
      rw [e]
      rfl
  exact this os {}

/-! ### Cases -/

/-- Two statements with interleaved calls, a slice used twice, a clone, an embedding, a recycled object, with arrays that grow to different sizes and a buffer pool that
always hands out what it has. -/
def memProgram : List (MOp Nat) := [
  .mkSlice 0 [7, 8],
  .base (.open 0 .postgres none), .base (.open 1 .default none),
  .base (.call 0 (.select b!"a" [])), .base (.call 1 (.select b!"b" [])),
  .callFrom 0 (.where_ b!"x IN (?, ?)" []) 0, .base (.call 0 (.from_ b!"t" [])), .callFrom 1 (.in_ []) 0,
  .setElem 0 0 9,
  .args 0 1 0 2, .look 1, .base (.clone 0 2 none), .callFrom 0 (.where_ b!"y IN (?, ?)" []) 1,
  .base (.call 2 (.limit 5)), .base (.str 2), .base (.str 0),
  .base (.embed 0 1 (.subQuery b!"(" b!")")), .base (.open 3 .default (some 0)), .base (.call 3 (.select b!"c" [1])), .base (.str 3), .base (.str 0),
  .args 0 2 1 3, .look 2, .look 0, .base (.close 0), .args 2 1 0 3, .look 1, .dest 2]

example : View.legal {} memProgram = true := by decide +kernel

example : (View.run {} memProgram).2.length = 28 := by decide +kernel

/-- Rooms for the case: arrays of different sizes. -/
def memRoom (n : Nat) : Nat := n % 3 * 2

example : (((Mem.init memRoom memRoom memRoom memRoom (fun _ => some 0)).run memProgram).2.drop 22).take 2 = [.values [8, 7], .values [9, 8]] := by decide +kernel

/-! ### Programs the theorem excludes -/

/-- Finding: a part of `Args()` that does not start with the first argument, handed back to the same statement for an earlier position: `insertAt` first moves the
arguments and then copies from the moved ones.  The statement has the arguments 1 2 3; `Args()[1:]` is 2 3; inserted at the front they should give 2 3 1 2 3. -/
theorem C93_args_tail_handed_back :
    let os : List (MOp Nat) := [.base (.open 0 .default none), .base (.call 0 (.where_ b!"x = ? AND y = ? AND z = ?" [1, 2, 3])), .args 0 0 1 3, .callFrom 0 (.select b!"?, ?" []) 0, .args 0 1 0 5, .look 1]
    ((Mem.init (fun _ => 4) (fun _ => 0) (fun _ => 0) (fun _ => 0) (fun _ => none)).run os).2.getLast? = some (.values [2, 1, 1, 2, 3]) ∧
    ((Mem.init (fun _ => 0) (fun _ => 0) (fun _ => 0) (fun _ => 0) (fun _ => none)).run os).2.getLast? = some (.values [2, 3, 1, 2, 3]) := by decide +kernel

/-- Finding: `Close` on a statement that was closed before (for instance `defer sub.Close()` for a statement that was then given to `SubQuery`, which closes it) puts the object into
the pool twice: two later statements are one object, and each writes into the other. -/
theorem C93_double_close :
    let os : List (MOp Nat) := [.base (.open 0 .default none), .base (.close 0), .base (.close 0), .base (.open 1 .default (some 0)), .base (.call 1 (.select b!"a" [1])),
      .base (.open 2 .default (some 0)), .base (.call 2 (.from_ b!"t" [2])), .base (.str 1), .base (.str 2)]
    View.legal {} os = false ∧
    ((Mem.init (fun _ => 0) (fun _ => 0) (fun _ => 0) (fun _ => 0) (fun _ => none)).run os).2.drop 7 ≠ (View.run {} os).2.drop 7 := by decide +kernel

/-- Finding: a list from `Args()` read after `Close` shows nil, and later the arguments of another statement. -/
theorem C93_args_after_close :
    let os : List (MOp Nat) := [.base (.open 0 .default none), .base (.call 0 (.select b!"?, ?" [1, 2])), .args 0 0 0 2, .look 0, .base (.close 0), .look 0,
      .base (.open 1 .default (some 0)), .base (.call 1 (.select b!"?, ?" [3, 4])), .look 0]
    let out := ((Mem.init (fun _ => 0) (fun _ => 0) (fun _ => 0) (fun _ => 0) (fun _ => none)).run os).2
    out[3]? = some (.values [1, 2]) ∧ out[5]? = some (.values [0, 0]) ∧ out[8]? = some (.values [3, 4]) := by decide +kernel

end Xsql
