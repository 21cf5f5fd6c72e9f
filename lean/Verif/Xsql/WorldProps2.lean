import Verif.Xsql.SimLemmas
set_option linter.unusedSimpArgs false
set_option linter.unusedVariables false
namespace Xsql
variable {α : Type}

/-! ### C27 Pooled statements carry nothing over -/

theorem step_start (d : Dia) (nl : Bool) (st : Nat) (c : Call α) (hc : c.starts = true) :
    (newStmt d nl st).call c = (newStmt d nl 0).call c := by
  cases c <;> first | rfl | simp [Call.starts] at hc

theorem build_start (d : Dia) (nl : Bool) (st : Nat) (c : Call α) (cs : List (Call α)) (hc : c.starts = true) :
    build d nl st (c :: cs) = build d nl 0 (c :: cs) := by
  simp only [build, List.foldl_cons, step_start d nl st c hc]

theorem live_calls {w : World α} {x : Nat} {q : Stmt α} (h : w.live x = some q) (os : List (Op α)) (hb : ∀ o ∈ os, o.builds x) :
    (w.run os).1.live x = some ((w.callsMade x os).foldl Stmt.call q) := by
  unfold World.run
  induction os generalizing w q with
  | nil => exact h
  | cons o os ih =>
    have hob := hb o (by simp)
    simp only [World.runBy, World.callsMade, List.foldl_append]
    refine ih ?_ (fun o' h' => hb o' (by simp [h']))
    cases o with
    | call y c =>
      simp only [World.stepBy, World.callMade]
      by_cases hy : y = x
      · subst hy; simp [h, set_live]
      · have : x ≠ y := fun e => hy e.symm
        simp only [hy, if_false, List.foldl_nil]
        split <;> simp [set_live, this, h]
    | embed y g e =>
      have hg : x ≠ g := hob
      simp only [World.stepBy, World.callMade]
      cases hy' : w.live y with
      | none => simpa using h
      | some qy =>
        cases hg' : w.live g with
        | none => simpa using h
        | some p =>
          simp only
          by_cases hyx : y = x
          · subst hyx
            rw [hy'] at h; cases h
            simp [hg, World.reuse, set_live, Stmt.noDialect]
            split <;> rfl
          · have : x ≠ y := fun e => hyx e.symm
            simp only [hyx, false_and, if_false, List.foldl_nil]
            split
            · exact h
            · simp [World.reuse, set_live, hg, this, str_ok.live, h]
    | «open» y d pick => simp only [World.callMade, List.foldl_nil]; rw [step_frame str_ok w _ x hob]; exact h
    | str y => simp only [World.callMade, List.foldl_nil]; rw [step_frame str_ok w _ x hob]; exact h
    | setName y n => simp only [World.callMade, List.foldl_nil]; rw [step_frame str_ok w _ x hob]; exact h
    | invalidate y => simp only [World.callMade, List.foldl_nil]; rw [step_frame str_ok w _ x hob]; exact h
    | stmtNewLines y b => simp only [World.callMade, List.foldl_nil]; rw [step_frame str_ok w _ x hob]; exact h
    | newLines d b => simp only [World.callMade, List.foldl_nil]; rw [step_frame str_ok w _ x hob]; exact h
    | close y => simp only [World.callMade, List.foldl_nil]; rw [step_frame str_ok w _ x hob]; exact h
    | clone y g pick => simp only [World.callMade, List.foldl_nil]; rw [step_frame str_ok w _ x hob]; exact h
    | put d k s => simp only [World.callMade, List.foldl_nil]; rw [step_frame str_ok w _ x hob]; exact h

/-- **C27.** After any program whatsoever (any statements built, embedded, closed), whichever object the pool hands out, a
statement obtained from a dialect and built up while anything else happens is exactly — text, arguments, destinations and all —
the statement the same calls build in a new process with the same line break setting. -/
theorem C27_pool_carries_nothing_over (before during : List (Op α)) (x : Nat) (d : Dia) (pick : Option Nat)
    (hb : ∀ o ∈ during, o.builds x) {c : Call α} {cs : List (Call α)} (hc : c.starts = true)
    (hcs : ((World.init.run before).1.step (.open x d pick)).1.callsMade x during = c :: cs) :
    (((World.init.run before).1.step (.open x d pick)).1.run during).1.live x =
      some (build d ((World.init.run before).1.newLines d) 0 (c :: cs)) := by
  obtain ⟨st, hst⟩ := getStmt_new (run_pool init_pool before) d pick
  have hl : ((World.init.run before).1.step (.open x d pick)).1.live x = some (newStmt d ((World.init.run before).1.newLines d) st) := by
    simp [World.step, World.stepBy, set_live, hst]
  rw [live_calls hl during hb, hcs, ← build_start d _ st c cs hc]
  rfl

/-- A process with an object in the pool that remembers the WHERE clause as current. -/
def usedProg : List (Op Nat) :=
  [.open 0 .postgres none, .call 0 (.select b!"x" []), .call 0 (.where_ b!"a = ?" [1]), .call 0 (.toDest [7]), .setName 0 b!"n", .str 0, .close 0]
example : (World.init.run usedProg).1.pool.map Stmt.pos = [1200] := by decide +kernel
example : ((((World.init.run usedProg).1.step (.open 1 .sqlserver (some 0))).1.run
      [.call 1 (.select b!"y" []), .newLines .sqlserver false, .open 2 .default none, .call 1 (.from_ b!"t" [])]).1.live 1).map Stmt.render =
    some b!"SELECT y \nFROM t" := by decide +kernel

/-- **C27 (the constructor call matters).** The recycled object does remember its last clause: an `Expr` directly after obtaining
it, were it possible without a constructor call, would land there. -/
theorem C27_current_clause_is_recycled :
    ∃ st, st ≠ 0 ∧ ((World.init.run usedProg).1.getStmt .postgres (some 0)).2 = newStmt .postgres true st ∧
      ((World.init (α := Nat)).getStmt .postgres none).2 = newStmt .postgres true 0 := ⟨1200, by decide, by decide +kernel, rfl⟩

/-! ### C28 Clone -/

/-- **C28 (equality).** In every reachable state, whatever the pool hands out, a clone has the text, arguments and destinations
of its original, which is unchanged. -/
theorem C28_clone_equals_original (os : List (Op α)) {x y : Nat} (hxy : x ≠ y) {q : Stmt α} (hq : (World.init.run os).1.live x = some q)
    (pick : Option Nat) :
    ∃ q', ((World.init.run os).1.step (.clone x y pick)).1.live y = some q' ∧
      ((World.init.run os).1.step (.clone x y pick)).1.live x = some q ∧
      q'.render = q.render ∧ q'.args = q.args ∧ q'.dest = q.dest ∧ q'.dialect = q.dialect ∧ q'.sql = q.sql := by
  obtain ⟨st, hst⟩ := clone_eq (run_pool init_pool os) q pick
  refine ⟨{ q with name := [], useNewLines := (World.init.run os).1.newLines q.dialect, pos := st }, ?_, ?_, ?_⟩
  · simp only [World.step, World.stepBy, hq, set_live, if_true, hst]
  · simp [World.step, World.stepBy, hq, set_live, hxy, World.clone, getStmt_world]
  · exact ⟨rfl, rfl, rfl, rfl, rfl⟩

/-- **C28 (independence).** Whatever is done without touching a statement — in particular everything done to its clone or its
original, including closing it and reusing its memory — leaves the statement as it is. -/
theorem C28_independent (w : World α) (x : Nat) (os : List (Op α)) (h : ∀ o ∈ os, ¬ o.touches x) : (w.run os).1.live x = w.live x := by
  unfold World.run
  induction os generalizing w with
  | nil => rfl
  | cons o os ih =>
    simp only [World.runBy]
    rw [ih _ fun o' h' => h o' (by simp [h']), step_frame str_ok w o x (h o (by simp))]

/-- **C28 (same effect, partial).** Continuing the clone and the original with the same calls gives the same text, arguments and
destinations, if the original has the line break setting of its dialect and the continuation does not use the current clause
(`Expr`, `SubQuery`) before selecting one.  What is missing: without these conditions it is false, see the next two theorems. -/
theorem C28_same_continuation_partial (os : List (Op α)) {x y : Nat} {q q' : Stmt α}
    (hq : (World.init.run os).1.live x = some q) (pick : Option Nat)
    (hq' : ((World.init.run os).1.step (.clone x y pick)).1.live y = some q')
    (hn : q.useNewLines = (World.init.run os).1.newLines q.dialect) (cs : List (Call α)) (hc : posFirst cs = true) :
    (cs.foldl Stmt.call q').render = (cs.foldl Stmt.call q).render ∧ (cs.foldl Stmt.call q').args = (cs.foldl Stmt.call q).args ∧
    (cs.foldl Stmt.call q').dest = (cs.foldl Stmt.call q).dest := by
  obtain ⟨st, hst⟩ := clone_eq (run_pool init_pool os) q pick
  have : q' = { q with name := [], useNewLines := (World.init.run os).1.newLines q.dialect, pos := st } := by
    simp only [World.step, World.stepBy, hq, set_live, if_true, hst] at hq'
    exact (Option.some.inj hq').symm
  have hs : Sim q' q := by subst this; exact ⟨rfl, rfl, rfl, rfl, rfl, hn.symm⟩
  have := calls_sim hs cs hc
  exact ⟨this.render, this.args, this.dest⟩

/-- A statement, its clone, the same continuation of both, and the texts of both. -/
def cloneBoth (pre cont : List (Op Nat)) : List (Op Nat) := pre ++ [.clone 0 1 none] ++ cont

/-- **C28 fails for `Expr` after `Clone`.** The clone does not remember the current clause: `Select("a").Expr("b")` appends to the
SELECT list, after cloning the expression comes out in front of the statement. -/
theorem C28_clone_forgets_current_clause :
    ((World.init.run (cloneBoth [.open 0 .default none, .call 0 (.from_ b!"t" []), .call 0 (.select b!"a" [])]
      [.call 0 (.expr b!"b" []), .call 1 (.expr b!"b" []), .str 0, .str 1])).2.drop 6) =
    [some b!"SELECT a, b \nFROM t", some b!"b \nSELECT a \nFROM t"] := by decide +kernel

/-- **C28 fails for the line break setting.** The clone takes the setting of the dialect, not of the original. -/
theorem C28_clone_forgets_line_breaks :
    ((World.init.run (cloneBoth [.open 0 .default none, .stmtNewLines 0 false, .call 0 (.from_ b!"t" []), .call 0 (.select b!"a" [])]
      [.call 0 (.where_ b!"b" []), .call 1 (.where_ b!"b" []), .str 0, .str 1])).2.drop 7) =
    [some b!"SELECT a FROM t WHERE b", some b!"SELECT a FROM t \nWHERE b"] := by decide +kernel

example : posFirst [.toDest [1], .select b!"x" ([] : List Nat), .expr b!"y" []] = true := rfl

/-! ### C32 Named queries -/

theorem str_hit {w : World α} {q : Stmt α} {s : Bytes} (h : q.sql = []) (hc : w.cache q.dialect q.key = some s) :
    w.str q = (w, { q with sql := s }) := by
  unfold World.str World.getCached; rw [if_neg (by simp [h]), hc]

theorem str_miss {w : World α} {q : Stmt α} (h : q.sql = []) (hc : w.cache q.dialect q.key = none) :
    w.str q = (w.putCached q.dialect q.key q.render, { q with sql := q.render }) := by
  unfold World.str World.getCached; rw [if_neg (by simp [h]), hc]

theorem str_cache_stable (w : World α) (q : Stmt α) {d : Dia} {k s : Bytes} (h : w.cache d k = some s) : (w.str q).1.cache d k = some s := by
  unfold World.str
  split
  · exact h
  · split
    · exact h
    · rename_i hn
      simp only [World.putCached]
      split
      · rename_i hdk
        obtain ⟨rfl, rfl⟩ := hdk
        rw [World.getCached, h] at hn; cases hn
      · exact h

theorem step_cache_stable (w : World α) (o : Op α) {d : Dia} {k s : Bytes} (h : w.cache d k = some s)
    (ho : ∀ s', o ≠ .put d k s') : (w.step o).1.cache d k = some s := by
  unfold World.step
  cases o with
  | embed y g e =>
    simp only [World.stepBy]
    split
    · split
      · exact h
      · exact str_cache_stable w _ h
    · exact h
  | str y =>
    simp only [World.stepBy]
    split
    · exact str_cache_stable w _ h
    · exact h
  | put d' k' s' =>
    simp only [World.stepBy, World.putCached]
    split
    · rename_i hdk
      obtain ⟨rfl, rfl⟩ := hdk
      exact absurd rfl (ho s')
    · exact h
  | «open» y d pick => exact h
  | call y c => simp only [World.stepBy]; split <;> exact h
  | setName y n => simp only [World.stepBy]; split <;> exact h
  | invalidate y => simp only [World.stepBy]; split <;> exact h
  | stmtNewLines y b => simp only [World.stepBy]; split <;> exact h
  | newLines d b => exact h
  | close y => simp only [World.stepBy]; split <;> exact h
  | clone y g pick => simp only [World.stepBy]; split <;> exact h

theorem run_cache_stable (w : World α) (os : List (Op α)) {d : Dia} {k s : Bytes} (h : w.cache d k = some s)
    (ho : ∀ o ∈ os, ∀ s', o ≠ .put d k s') : (w.run os).1.cache d k = some s := by
  unfold World.run
  induction os generalizing w with
  | nil => exact h
  | cons o os ih => exact ih _ (step_cache_stable w o h (ho o (by simp))) fun o' h' => ho o' (by simp [h'])

theorem act_cache_stable (w : World α) (a : Act α) {d : Dia} {k s : Bytes} (h : w.cache d k = some s)
    (ha : a.putsKey d k = false) : (w.act a).1.cache d k = some s := by
  cases a with
  | op o =>
    refine step_cache_stable w o h fun s' e => ?_
    subst e
    simp [Act.putsKey] at ha
  | getOrCreate d' name create x =>
    simp only [World.act, World.getOrCreate]
    split
    · exact h
    · have := run_cache_stable w create h fun o ho s' e => by
        subst e
        simp only [Act.putsKey, List.any_eq_false] at ha
        exact ha _ ho (by simp)
      split
      · exact str_cache_stable _ _ this
      · exact this

/-- **C32 (stability).** A text cached under a name in a dialect stays: after any further history that does not explicitly
overwrite it with PutCachedQuery, GetOrCreateQuery with that name returns that text, and its `create` is not called (nothing
changes at all). -/
theorem C32_first_text_is_returned (w : World α) {d : Dia} {name s : Bytes} (h : w.cache d name = some s) (as : List (Act α))
    (ha : ∀ a ∈ as, a.putsKey d name = false) (create : List (Op α)) (x : Nat) :
    (w.acts as).getOrCreate d name create x = (w.acts as, some s) := by
  have : (w.acts as).cache d name = some s := by
    unfold World.acts
    induction as generalizing w with
    | nil => exact h
    | cons a as ih => exact ih _ (act_cache_stable w a h (ha a (by simp))) fun a' h' => ha a' (by simp [h'])
  simp [World.getOrCreate, World.getCached, this]

/-- **C32 (the first call).** If `create` returns a statement of that dialect that has not been rendered yet, GetOrCreateQuery
returns a text and stores it under the name; the text is the statement's own unless the name got a text while `create` ran. -/
theorem C32_first_call_stores (w : World α) {d : Dia} {name : Bytes} (hn : name ≠ []) (create : List (Op α)) (x : Nat) {q : Stmt α}
    (hm : w.cache d name = none) (hq : (w.run create).1.live x = some q) (hd : q.dialect = d) (hs : q.sql = []) :
    ∃ s, (w.getOrCreate d name create x).2 = some s ∧ (w.getOrCreate d name create x).1.cache d name = some s ∧
      ((w.run create).1.cache d name = none → s = q.render) := by
  subst hd
  have hkey : ({ q with name := name } : Stmt α).key = name := by simp [Stmt.key, hn]
  simp only [World.getOrCreate, World.getCached, hm, hq]
  cases hc : (w.run create).1.cache q.dialect name with
  | some s =>
    rw [str_hit (q := { q with name := name }) hs (by rw [hkey]; exact hc)]
    exact ⟨s, rfl, hc, by simp⟩
  | none =>
    rw [str_miss (q := { q with name := name }) hs (by rw [hkey]; exact hc)]
    refine ⟨_, rfl, ?_, fun _ => rfl⟩
    rw [hkey]
    simp [World.set, World.putCached]

/-- **C32 (names and dialects do not mix).** Calling GetOrCreateQuery changes no cached text of any name in any dialect. -/
theorem C32_others_unchanged (w : World α) (d : Dia) (name : Bytes) (create : List (Op α)) (x : Nat) {d' : Dia} {k s : Bytes}
    (h : w.cache d' k = some s) (hp : ∀ o ∈ create, ∀ s', o ≠ .put d' k s') : (w.getOrCreate d name create x).1.cache d' k = some s := by
  simp only [World.getOrCreate]
  split
  · exact h
  · split
    · exact str_cache_stable _ _ (run_cache_stable w create h hp)
    · exact run_cache_stable w create h hp

/-- Two creates under one name. -/
def mk (e : Bytes) : List (Op Nat) := [.open 0 .postgres none, .call 0 (.from_ b!"t" []), .call 0 (.select e [])]

example : (World.init.getOrCreate .postgres b!"n" (mk b!"a") 0).1.cache .postgres b!"n" = some b!"SELECT a \nFROM t" := by decide +kernel
example : ∀ a ∈ ([.op (.close 0), .getOrCreate .sqlserver b!"n" (mk b!"c") 0, .op (.newLines .postgres false)] : List (Act Nat)),
    a.putsKey .postgres b!"n" = false := forall_mem_of_all (by decide +kernel)
example : ((World.init.run (mk b!"a")).1.live 0).map (fun q => (q.dialect, q.sql)) = some (.postgres, []) := by decide +kernel

/-- **C32 fails if `create` renders.** A `create` that calls `String()` on its builder before returning it (for logging, say)
leaves nothing under the name: the next GetOrCreateQuery calls its `create` again. -/
theorem C32_rendered_builder_is_not_stored :
    let w := (World.init.getOrCreate .postgres b!"n" (mk b!"a" ++ [.str 0]) 0).1
    w.cache .postgres b!"n" = none ∧ (w.getOrCreate .postgres b!"n" (mk b!"b") 0).2 = some b!"SELECT b \nFROM t" := by decide +kernel

/-- **C32 fails across dialects.** A `create` that builds with another dialect (the default one, say) stores under the name in
that dialect. -/
theorem C32_foreign_builder_is_stored_elsewhere :
    let w := (World.init.getOrCreate .sqlserver b!"n" (mk b!"a") 0).1
    w.cache .sqlserver b!"n" = none ∧ w.cache .postgres b!"n" = some b!"SELECT a \nFROM t" := by decide +kernel

end Xsql
