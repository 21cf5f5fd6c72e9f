import Verif.Xsql.ConcRun
set_option linter.unusedSimpArgs false
set_option linter.unusedVariables false
namespace Xsql
variable {α : Type}

/-! ### C94 goroutines -/

theorem run_state {E : List (Dia × Bytes × Bytes)} (hE : Unambiguous E) {w v : World α} (hw : SameState w v) (hv : WorldOK v) (hc : CacheFrom E w)
    (os : List (Op α)) (ho : ∀ o ∈ os, o.sound = true) (he : ∀ e ∈ v.supplied os, e ∈ E) :
    SameState (w.run os).1 (v.pureRun os).1 ∧ WorldOK (v.pureRun os).1 ∧ CacheFrom E (w.run os).1 := by
  unfold World.run World.pureRun
  induction os generalizing w v with
  | nil => exact ⟨hw, hv, hc⟩
  | cons o os ih =>
    have hp : puts (o :: os) = puts [o] ++ puts os := by simp [puts, ← List.filterMap_append]
    obtain ⟨h1, h2, h3⟩ := step_own hE hw hv hc o (ho o (by simp))
      (fun q hq => he _ (by simp only [World.supplied, World.evaluated, List.mem_append, List.mem_map]; exact .inl ⟨q, .inl hq, rfl⟩))
      (fun e h => he _ (by simp only [World.supplied, List.mem_append]; refine .inr ?_; rw [hp]; exact List.mem_append_left _ h))
    simp only [World.runBy]
    unfold World.step at h2 h3
    refine ih h2 (step_ok ownText_ok (fun w q _ => own_sqlok w q) hv o (ho o (by simp))) h3 (fun o' h' => ho o' (by simp [h'])) ?_
    intro e hin
    apply he
    simp only [World.supplied, World.evaluated, List.mem_append, List.mem_map] at hin ⊢
    rcases hin with ⟨q, hq, rfl⟩ | hin
    · exact .inl ⟨q, .inr hq, rfl⟩
    · exact .inr (by rw [hp]; exact List.mem_append_right _ hin)

/-- **C94.** Any number of goroutines build, render, embed, clone, name and close statements and call `GetOrCreateQuery` and
`PutCachedQuery` at the same time, after any setup.  Whatever the schedule, and whichever objects the shared pool hands out, each goroutine gets back
exactly what it would get running alone without any cache and with new objects — texts, arguments and destinations, in order —
if each uses its own statements and no cache key gets two different texts. -/
theorem C94_goroutines_as_alone (pre : List (Op α)) (prog : Nat → List (Act α)) (hpre : ∀ o ∈ pre, o.sound = true)
    (hg : ∀ t, Goroutine (World.init.pureRun pre).1 (prog t)) (ho : OwnStatements prog) (hu : NoClash pre prog) (sched : List Nat) (t : Nat) :
    let s := (Sys.start (World.init.run pre).1 prog).run sched
    (s.thread t).got <+: (World.init.pureRun pre).1.alone (prog t) ∧
    ((s.thread t).todo = [] → (s.thread t).got = (World.init.pureRun pre).1.alone (prog t)) := by
  intro s
  have hE0 : Unambiguous (World.init.supplied pre) := fun e he e' he' h1 h2 => hu e e' (.inl he) (.inl he') h1 h2
  obtain ⟨hs, hok, hcf⟩ := run_state hE0 (w := World.init) (v := World.init) ⟨rfl, rfl, rfl⟩ init_ok (by intro d k s h; simp [World.init] at h) pre hpre (fun _ h => h)
  have hinv : Inv (fun e => e ∈ World.init.supplied pre ∨ ∃ t, e ∈ (World.init.pureRun pre).1.actsSupply (prog t))
      (fun t x => ∃ a ∈ prog t, x ∈ a.mentions) (fun t => (World.init.pureRun pre).1.alone (prog t)) (Sys.start (World.init.run pre).1 prog) := by
    refine ⟨⟨⟨?_, ?_⟩, fun d k s hc => .inl (hcf d k s hc)⟩, fun t => ⟨⟨(World.init.pureRun pre).1, fun _ => true, _, ?_, rfl, ?_⟩, ?_⟩, fun t x hx => ?_⟩
    · rw [Sys.start, hs.1]; exact hok.pool
    · rw [Sys.start, hs.2.1]; exact hok.live
    · exact acts_good (prog t) (hg t).sound (hg t).noSetting (hg t).posSafe (hg t).keeps (hg t).returns (fun e he => .inr ⟨t, he⟩)
    · refine ⟨fun x _ => ?_, hs.2.2⟩
      simp only [Sys.start]; rw [hs.2.1]; exact VarSame.refl _ _
    · exact Ready.of_rest (atRest_acts (prog t))
    · exact acts_mentions (prog t) hx
  have := (run_inv (fun d k s s' h h' => hu (d, k, s) (d, k, s') h h' rfl rfl) (fun t t' x h h' => ho t t' x h h') hinv sched).thread t
  obtain ⟨⟨v, kn, rest, hgood, htot, _⟩, _⟩ := this
  refine ⟨⟨rest, htot⟩, fun hnil => ?_⟩
  have hgood : Good _ v kn (s.thread t).todo rest := hgood
  rw [hnil] at hgood
  cases hgood
  simpa using htot

theorem step_todo (s : Sys α) (t t' : Nat) : ((s.step t).thread t').todo.length ≤ (s.thread t').todo.length - (if t = t' then 1 else 0) := by
  unfold Sys.step
  split
  · rename_i h
    split
    · rename_i e; subst e; simp [h]
    · simp
  · rename_i m ms h
    simp only
    split
    · rename_i e; simp only [e, if_true] at *; simp [h]
    · rename_i e; simp [Ne.symm e]

/-- **C94 (no waiting).** A goroutine that has been scheduled as often as its program has steps has finished, whatever the others do. -/
theorem C94_no_waiting (w : World α) (prog : Nat → List (Act α)) (sched : List Nat) (t : Nat)
    (h : ((prog t).flatMap Act.micros).length ≤ sched.count t) : (((Sys.start w prog).run sched).thread t).todo = [] := by
  have gen : ∀ (sched : List Nat) (s : Sys α), ((s.run sched).thread t).todo.length ≤ (s.thread t).todo.length - sched.count t := by
    intro sched
    induction sched with
    | nil => intro s; simp [Sys.run]
    | cons t' ts ih =>
      intro s
      have h1 := ih (s.step t')
      have h2 := step_todo s t' t
      simp only [Sys.run, List.foldl_cons] at h1 ⊢
      rw [List.count_cons]
      simp only [beq_iff_eq]
      split at h2 <;> simp_all <;> omega
  have := gen sched (Sys.start w prog)
  have e : ((Sys.start w prog).thread t).todo.length = ((prog t).flatMap Act.micros).length := rfl
  exact List.length_eq_zero_iff.1 (by omega)

/-! #### The steps of one goroutine are the operations -/

/-- Goroutine `t` in another state, with a new shared state. -/
def Sys.put (s : Sys α) (t : Nat) (w : World α) (th : Thread α) : Sys α :=
  { world := w, thread := fun i => if i = t then th else s.thread i }

theorem put_put (s : Sys α) (t : Nat) (w w' : World α) (th th' : Thread α) : (s.put t w th).put t w' th' = s.put t w' th' := by
  simp only [Sys.put, Sys.mk.injEq, true_and]
  funext i; split <;> rfl

theorem put_step (s : Sys α) (t : Nat) (w : World α) (m : Micro α) (ms : List (Micro α)) (b : Bool) (g : List (Seen α)) :
    (s.put t w { todo := m :: ms, missed := b, got := g }).step t =
      s.put t (w.micro b m).world { todo := ms.drop (w.micro b m).skip, missed := (w.micro b m).missed, got := g ++ (w.micro b m).got } := by
  unfold Sys.step Sys.put
  simp only [if_true, Sys.mk.injEq, true_and]
  funext i; split <;> rfl

/-- Goroutine `t` alone gets from one state to another. -/
def Reach (t : Nat) (s s' : Sys α) : Prop := ∃ n, s' = s.run (List.replicate n t)

theorem Reach.refl (t : Nat) (s : Sys α) : Reach t s s := ⟨0, rfl⟩

theorem Reach.step {t : Nat} {s s' : Sys α} (h : Reach t (s.step t) s') : Reach t s s' := by
  obtain ⟨n, hn⟩ := h
  exact ⟨n + 1, by rw [hn]; simp [Sys.run, List.replicate_succ]⟩

theorem Reach.trans {t : Nat} {a b c : Sys α} (h : Reach t a b) (k : Reach t b c) : Reach t a c := by
  obtain ⟨n, rfl⟩ := h
  obtain ⟨m, rfl⟩ := k
  exact ⟨n + m, by rw [Sys.run, Sys.run, Sys.run, ← List.foldl_append, List.replicate_append_replicate]⟩

theorem str_world (w : World α) (q : Stmt α) : (w.str q).1.live = w.live ∧ (w.str q).1.pool = w.pool ∧ (w.str q).1.newLines = w.newLines :=
  ⟨str_ok.live w q, str_ok.pool w q, str_ok.newLines w q⟩

/-- `String()` of the statement in `h`, uninterrupted. -/
theorem reach_str (s : Sys α) (t : Nat) (w : World α) {h : Nat} {q : Stmt α} (hq : w.live h = some q) (u : Use) (ms : List (Micro α)) (b : Bool)
    (g : List (Seen α)) :
    ∃ b', Reach t (s.put t w { todo := .load h :: .store h u :: ms, missed := b, got := g })
      (s.put t ((w.str q).1.set h (some (w.str q).2)) { todo := ms, missed := b', got := g ++ u.seen (w.str q).2.sql q }) := by
  refine ⟨false, Reach.step ?_⟩
  rw [put_step]
  have hset : w.set h (some q) = w := by
    simp only [World.set]
    have : (fun i => if i = h then some q else w.live i) = w.live := by funext i; split <;> simp_all
    rw [this]
  by_cases hs : q.sql ≠ []
  · have e1 : w.micro b (.load h) = { world := w } := by simp [World.micro, hq, hs]
    have e2 : w.str q = (w, q) := by unfold World.str; rw [if_pos hs]
    rw [e1]
    simp only [List.drop_zero, List.append_nil]
    refine Reach.step ?_
    rw [put_step]
    simp only [World.micro, hq, e2, hset, List.append_nil, List.drop_zero]
    exact Reach.refl _ _
  · cases hc : w.getCached q.dialect q.key with
    | none =>
      have e1 : w.micro b (.load h) = { world := w, missed := true } := by
        simp only [World.micro, hq]; rw [if_neg hs]; simp only [hc]
      have e2 : w.str q = (w.putCached q.dialect q.key q.render, { q with sql := q.render }) := by unfold World.str; rw [if_neg hs]; simp only [hc]
      rw [e1]
      simp only [List.drop_zero, List.append_nil]
      refine Reach.step ?_
      rw [put_step]
      simp only [World.micro, hq, e2, if_true, List.append_nil, List.drop_zero]
      exact Reach.refl _ _
    | some c =>
      have e1 : w.micro b (.load h) = { world := w.set h (some { q with sql := c }) } := by
        simp only [World.micro, hq]; rw [if_neg hs]; simp only [hc]
      have e2 : w.str q = (w, { q with sql := c }) := by unfold World.str; rw [if_neg hs]; simp only [hc]
      rw [e1]
      simp only [List.drop_zero, List.append_nil]
      refine Reach.step ?_
      rw [put_step]
      have : (w.set h (some { q with sql := c })).live h = some { q with sql := c } := by simp [set_live]
      simp only [World.micro, this, e2, List.append_nil, List.drop_zero]
      cases u <;> exact Reach.refl _ _

/-- What an operation gives back with caches. -/
def World.opGets (w : World α) (u : Use) : Op α → List (Seen α)
  | .str h => match w.live h with
    | some q => u.seen (w.str q).2.sql q
    | none => []
  | _ => []

/-- An operation, uninterrupted. -/
theorem reach_op (s : Sys α) (t : Nat) (w : World α) (o : Op α) (u : Use) (ms : List (Micro α)) (b : Bool) (g : List (Seen α)) :
    ∃ b', Reach t (s.put t w { todo := o.micros u ++ ms, missed := b, got := g })
      (s.put t (w.step o).1 { todo := ms, missed := b', got := g ++ w.opGets u o }) := by
  cases o with
  | str x =>
    simp only [Op.micros, List.cons_append, List.nil_append, World.opGets, World.step, World.stepBy]
    cases hq : w.live x with
    | some q => exact reach_str s t w hq u ms b g
    | none =>
      refine ⟨false, Reach.step ?_⟩
      rw [put_step]
      simp only [World.micro, hq, List.drop_zero, List.append_nil]
      refine Reach.step ?_
      rw [put_step]
      simp only [World.micro, hq, List.drop_zero, List.append_nil]
      exact Reach.refl _ _
  | embed x y e =>
    simp only [Op.micros, List.cons_append, List.nil_append, World.opGets, World.step, World.stepBy, List.append_nil]
    by_cases hg : x = y ∨ w.live x = none ∨ w.live y = none
    · have e1 : w.micro b (.detach x y) = { world := w, skip := 3 } := by
        simp only [World.micro]
        split
        · rename_i q p hq hp; rw [hq, hp] at hg; simp only [reduceCtorEq, or_false] at hg; simp [hg]
        · rfl
      refine ⟨false, Reach.step ?_⟩
      rw [put_step, e1]
      simp only [List.drop_succ_cons, List.drop_zero, List.append_nil]
      split
      · rename_i q p hq hp; rw [hq, hp] at hg; simp only [reduceCtorEq, or_false] at hg; simp only [hg, if_true]; exact Reach.refl _ _
      · exact Reach.refl _ _
    · simp only [not_or] at hg
      obtain ⟨hne, hx, hy⟩ := hg
      cases hq : w.live x with
      | none => exact absurd hq hx
      | some q =>
      cases hp : w.live y with
      | none => exact absurd hp hy
      | some p =>
      have e1 : w.micro b (.detach x y) = { world := w.set y (some p.noDialect) } := by simp only [World.micro, hq, hp, hne, if_false]
      have hl : (w.set y (some p.noDialect)).live y = some p.noDialect := by simp [set_live]
      obtain ⟨b', hr⟩ := reach_str s t (w.set y (some p.noDialect)) hl .inside (.join x y e :: ms) false g
      refine ⟨false, Reach.step ?_⟩
      rw [put_step, e1]
      simp only [List.drop_zero, List.append_nil]
      refine hr.trans (Reach.step ?_)
      rw [put_step]
      have hstr : ∀ (a : World α) (z : Option (Stmt α)), ((w.set y z).str p.noDialect).2 = (w.str p.noDialect).2 ∧
          ((w.set y z).str p.noDialect).1 = (w.str p.noDialect).1.set y z := by
        intro a z
        unfold World.str
        have : (w.set y z).getCached p.noDialect.dialect p.noDialect.key = w.getCached p.noDialect.dialect p.noDialect.key := rfl
        rw [this]
        split
        · exact ⟨rfl, rfl⟩
        · split <;> exact ⟨rfl, rfl⟩
      rw [(hstr w _).1, (hstr w _).2]
      generalize hW : (w.str p.noDialect).1 = W
      generalize hP : (w.str p.noDialect).2 = P
      have hargs : P.args = p.noDialect.args := by
        rw [← hP]; unfold World.str
        split
        · rfl
        · split <;> rfl
      have hlx : ((W.set y (some p.noDialect)).set y (some P)).live x = some q := by
        simp [set_live, hne, ← hW, str_ok.live, hq]
      have hly : ((W.set y (some p.noDialect)).set y (some P)).live y = some P := by simp [set_live]
      simp only [World.micro, hlx, hly, hne, if_false, List.drop_zero, List.append_nil, Use.seen, hargs, hW, hP]
      have hw : ((((W.set y (some p.noDialect)).set y (some P)).set x (some (q.call (e.toCall P.sql p.noDialect.args)))).set y none).reuse P =
          ((W.set x (some (q.call (e.toCall P.sql p.noDialect.args)))).set y none).reuse P := by
        simp only [World.set, World.reuse, World.mk.injEq, true_and]
        funext i
        split
        · rfl
        · split
          · rfl
          · rename_i h1 h2; simp [h1]
      rw [hw]
      exact Reach.refl _ _
  | _ =>
    refine ⟨false, Reach.step ?_⟩
    simp only [Op.micros, List.cons_append, List.nil_append, World.opGets]
    rw [put_step]
    simp only [World.micro, List.drop_zero, List.append_nil]
    exact Reach.refl _ _

theorem reach_ops (s : Sys α) (t : Nat) (w : World α) (os : List (Op α)) (ms : List (Micro α)) (b : Bool) (g : List (Seen α)) :
    ∃ b', Reach t (s.put t w { todo := os.flatMap (Op.micros .inside) ++ ms, missed := b, got := g })
      (s.put t (w.run os).1 { todo := ms, missed := b', got := g }) := by
  induction os generalizing w b with
  | nil => exact ⟨b, Reach.refl _ _⟩
  | cons o os ih =>
    obtain ⟨b1, h1⟩ := reach_op s t w o .inside (os.flatMap (Op.micros .inside) ++ ms) b g
    obtain ⟨b2, h2⟩ := ih (w.step o).1 b1
    refine ⟨b2, ?_⟩
    simp only [List.flatMap_cons, List.append_assoc]
    have : w.opGets .inside o = [] := by
      cases o <;> simp only [World.opGets, Use.seen]
      split <;> rfl
    rw [this, List.append_nil] at h1
    exact h1.trans h2

theorem reach_hit (s : Sys α) (t : Nat) (w : World α) (d : Dia) (name : Bytes) (body ms : List (Micro α)) (b : Bool) (g : List (Seen α)) {c : Bytes}
    (hc : w.getCached d name = some c) :
    Reach t (s.put t w ⟨.lookup d name body.length :: (body ++ ms), b, g⟩) (s.put t w ⟨ms, false, g ++ [.query c]⟩) := by
  refine Reach.step ?_
  rw [put_step]
  simp only [World.micro, hc, List.drop_left]
  exact Reach.refl _ _

theorem reach_miss (s : Sys α) (t : Nat) (w : World α) (d : Dia) (name : Bytes) (body ms : List (Micro α)) (b : Bool) (g : List (Seen α))
    (hc : w.getCached d name = none) :
    Reach t (s.put t w ⟨.lookup d name body.length :: (body ++ ms), b, g⟩) (s.put t w ⟨body ++ ms, false, g⟩) := by
  refine Reach.step ?_
  rw [put_step]
  simp only [World.micro, hc, List.drop_zero, List.append_nil]
  exact Reach.refl _ _

theorem reach_act (s : Sys α) (t : Nat) (w : World α) (a : Act α) (ms : List (Micro α)) (b : Bool) (g : List (Seen α)) :
    ∃ b' gs, Reach t (s.put t w ⟨a.micros ++ ms, b, g⟩) (s.put t (w.act a).1 ⟨ms, b', g ++ gs⟩) ∧ gs.map Seen.sql = (w.act a).2.toList := by
  cases a with
  | op o =>
    obtain ⟨b', hr⟩ := reach_op s t w o .stmt ms b g
    refine ⟨b', _, hr, ?_⟩
    simp only [World.act, World.step]
    cases o with
    | str x => simp only [World.opGets, World.stepBy]; cases w.live x <;> rfl
    | _ => rfl
  | getOrCreate d name create x =>
    simp only [Act.micros, List.cons_append]
    cases hc : w.getCached d name with
    | some c =>
      refine ⟨false, [.query c], ?_, ?_⟩
      · simp only [World.act, World.getOrCreate, hc]; exact reach_hit s t w d name _ ms b g hc
      · simp only [World.act, World.getOrCreate, hc]; rfl
    | none =>
      have h0 := reach_miss s t w d name (createMicros name create x) ms b g hc
      simp only [World.act, World.getOrCreate, hc]
      generalize hn : (createMicros name create x).length = n at *
      simp only [createMicros, List.append_assoc, List.cons_append, List.nil_append] at h0 ⊢
      obtain ⟨b1, h1⟩ := reach_ops s t w create (.op (.setName x name) :: .load x :: .store x .query :: ms) false g
      have h01 := h0.trans h1
      generalize hw1 : (w.run create).1 = w1 at *
      cases hq : w1.live x with
      | none =>
        refine ⟨false, [], ?_, rfl⟩
        refine h01.trans (Reach.step ?_)
        rw [put_step]
        simp only [World.micro, World.step, World.stepBy, hq, List.drop_zero, List.append_nil]
        refine Reach.step ?_
        rw [put_step]
        simp only [World.micro, hq, List.drop_zero, List.append_nil]
        refine Reach.step ?_
        rw [put_step]
        simp only [World.micro, hq, List.drop_zero, List.append_nil]
        exact Reach.refl _ _
      | some q =>
        have hl : (w1.set x (some { q with name := name })).live x = some { q with name := name } := by simp [set_live]
        obtain ⟨b2, h2⟩ := reach_str s t (w1.set x (some { q with name := name })) hl .query ms false g
        have hstr : ((w1.set x (some { q with name := name })).str { q with name := name }).2 = (w1.str { q with name := name }).2 ∧
            ((w1.set x (some { q with name := name })).str { q with name := name }).1 = (w1.str { q with name := name }).1.set x (some { q with name := name }) := by
          unfold World.str
          have : ∀ d k, (w1.set x (some { q with name := name })).getCached d k = w1.getCached d k := fun _ _ => rfl
          rw [this]
          split
          · exact ⟨rfl, rfl⟩
          · split <;> exact ⟨rfl, rfl⟩
        have hss : ∀ (W : World α) a b, (W.set x a).set x b = W.set x b := by
          intro W a b
          simp only [World.set, World.mk.injEq, true_and]
          funext i; split <;> rfl
        rw [hstr.1, hstr.2, hss] at h2
        refine ⟨b2, [.query (w1.str { q with name := name }).2.sql], h01.trans (Reach.step ?_), rfl⟩
        rw [put_step]
        simp only [World.micro, World.step, World.stepBy, hq, List.drop_zero, List.append_nil]
        exact h2

/-- **C94 (the steps are the operations).** A goroutine that is not interrupted does exactly what the operation does as one step:
same shared state afterwards, same text. -/
theorem C94_uninterrupted (s : Sys α) (t : Nat) (a : Act α) (ms : List (Micro α)) (h : (s.thread t).todo = a.micros ++ ms) :
    ∃ n gs, ((s.run (List.replicate n t)).world = (s.world.act a).1 ∧ ((s.run (List.replicate n t)).thread t).todo = ms ∧
      ((s.run (List.replicate n t)).thread t).got = (s.thread t).got ++ gs ∧ gs.map Seen.sql = (s.world.act a).2.toList) ∧
      ∀ t', t' ≠ t → (s.run (List.replicate n t)).thread t' = s.thread t' := by
  obtain ⟨b', gs, ⟨n, hn⟩, hg⟩ := reach_act s t s.world a ms (s.thread t).missed (s.thread t).got
  have hs : s.put t s.world ⟨a.micros ++ ms, (s.thread t).missed, (s.thread t).got⟩ = s := by
    obtain ⟨w, th⟩ := s
    simp only [Sys.put, Sys.mk.injEq, true_and]
    simp only at h
    funext i
    split
    · rename_i e; subst e; rw [← h]
    · rfl
  rw [hs] at hn
  refine ⟨n, gs, ?_⟩
  rw [← hn]
  refine ⟨⟨rfl, by simp [Sys.put], by simp [Sys.put], hg⟩, fun t' ht => by simp [Sys.put, ht]⟩

/-! #### Cases -/

/-- A function for `GetOrCreateQuery` returning `SELECT e FROM t` in variable `x`. -/
def selectInto (x : Nat) (e : Bytes) : List (Op Nat) := [.open x .postgres (some 0), .call x (.from_ b!"t" []), .call x (.select e [])]

/-- Two goroutines: the first embeds a statement and renders, the second asks for a query by name twice and renders, with the same texts. -/
def twoProgs : Nat → List (Act Nat)
  | 0 => [.getOrCreate .postgres b!"q" (selectInto 0 b!"a") 0, .op (.open 1 .postgres (some 0)), .op (.call 1 (.from_ b!"t" [])), .op (.call 1 (.select b!"a" [])),
      .op (.open 2 .default none), .op (.call 2 (.select b!"c" [])), .op (.call 2 (.where_ b!"d = ?" [5])), .op (.call 1 (.where_ b!"x IN" [])),
      .op (.embed 1 2 (.subQuery b!"(" b!")")), .op (.str 1), .op (.close 1)]
  | 1 => [.op (.open 11 .postgres none), .op (.call 11 (.select b!"c" [])), .op (.call 11 (.where_ b!"d = ?" [6])), .op (.str 11), .op (.str 11), .op (.close 11),
      .getOrCreate .postgres b!"q" (selectInto 12 b!"a") 12, .getOrCreate .postgres b!"q" (selectInto 13 b!"a") 13]
  | _ => []

/-- Setup: a setting, and a statement left in the pool. -/
def twoPre : List (Op Nat) := [.newLines .postgres false, .open 100 .postgres none, .call 100 (.where_ b!"z" []), .str 100, .close 100]

def decScoped : (as : List (Act α)) → Decidable (Scoped as)
  | [] => isTrue trivial
  | .op _ :: as => decScoped as
  | .getOrCreate _ name create h :: as =>
    have : Decidable (Scoped as) := decScoped as
    have : Decidable (∀ x, (x = h ∨ ∃ o ∈ create, o.touches x) → ∀ a ∈ as, x ∉ a.mentions) :=
      decidable_of_iff (∀ a ∈ as, ∀ x ∈ a.mentions, ¬ (x = h ∨ ∃ o ∈ create, o.touches x))
        ⟨fun H x hx a ha hm => H a ha x hm hx, fun H a ha x hm hx => H x hx a ha hm⟩
    inferInstanceAs (Decidable (_ ∧ _))

instance (as : List (Act α)) : Decidable (Scoped as) := decScoped as

example : ∀ o ∈ twoPre, o.sound = true := forall_mem_of_all (by decide +kernel)
example : OwnStatements twoProgs := by
  have h : ∀ t x, (∃ a ∈ twoProgs t, x ∈ a.mentions) → (t = 0 ∧ x < 10) ∨ (t = 1 ∧ 10 ≤ x) := by
    intro t x ⟨a, ha, hx⟩
    match t with
    | 0 => exact .inl ⟨rfl, (by decide +kernel : ∀ a ∈ twoProgs 0, ∀ x ∈ a.mentions, x < 10) a ha x hx⟩
    | 1 => exact .inr ⟨rfl, (by decide +kernel : ∀ a ∈ twoProgs 1, ∀ x ∈ a.mentions, 10 ≤ x) a ha x hx⟩
    | t + 2 => simp [twoProgs] at ha
  intro t t' x h1 h2
  rcases h t x h1 with ⟨a, b⟩ | ⟨a, b⟩ <;> rcases h t' x h2 with ⟨c, d⟩ | ⟨c, d⟩ <;> omega
example : NoClash twoPre twoProgs := by
  have key : Unambiguous (World.init.supplied twoPre ++ ((World.init.pureRun twoPre).1.actsSupply (twoProgs 0) ++ (World.init.pureRun twoPre).1.actsSupply (twoProgs 1))) := by
    decide +kernel
  have h : ∀ e, (e ∈ World.init.supplied twoPre ∨ ∃ t, e ∈ (World.init.pureRun twoPre).1.actsSupply (twoProgs t)) →
      e ∈ World.init.supplied twoPre ++ ((World.init.pureRun twoPre).1.actsSupply (twoProgs 0) ++ (World.init.pureRun twoPre).1.actsSupply (twoProgs 1)) := by
    rintro e (h | ⟨t, h⟩)
    · simp [h]
    · match t with
      | 0 => simp [h]
      | 1 => simp [h]
      | t + 2 => simp [twoProgs, World.actsSupply] at h
  exact fun e e' he he' => key e (h e he) e' (h e' he')
example : ∀ t, Goroutine (World.init.pureRun twoPre).1 (twoProgs t) := by
  intro t
  match t with
  | 0 =>
    refine ⟨?_, ?_, by decide +kernel, by decide +kernel, ?_⟩
    · intro a ha o ho
      have : (twoProgs 0).all (fun a => a.ops.all fun o => o.sound) = true := by decide +kernel
      simp only [List.all_eq_true] at this
      exact this a ha o ho
    · intro a ha o ho d b e
      subst e
      simp [twoProgs] at ha
      rcases ha with rfl | rfl | rfl | rfl | rfl | rfl | rfl | rfl | rfl | rfl | rfl <;> simp [Act.ops, selectInto] at ho
    · simp only [twoProgs, World.Returns, and_true]; decide +kernel
  | 1 =>
    refine ⟨?_, ?_, by decide +kernel, by decide +kernel, ?_⟩
    · intro a ha o ho
      have : (twoProgs 1).all (fun a => a.ops.all fun o => o.sound) = true := by decide +kernel
      simp only [List.all_eq_true] at this
      exact this a ha o ho
    · intro a ha o ho d b e
      subst e
      simp [twoProgs] at ha
      rcases ha with rfl | rfl | rfl | rfl | rfl | rfl | rfl | rfl <;> simp [Act.ops, selectInto] at ho
    · simp only [twoProgs, World.Returns, and_true]; constructor <;> decide +kernel
  | t + 2 => exact ⟨by simp [twoProgs], by simp [twoProgs], rfl, trivial, trivial⟩
/-- A schedule with misses on both sides: the two goroutines in turn. -/
def inTurn : List Nat := (List.range 30).flatMap fun _ => [0, 1]
example : let s := (Sys.start (World.init.run twoPre).1 twoProgs).run inTurn
    (s.thread 0).got = [.query b!"SELECT a FROM t", .stmt b!"SELECT a FROM t WHERE x IN AND (SELECT c \nWHERE d = $1)" [5] []] ∧
    (s.thread 1).got = [.stmt b!"SELECT c WHERE d = $1" [6] [], .stmt b!"SELECT c WHERE d = $1" [6] [], .query b!"SELECT a FROM t", .query b!"SELECT a FROM t"] ∧
    (s.thread 0).todo.length = 0 ∧ (s.thread 1).todo.length = 0 := by decide +kernel

/-- Two goroutines that ask for a query of one name with different texts. -/
def clashing : Nat → List (Act Nat)
  | 0 => [.getOrCreate .postgres b!"q" (selectInto 0 b!"a") 0, .getOrCreate .postgres b!"q" (selectInto 1 b!"a") 1]
  | 1 => [.getOrCreate .postgres b!"q" (selectInto 11 b!"b") 11]
  | _ => []

/-- **C94 (a clash depends on the schedule).** With two texts for one name the first text stored does not stay: one goroutine
asks for the query twice and gets two different texts, because another one looked for it before the first had stored its text and
stored its own afterwards.  One after the other all would get the first text (C32). -/
theorem C94_first_text_does_not_win :
    (((Sys.start World.init clashing).run ([1, 1, 1, 1, 1, 1] ++ List.replicate 7 0 ++ [1] ++ List.replicate 7 0)).thread 0).got =
      [.query b!"SELECT a \nFROM t", .query b!"SELECT b \nFROM t"] ∧
    (((Sys.start World.init clashing).run (List.replicate 14 0 ++ List.replicate 7 1)).thread 0).got =
      [.query b!"SELECT a \nFROM t", .query b!"SELECT a \nFROM t"] := by decide +kernel

/-- **C94 (the constructor call matters).** A goroutine that adds to the current clause of a clone gets what another goroutine left in the pooled object. -/
theorem C94_pooled_object_shows_through :
    let prog : Nat → List (Act Nat) := fun t => match t with
      | 0 => [.op (.open 0 .default none), .op (.call 0 (.from_ b!"t" [])), .op (.call 0 (.select b!"a" [])), .op (.clone 0 1 (some 0)), .op (.call 1 (.expr b!"b" [])), .op (.str 1)]
      | 1 => [.op (.open 11 .default none), .op (.call 11 (.select b!"c" [])), .op (.call 11 (.where_ b!"w" [])), .op (.close 11)]
      | _ => []
    (((Sys.start World.init prog).run (List.replicate 7 0)).thread 0).got = [.stmt b!"b \nSELECT a \nFROM t" [] []] ∧
    (((Sys.start World.init prog).run (List.replicate 4 1 ++ List.replicate 7 0)).thread 0).got = [.stmt b!"SELECT a \nFROM t b" [] []] := by decide +kernel

end Xsql
