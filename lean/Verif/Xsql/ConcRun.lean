import Verif.Xsql.ConcStep
set_option linter.unusedSimpArgs false
set_option linter.unusedVariables false
namespace Xsql
variable {α : Type}

theorem touches_mentions {o : Op α} {x : Nat} (h : o.touches x) : x ∈ o.mentions := by
  cases o <;> simp only [Op.touches, Op.mentions, List.mem_cons, List.not_mem_nil, or_false] at * <;> first | exact h | exact .inr h

theorem micro_frame (w : World α) (b : Bool) (m : Micro α) (x : Nat) (h : x ∉ m.mentions) : (w.micro b m).world.live x = w.live x := by
  cases m with
  | op o => exact step_frame str_ok w o x fun ht => h (touches_mentions ht)
  | load y =>
    simp only [Micro.mentions, List.mem_singleton] at h
    simp only [World.micro]
    repeat' split
    all_goals simp [set_live, h]
  | store y u =>
    simp only [Micro.mentions, List.mem_singleton] at h
    simp only [World.micro]
    repeat' split
    all_goals simp [set_live, h, World.putCached]
  | detach y g =>
    simp only [Micro.mentions, List.mem_cons, List.not_mem_nil, or_false, not_or] at h
    simp only [World.micro]
    repeat' split
    all_goals simp [set_live, h]
  | join y g e =>
    simp only [Micro.mentions, List.mem_cons, List.not_mem_nil, or_false, not_or] at h
    simp only [World.micro]
    repeat' split
    all_goals simp [set_live, h, World.reuse]
  | lookup d n k => simp only [World.micro]; split <;> rfl

theorem micro_newLines (w : World α) (b : Bool) (m : Micro α) (h : ∀ o, m = .op o → o.single) : (w.micro b m).world.newLines = w.newLines := by
  cases m with
  | op o =>
    have := h o rfl
    simp only [World.micro, World.step]
    cases o <;> first | exact False.elim this | rfl | (simp only [World.stepBy]; split <;> rfl)
  | load y => simp only [World.micro]; repeat' split
              all_goals rfl
  | store y u => simp only [World.micro]; repeat' split
                 all_goals rfl
  | detach y g => simp only [World.micro]; repeat' split
                  all_goals rfl
  | join y g e => simp only [World.micro]; repeat' split
                  all_goals rfl
  | lookup d n k => simp only [World.micro]; split <;> rfl

theorem Good.single {E : Dia × Bytes × Bytes → Prop} {v : World α} {kn : Nat → Bool} {o : Op α} {ms : List (Micro α)} {outs : List (Seen α)}
    (h : Good E v kn (.op o :: ms) outs) : o.single := by cases h; assumption

/-- What is known about the process. -/
structure Inv (E : Dia × Bytes × Bytes → Prop) (own : Nat → Nat → Prop) (total : Nat → List (Seen α)) (s : Sys α) : Prop where
  shared : SharedInv E s.world
  thread : ∀ t, ThreadInv E (total t) s.world (s.thread t)
  own : ∀ t x, x ∈ mentions (s.thread t).todo → own t x

theorem step_inv {E : Dia × Bytes × Bytes → Prop} (hE : ∀ d k s s', E (d, k, s) → E (d, k, s') → s = s') {own : Nat → Nat → Prop}
    (ho : ∀ t t' x, own t x → own t' x → t = t') {total : Nat → List (Seen α)} {s : Sys α} (h : Inv E own total s) (t : Nat) : Inv E own total (s.step t) := by
  unfold Sys.step
  cases htodo : (s.thread t).todo with
  | nil => exact h
  | cons m ms =>
    simp only
    have ht := h.thread t
    have hm := h.own t
    generalize hth : s.thread t = th at *
    obtain ⟨todo, missed, got⟩ := th
    simp only at htodo
    subst htodo
    obtain ⟨h1, h2⟩ := micro_inv hE h.shared ht
    have hnl : (s.world.micro missed m).world.newLines = s.world.newLines := by
      refine micro_newLines _ _ _ fun o ho' => ?_
      subst ho'
      obtain ⟨⟨v, kn, rest, hg, _⟩, _⟩ := ht
      exact hg.single
    refine ⟨h1, fun t' => ?_, fun t' x hx => ?_⟩
    · by_cases htt : t' = t
      · simp only [htt, if_true]; exact h2
      · simp only [htt, if_false]
        have hfr : ∀ x ∈ mentions (s.thread t').todo, (s.world.micro missed m).world.live x = s.world.live x := by
          intro x hx
          refine micro_frame _ _ _ _ fun hxm => htt (ho t' t x (h.own t' x hx) (hm x (mem_mentions_cons.2 (.inl hxm))))
        obtain ⟨⟨v, kn, rest, a1, a2, a3⟩, a4⟩ := h.thread t'
        refine ⟨⟨v, kn, rest, a1, a2, fun x hx => by rw [hfr x hx]; exact a3.live x hx, by rw [hnl]; exact a3.nl⟩, ?_⟩
        generalize (s.thread t').todo = todo' at hfr a4 ⊢
        cases todo' with
        | nil => trivial
        | cons m' ms' =>
          cases m' with
          | store y u =>
            intro q hq
            rw [hfr y (mem_mentions_cons.2 (.inl (by simp [Micro.mentions])))] at hq
            exact a4 q hq
          | join y g e =>
            intro q hq
            rw [hfr g (mem_mentions_cons.2 (.inl (by simp [Micro.mentions])))] at hq
            exact a4 q hq
          | _ => trivial
    · by_cases htt : t' = t
      · simp only [htt, if_true] at hx
        subst htt
        exact hm x (mem_mentions_cons.2 (.inr (mentions_drop hx)))
      · simp only [htt, if_false] at hx
        exact h.own t' x hx

theorem run_inv {E : Dia × Bytes × Bytes → Prop} (hE : ∀ d k s s', E (d, k, s) → E (d, k, s') → s = s') {own : Nat → Nat → Prop}
    (ho : ∀ t t' x, own t x → own t' x → t = t') {total : Nat → List (Seen α)} {s : Sys α} (h : Inv E own total s) (sched : List Nat) :
    Inv E own total (s.run sched) := by
  unfold Sys.run
  induction sched generalizing s with
  | nil => exact h
  | cons t ts ih => exact ih (step_inv hE ho h t)

/-! ### Programs -/

/-- What an operation gives back, for each use of the text. -/
def World.opSeen (v : World α) (u : Use) : Op α → List (Seen α)
  | .str h => v.useSeen h u
  | _ => []

theorem opSeen_inside (v : World α) (o : Op α) : v.opSeen .inside o = [] := by
  cases o <;> simp only [World.opSeen, World.useSeen, Use.seen]
  split <;> rfl

theorem opSeen_stmt (v : World α) (o : Op α) : v.opSeen .stmt o = v.aloneSeen o := by
  cases o with
  | str x => simp only [World.opSeen, World.useSeen, Use.seen, World.aloneSeen]; cases v.live x <;> rfl
  | _ => rfl

theorem op_good {E : Dia × Bytes × Bytes → Prop} {v : World α} {kn : Nat → Bool} (o : Op α) (u : Use) {ms : List (Micro α)} {outs : List (Seen α)}
    (h1 : o.sound = true) (h2 : ∀ d b, o ≠ .newLines d b) (h3 : o.posOK kn = true) (h4 : ∀ e ∈ v.opSupplies o, E e) (h5 : AtRest ms)
    (h : Good E (v.aloneOp o) (o.known kn) ms outs) :
    Good E v kn (o.micros u ++ ms) (v.opSeen u o ++ outs) := by
  have hput : ∀ e ∈ puts [o], E e := fun e he => h4 e (List.mem_append_right _ he)
  cases o with
  | str x =>
    simp only [Op.micros, List.cons_append, List.nil_append]
    have hev : ∀ q, v.live x = some q → E (q.dialect, q.key, q.render) := by
      intro q hq
      exact h4 _ (List.mem_append_left _ (List.mem_map.2 ⟨q, by simp [World.evaluates, hq], rfl⟩))
    refine .load hev ?_
    have hw : v.aloneOp (.str x) = v.aloneLoad x := by
      simp only [World.aloneOp, Op.fresh, World.stepBy, World.aloneLoad]
      split <;> rename_i hq <;> simp [hq, World.ownText]
    have hseen : v.useSeen x u = (v.aloneLoad x).useSeen x u := by
      simp only [World.useSeen, World.aloneLoad]
      cases hq : v.live x with
      | none => simp [hq]
      | some q => cases u <;> simp [set_live, Use.seen] <;> rfl
    simp only [World.opSeen]
    rw [hseen]
    refine .store ?_ h5 (by rw [← hw]; exact h)
    intro q hq
    cases hq' : v.live x with
    | none => simp [World.aloneLoad, hq'] at hq
    | some p =>
      simp only [World.aloneLoad, hq', set_live, if_true, Option.some.injEq] at hq
      subst hq
      exact hev p hq'
  | embed x g e =>
    simp only [Op.micros, List.cons_append, List.nil_append]
    by_cases hg : x = g ∨ v.live x = none ∨ v.live g = none
    · refine .detachNot hg h5 ?_
      have hw : v.aloneOp (.embed x g e) = v := by
        simp only [World.aloneOp, Op.fresh, World.stepBy]
        split
        · rename_i q p hq hp
          rcases hg with hg | hg | hg
          · simp [hg]
          · rw [hq] at hg; cases hg
          · rw [hp] at hg; cases hg
        · rfl
      rw [← hw]; exact h
    · simp only [not_or] at hg
      obtain ⟨hne, hx, hy⟩ := hg
      cases hq : v.live x with
      | none => exact absurd hq hx
      | some q =>
      cases hp : v.live g with
      | none => exact absurd hp hy
      | some p =>
      have hev : E (p.noDialect.dialect, p.noDialect.key, p.noDialect.render) :=
        h4 _ (List.mem_append_left _ (List.mem_map.2 ⟨p.noDialect, by simp [World.evaluates, hq, hp, hne], rfl⟩))
      refine .detach hne hq hp trivial (.load ?_ (.storeIn ?_ ?_))
      · intro q' hq'
        simp only [set_live, if_true, Option.some.injEq] at hq'
        subst hq'; exact hev
      · intro q' hq'
        simp only [World.aloneLoad, set_live, if_true, Option.some.injEq] at hq'
        subst hq'; exact hev
      · have hl : ((v.set g (some p.noDialect)).aloneLoad g).live g = some { p.noDialect with sql := p.noDialect.render } := by
          simp [World.aloneLoad, set_live]
        have hl' : ((v.set g (some p.noDialect)).aloneLoad g).live x = some q := by
          simp [World.aloneLoad, set_live, hne, hq]
        refine .join hne hl' hl h3 h1 h5 ?_
        have hw : ((v.set g (some p.noDialect)).aloneLoad g).aloneJoin x g e = v.aloneOp (.embed x g e) := by
          simp only [World.aloneJoin, hl, hl', World.aloneOp, Op.fresh, World.stepBy, hq, hp, hne, if_false, World.ownText]
          simp only [World.aloneLoad, set_live, if_true, World.set, World.reuse, World.mk.injEq, true_and]
          funext i
          split
          · rfl
          · split
            · rfl
            · rename_i h1 h2; simp [h1]
        rw [hw]; exact h
  | newLines d b => exact absurd rfl (h2 d b)
  | _ => exact .op trivial h1 h3 hput h5 h

def knownAll (kn : Nat → Bool) (os : List (Op α)) : Nat → Bool := os.foldl (fun kn o => o.known kn) kn

theorem posSafe_append (kn : Nat → Bool) (os os' : List (Op α)) : posSafe kn (os ++ os') = (posSafe kn os && posSafe (knownAll kn os) os') := by
  induction os generalizing kn with
  | nil => simp [posSafe, knownAll]
  | cons o os ih => simp [posSafe, ih, knownAll, Bool.and_assoc]

theorem atRest_op (o : Op α) (u : Use) (ms : List (Micro α)) : AtRest (o.micros u ++ ms) := by cases o <;> trivial

theorem atRest_ops (os : List (Op α)) (u : Use) {ms : List (Micro α)} (h : AtRest ms) : AtRest (os.flatMap (Op.micros u) ++ ms) := by
  cases os with
  | nil => exact h
  | cons o os => simp only [List.flatMap_cons, List.append_assoc]; exact atRest_op o u _

theorem opsSupply_append (v : World α) (os os' : List (Op α)) : v.opsSupply (os ++ os') = v.opsSupply os ++ (v.aloneOps os).opsSupply os' := by
  induction os generalizing v with
  | nil => rfl
  | cons o os ih => simp [World.opsSupply, ih, World.aloneOps]

theorem ops_good {E : Dia × Bytes × Bytes → Prop} {v : World α} {kn : Nat → Bool} (os : List (Op α)) {ms : List (Micro α)} {outs : List (Seen α)}
    (h1 : ∀ o ∈ os, o.sound = true) (h2 : ∀ o ∈ os, ∀ d b, o ≠ .newLines d b) (h3 : posSafe kn os = true) (h4 : ∀ e ∈ v.opsSupply os, E e) (h5 : AtRest ms)
    (h : Good E (v.aloneOps os) (knownAll kn os) ms outs) : Good E v kn (os.flatMap (Op.micros .inside) ++ ms) outs := by
  induction os generalizing v kn with
  | nil => exact h
  | cons o os ih =>
    simp only [posSafe, Bool.and_eq_true] at h3
    have := op_good (E := E) (v := v) (kn := kn) o .inside (h1 o (by simp)) (h2 o (by simp)) h3.1 (fun e he => h4 e (List.mem_append_left _ he)) (atRest_ops os .inside h5)
      (ih (fun o' h' => h1 o' (by simp [h'])) (fun o' h' => h2 o' (by simp [h'])) h3.2 (fun e he => h4 e (List.mem_append_right _ he)) h)
    simp only [List.flatMap_cons, List.append_assoc]
    rw [opSeen_inside] at this
    exact this

theorem known_frame (kn : Nat → Bool) (o : Op α) (x : Nat) (h : ¬ o.touches x) : o.known kn x = kn x := by
  cases o <;> simp only [Op.touches, Op.known] at * <;> simp [h]

theorem knownAll_frame (kn : Nat → Bool) (os : List (Op α)) (x : Nat) (h : ∀ o ∈ os, ¬ o.touches x) : knownAll kn os x = kn x := by
  induction os generalizing kn with
  | nil => rfl
  | cons o os ih =>
    show knownAll (o.known kn) os x = kn x
    rw [ih _ fun o' h' => h o' (by simp [h']), known_frame kn o x (h o (by simp))]

theorem fresh_touches (o : Op α) (x : Nat) : o.fresh.touches x ↔ o.touches x := by cases o <;> rfl

theorem aloneOp_frame (v : World α) (o : Op α) (x : Nat) (h : ¬ o.touches x) : (v.aloneOp o).live x = v.live x :=
  step_frame ownText_ok v o.fresh x (by rwa [fresh_touches])

theorem aloneOps_frame (v : World α) (os : List (Op α)) (x : Nat) (h : ∀ o ∈ os, ¬ o.touches x) : (v.aloneOps os).live x = v.live x := by
  induction os generalizing v with
  | nil => rfl
  | cons o os ih =>
    show ((v.aloneOp o).aloneOps os).live x = v.live x
    rw [ih _ fun o' h' => h o' (by simp [h']), aloneOp_frame v o x (h o (by simp))]

theorem aloneOp_newLines (v : World α) (o : Op α) (h : ∀ d b, o ≠ .newLines d b) : (v.aloneOp o).newLines = v.newLines := by
  unfold World.aloneOp
  cases o with
  | newLines d b => exact absurd rfl (h d b)
  | «open» x d p => rfl
  | put d k s => rfl
  | embed x g e => simp only [Op.fresh, World.stepBy]; repeat' split
                   all_goals rfl
  | _ => simp only [Op.fresh, World.stepBy]; split <;> rfl

theorem aloneOps_newLines (v : World α) (os : List (Op α)) (h : ∀ o ∈ os, ∀ d b, o ≠ .newLines d b) : (v.aloneOps os).newLines = v.newLines := by
  induction os generalizing v with
  | nil => rfl
  | cons o os ih =>
    show ((v.aloneOp o).aloneOps os).newLines = v.newLines
    rw [ih _ fun o' h' => h o' (by simp [h']), aloneOp_newLines v o (h o (by simp))]

theorem mentions_append (a b : List (Micro α)) : mentions (a ++ b) = mentions a ++ mentions b := by simp [mentions]

theorem micros_mentions (o : Op α) (u : Use) {x : Nat} (h : x ∈ mentions (o.micros u)) : x ∈ o.mentions := by
  cases o <;> simp_all [mentions, Op.micros, Micro.mentions, Op.mentions] <;> tauto

theorem ops_mentions (os : List (Op α)) (u : Use) {x : Nat} (h : x ∈ mentions (os.flatMap (Op.micros u))) : x ∈ os.flatMap Op.mentions := by
  induction os with
  | nil => simp [mentions] at h
  | cons o os ih =>
    rw [List.flatMap_cons, mentions_append, List.mem_append] at h
    rw [List.flatMap_cons, List.mem_append]
    exact h.imp (micros_mentions o u) ih

theorem act_mentions (a : Act α) {x : Nat} (h : x ∈ mentions a.micros) : x ∈ a.mentions := by
  cases a with
  | op o => exact micros_mentions o _ h
  | getOrCreate d name create y =>
    simp only [Act.micros, mem_mentions_cons, createMicros, mentions_append, List.mem_append] at h
    simp only [Act.mentions, List.mem_append]
    rcases h with h | h | h
    · simp [Micro.mentions] at h
    · exact .inl (ops_mentions create _ h)
    · refine .inr ?_
      simpa [mentions, Micro.mentions, Op.mentions] using h

theorem acts_mentions (as : List (Act α)) {x : Nat} (h : x ∈ mentions (as.flatMap Act.micros)) : ∃ a ∈ as, x ∈ a.mentions := by
  induction as with
  | nil => simp [mentions] at h
  | cons a as ih =>
    rw [List.flatMap_cons, mentions_append, List.mem_append] at h
    rcases h with h | h
    · exact ⟨a, by simp, act_mentions a h⟩
    · obtain ⟨b, hb, hx⟩ := ih h
      exact ⟨b, by simp [hb], hx⟩

theorem atRest_acts (as : List (Act α)) : AtRest (as.flatMap Act.micros) := by
  cases as with
  | nil => trivial
  | cons a as =>
    cases a with
    | op o => simp only [List.flatMap_cons, Act.micros]; exact atRest_op o _ _
    | getOrCreate d n c h => trivial

theorem acts_good {E : Dia × Bytes × Bytes → Prop} (as : List (Act α)) {v : World α} {kn : Nat → Bool}
    (h1 : ∀ a ∈ as, ∀ o ∈ a.ops, o.sound = true) (h2 : ∀ a ∈ as, ∀ o ∈ a.ops, ∀ d b, o ≠ .newLines d b)
    (h3 : posSafe kn (as.flatMap Act.ops) = true) (h4 : Scoped as) (h5 : v.Returns as) (h6 : ∀ e ∈ v.actsSupply as, E e) :
    Good E v kn (as.flatMap Act.micros) (v.alone as) := by
  induction as generalizing v kn with
  | nil => exact .nil
  | cons a as ih =>
    rw [List.flatMap_cons, posSafe_append, Bool.and_eq_true] at h3
    have h1' : ∀ b ∈ as, ∀ o ∈ b.ops, o.sound = true := fun b hb => h1 b (by simp [hb])
    have h2' : ∀ b ∈ as, ∀ o ∈ b.ops, ∀ d b, o ≠ .newLines d b := fun b hb => h2 b (by simp [hb])
    have h6a : ∀ e ∈ v.actSupplies a, E e := fun e he => h6 e (List.mem_append_left _ he)
    have h6b : ∀ e ∈ (v.aloneAct a).1.actsSupply as, E e := fun e he => h6 e (List.mem_append_right _ he)
    have hrest := ih (v := (v.aloneAct a).1) (kn := knownAll kn a.ops) h1' h2' h3.2 (by cases a with | op o => exact h4 | getOrCreate d n c h => exact h4.2)
      (by cases a with | op o => exact h5 | getOrCreate d n c h => exact h5.2) h6b
    rw [List.flatMap_cons]
    cases a with
    | op o =>
      simp only [Act.ops, posSafe, Bool.and_true, knownAll, List.foldl_cons, List.foldl_nil] at h3 hrest
      have := op_good (E := E) (v := v) (kn := kn) o .stmt (h1 (.op o) (by simp) o (by simp [Act.ops])) (h2 (.op o) (by simp) o (by simp [Act.ops]))
        h3.1 h6a (atRest_acts as) hrest
      rw [opSeen_stmt] at this
      simp only [World.alone, World.aloneAct, Act.micros]
      exact this
    | getOrCreate d name create x =>
      have hs1 := h1 (.getOrCreate d name create x) (by simp)
      have hs2 := h2 (.getOrCreate d name create x) (by simp)
      simp only [Act.ops] at hs1 hs2 h3 hrest
      obtain ⟨hsc, _⟩ := h4
      obtain ⟨hret, _⟩ := h5
      obtain ⟨q0, hq0⟩ := Option.isSome_iff_exists.1 hret
      have hq : ((v.aloneOps create).aloneOp (.setName x name)).live x = some { q0 with name := name } := by
        simp [World.aloneOp, Op.fresh, World.stepBy, hq0, set_live]
      generalize hv2 : (v.aloneOps create).aloneOp (.setName x name) = v2 at *
      have hout : v.alone (.getOrCreate d name create x :: as) =
          .query ({ q0 with name := name } : Stmt α).render :: (v2.aloneOp (.str x)).alone as := by
        simp only [World.alone, World.aloneAct, hv2, hq, List.singleton_append]
      have hst : (v.aloneAct (.getOrCreate d name create x)).1 = v2.aloneOp (.str x) := by simp only [World.aloneAct, hv2]
      rw [hst] at hrest
      rw [posSafe_append] at h3
      simp only [Bool.and_eq_true] at h3
      obtain ⟨⟨h3a, h3b⟩, h3c⟩ := h3
      have hsup : ∀ e ∈ v.opsSupply create, E e := by
        intro e he
        refine h6a e (List.mem_append_left _ ?_)
        rw [opsSupply_append]; exact List.mem_append_left _ he
      have hsup' : ∀ e ∈ v2.opSupplies (.str x), E e := by
        intro e he
        refine h6a e (List.mem_append_left _ ?_)
        rw [opsSupply_append]
        refine List.mem_append_right _ ?_
        simp only [World.opsSupply, hv2]
        exact List.mem_append_right _ (List.mem_append_left _ he)
      rw [hout]
      simp only [Act.micros, List.cons_append]
      have hk : knownAll kn (create ++ [.setName x name, .str x]) = knownAll kn create := by simp [knownAll, Op.known]
      rw [hk] at hrest
      have hbody : Good E v kn (createMicros name create x ++ as.flatMap Act.micros)
          (.query ({ q0 with name := name } : Stmt α).render :: (v2.aloneOp (.str x)).alone as) := by
        simp only [createMicros, List.append_assoc, List.cons_append, List.nil_append]
        refine ops_good create (fun o ho => hs1 o (by simp [ho])) (fun o ho => hs2 o (by simp [ho])) h3a hsup trivial ?_
        refine .op trivial rfl rfl (by simp [puts]) trivial ?_
        rw [hv2]
        have := op_good (E := E) (v := v2) (kn := knownAll kn create) (.str x) .query rfl (by simp) rfl hsup' (atRest_acts as) hrest
        simp only [World.opSeen, World.useSeen, hq, Use.seen] at this
        exact this
      refine .lookup (s := ({ q0 with name := name } : Stmt α).render) (v' := v2.aloneOp (.str x)) (kn' := knownAll kn create) ?_ ?_ ?_ hbody ?_ ?_ ?_
      · refine h6a _ (List.mem_append_right _ ?_)
        simp only [hv2, hq, List.mem_singleton]
      · simp only [createMicros, List.append_assoc]; exact atRest_ops create .inside trivial
      · rw [List.drop_left]; exact atRest_acts as
      · rw [List.drop_left]; exact hrest
      · rw [List.drop_left]
        intro y hy
        obtain ⟨a, ha, hya⟩ := acts_mentions as hy
        have hcr : ∀ o ∈ create, ¬ o.touches y := fun o ho ht => hsc y (.inr ⟨o, ho, ht⟩) a ha hya
        have hyx : y ≠ x := fun e => hsc y (.inl e) a ha hya
        refine ⟨?_, knownAll_frame kn create y hcr⟩
        rw [aloneOp_frame _ _ _ (by simpa [Op.touches] using hyx), ← hv2, aloneOp_frame _ _ _ (by simpa [Op.touches] using hyx), aloneOps_frame v create y hcr]
      · rw [aloneOp_newLines _ _ (by simp), ← hv2, aloneOp_newLines _ _ (by simp), aloneOps_newLines v create fun o ho => hs2 o (by simp [ho])]

end Xsql
