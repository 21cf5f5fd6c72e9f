import Verif.Xsql.ConcLemmas
set_option linter.unusedSimpArgs false
set_option linter.unusedVariables false
namespace Xsql
variable {α : Type}

/-- The variables hold the same statements in both states. -/
structure Related (M : List Nat) (kn : Nat → Bool) (w v : World α) : Prop where
  live : ∀ x ∈ M, VarSame (kn x) (w.live x) (v.live x)
  nl : w.newLines = v.newLines

theorem Related.mono {M M' : List Nat} {kn : Nat → Bool} {w v : World α} (h : Related M kn w v) (hm : ∀ x ∈ M', x ∈ M) : Related M' kn w v :=
  ⟨fun x hx => h.live x (hm x hx), h.nl⟩

theorem Related.set {M : List Nat} {kn kn' : Nat → Bool} {w v : World α} (h : Related M kn w v) (y : Nat) {a b : Option (Stmt α)}
    (hk : ∀ x, x ≠ y → kn' x = kn x) (hab : VarSame (kn' y) a b) : Related M kn' (w.set y a) (v.set y b) where
  live := fun x hx => by
    rw [set_live, set_live]
    split
    · rename_i hxy; subst hxy; exact hab
    · rename_i hxy; rw [hk x hxy]; exact h.live x hx
  nl := h.nl

theorem Related.keep {M : List Nat} {kn : Nat → Bool} {w v w' v' : World α} (h : Related M kn w v) (h1 : w'.live = w.live) (h2 : v'.live = v.live)
    (h3 : w'.newLines = w.newLines) (h4 : v'.newLines = v.newLines) : Related M kn w' v' :=
  ⟨fun x hx => by rw [h1, h2]; exact h.live x hx, by rw [h3, h4]; exact h.nl⟩

theorem clone_none (w : World α) (q : Stmt α) :
    (w.clone q none).2 = { q with name := [], useNewLines := w.newLines q.dialect, pos := 0 } := by
  unfold World.clone World.getStmt
  have e1 : ∀ l : List α, insertAt [] l 0 = l := fun l => by simpa using insertAt_eq [] [] l
  have e2 : ∀ l : List Nat, insertAt [] l 0 = l := fun l => by simpa using insertAt_eq [] [] l
  simp [e1, e2]

theorem op_related {M : List Nat} {kn : Nat → Bool} {w v : World α} (h : Related M kn w v) (hp : ∀ p ∈ w.pool, Emptied p) (o : Op α)
    (h1 : o.single) (h3 : o.posOK kn = true) (hm : ∀ x ∈ o.mentions, x ∈ M) :
    Related M (o.known kn) (w.step o).1 (v.aloneOp o) := by
  unfold World.step World.aloneOp
  cases o with
  | «open» x d pick =>
    simp only [World.stepBy, Op.fresh]
    obtain ⟨st, hst⟩ := getStmt_new hp d pick
    rw [hst]
    refine Related.set (h.keep (w' := (w.getStmt d pick).1) (v' := (v.getStmt d none).1) rfl rfl rfl rfl) x (fun y hy => by simp [Op.known, hy]) ?_
    rw [h.nl]
    exact ⟨⟨rfl, rfl, rfl, rfl, rfl, rfl⟩, rfl, fun hk => by simp [Op.known] at hk⟩
  | call x c =>
    have hx := h.live x (hm x (by simp [Op.mentions]))
    simp only [World.stepBy, Op.fresh]
    cases hq : w.live x with
    | none =>
      rw [hq] at hx
      rw [hx.none_left]
      refine ⟨fun y hy => ?_, h.nl⟩
      by_cases hyx : y = x
      · subst hyx; rw [hq, hx.none_left]; trivial
      · simp only [Op.known, hyx, if_false]; exact h.live y hy
    | some q =>
      rw [hq] at hx
      obtain ⟨p, hp', hs⟩ := hx.some_left
      rw [hp']
      refine h.set x (fun y hy => by simp [Op.known, hy]) ?_
      simp only [Op.known, if_true]
      exact hs.call c h3
  | embed x g e => exact h1.elim
  | str x => exact h1.elim
  | setName x n =>
    have hx := h.live x (hm x (by simp [Op.mentions]))
    simp only [World.stepBy, Op.fresh, Op.known]
    cases hq : w.live x with
    | none => rw [hq] at hx; rw [hx.none_left]; exact h
    | some q =>
      rw [hq] at hx
      obtain ⟨p, hp', hs⟩ := hx.some_left
      rw [hp']
      refine h.set x (fun _ _ => rfl) ⟨⟨hs.sim.buf, hs.sim.chunks, hs.sim.args, hs.sim.dest, hs.sim.dialect, hs.sim.nl⟩, rfl, hs.pos⟩
  | invalidate x =>
    have hx := h.live x (hm x (by simp [Op.mentions]))
    simp only [World.stepBy, Op.fresh, Op.known]
    cases hq : w.live x with
    | none => rw [hq] at hx; rw [hx.none_left]; exact h
    | some q =>
      rw [hq] at hx
      obtain ⟨p, hp', hs⟩ := hx.some_left
      rw [hp']
      exact h.set x (fun _ _ => rfl) (hs.sql _ _)
  | stmtNewLines x b =>
    have hx := h.live x (hm x (by simp [Op.mentions]))
    simp only [World.stepBy, Op.fresh, Op.known]
    cases hq : w.live x with
    | none => rw [hq] at hx; rw [hx.none_left]; exact h
    | some q =>
      rw [hq] at hx
      obtain ⟨p, hp', hs⟩ := hx.some_left
      rw [hp']
      refine h.set x (fun _ _ => rfl) ⟨⟨hs.sim.buf, hs.sim.chunks, hs.sim.args, hs.sim.dest, hs.sim.dialect, rfl⟩, hs.name, hs.pos⟩
  | newLines d b => exact h1.elim
  | close x =>
    have hx := h.live x (hm x (by simp [Op.mentions]))
    simp only [World.stepBy, Op.fresh, Op.known]
    cases hq : w.live x with
    | none => rw [hq] at hx; rw [hx.none_left]; exact h
    | some q =>
      rw [hq] at hx
      obtain ⟨p, hp', hs⟩ := hx.some_left
      rw [hp']
      exact (h.set x (a := none) (b := none) (fun _ _ => rfl) trivial).keep rfl rfl rfl rfl
  | clone x g pick =>
    have hx := h.live x (hm x (by simp [Op.mentions]))
    simp only [World.stepBy, Op.fresh]
    cases hq : w.live x with
    | none =>
      rw [hq] at hx
      rw [hx.none_left]
      refine ⟨fun y hy => ?_, h.nl⟩
      by_cases hyx : y = g
      · subst hyx
        have := h.live y hy
        generalize w.live y = a at *
        generalize v.live y = b at *
        cases a with
        | none => rw [this.none_left]; trivial
        | some a =>
          obtain ⟨p, rfl, hs⟩ := this.some_left
          exact ⟨hs.sim, hs.name, fun hk => by simp [Op.known] at hk⟩
      · simp only [Op.known, hyx, if_false]; exact h.live y hy
    | some q =>
      rw [hq] at hx
      obtain ⟨p, hp', hs⟩ := hx.some_left
      rw [hp']
      obtain ⟨st, hst⟩ := clone_eq hp q pick
      simp only [hst, clone_none]
      refine Related.set (h.keep (w' := (w.clone q pick).1) (v' := (v.clone p none).1) rfl rfl rfl rfl) g (fun y hy => by simp [Op.known, hy]) ?_
      refine ⟨⟨hs.sim.buf, hs.sim.chunks, hs.sim.args, hs.sim.dest, hs.sim.dialect, ?_⟩, rfl, fun hk => by simp [Op.known] at hk⟩
      simp only [h.nl, hs.sim.dialect]
  | put d k s => exact h.keep rfl rfl rfl rfl

/-! ### The invariant of the process with its goroutines -/

/-- In the middle of a `String()` or an embedding the text at hand is the statement's own. -/
def Ready (w : World α) (missed : Bool) : List (Micro α) → Prop
  | .store h _ :: _ => ∀ q, w.live h = some q → missed = false → q.sql = q.render
  | .join _ g _ :: _ => ∀ p, w.live g = some p → p.sql = p.render
  | _ => True

theorem Ready.of_rest {w : World α} {b : Bool} {ms : List (Micro α)} (h : AtRest ms) : Ready w b ms := by
  cases ms with
  | nil => trivial
  | cons m ms => cases m <;> first | exact False.elim h | trivial

theorem mem_mentions_cons {m : Micro α} {ms : List (Micro α)} {x : Nat} : x ∈ mentions (m :: ms) ↔ x ∈ m.mentions ∨ x ∈ mentions ms := by
  simp [mentions]

theorem mentions_drop {ms : List (Micro α)} {n : Nat} {x : Nat} (h : x ∈ mentions (ms.drop n)) : x ∈ mentions ms := by
  simp only [mentions, List.mem_flatMap] at h ⊢
  obtain ⟨m, hm, hx⟩ := h
  exact ⟨m, List.mem_of_mem_drop hm, hx⟩

/-- What is known about one goroutine. -/
structure ThreadInv (E : Dia × Bytes × Bytes → Prop) (total : List (Seen α)) (w : World α) (t : Thread α) : Prop where
  inv : ∃ v kn rest, Good E v kn t.todo rest ∧ t.got ++ rest = total ∧ Related (mentions t.todo) kn w v
  ready : Ready w t.missed t.todo

/-- What is known about the shared state. -/
structure SharedInv (E : Dia × Bytes × Bytes → Prop) (w : World α) : Prop where
  ok : WorldOK w
  cache : ∀ d k s, w.cache d k = some s → E (d, k, s)

theorem SharedInv.set {E : Dia × Bytes × Bytes → Prop} {w : World α} (h : SharedInv E w) {x : Nat} {q : Option (Stmt α)} (hq : ∀ p, q = some p → SqlOK p) :
    SharedInv E (w.set x q) := ⟨h.ok.set hq, h.cache⟩

theorem single_cache {w : World α} {o : Op α} (h : o.single) {d : Dia} {k s : Bytes} (hc : (w.step o).1.cache d k = some s) :
    w.cache d k = some s ∨ (d, k, s) ∈ puts [o] := by
  unfold World.step at hc
  cases o with
  | embed x g e => exact h.elim
  | str x => exact h.elim
  | put d' k' s' =>
    simp only [World.stepBy, World.putCached] at hc
    split at hc
    · rename_i hdk; obtain ⟨rfl, rfl⟩ := hdk; cases hc; exact .inr (by simp [puts])
    · exact .inl hc
  | «open» x d pick => exact .inl hc
  | newLines d b => exact .inl hc
  | _ => simp only [World.stepBy] at hc; split at hc <;> exact .inl hc

/-- One step of a goroutine. -/
theorem micro_inv {E : Dia × Bytes × Bytes → Prop} (hE : ∀ d k s s', E (d, k, s) → E (d, k, s') → s = s') {total : List (Seen α)} {w : World α}
    {m : Micro α} {ms : List (Micro α)} {missed : Bool} {got : List (Seen α)}
    (hw : SharedInv E w) (ht : ThreadInv E total w { todo := m :: ms, missed := missed, got := got }) :
    SharedInv E (w.micro missed m).world ∧
    ThreadInv E total (w.micro missed m).world
      { todo := ms.drop (w.micro missed m).skip, missed := (w.micro missed m).missed, got := got ++ (w.micro missed m).got } := by
  obtain ⟨⟨v, kn, rest, hg, htot, hrel⟩, hready⟩ := ht
  simp only at hg htot hrel hready
  cases hg with
  | op h1 h2 h3 h4 h5 h =>
    rename_i o
    refine ⟨⟨?_, ?_⟩, ⟨v.aloneOp o, o.known kn, rest, h, by simpa [World.micro] using htot, ?_⟩, Ready.of_rest h5⟩
    · show WorldOK (w.stepBy World.str o).1
      rw [show w.stepBy World.str o = w.stepBy World.ownText o by cases o <;> first | rfl | exact False.elim h1]
      exact step_ok ownText_ok (fun w q _ => own_sqlok w q) hw.ok o h2
    · intro d k s hc
      rcases single_cache h1 hc with hc | hc
      · exact hw.cache d k s hc
      · exact h4 _ hc
    · simp only [World.micro, List.drop_zero]
      exact (op_related hrel hw.ok.pool o h1 h3 (fun x hx => mem_mentions_cons.2 (.inl hx))).mono (fun x hx => mem_mentions_cons.2 (.inr hx))
  | load h1 h2 =>
    rename_i h u ms
    have hx := hrel.live h (mem_mentions_cons.2 (.inl (by simp [Micro.mentions])))
    have hrel' : ∀ w' : World α, (∀ x, x ≠ h → w'.live x = w.live x) → w'.newLines = w.newLines → VarSame (kn h) (w'.live h) ((v.aloneLoad h).live h) →
        Related (mentions (Micro.store h u :: ms)) kn w' (v.aloneLoad h) := by
      intro w' e1 e2 e3
      have hv : ∀ x, x ≠ h → (v.aloneLoad h).live x = v.live x := by
        intro x hx'; unfold World.aloneLoad; split <;> simp [set_live, hx']
      refine ⟨fun x hx' => ?_, ?_⟩
      · by_cases hxh : x = h
        · subst hxh; exact e3
        · rw [e1 x hxh, hv x hxh]; exact hrel.live x (mem_mentions_cons.2 (.inr hx'))
      · rw [e2, hrel.nl]; unfold World.aloneLoad; split <;> rfl
    cases hq : w.live h with
    | none =>
      rw [hq] at hx
      simp only [World.micro, hq]
      refine ⟨hw, ⟨v.aloneLoad h, kn, rest, h2, by simpa using htot, hrel' w (fun _ _ => rfl) rfl ?_⟩, ?_⟩
      · simp only [World.aloneLoad, hx.none_left, hq]; trivial
      · intro q hq'; rw [hq] at hq'; cases hq'
    | some q =>
      rw [hq] at hx
      obtain ⟨p, hp, hs⟩ := hx.some_left
      have hvl : (v.aloneLoad h).live h = some { p with sql := p.render } := by simp [World.aloneLoad, hp, set_live]
      simp only [World.micro, hq]
      split
      · rename_i hsql
        refine ⟨hw, ⟨v.aloneLoad h, kn, rest, h2, by simpa using htot, hrel' w (fun _ _ => rfl) rfl ?_⟩, ?_⟩
        · rw [hq, hvl]; exact hs.sql _ _
        · intro q' hq' _
          rw [hq] at hq'; cases hq'
          exact (hw.ok.live h q hq).resolve_left hsql
      · rename_i hsql
        have hsql : q.sql = [] := by simpa using hsql
        cases hc : w.getCached q.dialect q.key with
        | none =>
          simp only
          refine ⟨hw, ⟨v.aloneLoad h, kn, rest, h2, by simpa using htot, hrel' w (fun _ _ => rfl) rfl ?_⟩, ?_⟩
          · rw [hq, hvl]; exact hs.sql _ _
          · intro q' hq' hm; cases hm
        | some s =>
          have hsr : s = q.render := by
            refine hE q.dialect q.key _ _ (hw.cache _ _ _ hc) ?_
            rw [hs.sim.dialect, hs.key, hs.sim.render]; exact h1 p hp
          simp only
          refine ⟨hw.set (fun p' hp' => ?_), ⟨v.aloneLoad h, kn, rest, h2, by simpa using htot, hrel' _ (fun x hx' => by simp [set_live, hx']) rfl ?_⟩, ?_⟩
          · cases hp'; subst hsr; exact .inr rfl
          · rw [hvl]; simp only [set_live, if_true]; exact hs.sql _ _
          · intro q' hq' _
            simp only [set_live, if_true, Option.some.injEq] at hq'
            subst hq'; subst hsr; rfl
  | store h1 h2 h3 =>
    rename_i h u outs
    have hx := hrel.live h (mem_mentions_cons.2 (.inl (by simp [Micro.mentions])))
    cases hq : w.live h with
    | none =>
      rw [hq] at hx
      simp only [World.micro, hq]
      refine ⟨hw, ⟨v, kn, outs, h3, ?_, hrel.mono fun x hx' => mem_mentions_cons.2 (.inr (mentions_drop hx'))⟩, Ready.of_rest h2⟩
      rw [← htot]; simp [World.useSeen, hx.none_left]
    | some q =>
      rw [hq] at hx
      obtain ⟨p, hp, hs⟩ := hx.some_left
      have hseen : ∀ s, s = q.render → v.useSeen h u = u.seen s q := by
        intro s hs'; subst hs'
        simp only [World.useSeen, hp]
        cases u <;> simp [Use.seen, hs.sim.render, hs.sim.args, hs.sim.dest]
      simp only [World.micro, hq]
      split
      · refine ⟨⟨?_, ?_⟩, ⟨v, kn, outs, h3, ?_, ?_⟩, Ready.of_rest h2⟩
        · exact WorldOK.set (w := w.putCached q.dialect q.key q.render) ⟨hw.ok.pool, hw.ok.live⟩ (fun p' hp' => by
            simp only [Option.some.injEq] at hp'; subst hp'; exact .inr rfl)
        · intro d k s hc
          simp only [World.set, World.putCached] at hc
          split at hc
          · rename_i hdk; obtain ⟨rfl, rfl⟩ := hdk; cases hc
            rw [hs.sim.dialect, hs.key, hs.sim.render]; exact h1 p hp
          · exact hw.cache d k s hc
        · rw [← htot, hseen _ rfl]; simp
        · refine ⟨fun x hx' => ?_, hrel.nl⟩
          have := hrel.live x (mem_mentions_cons.2 (.inr (mentions_drop hx')))
          by_cases hxh : x = h
          · subst hxh; simp only [set_live, if_true, hp]; exact hs.sql _ _
          · simpa [set_live, hxh, World.putCached] using this
      · rename_i hm
        refine ⟨hw, ⟨v, kn, outs, h3, ?_, hrel.mono fun x hx' => mem_mentions_cons.2 (.inr (mentions_drop hx'))⟩, Ready.of_rest h2⟩
        rw [← htot, hseen _ (hready q hq (by simpa using hm))]; simp
  | storeIn h1 h3 =>
    rename_i h g e ms
    have hx := hrel.live g (mem_mentions_cons.2 (.inl (by simp [Micro.mentions])))
    cases hq : w.live g with
    | none =>
      simp only [World.micro, hq]
      refine ⟨hw, ⟨v, kn, rest, h3, by simpa using htot, hrel.mono fun x hx' => mem_mentions_cons.2 (.inr hx')⟩, ?_⟩
      intro p hp; rw [hq] at hp; cases hp
    | some q =>
      rw [hq] at hx
      obtain ⟨p, hp, hs⟩ := hx.some_left
      simp only [World.micro, hq]
      split
      · refine ⟨⟨?_, ?_⟩, ⟨v, kn, rest, h3, by simpa [Use.seen] using htot, ?_⟩, ?_⟩
        · exact WorldOK.set (w := w.putCached q.dialect q.key q.render) ⟨hw.ok.pool, hw.ok.live⟩ (fun p' hp' => by
            simp only [Option.some.injEq] at hp'; subst hp'; exact .inr rfl)
        · intro d k s hc
          simp only [World.set, World.putCached] at hc
          split at hc
          · rename_i hdk; obtain ⟨rfl, rfl⟩ := hdk; cases hc
            rw [hs.sim.dialect, hs.key, hs.sim.render]; exact h1 p hp
          · exact hw.cache d k s hc
        · refine ⟨fun x hx' => ?_, hrel.nl⟩
          have := hrel.live x (mem_mentions_cons.2 (.inr hx'))
          by_cases hxh : x = g
          · subst hxh; simp only [set_live, if_true, hp]; exact hs.sql _ _
          · simpa [set_live, hxh, World.putCached] using this
        · intro p' hp'
          simp only [set_live, if_true, Option.some.injEq] at hp'
          subst hp'; rfl
      · rename_i hm
        refine ⟨hw, ⟨v, kn, rest, h3, by simpa [Use.seen] using htot, hrel.mono fun x hx' => mem_mentions_cons.2 (.inr hx')⟩, ?_⟩
        intro p' hp'
        rw [hq] at hp'; cases hp'
        exact hready q hq (by simpa using hm)
  | detach hne h1 h2 h3 h4 =>
    rename_i h g q0 p0
    have hx := hrel.live h (mem_mentions_cons.2 (.inl (by simp [Micro.mentions])))
    have hy := hrel.live g (mem_mentions_cons.2 (.inl (by simp [Micro.mentions])))
    rw [h1] at hx; rw [h2] at hy
    cases hq : w.live h with
    | none => rw [hq] at hx; exact hx.elim
    | some q =>
    cases hp : w.live g with
    | none => rw [hp] at hy; exact hy.elim
    | some p =>
      rw [hp] at hy
      simp only [World.micro, hq, hp, hne, if_false]
      refine ⟨hw.set (fun p' hp' => ?_), ⟨_, kn, rest, h4, by simpa using htot, ?_⟩, Ready.of_rest h3⟩
      · cases hp'; exact noDialect_ok (hw.ok.live g p hp)
      · exact (hrel.mono fun x hx' => mem_mentions_cons.2 (.inr hx')).set g (fun _ _ => rfl) (Same.noDialect hy)
  | detachNot h1 h3 h4 =>
    rename_i h g a b c ms
    have hx := hrel.live h (mem_mentions_cons.2 (.inl (by simp [Micro.mentions])))
    have hy := hrel.live g (mem_mentions_cons.2 (.inl (by simp [Micro.mentions])))
    have : w.micro missed (.detach h g) = { world := w, skip := 3 } := by
      simp only [World.micro]
      split
      · rename_i q p hq hp
        rw [hq] at hx; rw [hp] at hy
        obtain ⟨_, e1, _⟩ := hx.some_left
        obtain ⟨_, e2, _⟩ := hy.some_left
        rw [e1, e2] at h1
        simp only [reduceCtorEq, or_false] at h1
        simp [h1]
      · rfl
    rw [this]
    simp only [List.drop_succ_cons, List.drop_zero]
    refine ⟨hw, ⟨v, kn, rest, h4, by simpa using htot, hrel.mono fun x hx' => ?_⟩, Ready.of_rest h3⟩
    simp only [mem_mentions_cons]; exact .inr (.inr (.inr (.inr hx')))
  | join hne hq0 hp0 h1 hs h3 h4 =>
    rename_i h g e q0 p0
    have hx := hrel.live h (mem_mentions_cons.2 (.inl (by simp [Micro.mentions])))
    have hy := hrel.live g (mem_mentions_cons.2 (.inl (by simp [Micro.mentions])))
    rw [hq0] at hx; rw [hp0] at hy
    cases hq : w.live h with
    | none => rw [hq] at hx; exact hx.elim
    | some q =>
    cases hp : w.live g with
    | none => rw [hp] at hy; exact hy.elim
    | some p =>
      rw [hq] at hx
      rw [hp] at hy
      have hx : Same (kn h) q q0 := hx
      have hy : Same (kn g) p p0 := hy
      have hu : ∀ (s : Bytes) (as : List α), (e.toCall s as).usesPos = (e.toCall [] ([] : List Unit)).usesPos ∧
          (e.toCall s as).setsPos = (e.toCall [] ([] : List Unit)).setsPos := by intro s as; cases e <;> exact ⟨rfl, rfl⟩
      have hsql : p.sql = p0.render := (hready p hp).trans hy.sim.render
      simp only [World.micro, hq, hp, List.drop_zero]
      refine ⟨⟨?_, hw.cache⟩, ⟨_, _, rest, h4, by simpa using htot, ?_⟩, Ready.of_rest h3⟩
      · refine WorldOK.reuse (WorldOK.set (WorldOK.set hw.ok ?_) (by simp)) _
        intro p' hp'
        simp only [Option.some.injEq] at hp'; subst hp'
        refine (call_keeps (x := h) q _ ?_).ok (hw.ok.live h q hq)
        cases e <;> exact hs
      · simp only [World.aloneJoin, hq0, hp0, hsql, hy.sim.args]
        refine Related.keep (Related.set (kn := kn) (Related.set (hrel.mono fun x hx' => mem_mentions_cons.2 (.inr hx')) h ?_ ?_) g
          (a := none) (b := none) (fun _ _ => rfl) trivial) rfl rfl rfl rfl
        · intro x hxh; rfl
        · refine (hx.call _ ?_).weaken (fun hk => by simp [hk])
          rw [(hu p0.render p0.args).1]; exact h1
  | lookup h1 h2 h3 h4 h5 h6 h7 =>
    rename_i v' kn' d name n s outs
    simp only [World.micro]
    cases hc : w.getCached d name with
    | none =>
      refine ⟨hw, ⟨v, kn, _, h4, by simpa using htot, hrel.mono fun x hx' => mem_mentions_cons.2 (.inr hx')⟩, Ready.of_rest h2⟩
    | some s' =>
      have : s' = s := hE _ _ _ _ (hw.cache _ _ _ hc) h1
      subst this
      refine ⟨hw, ⟨v', kn', outs, h5, by rw [← htot]; simp, fun x hx' => ?_, by rw [h7]; exact hrel.nl⟩, Ready.of_rest h3⟩
      rw [(h6 x hx').1, (h6 x hx').2]
      exact hrel.live x (mem_mentions_cons.2 (.inr (mentions_drop hx')))

end Xsql
