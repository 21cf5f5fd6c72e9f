import Verif.Xsql.SimLemmas
set_option linter.unusedSimpArgs false
set_option linter.unusedVariables false
namespace Xsql
variable {α : Type}

/-! ### C33 Dialects do not interfere -/

/-- **C33 (cache).** An operation that computes no text of a statement of dialect `d` and does not store one explicitly leaves the
cache of `d` as it is. -/
theorem C33_cache_frame (w : World α) (o : Op α) (d : Dia) (h : ∀ q ∈ w.evaluates o, q.dialect ≠ d) (hp : ∀ k s, o ≠ .put d k s) :
    (w.step o).1.cache d = w.cache d := by
  have hs : ∀ q : Stmt α, q.dialect ≠ d → (w.str q).1.cache d = w.cache d := by
    intro q hq
    unfold World.str
    split
    · rfl
    · split
      · rfl
      · funext k; simp [World.putCached, Ne.symm hq]
  unfold World.step
  cases o with
  | embed y g e =>
    simp only [World.stepBy]
    split
    · rename_i q p hq hp'
      split
      · rfl
      · rename_i hne
        exact hs _ (h _ (by simp [World.evaluates, hq, hp', hne]))
    · rfl
  | str y =>
    simp only [World.stepBy]
    split
    · rename_i q hq; exact hs q (h _ (by simp [World.evaluates, hq]))
    · rfl
  | put d' k' s' =>
    funext k
    simp only [World.stepBy, World.putCached]
    split
    · rename_i hdk
      obtain ⟨rfl, rfl⟩ := hdk
      exact absurd rfl (hp k s')
    · rfl
  | «open» y d pick => rfl
  | call y c => simp only [World.stepBy]; split <;> rfl
  | setName y n => simp only [World.stepBy]; split <;> rfl
  | invalidate y => simp only [World.stepBy]; split <;> rfl
  | stmtNewLines y b => simp only [World.stepBy]; split <;> rfl
  | newLines d b => rfl
  | close y => simp only [World.stepBy]; split <;> rfl
  | clone y g pick => simp only [World.stepBy]; split <;> rfl

/-- Corresponding statements: the same, but statements of other dialects than `d` may have different memos. -/
def Twin (d : Dia) : Option (Stmt α) → Option (Stmt α) → Prop
  | none, none => True
  | some q, some q' => Sim q q' ∧ q.pos = q'.pos ∧ q.name = q'.name ∧ (q.dialect = d → q.sql = q'.sql)
  | _, _ => False

/-- Corresponding states: everything is the same but the caches and memos of other dialects than `d`. -/
structure TwinWorld (d : Dia) (w w' : World α) : Prop where
  cache : w.cache d = w'.cache d
  pool : w.pool = w'.pool
  newLines : w.newLines = w'.newLines
  live : ∀ i, Twin d (w.live i) (w'.live i)

theorem addChunk_sql {q q' : Stmt α} (h : Sim q q') (hs : q.sql = q'.sql) (p : Nat) (kw e : Bytes) (as : List α) (sep : Bytes) :
    (q.addChunk p kw e as sep).1.sql = (q'.addChunk p kw e as sep).1.sql := by
  unfold Stmt.addChunk Stmt.invalidate
  rw [h.chunks]
  cases hl : (headUpTo p q'.chunks).getLast? with
  | none => simp only [hl]
  | some c =>
    simp only [hl, h.buf]
    split
    · split
      · exact hs
      · split <;> rfl
    · rfl

theorem insertInto_sql {q q' : Stmt α} (h : Sim q q') (hs : q.sql = q'.sql) (t : Bytes) : (q.insertInto t).sql = (q'.insertInto t).sql := by
  have a1 : (q.add posInsert b!"INSERT INTO" t [] b!", ").sql = _ := addChunk_sql h hs posInsert b!"INSERT INTO" t [] b!", "
  have h1 := (add_sim h posInsert b!"INSERT INTO" t [] b!", ").1
  have a2 := addChunk_sql h1 a1 (posInsertFields - 1) b!"(" [] [] []
  have h2 := (add_sim h1 (posInsertFields - 1) b!"(" [] [] []).1
  have a3 := addChunk_sql h2 a2 (posValues - 1) b!") VALUES (" [] [] []
  have h3 := (add_sim h2 (posValues - 1) b!") VALUES (" [] [] []).1
  have a4 := addChunk_sql h3 a3 (posValues + 1) b!")" [] [] []
  unfold Stmt.insertInto Stmt.add at *
  simp only
  exact a4

theorem call_sql {q q' : Stmt α} (h : Sim q q') (hp : q.pos = q'.pos) (hs : q.sql = q'.sql) (c : Call α) : (q.call c).sql = (q'.call c).sql := by
  have one : ∀ p kw e as sep, (q.add p kw e as sep).sql = (q'.add p kw e as sep).sql := fun p kw e as sep => addChunk_sql h hs p kw e as sep
  have two : ∀ p kw e as sep p' kw' e' as' sep', ((q.add p kw e as sep).add p' kw' e' as' sep').sql = ((q'.add p kw e as sep).add p' kw' e' as' sep').sql :=
    fun p kw e as sep p' kw' e' as' sep' => addChunk_sql (add_sim h p kw e as sep).1 (one p kw e as sep) p' kw' e' as' sep'
  have sub : ∀ {a b : Stmt α} (h : Sim a b) (hp : a.pos = b.pos) (hs : a.sql = b.sql) pre suf s as, (a.subQuery pre suf s as).sql = (b.subQuery pre suf s as).sql := by
    intro a b h hp hs pre suf s as
    unfold Stmt.subQuery
    rw [hp]
    exact addChunk_sql h hs _ _ _ _ _
  cases c with
  | toDest ds => simp only [Stmt.call, Stmt.to]; split <;> exact hs
  | insertInto t =>
    exact insertInto_sql h hs t
  | setExpr f e as =>
    simp only [Stmt.call, Stmt.setExpr, h.chunks]
    split
    · exact two _ _ _ _ _ _ _ _ _ _
    · split
      · exact one _ _ _ _ _
      · exact hs
  | expr e as => simp only [Stmt.call, Stmt.expr, hp]; exact one _ _ _ _ _
  | clause e as => simp only [Stmt.call, Stmt.clause, h.chunks]; exact one _ _ _ _ _
  | subQuery pre suf s as => exact sub h hp hs _ _ _ _
  | with_ n s as =>
    have h1 := add_sim h posWith b!"WITH" [] [] []
    exact sub h1.1 h1.2 (one _ _ _ _ _) _ _ _ _
  | union all s as => simp only [Stmt.call, Stmt.union, h.chunks]; exact addChunk_sql h hs _ _ _ _ _
  | newRow =>
    simp only [Stmt.call, Stmt.newRow, h.chunks]
    split
    · exact hs
    · exact one _ _ _ _ _
  | rowSetExpr r f e as =>
    simp only [Stmt.call, Stmt.rowSetExpr]
    split
    · exact two _ _ _ _ _ _ _ _ _ _
    · exact one _ _ _ _ _
  | _ => exact one _ _ _ _ _

theorem TwinWorld.set {d : Dia} {w w' : World α} (h : TwinWorld d w w') (x : Nat) {q q' : Option (Stmt α)} (hq : Twin d q q') :
    TwinWorld d (w.set x q) (w'.set x q') :=
  ⟨h.cache, h.pool, h.newLines, fun i => by rw [set_live, set_live]; split <;> [exact hq; exact h.live i]⟩

theorem Twin.cases {d : Dia} {a b : Option (Stmt α)} (h : Twin d a b) : (a = none ∧ b = none) ∨
    ∃ q q', a = some q ∧ b = some q' ∧ Sim q q' ∧ q.pos = q'.pos ∧ q.name = q'.name ∧ (q.dialect = d → q.sql = q'.sql) := by
  cases a with
  | none => cases b with
    | none => exact .inl ⟨rfl, rfl⟩
    | some _ => exact h.elim
  | some q => cases b with
    | none => exact h.elim
    | some q' => exact .inr ⟨q, q', rfl, rfl, h⟩

theorem str_twin {d : Dia} {w w' : World α} (hc : w.cache d = w'.cache d) {q q' : Stmt α} (h : Sim q q') (hn : q.name = q'.name)
    (hp : q.pos = q'.pos) (hs : q.dialect = d → q.sql = q'.sql) :
    (w.str q).1.cache d = (w'.str q').1.cache d ∧ Twin d (some (w.str q).2) (some (w'.str q').2) ∧
    (q.dialect = d → (w.str q).2.sql = (w'.str q').2.sql) := by
  have hk : q.key = q'.key := by simp [Stmt.key, hn, h.buf]
  have aux : ∀ (u : World α) (p : Stmt α), (p.dialect ≠ d → (u.str p).1.cache d = u.cache d) ∧ ∃ t, (u.str p).2 = { p with sql := t } := by
    intro u p
    unfold World.str
    split
    · exact ⟨fun _ => rfl, p.sql, rfl⟩
    · split
      · exact ⟨fun _ => rfl, _, rfl⟩
      · exact ⟨fun hd => by funext k; simp [World.putCached, Ne.symm hd], _, rfl⟩
  obtain ⟨c1, t1, e1⟩ := aux w q
  obtain ⟨c2, t2, e2⟩ := aux w' q'
  have hmain : q.dialect = d → (w.str q).1.cache d = (w'.str q').1.cache d ∧ (w.str q).2.sql = (w'.str q').2.sql := by
    intro hd
    have hd' : q'.dialect = d := by rw [← h.dialect, hd]
    have hss := hs hd
    unfold World.str World.getCached
    rw [← hss, ← hk, hd, hd', hc, h.render]
    split
    · exact ⟨hc, hss⟩
    · split
      · exact ⟨hc, rfl⟩
      · refine ⟨?_, rfl⟩
        funext k; simp [World.putCached, hc]
  refine ⟨?_, ?_, fun hd => (hmain hd).2⟩
  · by_cases hd : q.dialect = d
    · exact (hmain hd).1
    · rw [c1 hd, c2 (by rw [← h.dialect]; exact hd), hc]
  · refine ⟨?_, ?_, ?_, ?_⟩
    · rw [e1, e2]; exact ⟨h.buf, h.chunks, h.args, h.dest, h.dialect, h.nl⟩
    · rw [e1, e2]; exact hp
    · rw [e1, e2]; exact hn
    · intro hd
      rw [e1] at hd
      exact (hmain hd).2

theorem step_twin {d : Dia} {w w' : World α} (h : TwinWorld d w w') (o : Op α) (ho : ∀ x g e, o ≠ .embed x g e) :
    TwinWorld d (w.step o).1 (w'.step o).1 ∧ ∀ x, o = .str x → (∀ q, w.live x = some q → q.dialect = d) → (w.step o).2 = (w'.step o).2 := by
  unfold World.step at *
  cases o with
  | embed x g e => exact absurd rfl (ho x g e)
  | «open» x dd pick =>
    refine ⟨?_, by simp⟩
    have hg : (w.getStmt dd pick).2 = (w'.getStmt dd pick).2 := by unfold World.getStmt; simp [h.pool, h.newLines]
    refine TwinWorld.set (w := (w.getStmt dd pick).1) (w' := (w'.getStmt dd pick).1) ⟨h.cache, ?_, h.newLines, h.live⟩ x ?_
    · unfold World.getStmt; simp [h.pool]
    · rw [hg]; exact ⟨Sim.refl _, rfl, rfl, fun _ => rfl⟩
  | call x c =>
    refine ⟨?_, by simp⟩
    simp only [World.stepBy]
    rcases (h.live x).cases with ⟨h1, h2⟩ | ⟨q, q', h1, h2, h3, h4, h5, h6⟩
    · rw [h1, h2]; exact h
    · rw [h1, h2]
      refine h.set x ⟨(call_sim h3 c fun _ => h4).1, (call_sim h3 c fun _ => h4).2 (.inr h4), ?_, ?_⟩
      · rw [(call_fields q c).2.1, (call_fields q' c).2.1, h5]
      · intro hd; rw [(call_fields q c).1] at hd; exact call_sql h3 h4 (h6 hd) c
  | str x =>
    simp only [World.stepBy]
    rcases (h.live x).cases with ⟨h1, h2⟩ | ⟨q, q', h1, h2, h3, h4, h5, h6⟩
    · rw [h1, h2]; exact ⟨h, by simp⟩
    · rw [h1, h2]
      obtain ⟨k1, k2, k3⟩ := str_twin h.cache h3 h5 h4 h6
      refine ⟨TwinWorld.set ⟨k1, ?_, ?_, ?_⟩ x k2, ?_⟩
      · rw [str_ok.pool, str_ok.pool, h.pool]
      · rw [str_ok.newLines, str_ok.newLines, h.newLines]
      · rw [str_ok.live, str_ok.live]; exact h.live
      · intro y hy hd
        cases hy
        simp only
        rw [k3 (hd q h1)]
  | setName x n =>
    refine ⟨?_, by simp⟩
    simp only [World.stepBy]
    rcases (h.live x).cases with ⟨h1, h2⟩ | ⟨q, q', h1, h2, h3, h4, h5, h6⟩
    · rw [h1, h2]; exact h
    · rw [h1, h2]; exact h.set x ⟨⟨h3.buf, h3.chunks, h3.args, h3.dest, h3.dialect, h3.nl⟩, h4, rfl, h6⟩
  | invalidate x =>
    refine ⟨?_, by simp⟩
    simp only [World.stepBy]
    rcases (h.live x).cases with ⟨h1, h2⟩ | ⟨q, q', h1, h2, h3, h4, h5, h6⟩
    · rw [h1, h2]; exact h
    · rw [h1, h2]; exact h.set x ⟨⟨h3.buf, h3.chunks, h3.args, h3.dest, h3.dialect, h3.nl⟩, h4, h5, fun _ => rfl⟩
  | stmtNewLines x b =>
    refine ⟨?_, by simp⟩
    simp only [World.stepBy]
    rcases (h.live x).cases with ⟨h1, h2⟩ | ⟨q, q', h1, h2, h3, h4, h5, h6⟩
    · rw [h1, h2]; exact h
    · rw [h1, h2]; exact h.set x ⟨⟨h3.buf, h3.chunks, h3.args, h3.dest, h3.dialect, rfl⟩, h4, h5, h6⟩
  | newLines dd b => exact ⟨⟨h.cache, h.pool, by simp [World.stepBy, h.newLines], h.live⟩, by simp⟩
  | close x =>
    refine ⟨?_, by simp⟩
    simp only [World.stepBy]
    rcases (h.live x).cases with ⟨h1, h2⟩ | ⟨q, q', h1, h2, h3, h4, h5, h6⟩
    · rw [h1, h2]; exact h
    · rw [h1, h2]
      have hs := h.set x (q := none) (q' := none) trivial
      refine ⟨h.cache, ?_, h.newLines, hs.live⟩
      have e : ({ q with chunks := [], args := [], dest := [], buf := [], sql := [], name := [] } : Stmt α) =
          { q' with chunks := [], args := [], dest := [], buf := [], sql := [], name := [] } := by
        rw [h3.dialect, h3.nl, h4]
      simp only [World.reuse, World.set]
      rw [e, h.pool]
  | clone x g pick =>
    refine ⟨?_, by simp⟩
    simp only [World.stepBy]
    rcases (h.live x).cases with ⟨h1, h2⟩ | ⟨q, q', h1, h2, h3, h4, h5, h6⟩
    · rw [h1, h2]; exact h
    · rw [h1, h2]
      have hg : (w.getStmt q.dialect pick).2 = (w'.getStmt q'.dialect pick).2 := by unfold World.getStmt; simp [h.pool, h.newLines, h3.dialect]
      refine TwinWorld.set (w := (w.getStmt q.dialect pick).1) (w' := (w'.getStmt q'.dialect pick).1) ⟨h.cache, ?_, h.newLines, h.live⟩ g ?_
      · unfold World.getStmt; simp [h.pool]
      · unfold World.clone
        refine ⟨⟨by simp [hg, h3.buf], by simp [hg, h3.chunks], by simp [hg, h3.args], by simp [hg, h3.dest], by simp [hg], by simp [hg]⟩, by simp [hg], by simp [hg], ?_⟩
        intro hd
        exact h6 hd
  | put dd k s =>
    refine ⟨⟨?_, h.pool, h.newLines, h.live⟩, by simp⟩
    funext k'
    simp [World.stepBy, World.putCached, h.cache]

/-- The texts returned by `String()` on statements of dialect `d` during a run. -/
def World.textsOf (d : Dia) (w : World α) : List (Op α) → List (Option Bytes)
  | [] => []
  | o :: os => (match o with
      | .str x => (match w.live x with | some q => if q.dialect = d then [(w.step o).2] else [] | none => [])
      | _ => []) ++ (w.step o).1.textsOf d os

theorem texts_twin {d : Dia} {w w' : World α} (h : TwinWorld d w w') (os : List (Op α)) (ho : ∀ o ∈ os, ∀ x g e, o ≠ .embed x g e)
    : w.textsOf d os = w'.textsOf d os := by
  induction os generalizing w w' with
  | nil => rfl
  | cons o os ih =>
    have hs := step_twin h o (ho o (by simp))
    simp only [World.textsOf]
    rw [ih hs.1 fun o' h' => ho o' (by simp [h'])]
    congr 1
    cases o with
    | str x =>
      simp only
      rcases (h.live x).cases with ⟨h1, h2⟩ | ⟨q, q', h1, h2, h3, h4, h5, h6⟩
      · rw [h1, h2]
      · rw [h1, h2]
        simp only
        rw [← h3.dialect]
        split
        · rename_i hd
          rw [hs.2 x rfl (fun p hp => by rw [h1] at hp; cases hp; exact hd)]
        · rfl
    | _ => rfl

/-- **C33 (partial).** Whatever texts are in the caches of the other dialects, a program that embeds no statements in others gets
the same texts for its statements of dialect `d`.  What is missing: embedded statements, see the next theorem. -/
theorem C33_other_caches_do_not_matter_partial (w : World α) (d : Dia) (caches : Dia → Bytes → Option Bytes) (hc : caches d = w.cache d)
    (os : List (Op α)) (ho : ∀ o ∈ os, ∀ x g e, o ≠ .embed x g e) :
    ({ w with cache := caches } : World α).textsOf d os = w.textsOf d os := by
  refine texts_twin (w := { w with cache := caches }) (w' := w) ⟨hc, rfl, rfl, fun i => ?_⟩ os ho
  cases h : w.live i with
  | none => trivial
  | some q => exact ⟨Sim.refl q, rfl, rfl, fun _ => rfl⟩

/-- **C33 (line break mode).** No operation other than `UseNewLines` of the dialect itself changes the mode of a dialect, and
`UseNewLines` sets it. -/
theorem C33_line_mode_frame (w : World α) (o : Op α) (d : Dia) :
    (w.step o).1.newLines d = (match o with | .newLines d' b => if d' = d then b else w.newLines d | _ => w.newLines d) := by
  have hs : ∀ (w : World α) (q : Stmt α), (w.str q).1.newLines = w.newLines := by
    intro w q
    unfold World.str
    split
    · rfl
    · split <;> rfl
  have hst : ∀ (w : World α) (i : Nat) (q : Option (Stmt α)), (w.set i q).newLines = w.newLines := fun _ _ _ => rfl
  have hr : ∀ (w : World α) (q : Stmt α), (w.reuse q).newLines = w.newLines := fun _ _ => rfl
  unfold World.step
  cases o with
  | newLines d' b =>
    simp only [World.stepBy]
    by_cases h : d' = d
    · subst h; simp
    · simp [h, Ne.symm h]
  | embed y g e =>
    simp only [World.stepBy]
    split
    · split
      · rfl
      · simp only [hr, hst, hs]
    · rfl
  | str y =>
    simp only [World.stepBy]
    split
    · simp only [hst, hs]
    · rfl
  | «open» y d' pick => simp only [World.stepBy, hst, getStmt_world]
  | clone y g pick =>
    simp only [World.stepBy]
    split
    · simp only [hst, World.clone, getStmt_world]
    · rfl
  | call y c => simp only [World.stepBy]; split <;> rfl
  | setName y c => simp only [World.stepBy]; split <;> rfl
  | invalidate y => simp only [World.stepBy]; split <;> rfl
  | stmtNewLines y b => simp only [World.stepBy]; split <;> rfl
  | close y => simp only [World.stepBy]; split <;> rfl
  | put d' k s => rfl

example : (World.init (α := Nat).run [.newLines .postgres false, .open 0 .sqlserver none, .call 0 (.select b!"x" []), .call 0 (.from_ b!"t" []),
    .str 0]).2.getLast? = some (some b!"SELECT x \nFROM t") := by decide +kernel

/-! ### C29 at the level of programs -/

/-- **C29 (the operation).** If no text is memoised in the inner statement for the neutral dialect and none is cached there
under its key, then embedding it (`SubQuery`, `With`, `Union`) adds to the outer statement the inner statement's SQL under
the neutral dialect with the inner statement's arguments, closes the inner statement, and leaves every other statement alone. -/
theorem C29_embedding_operation (w : World α) {x y : Nat} (hxy : x ≠ y) {q p : Stmt α} (hq : w.live x = some q) (hp : w.live y = some p)
    (hm : p.dialect = .default → p.sql = []) (hc : w.cache .default p.key = none) (e : Embed) :
    let sql := ({ p with dialect := .default } : Stmt α).render
    let c : Call α := match e with
      | .subQuery pre suf => .subQuery pre suf sql p.args
      | .with_ name => .with_ name sql p.args
      | .union all => .union all sql p.args
    (w.step (.embed x y e)).1.live x = some (q.call c) ∧ (w.step (.embed x y e)).1.live y = none ∧
    ∀ z, z ≠ x → z ≠ y → (w.step (.embed x y e)).1.live z = w.live z := by
  intro sql c
  have hnd : p.noDialect = { p with dialect := .default, sql := [] } := by
    unfold Stmt.noDialect
    by_cases h : p.dialect = .default
    · rw [if_pos h]
      have := hm h
      cases p; simp_all
    · rw [if_neg h]
  have hstr : (w.str p.noDialect).2.sql = sql := by
    rw [hnd]
    unfold World.str World.getCached
    rw [if_neg (by simp)]
    have : ({ p with dialect := .default, sql := [] } : Stmt α).key = p.key := rfl
    simp only [this, hc]
    rfl
  have hargs : p.noDialect.args = p.args := by rw [hnd]
  have hl : (w.str p.noDialect).1.live = w.live := str_ok.live w p.noDialect
  refine ⟨?_, ?_, ?_⟩
  · simp only [World.step, World.stepBy, hq, hp, hxy, if_false, hstr, hargs]
    simp only [World.reuse, set_live, if_true, hxy, if_false]
    cases e <;> rfl
  · simp [World.step, World.stepBy, hq, hp, hxy, World.reuse, set_live]
  · intro z hx hy
    simp [World.step, World.stepBy, hq, hp, hxy, World.reuse, set_live, hx, hy, hl]

/-- The hypotheses of `C29_embedding_operation` in a reachable state, and the effect. -/
example :
    let w := (World.init.run ([.open 0 .postgres none, .call 0 (.select b!"x" []), .call 0 (.from_ b!"t" []), .call 0 (.where_ b!"a = ?" [1]),
      .open 1 .postgres none, .call 1 (.select b!"y" []), .call 1 (.where_ b!"b = ?" [2]), .str 1] : List (Op Nat))).1
    ((w.live 1).map fun p => decide (p.dialect = .default) || decide (w.cache .default p.key ≠ none)) = some false ∧
    (w.run [.embed 0 1 (.subQuery b!"c IN (" b!")"), .str 0]).2.getLast? =
      some (some b!"SELECT x \nFROM t \nWHERE a = $1 AND c IN (SELECT y \nWHERE b = $2)") := by decide +kernel

/-- **C33 fails for embedded statements.** A Postgres statement that is embedded in another one is rendered, and cached under its
name, in the neutral dialect: a neutral statement of the same name rendered before shows up inside the Postgres statement. -/
theorem C33_embedding_uses_neutral_cache :
    let other : List (Op Nat) := [.open 0 .default none, .call 0 (.select b!"secret" []), .setName 0 b!"n", .str 0]
    let mine : List (Op Nat) := [.open 1 .postgres none, .call 1 (.select b!"x" []), .setName 1 b!"n", .open 2 .postgres none,
      .call 2 (.select b!"y" []), .call 2 (.from_ b!"t" []), .call 2 (.where_ b!"z" []), .embed 2 1 (.subQuery b!"a IN (" b!")"), .str 2]
    (World.init.run mine).2.getLast? = some (some b!"SELECT y \nFROM t \nWHERE z AND a IN (SELECT x)") ∧
    (World.init.run (other ++ mine)).2.getLast? = some (some b!"SELECT y \nFROM t \nWHERE z AND a IN (SELECT secret)") := by decide +kernel

end Xsql
