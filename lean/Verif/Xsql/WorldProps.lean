import Verif.Xsql.WorldLemmas
import Verif.Xsql.SimLemmas
import Verif.Xsql.OrderLemmas
set_option linter.unusedSimpArgs false
set_option linter.unusedVariables false
namespace Xsql
variable {α : Type}

/-! ### C26 String() is the statement's own SQL -/

/-- Every cached text was supplied. -/
def CacheFrom (E : List (Dia × Bytes × Bytes)) (w : World α) : Prop := ∀ d k s, w.cache d k = some s → (d, k, s) ∈ E

theorem str_own {E : List (Dia × Bytes × Bytes)} (hE : Unambiguous E) {w : World α} (hc : CacheFrom E w) {q : Stmt α} (hq : SqlOK q)
    (he : (q.dialect, q.key, q.render) ∈ E) :
    (w.str q).2 = { q with sql := q.render } ∧ CacheFrom E (w.str q).1 := by
  unfold World.str
  split
  · rename_i hs
    refine ⟨?_, hc⟩
    have := hq.resolve_left hs
    rw [← this]
  · split
    · rename_i s hs
      refine ⟨?_, hc⟩
      have := hE _ (hc _ _ _ hs) _ he rfl rfl
      simp only at this
      rw [this]
    · refine ⟨rfl, ?_⟩
      intro d k s h
      simp only [World.putCached] at h
      split at h
      · rename_i hdk
        obtain ⟨rfl, rfl⟩ := hdk
        cases h
        exact he
      · exact hc d k s h

/-- The same state except for the cache. -/
def SameState (w w' : World α) : Prop := w.pool = w'.pool ∧ w.live = w'.live ∧ w.newLines = w'.newLines

theorem SameState.set {w w' : World α} (h : SameState w w') (x : Nat) (q : Option (Stmt α)) : SameState (w.set x q) (w'.set x q) :=
  ⟨h.1, by funext i; simp [set_live, h.2.1], h.2.2⟩

theorem SameState.reuse {w w' : World α} (h : SameState w w') (q : Stmt α) : SameState (w.reuse q) (w'.reuse q) :=
  ⟨by simp [World.reuse, h.1], h.2.1, h.2.2⟩

theorem SameState.getStmt {w w' : World α} (h : SameState w w') (d : Dia) (pick : Option Nat) :
    SameState (w.getStmt d pick).1 (w'.getStmt d pick).1 ∧ (w.getStmt d pick).2 = (w'.getStmt d pick).2 := by
  obtain ⟨h1, h2, h3⟩ := h
  unfold World.getStmt
  refine ⟨⟨?_, h2, h3⟩, ?_⟩ <;> simp [h1, h3]

theorem own_sqlok (w : World α) (q : Stmt α) : SqlOK (w.ownText q).2 := .inr rfl

theorem step_own {E : List (Dia × Bytes × Bytes)} (hE : Unambiguous E) {w v : World α} (hw : SameState w v) (hv : WorldOK v) (hc : CacheFrom E w)
    (o : Op α) (ho : o.sound = true) (he : ∀ q ∈ v.evaluates o, (q.dialect, q.key, q.render) ∈ E) (hp : ∀ e ∈ puts [o], e ∈ E) :
    (w.step o).2 = (v.stepBy World.ownText o).2 ∧ SameState (w.step o).1 (v.stepBy World.ownText o).1 ∧ CacheFrom E (w.step o).1 := by
  have hl : ∀ i, w.live i = v.live i := fun i => by rw [hw.2.1]
  have hgs : ∀ d pick, CacheFrom E (w.getStmt d pick).1 := fun d pick => hc
  unfold World.step
  cases o with
  | «open» x d pick =>
    obtain ⟨h1, h2⟩ := hw.getStmt d pick
    refine ⟨by trivial, ?_, hgs d pick⟩
    simp only [World.stepBy]
    rw [h2]; exact h1.set x _
  | call x c =>
    simp only [World.stepBy, hl]
    split
    · exact ⟨by trivial, hw.set x _, hc⟩
    · exact ⟨by trivial, hw, hc⟩
  | embed x g e =>
    simp only [World.stepBy, hl]
    split
    · rename_i q p hq hpp
      split
      · exact ⟨by trivial, hw, hc⟩
      · rename_i hne
        have hin : (p.noDialect.dialect, p.noDialect.key, p.noDialect.render) ∈ E := he _ (by simp [World.evaluates, hq, hpp, hne])
        obtain ⟨h1, h2⟩ := str_own hE hc (noDialect_ok (hv.live g p hpp)) hin
        refine ⟨by trivial, ?_, h2⟩
        rw [h1]
        refine SameState.reuse (SameState.set (SameState.set ?_ x _) g none) _
        exact ⟨(str_ok.pool w _).trans hw.1, (str_ok.live w _).trans hw.2.1, (str_ok.newLines w _).trans hw.2.2⟩
    · exact ⟨by trivial, hw, hc⟩
  | str x =>
    simp only [World.stepBy, hl]
    split
    · rename_i q hq
      have hin : (q.dialect, q.key, q.render) ∈ E := he _ (by simp [World.evaluates, hq])
      obtain ⟨h1, h2⟩ := str_own hE hc (hv.live x q hq) hin
      refine ⟨by rw [h1]; rfl, ?_, h2⟩
      rw [h1]
      refine SameState.set ?_ x _
      exact ⟨(str_ok.pool w _).trans hw.1, (str_ok.live w _).trans hw.2.1, (str_ok.newLines w _).trans hw.2.2⟩
    · exact ⟨by trivial, hw, hc⟩
  | setName x n =>
    simp only [World.stepBy, hl]
    split
    · exact ⟨by trivial, hw.set x _, hc⟩
    · exact ⟨by trivial, hw, hc⟩
  | invalidate x =>
    simp only [World.stepBy, hl]
    split
    · exact ⟨by trivial, hw.set x _, hc⟩
    · exact ⟨by trivial, hw, hc⟩
  | stmtNewLines x b =>
    simp only [World.stepBy, hl]
    split
    · exact ⟨by trivial, hw.set x _, hc⟩
    · exact ⟨by trivial, hw, hc⟩
  | newLines d b => exact ⟨by trivial, ⟨hw.1, hw.2.1, by simp [World.stepBy, hw.2.2]⟩, hc⟩
  | close x =>
    simp only [World.stepBy, hl]
    split
    · exact ⟨by trivial, (hw.set x _).reuse _, hc⟩
    · exact ⟨by trivial, hw, hc⟩
  | clone x g pick =>
    simp only [World.stepBy, hl]
    split
    · rename_i q hq
      obtain ⟨h1, h2⟩ := hw.getStmt q.dialect pick
      refine ⟨by trivial, ?_, hgs q.dialect pick⟩
      unfold World.clone
      simp only [h2]
      exact h1.set g _
    · exact ⟨by trivial, hw, hc⟩
  | put d k s =>
    refine ⟨by trivial, hw, ?_⟩
    intro d' k' s' h
    simp only [World.stepBy, World.putCached] at h
    split at h
    · rename_i hdk
      obtain ⟨rfl, rfl⟩ := hdk
      cases h
      exact hp _ (by simp [puts])
    · exact hc d' k' s' h

theorem run_own {E : List (Dia × Bytes × Bytes)} (hE : Unambiguous E) {w v : World α} (hw : SameState w v) (hv : WorldOK v) (hc : CacheFrom E w)
    (os : List (Op α)) (ho : ∀ o ∈ os, o.sound = true) (he : ∀ e ∈ v.supplied os, e ∈ E) :
    (w.run os).2 = (v.pureRun os).2 := by
  unfold World.run World.pureRun
  induction os generalizing w v with
  | nil => rfl
  | cons o os ih =>
    have hs := step_own hE hw hv hc o (ho o (by simp))
      (fun q hq => he _ (by simp only [World.supplied, World.evaluated, List.mem_append, List.mem_map]; exact .inl ⟨q, .inl hq, rfl⟩))
      (fun e h => he _ (by
        simp only [World.supplied, List.mem_append]
        refine .inr ?_
        have : puts (o :: os) = puts [o] ++ puts os := by simp [puts, ← List.filterMap_append]
        rw [this]; exact List.mem_append_left _ h))
    simp only [World.runBy]
    obtain ⟨h1, h2, h3⟩ := hs
    unfold World.step at h1 h2 h3
    rw [h1, ih h2 (step_ok ownText_ok (fun w q _ => own_sqlok w q) hv o (ho o (by simp))) h3 (fun o' h' => ho o' (by simp [h']))]
    intro e hin
    apply he
    simp only [World.supplied, World.evaluated, List.mem_append, List.mem_map] at hin ⊢
    rcases hin with ⟨q, hq, rfl⟩ | hin
    · exact .inl ⟨q, .inr hq, rfl⟩
    · refine .inr ?_
      have : puts (o :: os) = puts [o] ++ puts os := by simp [puts, ← List.filterMap_append]
      rw [this]; exact List.mem_append_right _ hin

/-- **C26 (partial).** For every program — statements opened from the pool, built, named, embedded, cloned, rendered, closed in
any order, texts stored with PutCachedQuery — every `String()` returns exactly what it would return without any cache and without
memoised text, i.e. the text of the statement itself, provided no cache key (statement name, or else the text in the order it was
written) gets two different texts in one dialect during the program.  What is missing: the proviso; see
`C26_other_statement_shows_through` for programs without it. -/
theorem C26_string_is_own_sql_partial (os : List (Op α)) (hs : ∀ o ∈ os, o.sound = true)
    (hu : Unambiguous (World.init.supplied os)) :
    (World.init.run os).2 = (World.init.pureRun os).2 :=
  run_own hu ⟨rfl, rfl, rfl⟩ init_ok (by intro d k s h; simp [World.init] at h) os hs (fun _ h => h)

/-- A text returned by `String()` in a cache-free run is the text of the statement. -/
theorem C26_pure_is_own (w : World α) (x : Nat) (q : Stmt α) (h : w.live x = some q) :
    (w.stepBy World.ownText (.str x)).2 = some q.render := by simp [World.stepBy, h, World.ownText]

/-- A program of two statements, the second of which is rendered after the first. -/
def clash (d : Dia) (a b : List (Call Nat)) : List (Op Nat) :=
  [.open 0 d none] ++ a.map (.call 0) ++ [.str 0, .close 0, .open 1 d (some 0)] ++ b.map (.call 1) ++ [.str 1]

/-- **C26 fails in general (1).** Two statements of one dialect that write the same text in a different clause order get the
same cache key: `From("t").Select("id").OrderBy("x").Select("name")` is `SELECT id, name FROM t ORDER BY x`, but after it
`From("t").Select("id").OrderBy("x", "name")` renders as that text, too, although it is `SELECT id FROM t ORDER BY x, name`. -/
theorem C26_other_statement_shows_through :
    let a : List (Call Nat) := [.from_ b!"t" [], .select b!"id" [], .orderBy [b!"x"], .select b!"name" []]
    let b : List (Call Nat) := [.from_ b!"t" [], .select b!"id" [], .orderBy [b!"x", b!"name"]]
    (World.init.run (clash .postgres a b)).2.getLast? = some (some b!"SELECT id, name \nFROM t \nORDER BY x") ∧
    (World.init.pureRun (clash .postgres a b)).2.getLast? = some (some b!"SELECT id \nFROM t \nORDER BY x, name") := by
  decide +kernel

/-- **C26 fails in general (2).** The number of arguments is not part of the key: `Where("a ? b")` (an operator written `?`,
no argument) after `Where("a ? b", 1)` renders with a placeholder. -/
theorem C26_argument_count_not_in_key :
    let a : List (Call Nat) := [.select b!"x" [], .where_ b!"a ? b" [1]]
    let b : List (Call Nat) := [.select b!"x" [], .where_ b!"a ? b" []]
    (World.init.run (clash .postgres a b)).2.getLast? = some (some b!"SELECT x \nWHERE a $1 b") ∧
    (World.init.pureRun (clash .postgres a b)).2.getLast? = some (some b!"SELECT x \nWHERE a ? b") := by
  decide +kernel

/-- **C26 fails in general (3).** Without new lines a clause boundary is not part of the key. -/
theorem C26_boundary_not_in_key :
    let a : List (Call Nat) := [.select b!"x" [], .where_ b!"y=1ORDER BY z" []]
    let b : List (Call Nat) := [.select b!"x" [], .where_ b!"y=1" [], .orderBy [b!"z"]]
    (World.init.run (.newLines .default false :: clash .default a b)).2.getLast? = some (some b!"SELECT x WHERE y=1ORDER BY z") ∧
    (World.init.pureRun (.newLines .default false :: clash .default a b)).2.getLast? = some (some b!"SELECT x WHERE y=1 ORDER BY z") := by
  decide +kernel

/-- The hypotheses of `C26_string_is_own_sql_partial` on a program that reuses, embeds and re-renders statements. -/
def sampleProg : List (Op Nat) :=
  clash .postgres [.select b!"x" [], .where_ b!"a = ?" [1]] [.select b!"x" [], .where_ b!"a = ?" [2]] ++
  [.setName 1 b!"q", .open 2 .postgres none, .call 2 (.from_ b!"t" []), .call 2 (.select b!"y" []),
   .call 1 (.where_ b!"z IN" []), .embed 1 2 (.subQuery b!"(" b!")"), .str 1, .clone 1 3 none, .str 3, .invalidate 1, .str 1]
instance (es : List (Dia × Bytes × Bytes)) : Decidable (Unambiguous es) := by unfold Unambiguous; infer_instance
example : (∀ o ∈ sampleProg, o.sound = true) ∧ Unambiguous (World.init.supplied sampleProg) :=
  ⟨forall_mem_of_all (by decide +kernel), by decide +kernel⟩
example : (World.init.run sampleProg).2.getLast? =
    some (some b!"SELECT x \nWHERE a = $1 AND z IN AND (SELECT y \nFROM t)") := by decide +kernel


/-- **C26 (statements written in clause order).** With line breaks between clauses (the default), for statements whose clauses
are written in SQL order with balanced arguments, the cache key determines the text: two such statements of one dialect that wrote
the same text have the same SQL. -/
theorem C26_key_determines_text_in_order (d : Dia) {st st' : Nat} {cs cs' : List (Call α)}
    (h : CallsOK (SpecState.fresh true st) cs) (ho : CallsInOrder (SpecState.fresh true st) cs)
    (h' : CallsOK (SpecState.fresh true st') cs') (ho' : CallsInOrder (SpecState.fresh true st') cs')
    (hk : (build d true st cs).key = (build d true st' cs').key) : (build d true st cs).render = (build d true st' cs').render := by
  refine render_of_buf d h ho h' ho' ?_
  simpa [Stmt.key, (build_fields d true st cs).2.1, (build_fields d true st' cs').2.1] using hk

/-- A statement without a name, written in clause order. -/
def Orderly (q : Stmt α) : Prop := q.name = [] ∧ ∃ (st : Nat) (cs : List (Call α)), CallsOK (SpecState.fresh true st) cs ∧ CallsInOrder (SpecState.fresh true st) cs ∧
  q.buf = (build q.dialect true st cs).buf ∧ q.chunks = (build q.dialect true st cs).chunks

/-- **C26 (partial).** In every program in which all rendered statements are unnamed and written in clause order (and nothing is
stored with PutCachedQuery), every `String()` is the text of the statement it is called on, whatever was rendered before. -/
theorem C26_orderly_programs_partial (os : List (Op α)) (hs : ∀ o ∈ os, o.sound = true) (hp : puts os = [])
    (ho : ∀ q ∈ World.init.evaluated os, Orderly q) : (World.init.run os).2 = (World.init.pureRun os).2 := by
  refine C26_string_is_own_sql_partial os hs ?_
  intro e he e' he' h1 h2
  simp only [World.supplied, hp, List.append_nil, List.mem_map] at he he'
  obtain ⟨q, hq, rfl⟩ := he
  obtain ⟨q', hq', rfl⟩ := he'
  simp only at h1 h2 ⊢
  obtain ⟨n1, st, cs, a1, a2, a3, a4⟩ := ho q hq
  obtain ⟨n2, st', cs', b1, b2, b3, b4⟩ := ho q' hq'
  have hb : q.buf = q'.buf := by simpa [Stmt.key, n1, n2] using h2
  have e1 : q.render = (build q.dialect true st cs).render := render_congr (build_fields q.dialect true st cs).1.symm a3 a4
  have e2 : q'.render = (build q.dialect true st' cs').render := by
    rw [h1]; exact render_congr (build_fields q'.dialect true st' cs').1.symm b3 b4
  rw [e1, e2]
  refine render_of_buf q.dialect a1 a2 b1 b2 ?_
  rw [← a3, hb, b3, h1]

/-- A statement meeting the hypotheses of the two theorems above. -/
def inOrderCalls : List (Call Nat) :=
  [.with_ b!"w" b!"SELECT 1 \nFROM u" [], .select b!"a" [], .select b!"b = ?" [1], .from_ b!"t" [], .join .left b!"v" b!"v.id = t.id",
   .where_ b!"c = ?" [2], .in_ [3, 4], .orderBy [b!"a", b!"b"], .limit 5, .limit 6, .offset 7]
example : CallsOK (SpecState.fresh true 0) inOrderCalls := by
  simp only [inOrderCalls, CallsOK, CallOK, FragOK]
  repeat' constructor
  all_goals decide +kernel
example : CallsInOrder (SpecState.fresh true 0) inOrderCalls := by
  simp only [inOrderCalls, CallsInOrder, SpecState.frags, FragsInOrder]
  repeat' constructor
  all_goals decide +kernel
example : (build .postgres true 0 inOrderCalls).render =
    b!"WITH w AS (SELECT 1 \nFROM u) \nSELECT a, b = $1 \nFROM t LEFT JOIN v ON (v.id = t.id) \nWHERE c = $2 IN ($3,$4) \nORDER BY a, b \nLIMIT $5 \nOFFSET $6" := by
  decide +kernel

end Xsql
