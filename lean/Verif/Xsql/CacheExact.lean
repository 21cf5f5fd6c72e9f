import Verif.Xsql.WorldProps3
set_option linter.unusedSimpArgs false
set_option linter.unusedVariables false
/-!
C26, C33, exactly: which text `String()` returns, for every program.  C28, exactly: what a clone is.
-/
namespace Xsql
variable {α : Type}

/-! ### Specification -/

/-- What happens to the texts of a dialect: one is stored with `PutCachedQuery`, or a statement that has no text yet is asked for its text, which is rendered as `s`. -/
inductive TextEv where
  | stored (d : Dia) (k s : Bytes)
  | asked (d : Dia) (k s : Bytes)

/-- The texts stored under a key. -/
def Spec.storedUnder (d : Dia) (k : Bytes) (es : List TextEv) : List Bytes := es.filterMap fun | .stored d' k' s => if d' = d ∧ k' = k then some s else none | _ => none

/-- The own texts of the statements asked under a key. -/
def Spec.askedUnder (d : Dia) (k : Bytes) (es : List TextEv) : List Bytes := es.filterMap fun | .asked d' k' s => if d' = d ∧ k' = k then some s else none | _ => none

/-- The text a key stands for: the one stored last, and if none was stored, the own text of the statement asked first. -/
def Spec.textUnder (d : Dia) (k : Bytes) (es : List TextEv) : Option Bytes := (Spec.storedUnder d k es).getLast?.or (Spec.askedUnder d k es).head?

/-- The events of one operation. -/
def World.textEvs (w : World α) : Op α → List TextEv
  | .put d k s => [.stored d k s]
  | o => ((w.evaluates o).filter fun q => q.sql = []).map fun q => .asked q.dialect q.key q.render

/-- The events of a program, in order. -/
def World.history (w : World α) : List (Op α) → List TextEv
  | [] => []
  | o :: os => w.textEvs o ++ (w.step o).1.history os

/-! ### C26 -/

theorem cache_str (w : World α) (q : Stmt α) (d : Dia) (k : Bytes) :
    (w.str q).1.cache d k = (w.cache d k).or (if q.sql = [] ∧ q.dialect = d ∧ q.key = k then some q.render else none) := by
  unfold World.str World.getCached
  split
  · rename_i h; simp [h]
  · rename_i h
    have h : q.sql = [] := by simpa using h
    split
    · rename_i s hs
      by_cases hk : q.dialect = d ∧ q.key = k
      · obtain ⟨rfl, rfl⟩ := hk; simp [hs]
      · simp only [h, true_and, if_neg hk, Option.or_none]
    · rename_i hs
      by_cases hk : q.dialect = d ∧ q.key = k
      · obtain ⟨rfl, rfl⟩ := hk; simp [hs, h, World.putCached]
      · simp only [h, true_and, if_neg hk, Option.or_none, World.putCached]
        rw [if_neg (fun hh => hk ⟨hh.1.symm, hh.2.symm⟩)]

theorem cache_step (w : World α) (o : Op α) (d : Dia) (k : Bytes) :
    (w.step o).1.cache d k = ((Spec.storedUnder d k (w.textEvs o)).getLast?.or (w.cache d k)).or (Spec.askedUnder d k (w.textEvs o)).head? := by
  have hev : ∀ q : Stmt α, (Spec.askedUnder d k (([q].filter fun q => q.sql = []).map fun q => TextEv.asked q.dialect q.key q.render)).head?
      = if q.sql = [] ∧ q.dialect = d ∧ q.key = k then some q.render else none := by
    intro q
    by_cases h : q.sql = []
    · by_cases hk : q.dialect = d ∧ q.key = k
      · simp [h, hk, Spec.askedUnder]
      · simp only [h, true_and, if_neg hk, Spec.askedUnder, List.filter_cons, decide_true, if_true, List.filter_nil, List.map_cons, List.map_nil, List.filterMap_cons, List.filterMap_nil,
          List.head?_nil]
    · simp [h, Spec.askedUnder]
  have hst : ∀ q : Stmt α, (Spec.storedUnder d k (([q].filter fun q => q.sql = []).map fun q => TextEv.asked q.dialect q.key q.render)) = [] := by
    intro q
    by_cases h : q.sql = [] <;> simp [h, Spec.storedUnder]
  unfold World.step
  cases o with
  | put d' k' s =>
    simp only [World.stepBy, World.putCached, World.textEvs, Spec.storedUnder, Spec.askedUnder, List.filterMap_cons, List.filterMap_nil, List.head?_nil, Option.or_none]
    by_cases hk : d' = d ∧ k' = k
    · obtain ⟨rfl, rfl⟩ := hk; simp
    · simp only [if_neg hk, List.getLast?_nil, Option.none_or]
      rw [if_neg (fun hh => hk ⟨hh.1.symm, hh.2.symm⟩)]
  | str x =>
    simp only [World.stepBy, World.textEvs, World.evaluates]
    cases hq : w.live x with
    | none => simp [Spec.storedUnder, Spec.askedUnder]
    | some q =>
      simp only [Option.toList_some, hev, hst, List.getLast?_nil, Option.none_or]
      exact cache_str w q d k
  | embed x g e =>
    simp only [World.stepBy, World.textEvs, World.evaluates]
    cases hq : w.live x with
    | none => simp [Spec.storedUnder, Spec.askedUnder]
    | some q =>
      cases hp : w.live g with
      | none => simp [Spec.storedUnder, Spec.askedUnder]
      | some p =>
        by_cases hxg : x = g
        · simp [hxg, Spec.storedUnder, Spec.askedUnder]
        · simp only [if_neg hxg, hev, hst, List.getLast?_nil, Option.none_or]
          exact cache_str w p.noDialect d k
  | «open» x d pick => simp [World.stepBy, World.textEvs, World.evaluates, Spec.storedUnder, Spec.askedUnder, World.set, World.getStmt]
  | call x c => simp only [World.stepBy, World.textEvs, World.evaluates, Spec.storedUnder, Spec.askedUnder, World.set]; split <;> simp
  | setName x n => simp only [World.stepBy, World.textEvs, World.evaluates, Spec.storedUnder, Spec.askedUnder, World.set]; split <;> simp
  | invalidate x => simp only [World.stepBy, World.textEvs, World.evaluates, Spec.storedUnder, Spec.askedUnder, World.set]; split <;> simp
  | stmtNewLines x b => simp only [World.stepBy, World.textEvs, World.evaluates, Spec.storedUnder, Spec.askedUnder, World.set]; split <;> simp
  | newLines d b => simp [World.stepBy, World.textEvs, World.evaluates, Spec.storedUnder, Spec.askedUnder]
  | close x => simp only [World.stepBy, World.textEvs, World.evaluates, Spec.storedUnder, Spec.askedUnder, World.set, World.reuse]; split <;> simp
  | clone x g pick => simp only [World.stepBy, World.textEvs, World.evaluates, Spec.storedUnder, Spec.askedUnder, World.set, World.clone, World.getStmt]; split <;> simp

theorem textEvs_sorted (w : World α) (o : Op α) (d : Dia) (k : Bytes) : Spec.storedUnder d k (w.textEvs o) = [] ∨ Spec.askedUnder d k (w.textEvs o) = [] := by
  cases o with
  | put d' k' s => right; simp [World.textEvs, Spec.askedUnder]
  | _ => left; simp [World.textEvs, Spec.storedUnder, List.filterMap_map, Function.comp_def]

theorem cache_run (d : Dia) (k : Bytes) : ∀ (os : List (Op α)) (w : World α),
    (w.run os).1.cache d k = ((Spec.storedUnder d k (w.history os)).getLast?.or (w.cache d k)).or (Spec.askedUnder d k (w.history os)).head?
  | [], w => by simp [World.run, World.runBy, World.history, Spec.storedUnder, Spec.askedUnder]
  | o :: os, w => by
    show ((w.step o).1.run os).1.cache d k = _
    rw [cache_run d k os, cache_step]
    have happ : ∀ (a b : List TextEv), Spec.storedUnder d k (a ++ b) = Spec.storedUnder d k a ++ Spec.storedUnder d k b ∧ Spec.askedUnder d k (a ++ b) = Spec.askedUnder d k a ++ Spec.askedUnder d k b :=
      fun a b => ⟨List.filterMap_append .., List.filterMap_append ..⟩
    show _ = ((Spec.storedUnder d k (w.textEvs o ++ (w.step o).1.history os)).getLast?.or _).or (Spec.askedUnder d k (w.textEvs o ++ (w.step o).1.history os)).head?
    rw [(happ _ _).1, (happ _ _).2, List.getLast?_append, List.head?_append]
    cases (Spec.storedUnder d k ((w.step o).1.history os)).getLast? <;> cases (Spec.storedUnder d k (w.textEvs o)).getLast? <;> cases w.cache d k <;>
      cases (Spec.askedUnder d k (w.textEvs o)).head? <;> cases (Spec.askedUnder d k ((w.step o).1.history os)).head? <;> rfl

/-- **C26, exactly.** After any program, a statement that has not been asked for its text since its last change returns: the text stored last under its key with
`PutCachedQuery`; if none was stored, the own text of the statement that was asked first under that key; if there is none, its own. -/
theorem C26_which_text (os : List (Op α)) (x : Nat) (q : Stmt α) (hq : (World.init.run os).1.live x = some q) (hs : q.sql = []) :
    ((World.init.run os).1.step (.str x)).2 = some ((Spec.textUnder q.dialect q.key (World.init.history os)).getD q.render) := by
  have hc := cache_run q.dialect q.key os World.init
  have h0 : (World.init : World α).cache q.dialect q.key = none := rfl
  rw [h0, Option.or_none] at hc
  simp only [World.step, World.stepBy, hq, World.str, hs, ne_eq, not_true_eq_false, if_false, World.getCached]
  rw [hc]
  show _ = some ((Spec.textUnder _ _ _).getD _)
  unfold Spec.textUnder
  cases (Spec.storedUnder q.dialect q.key (World.init.history os)).getLast?.or (Spec.askedUnder q.dialect q.key (World.init.history os)).head? <;> rfl

/-- **C26, exactly**: it is the statement's own SQL if and only if the text its key stands for, if any, is the same. -/
theorem C26_own_sql_iff (os : List (Op α)) (x : Nat) (q : Stmt α) (hq : (World.init.run os).1.live x = some q) (hs : q.sql = []) :
    ((World.init.run os).1.step (.str x)).2 = some q.render ↔ ∀ s, Spec.textUnder q.dialect q.key (World.init.history os) = some s → s = q.render := by
  rw [C26_which_text os x q hq hs]
  cases Spec.textUnder q.dialect q.key (World.init.history os) with
  | none => simp
  | some s => simp

/-- **C26, exactly**: a statement that was asked already gives the same text again, whatever was cached or renamed since, until it changes. -/
theorem C26_asked_again (w : World α) (x : Nat) (q : Stmt α) (hq : w.live x = some q) (hs : q.sql ≠ []) : (w.step (.str x)).2 = some q.sql := by
  simp [World.step, World.stepBy, hq, World.str, hs]

/-- **C33, exactly.** The text of a statement depends on the programs that ran only through the events of its own dialect (among which are those of the statements
embedded in others: their dialect is the neutral one). -/
theorem C33_own_dialect_decides (os os' : List (Op α)) (x x' : Nat) (q : Stmt α) (hq : (World.init.run os).1.live x = some q) (hq' : (World.init.run os').1.live x' = some q) (hs : q.sql = [])
    (he : ∀ k, Spec.storedUnder q.dialect k (World.init.history os) = Spec.storedUnder q.dialect k (World.init.history os')
      ∧ Spec.askedUnder q.dialect k (World.init.history os) = Spec.askedUnder q.dialect k (World.init.history os')) :
    ((World.init.run os).1.step (.str x)).2 = ((World.init.run os').1.step (.str x')).2 := by
  rw [C26_which_text os x q hq hs, C26_which_text os' x' q hq' hs]
  simp only [Spec.textUnder, (he q.key).1, (he q.key).2]

/-- **C33**: embedded statements are asked in the neutral dialect, whatever their own dialect. -/
theorem C33_embedded_is_asked_in_the_neutral_dialect (w : World α) (x g : Nat) (e : Embed) : ∀ ev ∈ w.textEvs (.embed x g e), ∃ k s, ev = .asked .default k s := by
  intro ev hev
  simp only [World.textEvs, World.evaluates] at hev
  split at hev
  · split at hev
    · simp at hev
    · simp only [List.mem_map, List.mem_filter, List.mem_singleton] at hev
      obtain ⟨q, ⟨rfl, -⟩, rfl⟩ := hev
      rename_i p _ _ _
      have hd : p.noDialect.dialect = .default := by
        unfold Stmt.noDialect
        split
        · assumption
        · rfl
      exact ⟨p.noDialect.key, p.noDialect.render, by rw [hd]⟩
  · simp at hev

/-! ### C28 -/

/-- **C28, exactly.** In every reachable state, whatever the pool hands out, the clone is the original except for three things: it has no name, its line break setting is the one of the
dialect, and its current clause (`pos`, used by `Expr` and `SubQuery`) is the one that the last user of the object left behind, or none. -/
theorem C28_clone_exactly (os : List (Op α)) {x y : Nat} {q : Stmt α} (hq : (World.init.run os).1.live x = some q) (pick : Option Nat) :
    ((World.init.run os).1.step (.clone x y pick)).1.live y = some { q with
      name := [], useNewLines := (World.init.run os).1.newLines q.dialect,
      pos := ((pick.bind fun i => (World.init.run os).1.pool[i]?).map (·.pos)).getD 0 } := by
  obtain ⟨st, hst⟩ := clone_eq (run_pool init_pool os) q pick
  have hp : ((World.init.run os).1.clone q pick).2.pos = ((pick.bind fun i => (World.init.run os).1.pool[i]?).map (·.pos)).getD 0 := by
    unfold World.clone World.getStmt
    cases pick with
    | none => rfl
    | some i => cases h : (World.init.run os).1.pool[i]? <;> simp [h]
  rw [hst] at hp
  simp only at hp
  simp only [World.step, World.stepBy, hq, set_live, if_true, hst, hp]

-- the hypotheses are met: two statements with one name, the second shows the first one's text
example :
    let os : List (Op Nat) := [.open 0 .postgres none, .call 0 (.select b!"a" []), .setName 0 b!"n", .str 0, .open 1 .postgres none, .call 1 (.select b!"b" []), .setName 1 b!"n"]
    Spec.textUnder .postgres b!"n" (World.init.history os) = some b!"SELECT a" ∧ ((World.init.run os).1.step (.str 1)).2 = some b!"SELECT a"
      ∧ ((World.init.run os).1.live 1).map (·.sql) = some [] ∧ ((World.init.run os).1.live 1).map (·.render) = some b!"SELECT b" := by decide +kernel

end Xsql
