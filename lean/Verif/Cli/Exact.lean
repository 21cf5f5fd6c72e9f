import Verif.Cli.Model
set_option linter.unusedVariables false
set_option linter.unusedSimpArgs false
/-!
C80 exactly: what every call on the CLI context hands out, in every history.
-/
namespace Cli
namespace Spec

/-- The schema provider as a user sees it: their own, or one on a connection to a database, which is still open or not. -/
inductive SchView where
  | custom (id : Nat)
  | on (db : Bytes) (live : Bool)
  deriving DecidableEq, Repr

/-- The context as a user sees it: the database it is connected to, and its schema provider. -/
structure Ctx where
  db : Option Bytes
  schema : Option SchView
  deriving DecidableEq, Repr

/-- One call. -/
def Ctx.step (c : Ctx) : Op → Ctx
  | .db n o => if c.db = none ∧ o = true then { c with db := some n } else c
  | .schema n o =>
    match c.schema, c.db with
    | some _, _ => c
    | none, some m => ⟨some m, some (.on m true)⟩
    | none, none => if o then ⟨some n, some (.on n true)⟩ else c
  | .withSchema id => { c with schema := some (.custom id) }
  | .close => ⟨none, match c.schema with
      | some (.on m true) => some (.on m false)
      | s => s⟩

/-- A history. -/
def Ctx.run (ops : List Op) : Ctx := ops.foldl Ctx.step ⟨none, none⟩

end Spec

/-- The context shows what is in the fields. -/
structure Sim (w : World) (c : Spec.Ctx) : Prop where
  inv : Inv w
  db : match w.db, c.db with
    | none, none => True
    | some i, some m => w.conns[i]? = some ⟨m, false⟩
    | _, _ => False
  schema : match w.schema, c.schema with
    | none, none => True
    | some (.custom a), some (.custom b) => a = b
    | some (.onConn i), some (.on m live) => w.conns[i]? = some ⟨m, !live⟩ ∧ (live = true → w.db = some i)
    | _, _ => False

theorem Sim.db_none {w : World} {c : Spec.Ctx} (h : Sim w c) : w.db = none ↔ c.db = none := by
  have := h.db
  cases hw : w.db <;> cases hc : c.db <;> simp_all

theorem Sim.db_some {w : World} {c : Spec.Ctx} (h : Sim w c) {i : Nat} (hi : w.db = some i) : ∃ m, c.db = some m ∧ w.conns[i]? = some ⟨m, false⟩ := by
  have := h.db
  rw [hi] at this
  cases hc : c.db with
  | none => rw [hc] at this; exact this.elim
  | some m => rw [hc] at this; exact ⟨m, rfl, this⟩

theorem Sim.schema_none {w : World} {c : Spec.Ctx} (h : Sim w c) : w.schema = none ↔ c.schema = none := by
  have := h.schema
  cases hw : w.schema with
  | none => cases hc : c.schema with
    | none => simp
    | some x => rw [hw, hc] at this; exact this.elim
  | some s => cases hc : c.schema with
    | none => rw [hw, hc] at this; cases s <;> exact this.elim
    | some x => simp

theorem sim_getDB {w : World} {c : Spec.Ctx} (h : Sim w c) (n : Bytes) (o : Bool) : Sim (w.getDB n o).1 (c.step (.db n o)) := by
  cases hw : w.db with
  | some i =>
    obtain ⟨m, hm, -⟩ := h.db_some hw
    have e : w.getDB n o = (w, some i) := by simp [World.getDB, hw]
    simp only [e, Spec.Ctx.step, hm]
    exact h
  | none =>
    have hc := h.db_none.1 hw
    cases o with
    | false =>
      simp only [World.getDB, hw, Spec.Ctx.step, hc]
      exact h
    | true =>
      have hinv : Inv (w.getDB n true).1 := inv_step w (.db n true) h.inv
      have e : (w.getDB n true).1 = { w with conns := w.conns ++ [⟨n, false⟩], db := some w.conns.length } := by simp [World.getDB, hw]
      rw [e] at hinv ⊢
      simp only [Spec.Ctx.step, hc, true_and, if_true]
      refine ⟨hinv, List.getElem?_concat_length, ?_⟩
      have hs := h.schema
      cases hws : w.schema with
      | none =>
        rw [hws] at hs
        cases hcs : c.schema with
        | none => trivial
        | some x => rw [hcs] at hs; exact hs.elim
      | some s =>
        rw [hws] at hs
        cases hcs : c.schema with
        | none => rw [hcs] at hs; cases s <;> exact hs.elim
        | some x =>
          rw [hcs] at hs
          cases s with
          | custom a => cases x <;> exact hs
          | onConn i =>
            cases x with
            | custom b => exact hs
            | on m live =>
              obtain ⟨h1, h2⟩ := hs
              refine ⟨by rw [List.getElem?_append_left (List.getElem?_eq_some_iff.1 h1).1]; exact h1, ?_⟩
              intro hl
              have := h2 hl
              rw [hw] at this; cases this

theorem sim_step {w : World} {c : Spec.Ctx} (h : Sim w c) (op : Op) : Sim (w.step op) (c.step op) := by
  cases op with
  | db n o => exact sim_getDB h n o
  | schema n o =>
    cases hws : w.schema with
    | some s =>
      have hcs : c.schema ≠ none := fun e => by rw [h.schema_none.2 e] at hws; cases hws
      obtain ⟨x, hx⟩ := Option.ne_none_iff_exists'.1 hcs
      simp only [World.step, World.schemaProvider, hws, Spec.Ctx.step, hx]
      exact h
    | none =>
      have hcs := h.schema_none.1 hws
      have hg := sim_getDB h n o
      cases hw : w.db with
      | some i =>
        obtain ⟨m, hm, hconn⟩ := h.db_some hw
        simp only [World.step, World.schemaProvider, hws, World.getDB, hw, Spec.Ctx.step, hcs, hm]
        refine ⟨?_, hconn, hconn, fun _ => rfl⟩
        intro j
        have := h.inv j
        rw [hw] at this
        exact this
      | none =>
        have hc := h.db_none.1 hw
        cases o with
        | false =>
          simp only [World.step, World.schemaProvider, hws, World.getDB, hw, Spec.Ctx.step, hcs, hc]
          exact h
        | true =>
          have e : w.getDB n true = ({ w with conns := w.conns ++ [⟨n, false⟩], db := some w.conns.length }, some w.conns.length) := by simp [World.getDB, hw]
          have hinv := hg.inv
          rw [e] at hinv
          simp only [World.step, World.schemaProvider, hws, e, Spec.Ctx.step, hcs, hc, if_true]
          exact ⟨hinv, List.getElem?_concat_length, List.getElem?_concat_length, fun _ => rfl⟩
  | withSchema id =>
    have hd := h.db
    exact ⟨h.inv, hd, rfl⟩
  | close =>
    have hinv : Inv w.close := inv_step w .close h.inv
    have hs := h.schema
    cases hw : w.db with
    | none =>
      have hc := h.db_none.1 hw
      have e : w.close = w := by simp [World.close, hw]
      simp only [World.step, e, Spec.Ctx.step]
      refine ⟨h.inv, by rw [hw]; trivial, ?_⟩
      cases hws : w.schema with
      | none => rw [h.schema_none.1 hws]; trivial
      | some s =>
        rw [hws] at hs
        cases hcs : c.schema with
        | none => rw [hcs] at hs; cases s <;> exact hs.elim
        | some x =>
          rw [hcs] at hs
          cases s with
          | custom a =>
            cases x with
            | custom b => exact hs
            | on m live => exact hs.elim
          | onConn i =>
            cases x with
            | custom b => exact hs
            | on m live =>
              cases live with
              | false => exact hs
              | true => have := hs.2 rfl; rw [hw] at this; cases this
    | some j =>
      have e : w.close = { w with conns := w.conns.modify j (fun c => { c with closed := true }), db := none } := by simp [World.close, hw]
      rw [e] at hinv
      simp only [World.step, e, Spec.Ctx.step]
      refine ⟨hinv, trivial, ?_⟩
      cases hws : w.schema with
      | none => rw [h.schema_none.1 hws]; trivial
      | some s =>
        rw [hws] at hs
        cases hcs : c.schema with
        | none => rw [hcs] at hs; cases s <;> exact hs.elim
        | some x =>
          rw [hcs] at hs
          cases s with
          | custom a =>
            cases x with
            | custom b => exact hs
            | on m live => exact hs.elim
          | onConn i =>
            cases x with
            | custom b => exact hs
            | on m live =>
              obtain ⟨h1, h2⟩ := hs
              cases live with
              | true =>
                have hij : j = i := by have := h2 rfl; rw [hw] at this; exact Option.some.inj this
                subst hij
                refine ⟨?_, by simp⟩
                show (w.conns.modify j _)[j]? = _
                rw [List.getElem?_modify, h1]; simp
              | false =>
                refine ⟨?_, by simp⟩
                show (w.conns.modify j _)[i]? = _
                have hij : j ≠ i := by
                  intro hji
                  subst hji
                  obtain ⟨m', -, hm'⟩ := h.db_some hw
                  rw [h1] at hm'; cases hm'
                rw [List.getElem?_modify, h1]; simp [hij]

theorem sim_run (ops : List Op) : Sim (World.run ops) (Spec.Ctx.run ops) := by
  have : ∀ (ops : List Op) (w : World) (c : Spec.Ctx), Sim w c → Sim (ops.foldl World.step w) (ops.foldl Spec.Ctx.step c) := by
    intro ops
    induction ops with
    | nil => intro w c h; exact h
    | cons o ops ih => intro w c h; exact ih _ _ (sim_step h o)
  exact this ops _ _ ⟨by intro i; simp [Spec.isOpen, World.init], trivial, trivial⟩

/-- **C80 exactly**, for `DB`: after any history a call fails if and only if there is no connection and none can be made; otherwise it hands out an open connection, to the database of the call that
made it: the one named now if there was no connection. -/
theorem C80_db_exactly (ops : List Op) (n : Bytes) (o : Bool) :
    let c := Spec.Ctx.run ops
    let r := (World.run ops).getDB n o
    (r.2 = none ↔ c.db = none ∧ o = false) ∧ ∀ i, r.2 = some i → r.1.conns[i]? = some ⟨c.db.getD n, false⟩ := by
  intro c r
  have h := sim_run ops
  cases hw : (World.run ops).db with
  | some i =>
    obtain ⟨m, hm, hconn⟩ := h.db_some hw
    have e : r = (World.run ops, some i) := by simp [r, World.getDB, hw]
    rw [e]
    refine ⟨by simp [c, hm], fun j hj => ?_⟩
    simp only [Option.some.injEq] at hj
    subst hj
    simpa [c, hm] using hconn
  | none =>
    have hc := h.db_none.1 hw
    cases o with
    | false =>
      have e : r = (World.run ops, none) := by simp [r, World.getDB, hw]
      rw [e]
      exact ⟨by simp [c, hc], by simp⟩
    | true =>
      have e : r = ({ World.run ops with conns := (World.run ops).conns ++ [⟨n, false⟩], db := some (World.run ops).conns.length }, some (World.run ops).conns.length) := by
        simp [r, World.getDB, hw]
      rw [e]
      refine ⟨by simp, fun j hj => ?_⟩
      simp only [Option.some.injEq] at hj
      subst hj
      simp [c, hc]

/-- **C80 exactly**: a `DB` call gets a connection to the database it names if and only if the context is connected to no database or to that one. -/
theorem C80_database_honoured_iff (ops : List Op) (n : Bytes) :
    (∃ i, ((World.run ops).getDB n true).2 = some i ∧ ((World.run ops).getDB n true).1.conns[i]? = some ⟨n, false⟩)
    ↔ (Spec.Ctx.run ops).db = none ∨ (Spec.Ctx.run ops).db = some n := by
  obtain ⟨h1, h2⟩ := C80_db_exactly ops n true
  constructor
  · rintro ⟨i, hi, hc⟩
    have := h2 i hi
    rw [hc] at this
    cases hcd : (Spec.Ctx.run ops).db with
    | none => exact Or.inl rfl
    | some m => rw [hcd] at this; simp at this; exact Or.inr (by rw [this])
  · intro hor
    cases hr : ((World.run ops).getDB n true).2 with
    | none => have := (h1.1 hr).2; cases this
    | some i =>
      refine ⟨i, rfl, ?_⟩
      rw [h2 i hr]
      rcases hor with h | h <;> rw [h] <;> rfl

/-- **C80 exactly**, for `SchemaProvider`: after any history the provider handed out is the user's own, or works on a connection to the database it was first asked for (or the context was
connected to), which is open if and only if `Close` was not called since. -/
theorem C80_schema_exactly (ops : List Op) (n : Bytes) (o : Bool) :
    let c := Spec.Ctx.run ops
    let r := (World.run ops).schemaProvider n o
    (r.2 = none ↔ c.schema = none ∧ c.db = none ∧ o = false)
    ∧ (∀ id, r.2 = some (.custom id) ↔ c.schema = some (.custom id))
    ∧ ∀ i, r.2 = some (.onConn i) → r.1.conns[i]? = some (match c.schema with
        | some (.on m live) => ⟨m, !live⟩
        | _ => ⟨c.db.getD n, false⟩) := by
  intro c r
  have h := sim_run ops
  cases hws : (World.run ops).schema with
  | some s =>
    have e : r = (World.run ops, some s) := by simp [r, World.schemaProvider, hws]
    have hs := h.schema
    rw [hws] at hs
    rw [e]
    cases hcs : c.schema with
    | none => rw [show (Spec.Ctx.run ops).schema = none from hcs] at hs; cases s <;> exact hs.elim
    | some x =>
      rw [show (Spec.Ctx.run ops).schema = some x from hcs] at hs
      cases s with
      | custom a =>
        cases x with
        | custom b =>
          cases hs
          exact ⟨by simp, by simp, by simp⟩
        | on m live => exact hs.elim
      | onConn i =>
        cases x with
        | custom b => exact hs.elim
        | on m live =>
          refine ⟨by simp, by simp, fun j hj => ?_⟩
          simp only [Option.some.injEq, Sch.onConn.injEq] at hj
          subst hj
          exact hs.1
  | none =>
    have hcs := h.schema_none.1 hws
    obtain ⟨h1, h2⟩ := C80_db_exactly ops n o
    cases hg : (World.run ops).getDB n o with
    | mk w' x =>
      rw [hg] at h1 h2
      cases x with
      | none =>
        have e : r = (w', none) := by simp only [r, World.schemaProvider, hws, hg]
        rw [e]
        refine ⟨⟨fun _ => ⟨hcs, h1.1 rfl⟩, fun _ => rfl⟩, fun id => ?_, by simp⟩
        simp [c, hcs]
      | some i =>
        have e : r = ({ w' with schema := some (.onConn i) }, some (.onConn i)) := by simp only [r, World.schemaProvider, hws, hg]
        rw [e]
        refine ⟨⟨fun hh => by simp at hh, fun hh => ?_⟩, fun id => by simp [c, hcs], fun j hj => ?_⟩
        · have := h1.2 hh.2; cases this
        · simp only [Option.some.injEq, Sch.onConn.injEq] at hj
          subst hj
          rw [show c.schema = none from hcs]
          exact h2 i rfl

/-- **C80 exactly**: `SchemaProvider` hands out a provider on a closed connection if and only if the one it keeps was made before the last `Close`. -/
theorem C80_stale_schema_provider_iff (ops : List Op) (n : Bytes) :
    (∃ i m, ((World.run ops).schemaProvider n true).2 = some (.onConn i) ∧ ((World.run ops).schemaProvider n true).1.conns[i]? = some ⟨m, true⟩)
    ↔ ∃ m, (Spec.Ctx.run ops).schema = some (.on m false) := by
  obtain ⟨h1, h2, h3⟩ := C80_schema_exactly ops n true
  constructor
  · rintro ⟨i, m, hi, hc⟩
    have := h3 i hi
    rw [hc] at this
    cases hcs : (Spec.Ctx.run ops).schema with
    | none => rw [hcs] at this; simp at this
    | some x =>
      cases x with
      | custom id =>
        have := (h2 id).2 hcs
        rw [hi] at this; cases this
      | on m' live =>
        rw [hcs] at this
        cases live with
        | false => exact ⟨m', rfl⟩
        | true => simp at this
  · rintro ⟨m, hm⟩
    cases hr : ((World.run ops).schemaProvider n true).2 with
    | none => have := (h1.1 hr).1; rw [hm] at this; cases this
    | some s =>
      cases s with
      | custom id => have := (h2 id).1 hr; rw [hm] at this; cases this
      | onConn i => exact ⟨i, m, rfl, by rw [h3 i hr, hm]; rfl⟩

/-- Both cases occur. -/
example : (Spec.Ctx.run [.schema b!"a" true, .close, .db b!"b" true]) = ⟨some b!"b", some (.on b!"a" false)⟩ := by decide
example : (Spec.Ctx.run [.db b!"a" true, .schema b!"b" true]) = ⟨some b!"a", some (.on b!"a" true)⟩ := by decide

end Cli
