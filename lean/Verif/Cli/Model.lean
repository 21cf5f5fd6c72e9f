import Verif.Base
set_option linter.unusedVariables false
set_option linter.unusedSimpArgs false
/-!
Model of the resources of the command line tool (internal/cli/cli.go): the database connection and the schema provider it keeps.  C80.
-/
namespace Cli

/-- A schema provider: one set by `WithSchemaProvider`, or one made by `schema.NewProvider` on a connection. -/
inductive Sch where
  | custom (id : Nat)
  | onConn (conn : Nat)
  deriving DecidableEq, Repr

/-- A connection made by `xdb.NewProvider`: the database it was opened for, and whether it has been closed. -/
structure Conn where
  db : Bytes
  closed : Bool
  deriving DecidableEq, Repr

/-- The fields `db` and `schema` of `Cli` (cli.go:35-37), and all connections ever opened (index = identity). -/
structure World where
  conns : List Conn
  db : Option Nat
  schema : Option Sch
  deriving DecidableEq, Repr

/-- A new `Cli`. -/
def World.init : World := ⟨[], none, none⟩

/-- cli.go:40-45 `Close`: the provider's own `Close` closes the connection, its error is ignored. -/
def World.close (w : World) : World :=
  match w.db with
  | some i => { w with conns := w.conns.modify i (fun c => { c with closed := true }), db := none }
  | none => w

/-- cli.go:115-124 `DB`; `opens`: `xdb.NewProvider` succeeds.  `none`: error. -/
def World.getDB (w : World) (dbname : Bytes) (opens : Bool) : World × Option Nat :=
  match w.db with
  | some i => (w, some i)
  | none =>
    if opens then ({ w with conns := w.conns ++ [⟨dbname, false⟩], db := some w.conns.length }, some w.conns.length)
    else (w, none)

/-- cli.go:127-138 `SchemaProvider`. -/
def World.schemaProvider (w : World) (dbname : Bytes) (opens : Bool) : World × Option Sch :=
  match w.schema with
  | some s => (w, some s)
  | none =>
    match w.getDB dbname opens with
    | (w', none) => (w', none)
    | (w', some i) => ({ w' with schema := some (.onConn i) }, some (.onConn i))

/-- cli.go:141-144 `WithSchemaProvider`. -/
def World.withSchema (w : World) (id : Nat) : World := { w with schema := some (.custom id) }

/-- A call on the `Cli`. -/
inductive Op where
  | db (name : Bytes) (opens : Bool)
  | schema (name : Bytes) (opens : Bool)
  | withSchema (id : Nat)
  | close
  deriving DecidableEq, Repr

/-- The state after a call. -/
def World.step (w : World) : Op → World
  | .db n o => (w.getDB n o).1
  | .schema n o => (w.schemaProvider n o).1
  | .withSchema id => w.withSchema id
  | .close => w.close

/-- The state after a history. -/
def World.run (ops : List Op) : World := ops.foldl World.step World.init

/-! ### Specification -/

/-- Connection `i` is open. -/
def Spec.isOpen (w : World) (i : Nat) : Prop := ∃ c, w.conns[i]? = some c ∧ c.closed = false

/-! ### Properties -/

/-- The connections that are open are exactly the one that is kept. -/
def Inv (w : World) : Prop := ∀ i, Spec.isOpen w i ↔ w.db = some i

theorem inv_step (w : World) (op : Op) (h : Inv w) : Inv (w.step op) := by
  have hdb : ∀ n o, Inv (w.getDB n o).1 := by
    intro n o
    unfold World.getDB
    cases hw : w.db with
    | some i => exact h
    | none =>
      cases o with
      | false => exact h
      | true =>
        intro i
        simp only [Spec.isOpen, if_true]
        constructor
        · rintro ⟨c, hc, ho⟩
          by_cases hi : i < w.conns.length
          · rw [List.getElem?_append_left hi] at hc
            have := (h i).1 ⟨c, hc, ho⟩
            rw [hw] at this; cases this
          · have : i < w.conns.length + 1 := by
              have := (List.getElem?_eq_some_iff.1 hc).1
              simpa using this
            have : i = w.conns.length := by omega
            rw [this]
        · rintro e
          cases e
          exact ⟨_, List.getElem?_concat_length, rfl⟩
  cases op with
  | db n o => exact hdb n o
  | schema n o =>
    simp only [World.step, World.schemaProvider]
    cases hs : w.schema with
    | some s => exact h
    | none =>
      have := hdb n o
      cases hg : w.getDB n o with
      | mk w' r =>
        rw [hg] at this
        cases r with
        | none => exact this
        | some i => exact this
  | withSchema id => exact h
  | close =>
    simp only [World.step, World.close]
    cases hw : w.db with
    | none => exact h
    | some j =>
      intro i
      simp only [Spec.isOpen, List.getElem?_modify, reduceCtorEq, iff_false]
      rintro ⟨c, hc, ho⟩
      by_cases hij : j = i
      · subst hij
        simp only [if_true, Option.map_eq_map, Option.map_eq_some_iff] at hc
        obtain ⟨c', _, rfl⟩ := hc
        simp at ho
      · simp only [if_neg hij, Option.map_eq_map, Option.map_id'] at hc
        have := (h i).1 ⟨c, hc, ho⟩
        rw [hw] at this
        exact hij (Option.some.inj this)

theorem inv_run (ops : List Op) : Inv (World.run ops) := by
  have : ∀ (ops : List Op) (w : World), Inv w → Inv (ops.foldl World.step w) := by
    intro ops
    induction ops with
    | nil => intro w h; exact h
    | cons o ops ih => intro w h; exact ih _ (inv_step w o h)
  exact this ops _ (by intro i; simp [Spec.isOpen, World.init])

/-- **C80**: in every history of calls, at most one connection is open, and after `Close` none is: no connection is ever leaked. -/
theorem C80_no_connection_leaks (ops : List Op) :
    (∀ i j, Spec.isOpen (World.run ops) i → Spec.isOpen (World.run ops) j → i = j)
    ∧ ∀ i, ¬ Spec.isOpen (World.run (ops ++ [.close])) i := by
  have h := inv_run ops
  refine ⟨fun i j hi hj => ?_, fun i hi => ?_⟩
  · have a := (h i).1 hi
    have b := (h j).1 hj
    rw [a] at b; exact Option.some.inj b
  · have h' := (inv_run (ops ++ [.close]) i).1 hi
    simp only [World.run, List.foldl_append, List.foldl_cons, List.foldl_nil, World.step, World.close] at h'
    split at h'
    · cases h'
    · rename_i hn; rw [hn] at h'; cases h'

/-- **C80**: the connection handed out by `DB` is open, and later calls hand out the same one until `Close`, whatever happens in between; a failed call changes nothing. -/
theorem C80_db_is_open_and_kept (ops : List Op) (n : Bytes) (o : Bool) :
    (∀ w' i, (World.run ops).getDB n o = (w', some i) → Spec.isOpen w' i
      ∧ ∀ (more : List Op), Op.close ∉ more → ∀ m p, ((more.foldl World.step w').getDB m p) = (more.foldl World.step w', some i))
    ∧ (∀ w', (World.run ops).getDB n o = (w', none) → w' = World.run ops) := by
  constructor
  · intro w' i h
    have hi : w'.db = some i := by
      unfold World.getDB at h
      split at h
      · cases h; assumption
      · split at h <;> cases h; rfl
    have hinv : Inv w' := by
      have := inv_step _ (.db n o) (inv_run ops)
      simp only [World.step, h] at this
      exact this
    refine ⟨(hinv i).2 hi, ?_⟩
    intro more
    clear hinv h
    induction more generalizing w' with
    | nil => intro _ m p; simp [World.getDB, hi]
    | cons op more ih =>
      intro hm m p
      have : (w'.step op).db = some i := by
        cases op with
        | db n o => simp [World.step, World.getDB, hi]
        | schema n o =>
          simp only [World.step, World.schemaProvider]
          cases w'.schema <;> simp [World.getDB, hi]
        | withSchema id => exact hi
        | close => simp at hm
      exact ih _ this (by simp at hm; exact hm.2) m p
  · intro w' h
    unfold World.getDB at h
    split at h
    · cases h
    · split at h <;> cases h; rfl

/-- **C80**: when no connection is kept (at the start, or after `Close`), `DB` and `SchemaProvider` connect to the database asked for. -/
theorem C80_connects_as_asked (ops : List Op) (n : Bytes) :
    let w := World.run ops
    w.db = none → (∃ i w', w.getDB n true = (w', some i) ∧ w'.conns[i]? = some ⟨n, false⟩)
      ∧ (w.schema = none → ∃ i w', w.schemaProvider n true = (w', some (.onConn i)) ∧ w'.conns[i]? = some ⟨n, false⟩) := by
  intro w h
  have e : w.getDB n true = ({ w with conns := w.conns ++ [⟨n, false⟩], db := some w.conns.length }, some w.conns.length) := by simp [World.getDB, h]
  refine ⟨⟨_, _, e, List.getElem?_concat_length⟩, fun hs => ?_⟩
  refine ⟨w.conns.length, { w with conns := w.conns ++ [⟨n, false⟩], db := some w.conns.length, schema := some (.onConn w.conns.length) }, ?_, List.getElem?_concat_length⟩
  simp only [World.schemaProvider, hs, e]

/-- **C80**: a provider set with `WithSchemaProvider` is the one used, and no connection is made for it. -/
theorem C80_custom_schema_provider (ops more : List Op) (id : Nat) (hm : ∀ op ∈ more, ∀ k, op ≠ .withSchema k) (n : Bytes) (o : Bool) :
    let w := more.foldl World.step (World.run (ops ++ [.withSchema id]))
    w.schemaProvider n o = (w, some (.custom id)) := by
  intro w
  have hw : w.schema = some (.custom id) := by
    have h0 : (World.run (ops ++ [.withSchema id])).schema = some (.custom id) := by
      simp [World.run, List.foldl_append, World.step, World.withSchema]
    have : ∀ (more : List Op) (w : World), (∀ op ∈ more, ∀ k, op ≠ .withSchema k) → w.schema = some (.custom id) → (more.foldl World.step w).schema = some (.custom id) := by
      intro more
      induction more with
      | nil => intro w _ h; exact h
      | cons op more ih =>
        intro w hm h
        refine ih _ (fun x hx => hm x (by simp [hx])) ?_
        cases op with
        | db n o => simp only [World.step, World.getDB]; (repeat' split) <;> exact h
        | schema n o => simp only [World.step, World.schemaProvider, h]
        | withSchema k => exact absurd rfl (hm _ (by simp) k)
        | close => simp only [World.step, World.close]; split <;> exact h
    exact this more _ hm h0
  unfold World.schemaProvider
  rw [hw]

/-- **C80 fails** for the database name: once there is a connection, every later `DB` call gets it, whatever database it asks for. -/
theorem C80_database_name_ignored (w : World) (i : Nat) (h : w.db = some i) (n : Bytes) (o : Bool) : w.getDB n o = (w, some i) := by
  simp [World.getDB, h]

/-- **C80 fails** after `Close` for schema providers: the schema provider is kept, on the connection that was closed, while `DB` opens a new one. -/
theorem C80_schema_provider_survives_close :
    let w := World.run [.schema b!"a" true, .close, .db b!"a" true]
    (w.schemaProvider b!"a" true).2 = some (.onConn 0) ∧ ¬ Spec.isOpen w 0 ∧ Spec.isOpen w 1 := by
  intro w
  refine ⟨by decide, ?_, ⟨⟨b!"a", false⟩, by decide, rfl⟩⟩
  rintro ⟨c, hc, ho⟩
  have : w.conns[0]? = some ⟨b!"a", true⟩ := by decide
  rw [this] at hc; cases hc; simp at ho

/-- A first call connects to the database asked for. -/
example : World.run [.schema b!"a" true] = ⟨[⟨b!"a", false⟩], some 0, some (.onConn 0)⟩ := by decide

end Cli
