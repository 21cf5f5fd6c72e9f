import Verif.Prov.Props
import Verif.Flake.Props
set_option linter.unusedVariables false
set_option linter.unusedSimpArgs false
/-!
Name, connection string and ID generator of the providers of a program (prov.go), over histories of calls by any number of goroutines.  C98.

The database side of a provider is `Prov.Model`, a generator is `Flake.Model`: any number of goroutines call `NextID` through any provider or transaction, in single steps.
-/
namespace Ids

/-- prov.go:15-24 `SQLProvider`, the fields `name`, `connstr` and `idGen` (a number; number 0 is `flake.DefaultIDGenerator`). -/
structure Ident where
  name : Bytes
  connstr : Bytes
  gen : Nat
  deriving DecidableEq, Repr

/-- All providers of a program, all generators, and the IDs `NextID` returned, oldest first, each with the provider it was called on. -/
structure St where
  db : Prov.World
  ids : List Ident
  gens : Nat → Flake.Conc
  log : List (Nat × BitVec 64)

/-- What clients do. -/
inductive Op where
  | new (name : Bytes) (gen : Option Nat)     -- `New(name, db, idGen)`, `none` is nil
  | withConn (p : Nat) (connstr : Bytes)      -- `p.WithConnectionString(connstr)`
  | db (o : Prov.Op)                          -- a call of `Prov.Model` other than `New`
  | next (p : Nat) (t : Nat) (a : Flake.Act)  -- goroutine `t` in `p.NextID()`: one step of it

/-- prov.go:27-41 `New`. -/
def new (s : St) (name : Bytes) (gen : Option Nat) : St :=
  { s with db := (Prov.newProvider s.db).1, ids := s.ids ++ [⟨name, [], gen.getD 0⟩] }

/-- prov.go:43-46 `WithConnectionString`. -/
def withConn (s : St) (p : Nat) (c : Bytes) : St := { s with ids := s.ids.modify p (fun i => { i with connstr := c }) }

/-- The identity given to a transaction in prov.go:94-100: `name` and `idGen` are copied, `connstr` is not. -/
def txIdent (i : Ident) : Ident := ⟨i.name, [], i.gen⟩

/-- A call of `Prov.Model`; a successful prov.go:85-102 `BeginTx` makes a provider. -/
def dbCall (s : St) (o : Prov.Op) : St :=
  match o, (Prov.step s.db o).2 with
  | .new, _ => s
  | .begin p _ _, .provider _ => { s with db := (Prov.step s.db o).1, ids := s.ids ++ (s.ids[p]?.map txIdent).toList }
  | _, _ => { s with db := (Prov.step s.db o).1 }

/-- prov.go:137-139 `NextID`: a step of `p.idGen.NextID()`; what it returns is logged. -/
def next (s : St) (p t : Nat) (a : Flake.Act) : St :=
  match s.ids[p]? with
  | none => s
  | some i =>
    let c := s.gens i.gen
    let c' := (Flake.cstep c t a).getD c
    { s with gens := fun k => if k = i.gen then c' else s.gens k, log := s.log ++ (c'.log.drop c.log.length).map (fun x => (p, x.2)) }

def step (s : St) : Op → St
  | .new n g => new s n g
  | .withConn p c => withConn s p c
  | .db o => dbCall s o
  | .next p t a => next s p t a

/-- No providers yet; generator `k` is `gens k`, as made by `NewIDGenerator`. -/
def init (gens : Nat → Flake.Gen) : St := ⟨.init, [], fun k => Flake.cinit (gens k), []⟩

/-- Run a history. -/
def run (s : St) (ops : List Op) : St := ops.foldl step s

/-- prov.go:53-55 `Name`. -/
def name (s : St) (p : Nat) : Option Bytes := s.ids[p]?.map Ident.name
/-- prov.go:48-50 `ConnectionString`. -/
def connectionString (s : St) (p : Nat) : Option Bytes := s.ids[p]?.map Ident.connstr
/-- The generator behind prov.go:134-142 `NextID` and `IDTime`. -/
def generator (s : St) (p : Nat) : Option Nat := s.ids[p]?.map Ident.gen
/-- prov.go:142-144 `IDTime`. -/
def idTime (s : St) (p : Nat) (id : BitVec 64) : Option Int := s.ids[p]?.map (fun i => Flake.idTime (some (s.gens i.gen).gen) id)

/-! ### Lemmas -/

theorem run_append (s : St) (a b : List Op) : run s (a ++ b) = run (run s a) b := List.foldl_append ..

/-- The number of providers changes only by `New` and a successful `BeginTx`, and then by one. -/
theorem rollback_len (w : Prov.World) (p : Prov.SQLProvider) (d : Bool) : (Prov.rollback w p d).1.provs = w.provs := by
  unfold Prov.rollback Prov.txRollback
  cases p.tx with
  | none => rfl
  | some t => simp only; cases w.done.getD t true <;> cases d <;> rfl

theorem close_len (w : Prov.World) (i : Nat) (p : Prov.SQLProvider) (d : Bool) : (Prov.close w i p d).1.provs.length = w.provs.length := by
  unfold Prov.close
  cases p.conn with
  | false => rfl
  | true =>
    cases hp : p.tx with
    | some t => simp [rollback_len]
    | none => unfold Prov.dbClose; cases h : w.closed <;> cases d <;> simp

theorem other_len (w : Prov.World) (o : Prov.Op) (h1 : o ≠ .new) (h2 : ∀ p op d, o ≠ .begin p op d) : (Prov.step w o).1.provs.length = w.provs.length := by
  cases o with
  | new => exact absurd rfl h1
  | begin p op d => exact absurd rfl (h2 p op d)
  | exec i st d =>
    simp only [Prov.step]
    cases w.provs[i]? with
    | none => rfl
    | some p =>
      simp only [Prov.exec]
      cases p.tx with
      | none => cases w.closed <;> rfl
      | some t => simp only; cases w.done.getD t true <;> cases d <;> rfl
  | commit i d =>
    simp only [Prov.step]
    cases w.provs[i]? with
    | none => rfl
    | some p =>
      simp only [Prov.commit, Prov.txCommit]
      cases p.tx with
      | none => rfl
      | some t => simp only; cases w.done.getD t true <;> cases d <;> rfl
  | rollback i d =>
    simp only [Prov.step]
    cases w.provs[i]? with
    | none => rfl
    | some p => simp [rollback_len]
  | close i d =>
    simp only [Prov.step]
    cases w.provs[i]? with
    | none => rfl
    | some p => simp [close_len]
  | cancel t => simp only [Prov.step, Prov.txRollback]; cases w.done.getD t true <;> rfl

/-- `BeginTx`: either a provider is made, or nothing changes. -/
theorem begin_cases (w : Prov.World) (i : Nat) (op : Prov.TxOptions) (d : Bool) :
    ((Prov.step w (.begin i op d)).2 = .provider w.provs.length ∧ i < w.provs.length ∧ (Prov.step w (.begin i op d)).1.provs.length = w.provs.length + 1)
    ∨ ((∀ q, (Prov.step w (.begin i op d)).2 ≠ .provider q) ∧ (Prov.step w (.begin i op d)).1 = w) := by
  simp only [Prov.step]
  cases hp : w.provs[i]? with
  | none => exact .inr ⟨nofun, rfl⟩
  | some p =>
    have hi : i < w.provs.length := by
      rw [List.getElem?_eq_some_iff] at hp; exact hp.1
    simp only [Prov.beginTx]
    cases p.tx with
    | some t => exact .inr ⟨nofun, rfl⟩
    | none =>
      cases p.conn with
      | false => exact .inr ⟨nofun, rfl⟩
      | true =>
        cases w.closed with
        | true => exact .inr ⟨nofun, rfl⟩
        | false =>
          cases d with
          | false => exact .inr ⟨nofun, rfl⟩
          | true => exact .inl ⟨rfl, hi, by simp⟩

/-- What is true of every state of a program. -/
structure Inv (g0 : Nat → Flake.Gen) (s : St) : Prop where
  len : s.ids.length = s.db.provs.length
  known : ∀ x ∈ s.log, x.1 < s.ids.length
  sched : ∀ k, ∃ sc, s.gens k = Flake.crun (Flake.cinit (g0 k)) sc
  logs : ∀ k, (s.log.filter (fun x => generator s x.1 = some k)).map Prod.snd = (s.gens k).log.map Prod.snd

theorem cstep_log (c : Flake.Conc) (t : Nat) (a : Flake.Act) : ∃ l, ((Flake.cstep c t a).getD c).log = c.log ++ l := by
  have h := Flake.crun_log [(t, a)] c
  exact h

theorem filter_congr {s s' : St} (hk : ∀ x ∈ s.log, x.1 < s.ids.length) (hg : ∀ p, p < s.ids.length → generator s' p = generator s p) (k : Nat) :
    s.log.filter (fun x => generator s' x.1 = some k) = s.log.filter (fun x => generator s x.1 = some k) := by
  apply List.filter_congr
  intro x hx
  rw [hg x.1 (hk x hx)]

/-- Steps that hand out no ID. -/
theorem inv_quiet {g0 : Nat → Flake.Gen} {s s' : St} (h : Inv g0 s) (hl : s'.ids.length = s'.db.provs.length) (hle : s.ids.length ≤ s'.ids.length)
    (hg : ∀ p, p < s.ids.length → generator s' p = generator s p) (h1 : s'.gens = s.gens) (h2 : s'.log = s.log) : Inv g0 s' := by
  refine ⟨hl, ?_, ?_, ?_⟩
  · rw [h2]; intro x hx; have := h.known x hx; omega
  · rw [h1]; exact h.sched
  · intro k
    rw [h2, h1, filter_congr h.known hg]
    exact h.logs k

theorem generator_append (s : St) (l : List Ident) (d : Prov.World) (p : Nat) (hp : p < s.ids.length) :
    generator { s with db := d, ids := s.ids ++ l } p = generator s p := by
  simp [generator, hp, List.getElem?_append]

theorem inv_step {g0 : Nat → Flake.Gen} {s : St} (h : Inv g0 s) (o : Op) : Inv g0 (step s o) := by
  cases o with
  | new n g =>
    refine inv_quiet h ?_ ?_ ?_ rfl rfl
    · simp [step, new, Prov.newProvider, h.len]
    · simp [step, new]
    · intro p hp; exact generator_append s _ _ p hp
  | withConn q c =>
    refine inv_quiet h ?_ ?_ ?_ rfl rfl
    · simp [step, withConn, h.len]
    · simp [step, withConn]
    · intro p hp
      simp only [step, withConn, generator, List.getElem?_modify, Option.map_map]
      cases s.ids[p]? with
      | none => rfl
      | some i => by_cases hq : q = p <;> simp [hq]
  | db o =>
    by_cases ho : o = .new
    · subst ho; exact h
    by_cases hb : ∃ p op d, o = .begin p op d
    · obtain ⟨p, op, d, rfl⟩ := hb
      rcases begin_cases s.db p op d with ⟨h1, h2, h3⟩ | ⟨h1, h2⟩
      · have hp : p < s.ids.length := by rw [h.len]; exact h2
        have e : step s (.db (.begin p op d)) = { s with db := (Prov.step s.db (.begin p op d)).1, ids := s.ids ++ [txIdent s.ids[p]] } := by
          simp only [step, dbCall, h1, List.getElem?_eq_getElem hp]; rfl
        rw [e]
        refine inv_quiet h ?_ ?_ ?_ rfl rfl
        · simp [h3, h.len]
        · simp
        · intro q hq; exact generator_append s _ _ q hq
      · have e : step s (.db (.begin p op d)) = s := by
          simp only [step, dbCall]
          split
          · rfl
          · rename_i hx; exact absurd hx (h1 _)
          · rw [h2]
        rw [e]; exact h
    · have e : step s (.db o) = { s with db := (Prov.step s.db o).1 } := by
        simp only [step, dbCall]
        split
        · exact absurd rfl ho
        · exact absurd ⟨_, _, _, rfl⟩ hb
        · rfl
      rw [e]
      refine inv_quiet h ?_ (Nat.le_refl _) (fun _ _ => rfl) rfl rfl
      simp only
      rw [other_len s.db o ho (fun p op d hx => hb ⟨p, op, d, hx⟩), h.len]
  | next p t a =>
    simp only [step, next]
    cases hi : s.ids[p]? with
    | none => exact h
    | some i =>
      have hp : p < s.ids.length := by rw [List.getElem?_eq_some_iff] at hi; exact hi.1
      obtain ⟨l, hl⟩ := cstep_log (s.gens i.gen) t a
      simp only
      refine ⟨h.len, ?_, ?_, ?_⟩
      · intro x hx
        simp only [List.mem_append, List.mem_map] at hx
        rcases hx with hx | ⟨y, -, rfl⟩
        · exact h.known x hx
        · exact hp
      · intro k
        by_cases hk : k = i.gen
        · subst hk
          obtain ⟨sc, hsc⟩ := h.sched i.gen
          refine ⟨sc ++ [(t, a)], ?_⟩
          simp only [if_true, Flake.crun_append, ← hsc]
          rfl
        · simp only [if_neg hk]; exact h.sched k
      · intro k
        have hgen : ∀ (g : Nat → Flake.Conc) (lg : List (Nat × BitVec 64)) q, generator (St.mk s.db s.ids g lg) q = generator s q := fun _ _ _ => rfl
        simp only [hgen]
        rw [hl]
        simp only [List.drop_left, List.filter_append, List.map_append, h.logs k]
        by_cases hk : k = i.gen
        · subst hk
          simp [hl, List.filter_map, Function.comp_def, generator, hi]
          rw [List.filter_eq_self.2 (by simp)]
        · simp [hk, List.filter_map, Function.comp_def, generator, hi, Ne.symm hk]

theorem inv_init (g0 : Nat → Flake.Gen) : Inv g0 (init g0) :=
  ⟨rfl, nofun, fun k => ⟨[], rfl⟩, fun k => rfl⟩

theorem inv_run {g0 : Nat → Flake.Gen} {s : St} (h : Inv g0 s) (ops : List Op) : Inv g0 (run s ops) := by
  induction ops generalizing s with
  | nil => exact h
  | cons o ops ih => exact ih (inv_step h o)

/-- Identities stay, except that `WithConnectionString` changes the connection string of the provider it is called on. -/
theorem ident_step (s : St) (o : Op) (p : Nat) (i : Ident) (hi : s.ids[p]? = some i) :
    ∃ c, (step s o).ids[p]? = some { i with connstr := c } ∧ ((∀ c', o ≠ .withConn p c') → c = i.connstr) := by
  have hp : p < s.ids.length := by rw [List.getElem?_eq_some_iff] at hi; exact hi.1
  have app : ∀ l, (s.ids ++ l)[p]? = some i := by intro l; rw [List.getElem?_append_left hp]; exact hi
  cases o with
  | new n g => exact ⟨_, app _, fun _ => rfl⟩
  | withConn q c =>
    by_cases hq : q = p
    · subst hq
      refine ⟨c, ?_, fun h => absurd rfl (h c)⟩
      simp [step, withConn, hi]
    · refine ⟨i.connstr, ?_, fun _ => rfl⟩
      simp [step, withConn, hi, hq, List.getElem?_modify]
  | db o =>
    refine ⟨i.connstr, ?_, fun _ => rfl⟩
    simp only [step, dbCall]
    split
    · exact hi
    · exact app _
    · exact hi
  | next q t a =>
    refine ⟨i.connstr, ?_, fun _ => rfl⟩
    simp only [step, next]
    split <;> exact hi

theorem ident_run (s : St) (ops : List Op) (p : Nat) (i : Ident) (hi : s.ids[p]? = some i) :
    ∃ c, (run s ops).ids[p]? = some { i with connstr := c } ∧ ((∀ c', .withConn p c' ∉ ops) → c = i.connstr) := by
  induction ops generalizing s i with
  | nil => exact ⟨i.connstr, hi, fun _ => rfl⟩
  | cons o ops ih =>
    obtain ⟨c, h1, h2⟩ := ident_step s o p i hi
    obtain ⟨c', h3, h4⟩ := ih (step s o) _ h1
    refine ⟨c', h3, fun hn => ?_⟩
    rw [h4 (fun x hx => hn x (List.mem_cons_of_mem _ hx))]
    exact h2 (fun x hx => hn x (by rw [hx]; exact List.mem_cons_self ..))

/-! ### Properties -/

/-- **C98**: in every program, name and ID generator of a provider never change, whatever is called on it or others (Close included); the connection string
changes only by `WithConnectionString` on that provider. -/
theorem C98_identity_is_stable (g0 : Nat → Flake.Gen) (before after : List Op) (p : Nat) (hp : p < (run (init g0) before).ids.length) :
    name (run (init g0) (before ++ after)) p = name (run (init g0) before) p
    ∧ generator (run (init g0) (before ++ after)) p = generator (run (init g0) before) p
    ∧ ((∀ c, .withConn p c ∉ after) → connectionString (run (init g0) (before ++ after)) p = connectionString (run (init g0) before) p) := by
  have hi := List.getElem?_eq_getElem hp
  obtain ⟨c, h1, h2⟩ := ident_run _ after p _ hi
  rw [run_append]
  simp only [name, generator, connectionString, h1, hi, Option.map_some]
  exact ⟨trivial, trivial, fun h => by rw [h2 h]⟩

/-- **C98**: `New` gives a provider with that name, and that generator or, for nil, the default one; its connection string is empty until `WithConnectionString`. -/
theorem C98_new (g0 : Nat → Flake.Gen) (before : List Op) (n : Bytes) (g : Option Nat) :
    let s := run (init g0) before
    let s' := run (init g0) (before ++ [.new n g])
    s'.ids.length = s.ids.length + 1 ∧ name s' s.ids.length = some n ∧ (∀ k, g = some k → generator s' s.ids.length = some k)
      ∧ (g = none → generator s' s.ids.length = some 0) ∧ connectionString s' s.ids.length = some [] := by
  intro s s'
  have e : s' = new s n g := run_append _ _ _
  rw [e]
  refine ⟨by simp [new], by simp [name, new], ?_, ?_, by simp [connectionString, new]⟩
  · rintro k rfl; simp [generator, new]
  · rintro rfl; simp [generator, new]

/-- **C98**: a transaction has the name and the ID generator of the provider it was begun on. Its connection string is always empty, whatever that of the provider is. -/
theorem C98_transaction_identity (g0 : Nat → Flake.Gen) (before : List Op) (p q : Nat) (opts : Prov.TxOptions) (drv : Bool)
    (hq : (Prov.step (run (init g0) before).db (.begin p opts drv)).2 = .provider q) :
    let s := run (init g0) before
    let s' := run (init g0) (before ++ [.db (.begin p opts drv)])
    q = s.ids.length ∧ p < s.ids.length ∧ s'.ids.length = s.ids.length + 1 ∧ name s' q = name s p ∧ generator s' q = generator s p ∧ connectionString s' q = some [] := by
  intro s s'
  have hinv := inv_run (inv_init g0) before
  rcases begin_cases s.db p opts drv with ⟨h1, h2, h3⟩ | ⟨h1, h2⟩
  · have hp : p < s.ids.length := by rw [hinv.len]; exact h2
    have hqe : q = s.ids.length := by
      have := h1.symm.trans hq
      injection this with this
      rw [← this, ← hinv.len]
    have e : s' = { s with db := (Prov.step s.db (.begin p opts drv)).1, ids := s.ids ++ [txIdent s.ids[p]] } := by
      rw [show s' = dbCall s (.begin p opts drv) from run_append _ _ _]
      simp only [dbCall, h1, List.getElem?_eq_getElem hp]; rfl
    rw [e, hqe]
    refine ⟨rfl, hp, by simp, ?_, ?_, ?_⟩
    · simp [name, txIdent, hp]
    · simp [generator, txIdent, hp]
    · simp [connectionString, txIdent]
  · exact absurd hq (h1 q)

/-- **C98**: however many goroutines ask for IDs through providers and transactions that use the same generator, in whatever order their steps happen, and whatever else happens
to the providers: the IDs are handed out in strictly increasing order. -/
theorem C98_ids_increase (g0 : Nat → Flake.Gen) (ops : List Op) (k : Nat) (h : Flake.Fresh (g0 k)) :
    let s := run (init g0) ops
    ((s.log.filter (fun x => generator s x.1 = some k)).map Prod.snd).Pairwise (fun x y => x.toNat < y.toNat) := by
  intro s
  have hinv := inv_run (inv_init g0) ops
  obtain ⟨sc, hsc⟩ := hinv.sched k
  have h1 := Flake.C01_ids_strictly_increasing h sc
  simp only [Flake.idsOf, ← hsc] at h1
  rw [List.pairwise_cons] at h1
  rw [hinv.logs k]
  exact h1.2

/-- **C98**: all IDs handed out in a program, through any providers and transactions, are different, provided that its generators have different machine IDs. -/
theorem C98_ids_unique (g0 : Nat → Flake.Gen) (ops : List Op) (hf : ∀ k, Flake.Fresh (g0 k))
    (hm : ∀ p q k l, generator (run (init g0) ops) p = some k → generator (run (init g0) ops) q = some l → k ≠ l → (g0 k).machineID ≠ (g0 l).machineID) :
    ((run (init g0) ops).log.map Prod.snd).Nodup := by
  have hinv := inv_run (inv_init g0) ops
  have hinc := fun k => C98_ids_increase g0 ops k (hf k)
  simp only at hinc
  revert hinv hinc hm
  generalize run (init g0) ops = s
  intro hm hinv hinc
  rw [List.nodup_iff_pairwise_ne, List.pairwise_map, List.pairwise_iff_getElem]
  intro i j hi hj hij
  have gen : ∀ n (hn : n < s.log.length), ∃ k, generator s (s.log[n]).1 = some k := by
    intro n hn
    have := hinv.known _ (List.getElem_mem hn)
    exact ⟨_, by simp only [generator, List.getElem?_eq_getElem this, Option.map_some]; rfl⟩
  obtain ⟨k, hk⟩ := gen i hi
  obtain ⟨l, hl⟩ := gen j hj
  by_cases hkl : k = l
  · subst hkl
    have h1 := hinc k
    rw [List.pairwise_map, List.pairwise_filter] at h1
    rw [List.pairwise_iff_getElem] at h1
    have := h1 i j hi hj hij (by simpa using hk) (by simpa using hl)
    intro he
    rw [he] at this
    omega
  · have hmem : ∀ n (hn : n < s.log.length) (k : Nat), generator s (s.log[n]).1 = some k → ∃ sc, (s.log[n]).2 ∈ Flake.idsOf (g0 k) sc := by
      intro n hn k hk
      obtain ⟨sc, hsc⟩ := hinv.sched k
      refine ⟨sc, ?_⟩
      unfold Flake.idsOf
      rw [← hsc, ← hinv.logs k]
      exact List.mem_cons_of_mem _ (List.mem_map.2 ⟨_, List.mem_filter.2 ⟨List.getElem_mem hn, by simpa using hk⟩, rfl⟩)
    obtain ⟨a, ha⟩ := hmem i hi k hk
    obtain ⟨b, hb⟩ := hmem j hj l hl
    intro he
    rw [he] at ha
    exact Flake.C02_machines_disjoint (hf k) (hf l) (hm _ _ k l hk hl hkl) a b _ ha hb

/-- **C98**: `IDTime` of an ID is the same through every provider and transaction that uses the generator, at any time, in between any calls; and it is in the order of the IDs. -/
theorem C98_id_time (g0 : Nat → Flake.Gen) (ops more : List Op) (p q k : Nat) (hf : Flake.Fresh (g0 k)) (hp : generator (run (init g0) ops) p = some k)
    (hq : generator (run (init g0) (ops ++ more)) q = some k) (id : BitVec 64) :
    ∃ t, idTime (run (init g0) ops) p id = some t ∧ idTime (run (init g0) (ops ++ more)) q id = some t ∧ t = ((g0 k).startTime + (id.toNat / 2 ^ 22 : Nat)) * 1000000
      ∧ ∀ id' t', id.toNat < id'.toNat → idTime (run (init g0) ops) p id' = some t' → t ≤ t' := by
  have key : ∀ ops p id, generator (run (init g0) ops) p = some k → idTime (run (init g0) ops) p id = some (((g0 k).startTime + (id.toNat / 2 ^ 22 : Nat)) * 1000000) := by
    intro ops p id hp
    obtain ⟨sc, hsc⟩ := (inv_run (inv_init g0) ops).sched k
    have hst := (Flake.fresh_cinv hf sc).start
    rw [← hsc] at hst
    unfold generator at hp
    unfold idTime
    cases hi : (run (init g0) ops).ids[p]? with
    | none => rw [hi] at hp; cases hp
    | some i =>
      rw [hi] at hp
      have hp : i.gen = k := Option.some.inj hp
      rw [Option.map_some, hp, Flake.idTime_eq, hst]
  refine ⟨_, key ops p id hp, key _ q id hq, rfl, ?_⟩
  intro id' t' hlt ht
  rw [key ops p id' hp] at ht
  cases ht
  have : id.toNat / 2 ^ 22 ≤ id'.toNat / 2 ^ 22 := Nat.div_le_div_right (by omega)
  omega

/-- `NextID` from start to end, without others in between. -/
def whole (p t : Nat) (now now2 : Int) : List Op := [.next p t .call, .next p t .acquire, .next p t (.readClock now), .next p t (.update now2), .next p t .wake, .next p t .ret]

theorem run_next (s : St) (p t : Nat) (i : Ident) (hi : s.ids[p]? = some i) (acts : List Flake.Act) :
    let s' := run s (acts.map (Op.next p t))
    s'.ids = s.ids ∧ s'.db = s.db ∧ s'.gens i.gen = Flake.crun (s.gens i.gen) (acts.map (fun a => (t, a))) ∧ (∀ k, k ≠ i.gen → s'.gens k = s.gens k)
      ∧ s'.log = s.log ++ ((s'.gens i.gen).log.drop (s.gens i.gen).log.length).map (fun x => (p, x.2)) := by
  induction acts generalizing s with
  | nil => simp [run, Flake.crun]
  | cons a acts ih =>
    have hs : (step s (.next p t a)).ids = s.ids := by simp only [step, next, hi]
    obtain ⟨h1, h2, h3, h4, h5⟩ := ih (step s (.next p t a)) (by rw [hs]; exact hi)
    have e : run s ((a :: acts).map (Op.next p t)) = run (step s (.next p t a)) (acts.map (Op.next p t)) := rfl
    have hg : (step s (.next p t a)).gens i.gen = (Flake.cstep (s.gens i.gen) t a).getD (s.gens i.gen) := by simp only [step, next, hi, if_true]
    simp only
    rw [e]
    refine ⟨h1.trans hs, h2.trans (by simp only [step, next, hi]), ?_, ?_, ?_⟩
    · rw [h3, hg]; rfl
    · intro k hk; rw [h4 k hk]; simp only [step, next, hi, if_neg hk]
    · rw [h5, hg]
      obtain ⟨l, hl⟩ := cstep_log (s.gens i.gen) t a
      have hc := Flake.crun_log (acts.map (fun a => (t, a))) ((Flake.cstep (s.gens i.gen) t a).getD (s.gens i.gen))
      obtain ⟨l2, hl2⟩ := hc
      rw [h3, hg, hl2, hl]
      simp only [step, next, hi, hl, List.drop_left, List.append_assoc, List.map_append]
      rw [← List.append_assoc (s.gens i.gen).log, List.drop_left]

theorem whole_log (g : Flake.Gen) (t : Nat) (now now2 : Int) (id : BitVec 64) (hid : (Flake.nextID g now now2).2.2 = some id) :
    (Flake.crun (Flake.cinit g) [(t, .call), (t, .acquire), (t, .readClock now), (t, .update now2), (t, .wake), (t, .ret)]).log = [(t, id)] := by
  simp only [Flake.nextID] at hid
  simp only [Flake.crun, Flake.cstep, Flake.cinit, Flake.setPc, if_true, Option.getD_some]
  generalize Flake.advance g (Flake.currentElapsed g.startTime now) = r at *
  cases r.2 <;> simp [hid, Flake.setPc]

/-- **C98 fails** without different machine IDs: two providers with a generator of their own (say, each from `NewIDGenerator` with the default settings, on one host and in the same
millisecond) can hand out the same ID. -/
theorem C98_same_machine_collides (g : Flake.Gen) (t : Nat) (now now2 : Int) (id : BitVec 64) (hid : (Flake.nextID g now now2).2.2 = some id) :
    ∃ ops, (run (init fun _ => g) ops).log = [(0, id), (1, id)] ∧ generator (run (init fun _ => g) ops) 0 = some 1 ∧ generator (run (init fun _ => g) ops) 1 = some 2 := by
  obtain ⟨s0, hs0, g1, g2, g3⟩ : ∃ s0, s0 = run (init fun _ => g) [.new b!"a" (some 1), .new b!"b" (some 2)] ∧ s0.ids = [⟨b!"a", [], 1⟩, ⟨b!"b", [], 2⟩]
      ∧ (∀ k, s0.gens k = Flake.cinit g) ∧ s0.log = [] := ⟨_, rfl, rfl, fun _ => rfl, rfl⟩
  have w0 : ∀ p : Nat, whole p t now now2 = [Flake.Act.call, .acquire, .readClock now, .update now2, .wake, .ret].map (Op.next p t) := fun _ => rfl
  obtain ⟨a1, -, a3, a4, a5⟩ := run_next s0 0 t ⟨b!"a", [], 1⟩ (by rw [g1]; rfl) [.call, .acquire, .readClock now, .update now2, .wake, .ret]
  rw [← w0] at a1 a3 a4 a5
  obtain ⟨s1, hs1⟩ : ∃ s1, s1 = run s0 (whole 0 t now now2) := ⟨_, rfl⟩
  rw [← hs1] at a1 a3 a4 a5
  obtain ⟨b1, -, b3, -, b5⟩ := run_next s1 1 t ⟨b!"b", [], 2⟩ (by rw [a1, g1]; rfl) [.call, .acquire, .readClock now, .update now2, .wake, .ret]
  rw [← w0] at b1 b3 b5
  obtain ⟨s2, hs2⟩ : ∃ s2, s2 = run s1 (whole 1 t now now2) := ⟨_, rfl⟩
  rw [← hs2] at b1 b3 b5
  have hl := whole_log g t now now2 id hid
  simp only [List.map_cons, List.map_nil] at a3 b3
  rw [g2] at a3
  rw [a4 2 (by decide), g2] at b3 b5
  rw [b3, hl] at b5
  rw [a3, hl, g3, g2] at a5
  refine ⟨[.new b!"a" (some 1), .new b!"b" (some 2)] ++ (whole 0 t now now2 ++ whole 1 t now now2), ?_⟩
  rw [run_append, run_append, ← hs0, ← hs1, ← hs2]
  refine ⟨?_, ?_, ?_⟩
  · rw [b5, a5]; rfl
  · unfold generator; rw [b1, a1, g1]; rfl
  · unfold generator; rw [b1, a1, g1]; rfl

/-! ### Concrete cases -/

/-- Two generators of different machines; number 0 is the default one. -/
def exGens (k : Nat) : Flake.Gen := if k = 0 then Flake.exGen else Flake.exGen8

/-- A provider with the default generator, a transaction on it, IDs through both and through a provider with a generator of its own. -/
def exOps : List Op :=
  [.new b!"postgres" none, .withConn 0 b!"postgres://h", .db (.begin 0 .default true), .new b!"sqlserver" (some 1)]
    ++ whole 1 4 5400000 0 ++ whole 2 4 5400000 0 ++ whole 0 9 5400000 0 ++ [.db (.close 0 true)] ++ whole 1 4 1000000 0

example : ((run (init exGens) exOps).log.map (fun x => (x.1, x.2.toNat))) =
    [(1, 5 * 4194304 + 1 * 65536 + 7), (2, 5 * 4194304 + 1 * 65536 + 8), (0, 5 * 4194304 + 2 * 65536 + 7), (1, 5 * 4194304 + 3 * 65536 + 7)] := by decide +kernel
example : (run (init exGens) exOps).ids = [⟨b!"postgres", b!"postgres://h", 0⟩, ⟨b!"postgres", [], 0⟩, ⟨b!"sqlserver", [], 1⟩] := by decide +kernel
example : (Prov.step (run (init exGens) (exOps.take 2)).db (.begin 0 .default true)).2 = .provider 1 := by decide +kernel
example (k : Nat) : Flake.Fresh (exGens k) := by
  unfold exGens
  split
  · exact Flake.exGen_fresh
  · exact ⟨{ startTime := some 0, machineID := some (.ok 8) }, 0, 5300000, 5300000, 5300000, 0, by rfl⟩
example : (Flake.nextID Flake.exGen 5400000 0).2.2 = some 21037063 := by decide +kernel

end Ids
