import Verif.Prov.Ids
import Verif.Prov.Open
set_option linter.unusedVariables false
set_option linter.unusedSimpArgs false
/-!
Which database a listener listens to (pkg/notifier/listener.go:66-77 `NewListener`), over histories of calls on providers.  C102.

What lib/pq does with the data source is not modelled: it is compared with the text `sql.Open` was given.  An empty data source makes lib/pq take server, database
and user from the environment or its defaults.
-/
namespace Notify
open Ids

/-- The arguments of lib/pq's `NewListener`; intervals in nanoseconds. -/
structure Dial where
  dataSource : Bytes
  minReconnect : Int
  maxReconnect : Int
  deriving DecidableEq, Repr

/-- `values.NumbersCoalesce` of two numbers (helper library): the first that is not 0. -/
def numbersCoalesce (a b : Int) : Int := if a ≠ 0 then a else b

/-- listener.go:66-77 `NewListener` for provider `p` (`none`: there is no such provider), with the defaults of listener.go:18-21. -/
def newListener (s : Ids.St) (p : Nat) (minReconnect maxReconnect : Int) : Option Dial :=
  (connectionString s p).map fun c => ⟨c, numbersCoalesce minReconnect 10000000, numbersCoalesce maxReconnect 60000000000⟩

/-- db.go:190-194: the calls with which `NewProvider` makes the provider it returns, whose number is `n`. -/
def adopt (n : Nat) (q : Open.Provider) : List Ids.Op := [.new q.name (some q.idGen), .withConn n q.connstr]

/-- **C102**: a listener made from a provider that `NewProvider` returned is given the very text the driver was given, whatever was done with this provider
(closing it included) and with others before and in between.  Missing: transactions (`C102_listener_of_a_transaction`) and providers from `New` (`C102_after_new`). -/
theorem C102_same_data_source_partial (e : Open.Env) (src db : Bytes) (gen : Option Nat) (cfg : Option Open.Config) (tr : List Open.Ev) (q : Open.Provider)
    (h : Open.newProvider e src db gen cfg = (tr, .ok q)) (g0 : Nat → Flake.Gen) (before after : List Ids.Op)
    (ha : ∀ c, .withConn (run (init g0) before).ids.length c ∉ after) (minR maxR : Int) :
    ∃ d, newListener (run (init g0) (before ++ adopt (run (init g0) before).ids.length q ++ after)) (run (init g0) before).ids.length minR maxR = some d
      ∧ (∃ driver, Open.Ev.sqlOpen driver d.dataSource ∈ tr) ∧ ∀ driver s, Open.Ev.sqlOpen driver s ∈ tr → s = d.dataSource := by
  have h97 := Open.C97_provider_is_what_was_opened e src db gen cfg tr q h
  obtain ⟨-, -, -, calls, htr, -⟩ := h97
  have hn := C98_new g0 before q.name (some q.idGen)
  simp only at hn
  obtain ⟨hlen, -⟩ := hn
  have hs : connectionString (run (init g0) (before ++ adopt (run (init g0) before).ids.length q)) (run (init g0) before).ids.length = some q.connstr := by
    have e1 : run (init g0) (before ++ adopt (run (init g0) before).ids.length q)
        = withConn (run (init g0) (before ++ [.new q.name (some q.idGen)])) (run (init g0) before).ids.length q.connstr := by
      unfold adopt
      rw [show before ++ [Ids.Op.new q.name (some q.idGen), .withConn (run (init g0) before).ids.length q.connstr]
        = (before ++ [.new q.name (some q.idGen)]) ++ [.withConn (run (init g0) before).ids.length q.connstr] by simp, run_append]
      rfl
    rw [e1]
    generalize run (init g0) (before ++ [.new q.name (some q.idGen)]) = s at hlen
    unfold connectionString withConn
    simp only [List.getElem?_modify_eq]
    rw [List.getElem?_eq_getElem (by omega)]
    rfl
  have hl : (run (init g0) before).ids.length < (run (init g0) (before ++ adopt (run (init g0) before).ids.length q)).ids.length := by
    apply Classical.byContradiction
    intro hc
    unfold connectionString at hs
    rw [List.getElem?_eq_none (by omega)] at hs
    cases hs
  have hst := (C98_identity_is_stable g0 _ after _ hl).2.2 ha
  rw [hs] at hst
  refine ⟨⟨q.connstr, _, _⟩, by unfold newListener; rw [hst]; rfl, ⟨q.name, by rw [htr]; simp⟩, ?_⟩
  intro driver s hm
  rw [htr] at hm
  simp only [List.mem_append, List.mem_cons, List.mem_map, List.not_mem_nil, or_false, reduceCtorEq, and_false, exists_false] at hm
  injection hm with _ h

/-- **C102 fails** for transactions: a listener made from a transaction gets no data source at all, whatever database the transaction is in. -/
theorem C102_listener_of_a_transaction (g0 : Nat → Flake.Gen) (before after : List Ids.Op) (p q : Nat) (opts : Prov.TxOptions) (drv : Bool)
    (hq : (Prov.step (run (init g0) before).db (.begin p opts drv)).2 = .provider q) (ha : ∀ c, .withConn q c ∉ after) (minR maxR : Int) :
    ∃ d, newListener (run (init g0) (before ++ [.db (.begin p opts drv)] ++ after)) q minR maxR = some d ∧ d.dataSource = [] := by
  obtain ⟨h1, h2, h3, -, -, h6⟩ := C98_transaction_identity g0 before p q opts drv hq
  have hst := (C98_identity_is_stable g0 (before ++ [.db (.begin p opts drv)]) after q (by omega)).2.2 ha
  rw [h6] at hst
  exact ⟨⟨[], _, _⟩, by unfold newListener; rw [hst]; rfl, rfl⟩

/-- **C102** for `New`: the data source is the one given to `WithConnectionString` last, and empty before that. -/
theorem C102_after_new (g0 : Nat → Flake.Gen) (before mid after : List Ids.Op) (n : Bytes) (g : Option Nat) (p : Nat) (hp : p = (run (init g0) before).ids.length) (minR maxR : Int) :
    ((∀ c, .withConn p c ∉ after) → ∃ d, newListener (run (init g0) (before ++ [.new n g] ++ after)) p minR maxR = some d ∧ d.dataSource = [])
    ∧ ∀ c, (∀ c', .withConn p c' ∉ after) → ∃ d, newListener (run (init g0) (before ++ [.new n g] ++ mid ++ [.withConn p c] ++ after)) p minR maxR = some d ∧ d.dataSource = c := by
  obtain ⟨hlen, -, -, -, hc⟩ := C98_new g0 before n g
  rw [← hp] at hlen hc
  constructor
  · intro ha
    have hst := (C98_identity_is_stable g0 (before ++ [.new n g]) after p (by omega)).2.2 ha
    rw [hc] at hst
    exact ⟨⟨[], _, _⟩, by unfold newListener; rw [hst]; rfl, rfl⟩
  · intro c ha
    obtain ⟨c0, h0, -⟩ := ident_run (run (init g0) (before ++ [.new n g])) mid p _ (List.getElem?_eq_getElem (by omega))
    rw [← run_append] at h0
    have e1 : run (init g0) (before ++ [.new n g] ++ mid ++ [.withConn p c]) = withConn (run (init g0) (before ++ [.new n g] ++ mid)) p c := by rw [run_append]; rfl
    have hs : ∃ i : Ident, (run (init g0) (before ++ [.new n g] ++ mid ++ [.withConn p c])).ids[p]? = some i ∧ i.connstr = c := by
      rw [e1]
      unfold withConn
      simp only [List.getElem?_modify_eq, h0]
      exact ⟨_, rfl, rfl⟩
    obtain ⟨i, hi, hic⟩ := hs
    obtain ⟨c1, h1, h1'⟩ := ident_run _ after p i hi
    rw [← run_append] at h1
    rw [h1' ha] at h1
    exact ⟨⟨i.connstr, _, _⟩, by unfold newListener connectionString; rw [h1]; rfl, hic⟩

/-- **C102**: intervals not given (0) are 10 milliseconds and one minute; others are passed on as they are, negative ones too. -/
theorem C102_intervals (s : Ids.St) (p : Nat) (minR maxR : Int) (d : Dial) (h : newListener s p minR maxR = some d) :
    (minR = 0 → d.minReconnect = 10 * 1000000) ∧ (minR ≠ 0 → d.minReconnect = minR) ∧ (maxR = 0 → d.maxReconnect = 60 * 1000000000) ∧ (maxR ≠ 0 → d.maxReconnect = maxR) := by
  unfold newListener at h
  obtain ⟨c, -, rfl⟩ := Option.map_eq_some_iff.1 h
  simp only [numbersCoalesce]
  refine ⟨fun h => ?_, fun h => ?_, fun h => ?_, fun h => ?_⟩ <;> simp [h]

/-- A program: a provider, a transaction on it, a listener from each. -/
example : newListener (run (init exGens) exOps) 0 0 5000000000 = some ⟨b!"postgres://h", 10000000, 5000000000⟩
    ∧ newListener (run (init exGens) exOps) 1 0 0 = some ⟨[], 10000000, 60000000000⟩ := by decide +kernel

end Notify
