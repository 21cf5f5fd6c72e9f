import Verif.Types.Errors
set_option linter.unusedVariables false
set_option linter.unusedSimpArgs false
/-!
Model of `migrate.Migrate` (migrate/migrate.go) and `xdb.NewProvider` (db.go:173-196), and properties C59 and C66.

The migration engine (golang-migrate), the file system and `sql.Open`/`Ping` are an environment that answers each call; the
calls made are recorded.  Log lines and the stack/message wrappers put around returned errors are not modelled.
-/
namespace Mig

/-- The calls that reach the outside world. -/
inductive Call where
  | stat (dir : Bytes)
  | withInstance (driver : Bytes)
  | newMigrate (source driver : Bytes)
  | version
  | force (v : Int)
  | migrate (v : Nat)
  | up
  deriving DecidableEq, Repr

/-- The answer of `m.Version()`. -/
inductive VersionRes where
  | version (n : Nat)
  | nilVersion            -- migrate.ErrNilVersion
  | fails (msg : Bytes)
  deriving DecidableEq, Repr

/-- The answers of the environment; `none` is a nil error, `some msg` an error with that text. -/
structure Env where
  stat : Option Bytes
  instance_ : Option Bytes
  newMigrate : Option Bytes
  version1 : VersionRes
  force : Option Bytes
  migrate : Option Bytes     -- of `m.Migrate` or `m.Up`
  version2 : VersionRes

/-- The text golang-migrate's `ErrNoChange` has, and the one searched for in migrate.go:94. -/
def noChange : Bytes := b!"no change"

/-- migrate/migrate.go:24-110 `Migrate`: the calls made, and the text of the error returned (`none`: success). -/
def migrate (e : Env) (provider dir : Bytes) (forceVersion migrateVersion : Int) : List Call × Option Bytes :=
  if dir.length = 0 then ([], none)
  else
    let c := [Call.stat dir]
    match e.stat with
    | some m => (c, some m)
    | none =>
      let driver := if provider = b!"postgres" ∨ provider = b!"pgsql" then some b!"postgres"
        else if provider = b!"sqlserver" then some b!"sqlserver" else none
      match driver with
      | none => (c, some (b!"unsupported provider: " ++ provider))
      | some d =>
        let c := c ++ [.withInstance d]
        match e.instance_ with
        | some m => (c, some m)
        | none =>
          let c := c ++ [.newMigrate (b!"file://" ++ dir) provider]
          match e.newMigrate with
          | some m => (c, some m)
          | none =>
            let c := c ++ [.version]
            match e.version1 with
            | .fails m => (c, some m)
            | _ =>
              let forced : List Call × Option Bytes :=
                if forceVersion > 0 then (c ++ [.force forceVersion], e.force) else (c, none)
              match forced.2 with
              | some m => (forced.1, some m)
              | none =>
                let c := if migrateVersion > 0 then forced.1 ++ [.migrate migrateVersion.toNat] else forced.1 ++ [.up]
                match e.migrate with
                | some m => if Types.containsSub noChange m then (c, none) else (c, some m)
                | none =>
                  let c := c ++ [.version]
                  match e.version2 with
                  | .version _ => (c, none)
                  | .nilVersion => (c, some b!"no migration")
                  | .fails m => (c, some m)

namespace Spec

/-- The database is supported. -/
def Supported (provider : Bytes) : Prop := provider = b!"postgres" ∨ provider = b!"pgsql" ∨ provider = b!"sqlserver"

/-- Nothing went wrong before the migration proper. -/
def Ready (e : Env) : Prop := e.stat = none ∧ e.instance_ = none ∧ e.newMigrate = none ∧ ∀ m, e.version1 ≠ .fails m

/-- `m` contains the text `sub`. -/
def Mentions (sub m : Bytes) : Prop := ∃ a b, m = a ++ sub ++ b

/-- The calls of the migration proper: the version is forced first when asked, then the requested version or, without one, the latest. -/
def work (force mig : Int) : List Call :=
  (if force > 0 then [.force force] else []) ++ (if mig > 0 then [.migrate mig.toNat] else [.up])

end Spec

/-- C59 (calls and outcome, partial): with a directory, a supported database and nothing wrong before, the migration engine is asked to force
the version first when that is requested, then for the requested version, or for the latest; when forcing fails nothing else is done and
the failure is returned; a failure of the migration that does not mention "no change" is returned with its text; the engine's "no change"
is success; without a failure the final version is read back.
Missing: failures whose text mentions "no change" are taken for success, see `C59_failure_swallowed`. -/
theorem C59_migrate_partial (e : Env) (provider dir : Bytes) (force mig : Int) (hd : dir ≠ []) (hp : Spec.Supported provider)
    (hr : Spec.Ready e) :
    ∃ pre : List Call, (∀ c ∈ pre, (∀ v, c ≠ .force v) ∧ (∀ v, c ≠ .migrate v) ∧ c ≠ .up)
      ∧ (force > 0 → ∀ m, e.force = some m → migrate e provider dir force mig = (pre ++ [.force force], some m))
      ∧ ((force > 0 → e.force = none) →
          (∀ m, e.migrate = some m → ¬ Spec.Mentions b!"no change" m →
            migrate e provider dir force mig = (pre ++ Spec.work force mig, some m))
          ∧ (e.migrate = some b!"no change" → migrate e provider dir force mig = (pre ++ Spec.work force mig, none))
          ∧ (e.migrate = none → ∀ n, e.version2 = .version n →
            migrate e provider dir force mig = (pre ++ Spec.work force mig ++ [.version], none))
          ∧ (e.migrate = none → (∀ n, e.version2 ≠ .version n) →
            ∃ m, migrate e provider dir force mig = (pre ++ Spec.work force mig ++ [.version], some m))) := by
  obtain ⟨h1, h2, h3, h4⟩ := hr
  have hlen : ¬ dir.length = 0 := by simpa using hd
  obtain ⟨d, hdv⟩ : ∃ d, (if provider = b!"postgres" ∨ provider = b!"pgsql" then some b!"postgres"
        else if provider = b!"sqlserver" then some b!"sqlserver" else none) = some d := by
    rcases hp with h | h | h
    · exact ⟨_, if_pos (Or.inl h)⟩
    · exact ⟨_, if_pos (Or.inr h)⟩
    · subst h; exact ⟨_, rfl⟩
  refine ⟨[.stat dir, .withInstance d, .newMigrate (b!"file://" ++ dir) provider, .version], ?_, ?_, ?_⟩
  · simp
  · intro hf m hm
    simp only [migrate, if_neg hlen, h1, hdv, h2, h3]
    cases hv : e.version1 with
    | fails m' => exact absurd hv (h4 m')
    | _ => simp [hf, hm]
  · intro hfn
    have key : migrate e provider dir force mig =
        (match e.migrate with
        | some m => if Types.containsSub noChange m
            then ([Call.stat dir, .withInstance d, .newMigrate (b!"file://" ++ dir) provider, .version] ++ Spec.work force mig, none)
            else ([Call.stat dir, .withInstance d, .newMigrate (b!"file://" ++ dir) provider, .version] ++ Spec.work force mig, some m)
        | none =>
          match e.version2 with
          | .version _ => ([Call.stat dir, .withInstance d, .newMigrate (b!"file://" ++ dir) provider, .version] ++ Spec.work force mig ++ [.version], none)
          | .nilVersion => ([Call.stat dir, .withInstance d, .newMigrate (b!"file://" ++ dir) provider, .version] ++ Spec.work force mig ++ [.version], some b!"no migration")
          | .fails m => ([Call.stat dir, .withInstance d, .newMigrate (b!"file://" ++ dir) provider, .version] ++ Spec.work force mig ++ [.version], some m)) := by
      simp only [migrate, if_neg hlen, h1, hdv, h2, h3]
      cases hv : e.version1 with
      | fails m' => exact absurd hv (h4 m')
      | _ =>
        by_cases hf : force > 0
        · simp only [if_pos hf, hfn hf, Spec.work]
          by_cases hm : mig > 0 <;> simp [hm]
        · simp only [if_neg hf, Spec.work]
          by_cases hm : mig > 0 <;> simp [hm]
    rw [key]
    refine ⟨?_, ?_, ?_, ?_⟩
    · intro m hm hn
      rw [hm]
      dsimp only
      rw [if_neg (by rw [Types.containsSub_iff]; exact hn)]
    · intro hm
      rw [hm]
      dsimp only
      rw [if_pos (by rw [Types.containsSub_iff]; exact ⟨[], [], rfl⟩)]
    · intro hm n hn
      rw [hm, hn]
    · intro hm hn
      rw [hm]
      cases hv : e.version2 with
      | version n => exact absurd hv (hn n)
      | nilVersion => exact ⟨_, rfl⟩
      | fails m => exact ⟨m, rfl⟩

/-- C59 (nothing is run when it cannot be): an inaccessible directory, an unsupported database, or a failure to set up the engine or to
read the current version is returned, and neither force nor migrate nor up is called; an empty directory name means nothing to do. -/
theorem C59_setup_failures (e : Env) (provider dir : Bytes) (force mig : Int) :
    (dir = [] → migrate e provider dir force mig = ([], none))
    ∧ (dir ≠ [] → (¬ Spec.Supported provider ∨ ¬ Spec.Ready e) →
        (∃ m, (migrate e provider dir force mig).2 = some m)
        ∧ ∀ c ∈ (migrate e provider dir force mig).1, (∀ v, c ≠ .force v) ∧ (∀ v, c ≠ .migrate v) ∧ c ≠ .up) := by
  refine ⟨fun h => by simp [migrate, h], fun hd hbad => ?_⟩
  have hlen : ¬ dir.length = 0 := by simpa using hd
  simp only [migrate, if_neg hlen]
  cases h1 : e.stat with
  | some m => simp
  | none =>
    simp only
    cases hdr : (if provider = b!"postgres" ∨ provider = b!"pgsql" then some b!"postgres"
        else if provider = b!"sqlserver" then some b!"sqlserver" else (none : Option Bytes)) with
    | none => simp
    | some d =>
      have hsup : Spec.Supported provider := by
        by_cases ha : provider = b!"postgres" ∨ provider = b!"pgsql"
        · rcases ha with ha | ha
          · exact Or.inl ha
          · exact Or.inr (Or.inl ha)
        · rw [if_neg ha] at hdr
          by_cases hb : provider = b!"sqlserver"
          · exact Or.inr (Or.inr hb)
          · rw [if_neg hb] at hdr; cases hdr
      simp only
      cases h2 : e.instance_ with
      | some m => simp
      | none =>
        cases h3 : e.newMigrate with
        | some m => simp
        | none =>
          cases h4 : e.version1 with
          | fails m => simp
          | _ =>
            exfalso
            rcases hbad with hb | hb
            · exact hb hsup
            · exact hb ⟨h1, h2, h3, by intro m; rw [h4]; simp⟩

/-- C59 fails: a migration that failed with an error text mentioning "no change" anywhere (the engine quotes the failed SQL) is reported
as success. -/
theorem C59_failure_swallowed (e : Env) (provider dir : Bytes) (force mig : Int) (hd : dir ≠ []) (hp : Spec.Supported provider)
    (hr : Spec.Ready e) (hf : force > 0 → e.force = none) (a b : Bytes) (hm : e.migrate = some (a ++ b!"no change" ++ b)) :
    (migrate e provider dir force mig).2 = none := by
  obtain ⟨h1, h2, h3, h4⟩ := hr
  have hlen : ¬ dir.length = 0 := by simpa using hd
  obtain ⟨d, hdv⟩ : ∃ d, (if provider = b!"postgres" ∨ provider = b!"pgsql" then some b!"postgres"
        else if provider = b!"sqlserver" then some b!"sqlserver" else none) = some d := by
    rcases hp with h | h | h
    · exact ⟨_, if_pos (Or.inl h)⟩
    · exact ⟨_, if_pos (Or.inr h)⟩
    · subst h; exact ⟨_, rfl⟩
  have hc : Types.containsSub noChange (a ++ b!"no change" ++ b) = true := by
    rw [Types.containsSub_iff]; exact ⟨a, b, rfl⟩
  simp only [migrate, if_neg hlen, h1, hdv, h2, h3, hm, hc, if_true]
  cases hv : e.version1 with
  | fails m' => exact absurd hv (h4 m')
  | _ =>
    by_cases hf0 : force > 0
    · simp only [if_pos hf0, hf hf0]
    · simp only [if_neg hf0]

/-- **C59**, exactly: `Migrate` reports success in these cases and no others: there is no directory; or the database is supported, nothing went wrong before, forcing the version (if
asked) worked, and the engine either answered something that mentions "no change" or succeeded and then knew a version. -/
theorem C59_success_iff (e : Env) (provider dir : Bytes) (force mig : Int) :
    (migrate e provider dir force mig).2 = none ↔
      dir = [] ∨ (Spec.Supported provider ∧ Spec.Ready e ∧ (force > 0 → e.force = none)
        ∧ ((∃ m, e.migrate = some m ∧ Spec.Mentions b!"no change" m) ∨ (e.migrate = none ∧ ∃ n, e.version2 = .version n))) := by
  by_cases hd : dir = []
  · exact ⟨fun _ => .inl hd, fun _ => by rw [(C59_setup_failures e provider dir force mig).1 hd]⟩
  by_cases hs : Spec.Supported provider ∧ Spec.Ready e
  · obtain ⟨hp, hr⟩ := hs
    obtain ⟨pre, -, h2, h3⟩ := C59_migrate_partial e provider dir force mig hd hp hr
    by_cases hf : force > 0 → e.force = none
    · obtain ⟨a, -, c, d⟩ := h3 hf
      cases hm : e.migrate with
      | some m =>
        by_cases hn : Spec.Mentions b!"no change" m
        · refine ⟨fun _ => .inr ⟨hp, hr, hf, .inl ⟨m, rfl, hn⟩⟩, fun _ => ?_⟩
          obtain ⟨x, y, rfl⟩ := hn
          exact C59_failure_swallowed e provider dir force mig hd hp hr hf x y hm
        · rw [a m hm hn]
          constructor
          · intro h; cases h
          · rintro (h | ⟨-, -, -, ⟨m', h1, h2⟩ | ⟨h1, -⟩⟩)
            · exact absurd h hd
            · cases h1; exact absurd h2 hn
            · cases h1
      | none =>
        by_cases hv : ∃ n, e.version2 = .version n
        · obtain ⟨n, hv⟩ := hv
          rw [c hm n hv]
          exact ⟨fun _ => .inr ⟨hp, hr, hf, .inr ⟨rfl, n, hv⟩⟩, fun _ => rfl⟩
        · obtain ⟨m, hx⟩ := d hm (fun n hn => hv ⟨n, hn⟩)
          rw [hx]
          constructor
          · intro h; cases h
          · rintro (h | ⟨-, -, -, ⟨m', h1, -⟩ | ⟨-, h1⟩⟩)
            · exact absurd h hd
            · cases h1
            · exact absurd h1 hv
    · obtain ⟨hf0, hfe⟩ := Classical.not_imp.1 hf
      obtain ⟨m, hm⟩ : ∃ m, e.force = some m := by
        cases h : e.force with
        | none => exact absurd h hfe
        | some m => exact ⟨m, rfl⟩
      rw [h2 hf0 m hm]
      constructor
      · intro h; cases h
      · rintro (h | ⟨-, -, h, -⟩)
        · exact absurd h hd
        · exact absurd h hf
  · obtain ⟨⟨m, hm⟩, -⟩ := (C59_setup_failures e provider dir force mig).2 hd (by
      by_cases hp : Spec.Supported provider
      · exact .inr (fun hr => hs ⟨hp, hr⟩)
      · exact .inl hp)
    rw [hm]
    constructor
    · intro h; cases h
    · rintro (h | ⟨hp, hr, -⟩)
      · exact absurd h hd
      · exact absurd ⟨hp, hr⟩ hs

/-! ### NewProvider -/

/-- What `NewProvider` does with the connection pool. -/
inductive Pool where
  | opened
  | closed
  deriving DecidableEq, Repr

/-- db.go:119-160 `Open` (its last part) and db.go:173-196 `NewProvider`: `sqlOpen` and `ping` are the outcomes of `sql.Open` and `Ping`,
`source` is `migrateCfg.Source` (`none`: no configuration).  The result is whether a provider is returned, and what happened to
the pool. -/
def newProvider (sqlOpen ping : Bool) (source : Option Bytes) (mig : Option Bytes) : Bool × List Pool :=
  if !sqlOpen then (false, [])
  else if !ping then (false, [.opened])
  else
    match source with
    | none => (true, [.opened])
    | some s =>
      if s = [] then (true, [.opened])
      else match mig with
        | some _ => (false, [.opened])
        | none => (true, [.opened])

/-- C66 fails: when the database does not answer the ping, or the migration fails, the connection pool that was opened is neither
returned nor closed. -/
theorem C66_failed_open_leaks (source mig : Option Bytes) (ping : Bool) (s m : Bytes) (hs : s ≠ []) :
    newProvider true false source mig = (false, [.opened]) ∧ newProvider true true (some s) (some m) = (false, [.opened]) := by
  simp [newProvider, hs]

/-- C66 (partial): a provider is returned exactly when the pool could be opened, answered, and the migration, if one was configured,
succeeded; and then the pool is open. Missing: after a failure the pool stays open, see `C66_failed_open_leaks`. -/
theorem C66_new_provider_partial (sqlOpen ping : Bool) (source mig : Option Bytes) :
    ((newProvider sqlOpen ping source mig).1 = true ↔
      sqlOpen = true ∧ ping = true ∧ (∀ s, source = some s → s ≠ [] → mig = none))
    ∧ ((newProvider sqlOpen ping source mig).1 = true → (newProvider sqlOpen ping source mig).2 = [.opened]) := by
  cases sqlOpen <;> cases ping <;> cases source <;> cases mig <;> simp [newProvider] <;> split <;> simp_all

/-! Concrete cases. -/
def exEnv (mig : Option Bytes) : Env := ⟨none, none, none, .nilVersion, none, mig, .version 3⟩
example : Spec.Ready (exEnv none) := ⟨rfl, rfl, rfl, by intro m h; cases h⟩
example : Spec.Supported b!"pgsql" := Or.inr (Or.inl rfl)
example : migrate (exEnv none) b!"pgsql" b!"sql" 2 3 =
    ([.stat b!"sql", .withInstance b!"postgres", .newMigrate b!"file://sql" b!"pgsql", .version, .force 2, .migrate 3, .version], none) := by
  decide +kernel
example : (migrate (exEnv (some b!"syntax error in line 1: -- no change to users\nSELEC 1")) b!"postgres" b!"sql" 0 0).2 = none := by
  decide +kernel
example : (migrate (exEnv (some b!"syntax error")) b!"postgres" b!"sql" 0 0).2 = some b!"syntax error" := by decide +kernel

end Mig
