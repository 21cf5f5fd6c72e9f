import Verif.Conn.Props
import Verif.Migrate.Model
set_option linter.unusedVariables false
set_option linter.unusedSimpArgs false
/-!
Model of `Open` and `NewProvider` (db.go) as a whole: what is handed to which driver, in what order, and what comes back.  C97, and the exact
form of C66.

`configloader.ResolveValue`, the host syntax of `net/url` (see `Conn.Model`), `sql.Open`, `Ping` and the migration engine (see `Migrate.Model`) are the environment.
-/
namespace Open

/-- The environment. -/
structure Env where
  resolve : Bytes → Option Bytes
  host : Bytes → Option Bytes
  sqlOpen : Bytes → Bytes → Bool   -- `sql.Open driver ds` succeeds
  ping : Bytes → Bytes → Bool      -- `Ping` of that pool succeeds
  mig : Mig.Env
  windows : Bool                   -- db.go:242-244 `isWindows`

/-- What is done to the outside. -/
inductive Ev where
  | sqlOpen (driver ds : Bytes)
  | ping
  | migration (c : Mig.Call)
  | keepAlive
  deriving DecidableEq, Repr

/-- The ways to fail. -/
inductive Fail where
  | config
  | badUrl
  | unsupported (driver : Bytes)
  | cannotOpen
  | cannotPing
  | migration (msg : Bytes)
  deriving DecidableEq, Repr

/-- db.go:119-163 `Open`: driver and data source. -/
def openDB (e : Env) (dataSource database : Bytes) : List Ev × Except Fail (Bytes × Bytes) :=
  match e.resolve dataSource with
  | none => ([], .error .config)
  | some r =>
    match Conn.parseConnectionString e.resolve e.host (Conn.clean r) with
    | none => ([], .error .badUrl)
    | some src =>
      match Conn.withDatabase src.driver (Conn.clean r) database with
      | none => ([], .error (.unsupported src.driver))
      | some ds =>
        if e.sqlOpen src.driver ds then
          if e.ping src.driver ds then ([.sqlOpen src.driver ds, .ping], .ok (src.driver, ds))
          else ([.sqlOpen src.driver ds, .ping], .error .cannotPing)
        else ([.sqlOpen src.driver ds], .error .cannotOpen)

/-- db.go:166-170 `MigrationConfig`. -/
structure Config where
  source : Bytes
  force : Int
  version : Int

/-- db.go:180-183: backslashes become slashes on Windows. -/
def migrationsDir (windows : Bool) (source : Bytes) : Bytes := if windows then source.map (fun c => if c = 92 then 47 else c) else source

/-- prov.go:15-24 the fields of `SQLProvider` that do not change: name, connection string, and the ID generator (number 0 is `flake.DefaultIDGenerator`). -/
structure Provider where
  name : Bytes
  connstr : Bytes
  idGen : Nat
  deriving DecidableEq, Repr

/-- prov.go:27-41 `New` and prov.go:43-46 `WithConnectionString`. -/
def new (name connstr : Bytes) (idGen : Option Nat) : List Ev × Provider := ([.keepAlive], ⟨name, connstr, idGen.getD 0⟩)

/-- db.go:173-196 `NewProvider`. -/
def newProvider (e : Env) (dataSource dbName : Bytes) (idGen : Option Nat) (cfg : Option Config) : List Ev × Except Fail Provider :=
  match openDB e dataSource dbName with
  | (tr, .error f) => (tr, .error f)
  | (tr, .ok (driver, ds)) =>
    let m : List Mig.Call × Option Bytes :=
      match cfg with
      | none => ([], none)
      | some c => if c.source = [] then ([], none) else Mig.migrate e.mig driver (migrationsDir e.windows c.source) c.force c.version
    match m.2 with
    | some msg => (tr ++ m.1.map .migration, .error (.migration msg))
    | none =>
      let r := new driver ds idGen
      (tr ++ m.1.map .migration ++ r.1, .ok r.2)

/-! ### Specification -/
namespace Spec

/-- The migration configured, if any: where from, to which version. -/
def wanted (cfg : Option Config) : Option Config := cfg.filter (fun c => c.source ≠ [])

/-- A pool was opened. -/
def opened (e : Env) (tr : List Ev) : Prop := ∃ d s, Ev.sqlOpen d s ∈ tr ∧ e.sqlOpen d s = true

end Spec

/-! ### Lemmas -/

theorem hands_iff (e : Env) (src db driver ds : Bytes) : Conn.Spec.handsOver e.resolve e.host src db driver ds ↔
    ∃ r s, e.resolve src = some r ∧ Conn.parseConnectionString e.resolve e.host (Conn.clean r) = some s ∧ s.driver = driver
      ∧ Conn.withDatabase driver (Conn.clean r) db = some ds := by
  unfold Conn.Spec.handsOver Conn.openDB
  constructor
  · intro h
    have h := h (fun _ _ => true)
    simp only [if_true] at h
    cases hr : e.resolve src with
    | none => rw [hr] at h; cases h
    | some r =>
      simp only [hr] at h
      cases hp : Conn.parseConnectionString e.resolve e.host (Conn.clean r) with
      | none => rw [hp] at h; cases h
      | some s =>
        simp only [hp] at h
        cases hw : Conn.withDatabase s.driver (Conn.clean r) db with
        | none => rw [hw] at h; cases h
        | some ds' =>
          rw [hw] at h
          cases h
          exact ⟨r, s, rfl, hp, rfl, hw⟩
  · rintro ⟨r, s, h1, h2, rfl, h3⟩ connects
    simp only [h1, h2, h3]

theorem hands_unique {e : Env} {src db d s d' s' : Bytes} (h : Conn.Spec.handsOver e.resolve e.host src db d s) (h' : Conn.Spec.handsOver e.resolve e.host src db d' s') :
    d = d' ∧ s = s' := by
  have a := h (fun _ _ => true)
  have b := h' (fun _ _ => true)
  rw [a] at b
  simp only [if_true, Conn.OpenRes.opened.injEq] at b
  exact b

theorem openDB_hands (e : Env) (src db d s : Bytes) (h : Conn.Spec.handsOver e.resolve e.host src db d s) :
    openDB e src db = if e.sqlOpen d s then if e.ping d s then ([.sqlOpen d s, .ping], .ok (d, s)) else ([.sqlOpen d s, .ping], .error .cannotPing)
      else ([.sqlOpen d s], .error .cannotOpen) := by
  obtain ⟨r, x, h1, h2, rfl, h3⟩ := (hands_iff e src db d s).1 h
  unfold openDB
  simp only [h1, h2, h3]

theorem openDB_none (e : Env) (src db : Bytes) (h : ¬ ∃ d s, Conn.Spec.handsOver e.resolve e.host src db d s) :
    ∃ f, openDB e src db = ([], .error f) ∧ f ≠ .cannotPing ∧ (∀ m, f ≠ .migration m) := by
  unfold openDB
  cases hr : e.resolve src with
  | none => exact ⟨_, rfl, nofun, nofun⟩
  | some r =>
    simp only
    cases hp : Conn.parseConnectionString e.resolve e.host (Conn.clean r) with
    | none => exact ⟨_, rfl, nofun, nofun⟩
    | some x =>
      simp only
      cases hw : Conn.withDatabase x.driver (Conn.clean r) db with
      | none => exact ⟨_, rfl, nofun, nofun⟩
      | some ds => exact absurd ⟨x.driver, ds, (hands_iff e src db _ _).2 ⟨r, x, hr, hp, rfl, hw⟩⟩ h

/-- The migration `NewProvider` runs, and its outcome. -/
def work (e : Env) (driver : Bytes) (cfg : Option Config) : List Mig.Call × Option Bytes :=
  match Spec.wanted cfg with
  | none => ([], none)
  | some c => Mig.migrate e.mig driver (migrationsDir e.windows c.source) c.force c.version

theorem work_eq (e : Env) (driver : Bytes) (cfg : Option Config) : work e driver cfg =
    match cfg with
    | none => ([], none)
    | some c => if c.source = [] then ([], none) else Mig.migrate e.mig driver (migrationsDir e.windows c.source) c.force c.version := by
  unfold work Spec.wanted
  cases cfg with
  | none => rfl
  | some c => by_cases h : c.source = [] <;> simp [h, Option.filter]

theorem newProvider_hands (e : Env) (src db d s : Bytes) (gen : Option Nat) (cfg : Option Config) (h : Conn.Spec.handsOver e.resolve e.host src db d s) :
    newProvider e src db gen cfg =
      if e.sqlOpen d s then
        if e.ping d s then
          match (work e d cfg).2 with
          | some m => ([.sqlOpen d s, .ping] ++ (work e d cfg).1.map .migration, .error (.migration m))
          | none => ([.sqlOpen d s, .ping] ++ (work e d cfg).1.map .migration ++ [.keepAlive], .ok ⟨d, s, gen.getD 0⟩)
        else ([.sqlOpen d s, .ping], .error .cannotPing)
      else ([.sqlOpen d s], .error .cannotOpen) := by
  unfold newProvider
  rw [openDB_hands e src db d s h]
  by_cases h1 : e.sqlOpen d s = true
  · rw [if_pos h1, if_pos h1]
    by_cases h2 : e.ping d s = true
    · rw [if_pos h2, if_pos h2]
      simp only [work_eq]
      cases cfg with
      | none => rfl
      | some c =>
        by_cases h3 : c.source = []
        · simp only [h3, if_true]; rfl
        · simp only [h3, if_false]
          cases (Mig.migrate e.mig d (migrationsDir e.windows c.source) c.force c.version).2 <;> rfl
    · rw [if_neg h2, if_neg h2]
  · rw [if_neg h1, if_neg h1]

/-! ### Properties -/

/-- **C97**: a provider is returned exactly when the data source resolves to a connection string and the database can be added (`handsOver`: it determines driver and data source),
the pool opens and answers a ping, and the migration, if one is configured, succeeds. -/
theorem C97_success_iff (e : Env) (src db : Bytes) (gen : Option Nat) (cfg : Option Config) :
    (∃ tr p, newProvider e src db gen cfg = (tr, .ok p)) ↔
      ∃ d s, Conn.Spec.handsOver e.resolve e.host src db d s ∧ e.sqlOpen d s = true ∧ e.ping d s = true
        ∧ ∀ c, Spec.wanted cfg = some c → (Mig.migrate e.mig d (migrationsDir e.windows c.source) c.force c.version).2 = none := by
  constructor
  · rintro ⟨tr, p, h⟩
    by_cases hx : ∃ d s, Conn.Spec.handsOver e.resolve e.host src db d s
    · obtain ⟨d, s, hx⟩ := hx
      rw [newProvider_hands e src db d s gen cfg hx] at h
      by_cases h1 : e.sqlOpen d s = true
      · rw [if_pos h1] at h
        by_cases h2 : e.ping d s = true
        · rw [if_pos h2] at h
          refine ⟨d, s, hx, h1, h2, ?_⟩
          intro c hc
          cases hw : (work e d cfg).2 with
          | some m => rw [hw] at h; cases h
          | none => unfold work at hw; rw [hc] at hw; exact hw
        · rw [if_neg h2] at h; cases h
      · rw [if_neg h1] at h; cases h
    · obtain ⟨f, hf, -⟩ := openDB_none e src db hx
      unfold newProvider at h
      rw [hf] at h; cases h
  · rintro ⟨d, s, hx, h1, h2, h3⟩
    rw [newProvider_hands e src db d s gen cfg hx, if_pos h1, if_pos h2]
    have : (work e d cfg).2 = none := by
      unfold work
      cases hc : Spec.wanted cfg with
      | none => rfl
      | some c => exact h3 c hc
    rw [this]
    exact ⟨_, _, rfl⟩

/-- **C97**: the provider returned is named after the driver, reports as its connection string exactly the text handed to the driver, and has the given ID generator
or the default one. Before it was returned the pool was opened once, pinged, then exactly the configured migration was run for that driver (nothing without one); only then
the keep-alive was started. -/
theorem C97_provider_is_what_was_opened (e : Env) (src db : Bytes) (gen : Option Nat) (cfg : Option Config) (tr : List Ev) (p : Provider)
    (h : newProvider e src db gen cfg = (tr, .ok p)) :
    Conn.Spec.handsOver e.resolve e.host src db p.name p.connstr ∧ (∀ g, gen = some g → p.idGen = g) ∧ (gen = none → p.idGen = 0)
    ∧ ∃ calls, tr = [.sqlOpen p.name p.connstr, .ping] ++ calls.map .migration ++ [.keepAlive]
      ∧ (Spec.wanted cfg = none → calls = [])
      ∧ ∀ c, Spec.wanted cfg = some c → Mig.migrate e.mig p.name (migrationsDir e.windows c.source) c.force c.version = (calls, none) := by
  obtain ⟨d, s, hx, h1, h2, h3⟩ := (C97_success_iff e src db gen cfg).1 ⟨tr, p, h⟩
  have hw : (work e d cfg).2 = none := by
    unfold work
    cases hc : Spec.wanted cfg with
    | none => rfl
    | some c => exact h3 c hc
  rw [newProvider_hands e src db d s gen cfg hx, if_pos h1, if_pos h2, hw] at h
  cases h
  refine ⟨hx, ?_, ?_, (work e d cfg).1, rfl, ?_, ?_⟩
  · rintro g rfl; rfl
  · rintro rfl; rfl
  · intro hc; unfold work; rw [hc]
  · intro c hc
    unfold work at hw ⊢
    rw [hc] at hw ⊢
    exact Prod.ext rfl hw

/-- **C97**: a data source or database that is refused touches nothing at all. -/
theorem C97_refused_touches_nothing (e : Env) (src db : Bytes) (gen : Option Nat) (cfg : Option Config) (h : ¬ ∃ d s, Conn.Spec.handsOver e.resolve e.host src db d s) :
    ∃ f, newProvider e src db gen cfg = ([], .error f) := by
  obtain ⟨f, hf, -⟩ := openDB_none e src db h
  exact ⟨f, by unfold newProvider; rw [hf]⟩

/-- **C66**, exactly: when `NewProvider` fails, a pool that was opened is left open (nobody has it, nothing closes it: there is no closing event) if and only if the ping or the migration failed. -/
theorem C66_pool_left_open_iff (e : Env) (src db : Bytes) (gen : Option Nat) (cfg : Option Config) (tr : List Ev) (f : Fail)
    (h : newProvider e src db gen cfg = (tr, .error f)) : Spec.opened e tr ↔ f = .cannotPing ∨ ∃ m, f = .migration m := by
  by_cases hx : ∃ d s, Conn.Spec.handsOver e.resolve e.host src db d s
  · obtain ⟨d, s, hx⟩ := hx
    rw [newProvider_hands e src db d s gen cfg hx] at h
    by_cases h1 : e.sqlOpen d s = true
    · rw [if_pos h1] at h
      have key : ∀ l : List Ev, Spec.opened e (.sqlOpen d s :: l) := fun l => ⟨d, s, List.mem_cons_self .., h1⟩
      by_cases h2 : e.ping d s = true
      · rw [if_pos h2] at h
        cases hw : (work e d cfg).2 with
        | some m =>
          rw [hw] at h; cases h
          exact ⟨fun _ => .inr ⟨m, rfl⟩, fun _ => key _⟩
        | none => rw [hw] at h; cases h
      · rw [if_neg h2] at h; cases h
        exact ⟨fun _ => .inl rfl, fun _ => key _⟩
    · rw [if_neg h1] at h; cases h
      constructor
      · rintro ⟨d', s', hm, ho⟩
        rw [List.mem_singleton] at hm
        cases hm
        exact absurd ho h1
      · rintro (hf | ⟨m, hf⟩) <;> cases hf
  · obtain ⟨f', hf, h1, h2⟩ := openDB_none e src db hx
    unfold newProvider at h
    rw [hf] at h; cases h
    constructor
    · rintro ⟨d, s, hm, -⟩; cases hm
    · rintro (rfl | ⟨m, rfl⟩)
      · exact absurd rfl h1
      · exact absurd rfl (h2 m)

/-- **C97** together with C61: for connection URLs as in `C61_database_selected_partial`, a provider that is returned reports a connection string from which a reader of
the URL gets the requested database, and the host, user and password of the data source. -/
theorem C97_connection_string_names_the_database (e : Env) (src r db : Bytes) (x : Conn.Source) (gen : Option Nat) (cfg : Option Config) (tr : List Ev) (p : Provider)
    (hr : e.resolve src = some r) (hr2 : e.resolve (Conn.clean r) = some (Conn.clean r)) (hcc : Conn.clean (Conn.clean r) = Conn.clean r)
    (hp : Conn.parseConnectionString e.resolve e.host (Conn.clean r) = some x)
    (hd : x.driver = b!"sqlserver" ∨ x.driver = b!"postgres" ∧ ¬ ∃ a b, Conn.clean r = a ++ b!"host=" ++ b)
    (hq : 63 ∈ Conn.clean r) (hf : 35 ∉ Conn.clean r) (hdb : Conn.Spec.cleanName db) (hno : x.params (Conn.Spec.dbKey x.driver) = none)
    (h : newProvider e src db gen cfg = (tr, .ok p)) :
    p.name = x.driver ∧ ∃ y, Conn.Spec.reads e.host p.connstr = some y ∧ y.host = x.host ∧ y.user = x.user ∧ y.password = x.password
      ∧ y.params (Conn.Spec.dbKey p.name) = some db := by
  obtain ⟨h1, -⟩ := C97_provider_is_what_was_opened e src db gen cfg tr p h
  obtain ⟨ds, y, g1, g2, -, g3, g4, g5, g6, -⟩ := Conn.C61_database_selected_partial e.resolve e.host src r db x hr hr2 hcc hp hd hq hf hdb hno
  obtain ⟨e1, e2⟩ := hands_unique h1 g1
  exact ⟨e1, y, by rw [e2]; exact g2, g3, g4, g5, by rw [e1]; exact g6⟩

/-- **C97**: the directory of the migration is the configured one; on Windows with slashes for backslashes, all else unchanged. -/
theorem C97_migrations_directory (source : Bytes) :
    migrationsDir false source = source ∧ (migrationsDir true source).length = source.length ∧ 92 ∉ migrationsDir true source
    ∧ ∀ (i : Nat) (c : UInt8), source[i]? = some c → c ≠ 92 → (migrationsDir true source)[i]? = some c := by
  refine ⟨rfl, by simp [migrationsDir], ?_, ?_⟩
  · simp only [migrationsDir, if_true, List.mem_map]
    rintro ⟨c, -, h⟩
    split at h
    · cases h
    · rename_i hc; exact hc h
  · intro i c hi hc
    simp [migrationsDir, hi, hc]

/-- **C97 fails** for a reference to a reference (`env://A` where A is `env://B`, and B the URL): the driver is chosen from the URL but is handed the inner reference. -/
theorem C97_nested_reference (e : Env) (src inner url : Bytes) (x : Conn.Source) (h1 : e.resolve src = some inner) (hc : Conn.clean inner = inner)
    (h2 : e.resolve inner = some url) (hx : Conn.Spec.reads e.host (Conn.clean url) = some x) :
    Conn.Spec.handsOver e.resolve e.host src [] x.driver inner := by
  refine (hands_iff e src [] x.driver inner).2 ⟨inner, x, h1, ?_, rfl, ?_⟩
  · unfold Conn.parseConnectionString
    rw [hc, h2]
    exact hx
  · rw [hc]; rfl

/-! ### Concrete cases -/

instance {α : Type} [DecidableEq α] : DecidableEq (Except Fail α)
  | .ok a, .ok b => if h : a = b then isTrue (h ▸ rfl) else isFalse (fun e => h (Except.ok.inj e))
  | .error a, .error b => if h : a = b then isTrue (h ▸ rfl) else isFalse (fun e => h (Except.error.inj e))
  | .ok _, .error _ => isFalse nofun
  | .error _, .ok _ => isFalse nofun

/-- Everything works; `env://A` and `env://B` are references. -/
def exEnv (mig : Option Bytes) (ping : Bool) : Env :=
  { resolve := fun s => if s = b!"env://A" then some b!"env://B" else if s = b!"env://B" then some b!"postgres://u:p@h?sslmode=disable" else some s
    host := some, sqlOpen := fun d _ => d = b!"postgres", ping := fun _ _ => ping, mig := Mig.exEnv mig, windows := true }

example : (newProvider (exEnv none true) b!"env://B" b!"db" none (some ⟨b!"sql\\pg", 0, 0⟩)) =
    ([.sqlOpen b!"postgres" b!"postgres://u:p@h?sslmode=disable&dbname=db", .ping, .migration (.stat b!"sql/pg"), .migration (.withInstance b!"postgres"),
      .migration (.newMigrate b!"file://sql/pg" b!"postgres"), .migration .version, .migration .up, .migration .version, .keepAlive],
      .ok ⟨b!"postgres", b!"postgres://u:p@h?sslmode=disable&dbname=db", 0⟩) := by decide +kernel
example : newProvider (exEnv none true) b!"env://A" b!"" (some 7) none = ([.sqlOpen b!"postgres" b!"env://B", .ping, .keepAlive], .ok ⟨b!"postgres", b!"env://B", 7⟩) := by decide +kernel
example : (newProvider (exEnv (some b!"syntax error") true) b!"env://B" b!"db" none (some ⟨b!"sql", 0, 0⟩)).2 = .error (.migration b!"syntax error") := by decide +kernel
example : newProvider (exEnv none false) b!"env://B" b!"" none none = ([.sqlOpen b!"postgres" b!"postgres://u:p@h?sslmode=disable", .ping], .error .cannotPing) := by decide +kernel
example : newProvider (exEnv none true) b!"mysql://h?a=b" b!"db" none none = ([], .error (.unsupported b!"mysql")) := by decide +kernel
example : ¬ ∃ d s, Conn.Spec.handsOver (exEnv none true).resolve (exEnv none true).host b!"mysql://h?a=b" b!"db" d s := by
  rintro ⟨d, s, h⟩
  have := h (fun _ _ => true)
  have h2 : Conn.openDB (exEnv none true).resolve (exEnv none true).host (fun _ _ => true) b!"mysql://h?a=b" b!"db" = .unsupported b!"mysql" := by decide +kernel
  rw [h2] at this; cases this
example : Conn.Spec.handsOver (exEnv none true).resolve (exEnv none true).host b!"env://A" [] b!"postgres" b!"env://B" :=
  C97_nested_reference (exEnv none true) b!"env://A" b!"env://B" b!"postgres://u:p@h?sslmode=disable" _ (by decide +kernel) (by decide +kernel) (by decide +kernel) rfl

end Open
