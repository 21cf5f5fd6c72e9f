import Verif.Prov.Open
import Verif.Cli.Print
import Verif.Cli.Generate
set_option linter.unusedVariables false
set_option linter.unusedSimpArgs false
/-!
Model of a whole run of the command line tool (cmd/xdbcli/main.go, internal/cli/cli.go, the commands of internal/cli/schema/schema.go): which database is opened, what is asked of it, what is
written, with which status it ends.  C99.

Flag parsing is the environment (kong; `--help` and `--version` are not modelled), as is the schema provider once connected (its listings are C53, C54, C84–C92, C95).  `NewProvider` is `Prov.Open`.
The drivers registered in the tool (postgres, sqlserver, mssql) all have a schema dialect (schema/provider.go:37-57); for another driver the listings would crash.
-/
namespace Cli
open Schema Gen

/-- A command with its flags (schema.go:26-42, 70-75, 109-113, 138-142, 158-172). -/
inductive Cmd where
  | columns (db : Bytes) (schemas tables : List Bytes) (deps views : Bool)
  | tables (db : Bytes) (schemas tables : List Bytes) (views : Bool)
  | views (db : Bytes) (schemas views : List Bytes)
  | fks (db : Bytes) (schemas tables : List Bytes)
  | generate (f : Flags) (schemas tables : List Bytes) (deps : Bool)

/-- A command line that kong accepted: `--sql-source`, `-O`, the command. -/
structure Line where
  sqlSource : Bytes
  o : Bytes
  cmd : Cmd

/-- A question to the schema provider. -/
inductive Query where
  | tables (schemas tables : List Bytes) (deps : Bool)
  | views (schemas views : List Bytes)
  | fks (schemas tables : List Bytes)
  deriving DecidableEq, Repr

/-- The environment; `listTables`, `listViews`, `listFks`: answers of the database `(driver, connection string)`; `exits`: the `exit` function does not return (`os.Exit`). -/
structure Env where
  open_ : Open.Env
  getenv : Bytes
  listTables : Bytes → Bytes → List Bytes → List Bytes → Bool → Option (List GTable)
  listViews : Bytes → Bytes → List Bytes → List Bytes → Option (List GTable)
  listFks : Bytes → Bytes → List Bytes → List Bytes → Option (List ForeignKey)
  enc : Enc
  lib : Lib
  fmtOK : File → Bool
  order : List Bytes
  exits : Bool

/-- What happens. -/
inductive Ev where
  | conn (e : Open.Ev)
  | ask (q : Query)
  | out (p : Piece)
  | file (e : Event)
  | close
  | exit          -- `exit(n)`, n ≠ 0, after the error was printed

/-- How a command ends. -/
inductive Status where
  | ok
  | failed
  | panicked
  deriving DecidableEq, Repr

def Status.ofBool : Bool → Status
  | true => .ok
  | false => .failed

/-- cli.go:146-148 `Print`. -/
def print (e : Env) (o : Bytes) (v : Val) : List Ev × Bool := ((object e.enc o v).1.map .out, (object e.enc o v).2)

/-- schema.go:45-67, after `SchemaProvider`. -/
def runColumns (e : Env) (o d s : Bytes) (schemas tables : List Bytes) (deps views : Bool) : List Ev × Status :=
  let q := [Ev.ask (.tables schemas tables deps)]
  match e.listTables d s schemas tables deps with
  | none => (q, .failed)
  | some res =>
    let q := q ++ (print e o (.tables res)).1
    if views then
      let q := q ++ [.ask (.views schemas tables)]
      match e.listViews d s schemas tables with
      | none => (q, .failed)
      | some res => (if res.length > 0 then q ++ (print e o (.tables res)).1 else q, .ok)
    else (q, .ok)

/-- schema.go:96-105, 125-134: the end of both listing commands. -/
def runListing (e : Env) (o : Bytes) (res : List GTable) : List Ev × Status :=
  if o = b!"json" ∨ o = b!"yaml" then ((print e o (.tables res)).1, .ofBool (print e o (.tables res)).2)
  else (res.map fun t => .out (.text (t.schema ++ b!"." ++ t.name ++ b!"\n")), .ok)

/-- schema.go:78-106, after `SchemaProvider`. -/
def runTables (e : Env) (o d s : Bytes) (schemas tables : List Bytes) (views : Bool) : List Ev × Status :=
  let q := [Ev.ask (.tables schemas tables true)]
  match e.listTables d s schemas tables true with
  | none => (q, .failed)
  | some res =>
    if views then
      let q := q ++ [.ask (.views schemas tables)]
      match e.listViews d s schemas tables with
      | none => (q, .failed)
      | some vres => (q ++ (runListing e o (res ++ vres)).1, (runListing e o (res ++ vres)).2)
    else (q ++ (runListing e o res).1, (runListing e o res).2)

/-- schema.go:116-135, after `SchemaProvider`. -/
def runViews (e : Env) (o d s : Bytes) (schemas views : List Bytes) : List Ev × Status :=
  let q := [Ev.ask (.views schemas views)]
  match e.listViews d s schemas views with
  | none => (q, .failed)
  | some res => (q ++ (runListing e o res).1, (runListing e o res).2)

/-- schema.go:145-155, after `SchemaProvider`. -/
def runFks (e : Env) (o d s : Bytes) (schemas tables : List Bytes) : List Ev × Status :=
  let q := [Ev.ask (.fks schemas tables)]
  match e.listFks d s schemas tables with
  | none => (q, .failed)
  | some res => (q ++ (print e o (.fks res)).1, .ofBool (print e o (.fks res)).2)

/-- The outcome of `generate` as a status. -/
def Status.ofRes : Res → Status
  | .ok => .ok
  | .err => .failed
  | .panic => .panicked

/-- schema.go:175-195 `GenerateCmd.Run`, after `SchemaProvider`; the package-level maps are as when the program starts. -/
def runGen (e : Env) (d s : Bytes) (f : Flags) (schemas tables : List Bytes) (deps : Bool) : List Ev × Status :=
  let a : Answers := ⟨true, e.listTables d s schemas tables deps, e.listViews d s schemas f.views, none⟩
  let q := [Ev.ask (.tables schemas tables deps)] ++ (if a.tables.isSome ∧ f.views.length > 0 then [.ask (.views schemas f.views)] else [])
  let r := runGenerate e.lib e.fmtOK f d .start a e.order
  (q ++ r.2.1.map .file, .ofRes r.2.2)

/-- The database of a command. -/
def Cmd.db : Cmd → Bytes
  | .columns db .. => db
  | .tables db .. => db
  | .views db .. => db
  | .fks db .. => db
  | .generate f .. => f.db

/-- `Run` of the command on the database `(d, s)`. -/
def runOn (e : Env) (o d s : Bytes) : Cmd → List Ev × Status
  | .columns _ schemas tables deps views => runColumns e o d s schemas tables deps views
  | .tables _ schemas tables views => runTables e o d s schemas tables views
  | .views _ schemas views => runViews e o d s schemas views
  | .fks _ schemas tables => runFks e o d s schemas tables
  | .generate f schemas tables deps => runGen e d s f schemas tables deps

/-- cli.go:99-112 `AfterApply`: `values.StringsCoalesce(c.SQLSource, os.Getenv("XDB_DATASOURCE"))`; `none`: the error. -/
def source (e : Env) (l : Line) : Option Bytes :=
  let s := if l.sqlSource ≠ [] then l.sqlSource else e.getenv
  if s = [] then none else some s

/-- cli.go:114-138 `DB` and `SchemaProvider` on a new `Cli`, then the command; the third component: a connection is held by the `Cli`. -/
def runCmd (e : Env) (src o : Bytes) (c : Cmd) : List Ev × Status × Bool :=
  match Open.newProvider e.open_ src c.db none none with
  | (tr, .error _) => (tr.map .conn, .failed, false)
  | (tr, .ok p) => (tr.map .conn ++ (runOn e o p.name p.connstr c).1, (runOn e o p.name p.connstr c).2, true)

/-- cmd/xdbcli/main.go:25-61 `realMain`; `line = none`: kong does not accept the arguments.  The deferred `cl.Close()` runs when the function returns or panics, not when `exit` ends the process. -/
def realMain (e : Env) (line : Option Line) : List Ev × Status :=
  match line with
  | none => ([.exit], .failed)
  | some l =>
    match source e l with
    | none => ([.exit], .failed)
    | some src =>
      match runCmd e src l.o l.cmd with
      | (tr, .failed, held) => (tr ++ [.exit] ++ (if held ∧ e.exits = false then [.close] else []), .failed)
      | (tr, st, held) => (tr ++ (if held then [.close] else []), st)

/-! ### Specification -/
namespace Spec

/-- What was asked, in order. -/
def asked (tr : List Ev) : List Query := tr.filterMap fun | .ask q => some q | _ => none
/-- What was written to the output, in order. -/
def output (tr : List Ev) : List Piece := tr.filterMap fun | .out p => some p | _ => none
/-- What was done to files, in order. -/
def files (tr : List Ev) : List Event := tr.filterMap fun | .file p => some p | _ => none
/-- What was done to connect, in order. -/
def connecting (tr : List Ev) : List Open.Ev := tr.filterMap fun | .conn p => some p | _ => none
/-- How often the connection was closed. -/
def closed (tr : List Ev) : Nat := (tr.filterMap fun | .close => some () | _ => none).length
/-- `exit` with a non-zero code was called. -/
def exited (tr : List Ev) : Nat := (tr.filterMap fun | .exit => some () | _ => none).length

/-- The data source of a run: the flag, or else the environment variable. -/
def Source (e : Env) (l : Line) (src : Bytes) : Prop := src ≠ [] ∧ (src = l.sqlSource ∨ l.sqlSource = [] ∧ src = e.getenv)

/-- What a command asks when the database answers: `true` = dependencies too. -/
def questions : Cmd → List Query
  | .columns _ sc ts deps vs => .tables sc ts deps :: if vs then [.views sc ts] else []
  | .tables _ sc ts vs => .tables sc ts true :: if vs then [.views sc ts] else []
  | .views _ sc vs => [.views sc vs]
  | .fks _ sc ts => [.fks sc ts]
  | .generate f sc ts deps => .tables sc ts deps :: if f.views = [] then [] else [.views sc f.views]

/-- The database `(d, s)` answers the question. -/
def answers (e : Env) (d s : Bytes) : Query → Prop
  | .tables sc ts deps => e.listTables d s sc ts deps ≠ none
  | .views sc vs => e.listViews d s sc vs ≠ none
  | .fks sc ts => e.listFks d s sc ts ≠ none

/-- The answers, as the printing commands of `Cli.Print` and `generate` of `Cli.Generate` take them. -/
def answersOf (e : Env) (d s : Bytes) : Cmd → Answers
  | .columns _ sc ts deps _ => ⟨true, e.listTables d s sc ts deps, e.listViews d s sc ts, none⟩
  | .tables _ sc ts _ => ⟨true, e.listTables d s sc ts true, e.listViews d s sc ts, none⟩
  | .views _ sc vs => ⟨true, none, e.listViews d s sc vs, none⟩
  | .fks _ sc ts => ⟨true, none, none, e.listFks d s sc ts⟩
  | .generate f sc ts deps => ⟨true, e.listTables d s sc ts deps, e.listViews d s sc f.views, none⟩

/-- Output and success of the command according to `Cli.Print` (C81, C82). -/
def printed (e : Env) (o d s : Bytes) (c : Cmd) : List Piece × Bool :=
  match c with
  | .columns _ _ _ _ vs => printColumns e.enc o vs (answersOf e d s c)
  | .tables _ _ _ vs => printTables e.enc o vs (answersOf e d s c)
  | .views .. => printViews e.enc o (answersOf e d s c)
  | .fks .. => printFks e.enc o (answersOf e d s c)
  | .generate .. => ([], true)

end Spec

/-! ### Lemmas -/

theorem asked_append (a b : List Ev) : Spec.asked (a ++ b) = Spec.asked a ++ Spec.asked b := List.filterMap_append ..
theorem output_append (a b : List Ev) : Spec.output (a ++ b) = Spec.output a ++ Spec.output b := List.filterMap_append ..
theorem files_append (a b : List Ev) : Spec.files (a ++ b) = Spec.files a ++ Spec.files b := List.filterMap_append ..
theorem connecting_append (a b : List Ev) : Spec.connecting (a ++ b) = Spec.connecting a ++ Spec.connecting b := List.filterMap_append ..
theorem closed_append (a b : List Ev) : Spec.closed (a ++ b) = Spec.closed a + Spec.closed b := by simp [Spec.closed]
theorem exited_append (a b : List Ev) : Spec.exited (a ++ b) = Spec.exited a + Spec.exited b := by simp [Spec.exited]

theorem conn_only (tr : List Open.Ev) : Spec.asked (tr.map .conn) = [] ∧ Spec.output (tr.map .conn) = [] ∧ Spec.files (tr.map .conn) = []
    ∧ Spec.connecting (tr.map .conn) = tr ∧ Spec.closed (tr.map .conn) = 0 ∧ Spec.exited (tr.map .conn) = 0 := by
  induction tr with
  | nil => exact ⟨rfl, rfl, rfl, rfl, rfl, rfl⟩
  | cons x tr ih =>
    obtain ⟨a, b, c, d, e, f⟩ := ih
    exact ⟨a, b, c, congrArg (x :: ·) d, e, f⟩

theorem out_only (l : List Piece) : Spec.asked (l.map .out) = [] ∧ Spec.output (l.map .out) = l ∧ Spec.files (l.map .out) = []
    ∧ Spec.connecting (l.map .out) = [] ∧ Spec.closed (l.map .out) = 0 ∧ Spec.exited (l.map .out) = 0 := by
  induction l with
  | nil => exact ⟨rfl, rfl, rfl, rfl, rfl, rfl⟩
  | cons x tr ih =>
    obtain ⟨a, b, c, d, e, f⟩ := ih
    exact ⟨a, congrArg (x :: ·) b, c, d, e, f⟩

theorem file_only (l : List Event) : Spec.asked (l.map .file) = [] ∧ Spec.output (l.map .file) = [] ∧ Spec.files (l.map .file) = l
    ∧ Spec.connecting (l.map .file) = [] ∧ Spec.closed (l.map .file) = 0 ∧ Spec.exited (l.map .file) = 0 := by
  induction l with
  | nil => exact ⟨rfl, rfl, rfl, rfl, rfl, rfl⟩
  | cons x tr ih =>
    obtain ⟨a, b, c, d, e, f⟩ := ih
    exact ⟨a, b, congrArg (x :: ·) c, d, e, f⟩

theorem listing_eq (e : Env) (o : Bytes) (res : List GTable) :
    runListing e o res = ((listing e.enc o res).1.map .out, .ofBool (listing e.enc o res).2) := by
  unfold runListing listing print lines
  split
  · rfl
  · simp [Status.ofBool]

/-- A trace that neither connects, closes nor exits. -/
def Inner (tr : List Ev) : Prop := Spec.connecting tr = [] ∧ Spec.closed tr = 0 ∧ Spec.exited tr = 0

theorem inner_append {a b : List Ev} (ha : Inner a) (hb : Inner b) : Inner (a ++ b) := by
  obtain ⟨a1, a2, a3⟩ := ha
  obtain ⟨b1, b2, b3⟩ := hb
  exact ⟨by rw [connecting_append, a1, b1]; rfl, by rw [closed_append, a2, b2], by rw [exited_append, a3, b3]⟩

theorem inner_out (l : List Piece) : Inner (l.map .out) := by
  obtain ⟨-, -, -, a, b, c⟩ := out_only l; exact ⟨a, b, c⟩
theorem inner_file (l : List Event) : Inner (l.map .file) := by
  obtain ⟨-, -, -, a, b, c⟩ := file_only l; exact ⟨a, b, c⟩
theorem inner_ask (q : Query) : Inner [.ask q] := ⟨rfl, rfl, rfl⟩

/-- The questions asked: one after the other until one is not answered. -/
def Spec.askedUntil (e : Env) (d s : Bytes) : List Query → List Query → Prop
  | [], asked => asked = []
  | q :: qs, asked => ∃ rest, asked = q :: rest ∧ (Spec.answers e d s q → Spec.askedUntil e d s qs rest) ∧ (¬ Spec.answers e d s q → rest = [])

/-- A printing command. -/
structure Prints (e : Env) (o d s : Bytes) (c : Cmd) (r : List Ev × Status) : Prop where
  inner : Inner r.1
  asked : Spec.askedUntil e d s (Spec.questions c) (Spec.asked r.1)
  output : Spec.output r.1 = (Spec.printed e o d s c).1
  files : Spec.files r.1 = []
  status : r.2 = .ofBool (Spec.printed e o d s c).2

theorem prints_mk (e : Env) (o d s : Bytes) (c : Cmd) (qs : List Query) (out : List Piece) (b : Bool) (hq : Spec.askedUntil e d s (Spec.questions c) qs)
    (ho : Spec.printed e o d s c = (out, b)) : Prints e o d s c (qs.map .ask ++ out.map .out, .ofBool b) := by
  have hqs : Inner (qs.map .ask) ∧ Spec.asked (qs.map .ask) = qs ∧ Spec.output (qs.map .ask) = [] ∧ Spec.files (qs.map .ask) = [] := by
    clear hq
    induction qs with
    | nil => exact ⟨⟨rfl, rfl, rfl⟩, rfl, rfl, rfl⟩
    | cons q qs ih =>
      obtain ⟨a, b, c, d⟩ := ih
      exact ⟨inner_append (inner_ask q) a, congrArg (q :: ·) b, c, d⟩
  obtain ⟨a1, a2, a3, a4⟩ := hqs
  obtain ⟨b1, b2, b3, -⟩ := out_only out
  refine ⟨inner_append a1 (inner_out _), ?_, ?_, ?_, ?_⟩
  · rw [asked_append, a2, b1, List.append_nil]; exact hq
  · rw [output_append, a3, b2, ho]; rfl
  · rw [files_append, a4, b3]; rfl
  · rw [ho]

theorem runTables_prints (e : Env) (o d s : Bytes) (db : Bytes) (sc ts : List Bytes) (vs : Bool) :
    Prints e o d s (.tables db sc ts vs) (runTables e o d s sc ts vs) := by
  unfold runTables
  cases h1 : e.listTables d s sc ts true with
  | none =>
    refine prints_mk e o d s (.tables db sc ts vs) [.tables sc ts true] [] false ?_ ?_
    · exact ⟨[], rfl, fun h => absurd h1 h, fun _ => rfl⟩
    · simp [Spec.printed, printTables, Spec.answersOf, h1]
  | some res =>
    have ans1 : Spec.answers e d s (.tables sc ts true) := by simp [Spec.answers, h1]
    cases vs with
    | false =>
      simp only [listing_eq, Bool.false_eq_true, if_false]
      refine prints_mk e o d s (.tables db sc ts false) [.tables sc ts true] _ _ ?_ ?_
      · exact ⟨[], rfl, fun _ => rfl, fun h => absurd ans1 h⟩
      · simp [Spec.printed, printTables, Spec.answersOf, h1]
    | true =>
      simp only [if_true]
      cases h2 : e.listViews d s sc ts with
      | none =>
        refine prints_mk e o d s (.tables db sc ts true) [.tables sc ts true, .views sc ts] [] false ?_ ?_
        · exact ⟨_, rfl, fun _ => ⟨[], rfl, fun h => absurd h2 h, fun _ => rfl⟩, fun h => absurd ans1 h⟩
        · simp [Spec.printed, printTables, Spec.answersOf, h1, h2]
      | some vres =>
        simp only [listing_eq]
        refine prints_mk e o d s (.tables db sc ts true) [.tables sc ts true, .views sc ts] _ _ ?_ ?_
        · exact ⟨_, rfl, fun _ => ⟨[], rfl, fun _ => rfl, fun h => absurd (by simp [Spec.answers, h2]) h⟩, fun h => absurd ans1 h⟩
        · simp [Spec.printed, printTables, Spec.answersOf, h1, h2]

theorem runViews_prints (e : Env) (o d s : Bytes) (db : Bytes) (sc vs : List Bytes) :
    Prints e o d s (.views db sc vs) (runViews e o d s sc vs) := by
  unfold runViews
  cases h1 : e.listViews d s sc vs with
  | none =>
    refine prints_mk e o d s (.views db sc vs) [.views sc vs] [] false ?_ ?_
    · exact ⟨[], rfl, fun h => absurd h1 h, fun _ => rfl⟩
    · simp [Spec.printed, printViews, Spec.answersOf, h1]
  | some res =>
    simp only [listing_eq]
    refine prints_mk e o d s (.views db sc vs) [.views sc vs] _ _ ?_ ?_
    · exact ⟨[], rfl, fun _ => rfl, fun h => absurd (by simp [Spec.answers, h1]) h⟩
    · simp [Spec.printed, printViews, Spec.answersOf, h1]

theorem runFks_prints (e : Env) (o d s : Bytes) (db : Bytes) (sc ts : List Bytes) :
    Prints e o d s (.fks db sc ts) (runFks e o d s sc ts) := by
  unfold runFks
  cases h1 : e.listFks d s sc ts with
  | none =>
    refine prints_mk e o d s (.fks db sc ts) [.fks sc ts] [] false ?_ ?_
    · exact ⟨[], rfl, fun h => absurd h1 h, fun _ => rfl⟩
    · simp [Spec.printed, printFks, Spec.answersOf, h1]
  | some res =>
    refine prints_mk e o d s (.fks db sc ts) [.fks sc ts] (object e.enc o (.fks res)).1 (object e.enc o (.fks res)).2 ?_ ?_
    · exact ⟨[], rfl, fun _ => rfl, fun h => absurd (by simp [Spec.answers, h1]) h⟩
    · simp [Spec.printed, printFks, Spec.answersOf, h1]

theorem runColumns_prints (e : Env) (o d s : Bytes) (db : Bytes) (sc ts : List Bytes) (deps vs : Bool) :
    Prints e o d s (.columns db sc ts deps vs) (runColumns e o d s sc ts deps vs) := by
  unfold runColumns
  cases h1 : e.listTables d s sc ts deps with
  | none =>
    refine prints_mk e o d s (.columns db sc ts deps vs) [.tables sc ts deps] [] false ?_ ?_
    · exact ⟨[], rfl, fun h => absurd h1 h, fun _ => rfl⟩
    · simp [Spec.printed, printColumns, Spec.answersOf, h1]
  | some res =>
    have ans1 : Spec.answers e d s (.tables sc ts deps) := by simp [Spec.answers, h1]
    cases vs with
    | false =>
      refine prints_mk e o d s (.columns db sc ts deps false) [.tables sc ts deps] _ true ?_ ?_
      · exact ⟨[], rfl, fun _ => rfl, fun h => absurd ans1 h⟩
      · simp [Spec.printed, printColumns, Spec.answersOf, h1]
    | true =>
      simp only [if_true]
      obtain ⟨a1, a2, a3, -⟩ := out_only (object e.enc o (.tables res)).1
      have i1 := inner_out (object e.enc o (.tables res)).1
      cases h2 : e.listViews d s sc ts with
      | none =>
        refine ⟨?_, ?_, ?_, ?_, ?_⟩
        · exact inner_append (inner_append (inner_ask _) i1) (inner_ask _)
        · simp only [print, asked_append, a1]
          exact ⟨_, rfl, fun _ => ⟨[], rfl, fun h => absurd h2 h, fun _ => rfl⟩, fun h => absurd ans1 h⟩
        · simp only [print, output_append, a2]
          simp [Spec.output, Spec.printed, printColumns, Spec.answersOf, h1, h2]
        · simp only [print, files_append, a3]; rfl
        · simp [Spec.printed, printColumns, Spec.answersOf, h1, h2, Status.ofBool]
      | some vres =>
        have ans2 : Spec.answers e d s (.views sc ts) := by simp [Spec.answers, h2]
        obtain ⟨b1, b2, b3, -⟩ := out_only (object e.enc o (.tables vres)).1
        have i2 := inner_out (object e.enc o (.tables vres)).1
        by_cases hv : vres.length > 0
        · simp only [if_pos hv]
          refine ⟨?_, ?_, ?_, ?_, ?_⟩
          · exact inner_append (inner_append (inner_append (inner_ask _) i1) (inner_ask _)) i2
          · simp only [print, asked_append, a1, b1]
            exact ⟨_, rfl, fun _ => ⟨[], rfl, fun _ => rfl, fun h => absurd ans2 h⟩, fun h => absurd ans1 h⟩
          · simp only [print, output_append, a2, b2]
            simp [Spec.output, Spec.printed, printColumns, Spec.answersOf, h1, h2, hv]
          · simp only [print, files_append, a3, b3]; rfl
          · simp [Spec.printed, printColumns, Spec.answersOf, h1, h2, Status.ofBool]
        · simp only [if_neg hv]
          refine ⟨?_, ?_, ?_, ?_, ?_⟩
          · exact inner_append (inner_append (inner_ask _) i1) (inner_ask _)
          · simp only [print, asked_append, a1]
            exact ⟨_, rfl, fun _ => ⟨[], rfl, fun _ => rfl, fun h => absurd ans2 h⟩, fun h => absurd ans1 h⟩
          · simp only [print, output_append, a2]
            simp [Spec.output, Spec.printed, printColumns, Spec.answersOf, h1, h2, hv]
          · simp only [print, files_append, a3]; rfl
          · simp [Spec.printed, printColumns, Spec.answersOf, h1, h2, Status.ofBool]

/-- A printing command, as opposed to `generate`. -/
def Spec.isPrint : Cmd → Bool
  | .generate .. => false
  | _ => true

theorem runOn_prints (e : Env) (o d s : Bytes) (c : Cmd) (h : Spec.isPrint c = true) : Prints e o d s c (runOn e o d s c) := by
  cases c with
  | columns db sc ts deps vs => exact runColumns_prints e o d s db sc ts deps vs
  | tables db sc ts vs => exact runTables_prints e o d s db sc ts vs
  | views db sc vs => exact runViews_prints e o d s db sc vs
  | fks db sc ts => exact runFks_prints e o d s db sc ts
  | generate f sc ts deps => cases h

theorem runGen_facts (e : Env) (o d s : Bytes) (f : Flags) (sc ts : List Bytes) (deps : Bool) :
    let r := runOn e o d s (.generate f sc ts deps)
    let g := runGenerate e.lib e.fmtOK f d .start (Spec.answersOf e d s (.generate f sc ts deps)) e.order
    Inner r.1 ∧ Spec.askedUntil e d s (Spec.questions (.generate f sc ts deps)) (Spec.asked r.1) ∧ Spec.output r.1 = [] ∧ Spec.files r.1 = g.2.1 ∧ r.2 = .ofRes g.2.2 := by
  intro r g
  obtain ⟨b1, b2, b3, -⟩ := file_only g.2.1
  have hr : r = ([Ev.ask (.tables sc ts deps)] ++ (if (e.listTables d s sc ts deps).isSome ∧ f.views.length > 0 then [.ask (.views sc f.views)] else []) ++ g.2.1.map .file, .ofRes g.2.2) := rfl
  rw [hr]
  by_cases hc : (e.listTables d s sc ts deps).isSome ∧ f.views.length > 0
  · simp only [if_pos hc]
    refine ⟨inner_append (inner_append (inner_ask _) (inner_ask _)) (inner_file _), ?_, ?_, ?_, trivial⟩
    · rw [asked_append, b1]
      have hv : f.views ≠ [] := by intro h; rw [h] at hc; simp at hc
      simp only [Spec.questions, if_neg hv]
      refine ⟨_, rfl, fun _ => ⟨[], rfl, fun _ => rfl, fun _ => rfl⟩, fun h => absurd ?_ h⟩
      simp only [Spec.answers]; intro h; rw [h] at hc; simp at hc
    · rw [output_append, b2]; rfl
    · rw [files_append, b3]; rfl
  · simp only [if_neg hc]
    refine ⟨inner_append (inner_ask _) (inner_file _), ?_, ?_, ?_, trivial⟩
    · rw [asked_append, b1]
      refine ⟨[], rfl, fun h => ?_, fun _ => rfl⟩
      by_cases hv : f.views = []
      · simp only [if_pos hv]; rfl
      · exfalso
        apply hc
        refine ⟨?_, List.length_pos_iff.2 hv⟩
        simp only [Spec.answers] at h
        cases hl : e.listTables d s sc ts deps with
        | none => exact absurd hl h
        | some _ => rfl
    · rw [output_append, b2]; rfl
    · rw [files_append, b3]; rfl

theorem runOn_inner (e : Env) (o d s : Bytes) (c : Cmd) : Inner (runOn e o d s c).1 := by
  by_cases h : Spec.isPrint c = true
  · exact (runOn_prints e o d s c h).inner
  · cases c with
    | generate f sc ts deps => exact (runGen_facts e o d s f sc ts deps).1
    | _ => exact absurd rfl h

theorem source_iff (e : Env) (l : Line) (src : Bytes) : source e l = some src ↔ Spec.Source e l src := by
  unfold source Spec.Source
  by_cases h : l.sqlSource = []
  · simp only [h, ne_eq, not_true_eq_false, if_false, true_and]
    by_cases h2 : e.getenv = []
    · simp only [h2, if_true]
      constructor
      · intro h; cases h
      · rintro ⟨a, b | b⟩ <;> exact absurd b a
    · simp only [if_neg h2, Option.some.injEq]
      constructor
      · rintro rfl; exact ⟨h2, .inr rfl⟩
      · rintro ⟨a, b | b⟩
        · exact absurd b a
        · exact b.symm
  · simp only [ne_eq, h, not_false_eq_true, if_true, if_false, false_and, or_false, Option.some.injEq]
    constructor
    · rintro rfl; exact ⟨h, rfl⟩
    · rintro ⟨-, b⟩; exact b.symm

theorem realMain_unconnected (e : Env) (l : Line) (src : Bytes) (hs : Spec.Source e l src) (tr : List Open.Ev) (f : Open.Fail)
    (hp : Open.newProvider e.open_ src l.cmd.db none none = (tr, .error f)) : realMain e (some l) = (tr.map .conn ++ [.exit] ++ [], .failed) := by
  unfold realMain
  simp only [(source_iff e l src).2 hs, runCmd, hp]
  simp

theorem realMain_connected (e : Env) (l : Line) (src : Bytes) (hs : Spec.Source e l src) (tr : List Open.Ev) (p : Open.Provider)
    (hp : Open.newProvider e.open_ src l.cmd.db none none = (tr, .ok p)) :
    realMain e (some l) = (tr.map .conn ++ (runOn e l.o p.name p.connstr l.cmd).1
        ++ (if (runOn e l.o p.name p.connstr l.cmd).2 = .failed then [.exit] else [])
        ++ (if (runOn e l.o p.name p.connstr l.cmd).2 = .failed ∧ e.exits = true then [] else [.close]), (runOn e l.o p.name p.connstr l.cmd).2) := by
  unfold realMain
  simp only [(source_iff e l src).2 hs, runCmd, hp]
  cases h : (runOn e l.o p.name p.connstr l.cmd).2 with
  | failed => cases he : e.exits <;> simp [he]
  | ok => simp
  | panicked => simp

/-! ### Properties -/

/-- **C99**: if the arguments are not accepted, or neither `--sql-source` nor XDB_DATASOURCE names a data source, the tool fails with a non-zero status and does nothing else. -/
theorem C99_no_source (e : Env) (line : Option Line) (h : ∀ l, line = some l → ¬ ∃ src, Spec.Source e l src) :
    (realMain e line).2 = .failed ∧ Spec.exited (realMain e line).1 = 1 ∧ Spec.connecting (realMain e line).1 = [] ∧ Spec.asked (realMain e line).1 = []
      ∧ Spec.output (realMain e line).1 = [] ∧ Spec.files (realMain e line).1 = [] := by
  have : realMain e line = ([.exit], .failed) := by
    unfold realMain
    cases line with
    | none => rfl
    | some l =>
      simp only
      cases hs : source e l with
      | none => rfl
      | some src => exact absurd ⟨src, (source_iff e l src).1 hs⟩ (h l rfl)
  rw [this]
  exact ⟨rfl, rfl, rfl, rfl, rfl, rfl⟩

/-- **C99**: otherwise it connects exactly as `NewProvider` does (C97) with that data source — the flag, or else the variable — and the database of the command. If that fails, nothing is asked or written. -/
theorem C99_connects_to_the_source (e : Env) (l : Line) (src : Bytes) (hs : Spec.Source e l src) :
    let r := realMain e (some l)
    let n := Open.newProvider e.open_ src l.cmd.db none none
    Spec.connecting r.1 = n.1 ∧ ∀ f, n.2 = .error f → r.2 = .failed ∧ Spec.asked r.1 = [] ∧ Spec.output r.1 = [] ∧ Spec.files r.1 = [] := by
  intro r n
  obtain ⟨tr, q⟩ : ∃ x, n = x := ⟨_, rfl⟩
  cases hn : n with
  | mk tr q =>
    obtain ⟨a1, a2, a3, a4, a5, a6⟩ := conn_only tr
    cases q with
    | error f =>
      have hr : r = _ := realMain_unconnected e l src hs tr f hn
      rw [hr]
      simp only [connecting_append, asked_append, output_append, files_append, a1, a2, a3, a4]
      exact ⟨by simp [Spec.connecting], fun _ _ => ⟨trivial, rfl, rfl, rfl⟩⟩
    | ok p =>
      have hr : r = _ := realMain_connected e l src hs tr p hn
      refine ⟨?_, fun f hf => by cases hf⟩
      rw [hr]
      simp only [connecting_append, a4, (runOn_inner e l.o p.name p.connstr l.cmd).1]
      split <;> split <;> simp [Spec.connecting]

/-- **C99**: once connected, a printing command asks exactly the questions of its flags, one after the other until one is not answered, writes exactly what C81 and C82 say, touches no file, and
succeeds exactly when that printing succeeds. -/
theorem C99_printing (e : Env) (l : Line) (src : Bytes) (hs : Spec.Source e l src) (tr : List Open.Ev) (p : Open.Provider)
    (hp : Open.newProvider e.open_ src l.cmd.db none none = (tr, .ok p)) (hc : Spec.isPrint l.cmd = true) :
    let r := realMain e (some l)
    Spec.askedUntil e p.name p.connstr (Spec.questions l.cmd) (Spec.asked r.1) ∧ Spec.output r.1 = (Spec.printed e l.o p.name p.connstr l.cmd).1 ∧ Spec.files r.1 = []
      ∧ (r.2 = .ok ↔ (Spec.printed e l.o p.name p.connstr l.cmd).2 = true) ∧ (r.2 = .failed ↔ (Spec.printed e l.o p.name p.connstr l.cmd).2 = false) := by
  intro r
  have hr : r = _ := realMain_connected e l src hs tr p hp
  obtain ⟨a1, a2, a3, -⟩ := conn_only tr
  obtain ⟨-, h1, h2, h3, h4⟩ := runOn_prints e l.o p.name p.connstr l.cmd hc
  rw [hr]
  simp only [asked_append, output_append, files_append, a1, a2, a3, h2, h3]
  have e1 : ∀ (P Q : Prop) [Decidable P] [Decidable Q], Spec.asked (if P then [.exit] else []) = [] ∧ Spec.asked (if Q then [] else [.close]) = []
      ∧ Spec.output (if P then [.exit] else []) = [] ∧ Spec.output (if Q then [] else [.close]) = []
      ∧ Spec.files (if P then [.exit] else []) = [] ∧ Spec.files (if Q then [] else [.close]) = [] := by
    intro P Q _ _
    refine ⟨?_, ?_, ?_, ?_, ?_, ?_⟩ <;> split <;> rfl
  obtain ⟨c1, c2, c3, c4, c5, c6⟩ := e1 ((runOn e l.o p.name p.connstr l.cmd).2 = .failed) ((runOn e l.o p.name p.connstr l.cmd).2 = .failed ∧ e.exits = true)
  rw [c1, c2, c3, c4, c5, c6, h4]
  refine ⟨by simpa using h1, by simp, rfl, ?_, ?_⟩
  · cases (Spec.printed e l.o p.name p.connstr l.cmd).2 <;> simp [Status.ofBool]
  · cases (Spec.printed e l.o p.name p.connstr l.cmd).2 <;> simp [Status.ofBool]

/-- **C99**: once connected, `generate` asks exactly the questions of its flags, prints nothing, and does to files exactly what C83 says of the answers, with that outcome. -/
theorem C99_generating (e : Env) (l : Line) (src : Bytes) (hs : Spec.Source e l src) (tr : List Open.Ev) (p : Open.Provider) (f : Flags) (sc ts : List Bytes) (deps : Bool)
    (hc : l.cmd = .generate f sc ts deps) (hp : Open.newProvider e.open_ src f.db none none = (tr, .ok p)) :
    let r := realMain e (some l)
    let g := runGenerate e.lib e.fmtOK f p.name .start ⟨true, e.listTables p.name p.connstr sc ts deps, e.listViews p.name p.connstr sc f.views, none⟩ e.order
    Spec.askedUntil e p.name p.connstr (Spec.questions l.cmd) (Spec.asked r.1) ∧ Spec.output r.1 = [] ∧ Spec.files r.1 = g.2.1
      ∧ (r.2 = .ok ↔ g.2.2 = .ok) ∧ (r.2 = .failed ↔ g.2.2 = .err) := by
  intro r g
  have hr : r = _ := realMain_connected e l src hs tr p (by rw [hc]; exact hp)
  obtain ⟨a1, a2, a3, -⟩ := conn_only tr
  obtain ⟨-, h1, h2, h3, h4⟩ := runGen_facts e l.o p.name p.connstr f sc ts deps
  rw [hr]
  simp only [asked_append, output_append, files_append, a1, a2, a3, hc, h2, h3]
  have e1 : ∀ (P Q : Prop) [Decidable P] [Decidable Q], Spec.asked (if P then [.exit] else []) = [] ∧ Spec.asked (if Q then [] else [.close]) = []
      ∧ Spec.output (if P then [.exit] else []) = [] ∧ Spec.output (if Q then [] else [.close]) = []
      ∧ Spec.files (if P then [.exit] else []) = [] ∧ Spec.files (if Q then [] else [.close]) = [] := by
    intro P Q _ _
    refine ⟨?_, ?_, ?_, ?_, ?_, ?_⟩ <;> split <;> rfl
  obtain ⟨c1, c2, c3, c4, c5, c6⟩ := e1 ((runOn e l.o p.name p.connstr (.generate f sc ts deps)).2 = .failed) ((runOn e l.o p.name p.connstr (.generate f sc ts deps)).2 = .failed ∧ e.exits = true)
  rw [c1, c2, c3, c4, c5, c6]
  refine ⟨by simpa using h1, by simp, by simp [g, Spec.answersOf], ?_, ?_⟩
  · rw [h4]
    show Status.ofRes g.2.2 = _ ↔ _
    cases g.2.2 <;> simp [Status.ofRes]
  · rw [h4]
    show Status.ofRes g.2.2 = _ ↔ _
    cases g.2.2 <;> simp [Status.ofRes]

/-- **C99**: the status is non-zero (`exit` is called, once) exactly when the run failed. The connection, if there is one, is closed exactly once — unless the run failed and `exit` ended the process. -/
theorem C99_status_and_close (e : Env) (line : Option Line) :
    let r := realMain e line
    (Spec.exited r.1 = if r.2 = .failed then 1 else 0)
    ∧ Spec.closed r.1 = if .keepAlive ∈ Spec.connecting r.1 ∧ ¬ (r.2 = .failed ∧ e.exits = true) then 1 else 0 := by
  intro r
  cases line with
  | none => exact ⟨rfl, rfl⟩
  | some l =>
    cases hs : source e l with
    | none =>
      have : r = ([.exit], .failed) := by simp only [r, realMain, hs]
      rw [this]; exact ⟨rfl, rfl⟩
    | some src =>
      have hs := (source_iff e l src).1 hs
      cases hn : Open.newProvider e.open_ src l.cmd.db none none with
      | mk tr q =>
        obtain ⟨a1, a2, a3, a4, a5, a6⟩ := conn_only tr
        cases q with
        | error f =>
          have hr : r = _ := realMain_unconnected e l src hs tr f hn
          rw [hr]
          have hk : Open.Ev.keepAlive ∉ tr := by
            intro hk
            by_cases hx : ∃ d s, Conn.Spec.handsOver e.open_.resolve e.open_.host src l.cmd.db d s
            · obtain ⟨d, s, hx⟩ := hx
              rw [Open.newProvider_hands e.open_ src l.cmd.db d s none none hx] at hn
              split at hn
              · split at hn
                · cases hn
                · cases hn; simp at hk
              · cases hn; simp at hk
            · obtain ⟨f', hf⟩ := Open.C97_refused_touches_nothing e.open_ src l.cmd.db none none hx
              rw [hf] at hn; cases hn; cases hk
          simp only [exited_append, closed_append, connecting_append, a4, a5, a6]
          refine ⟨rfl, ?_⟩
          rw [if_neg]
          · rfl
          · rintro ⟨h, -⟩
            simp [Spec.connecting] at h
            exact hk h
        | ok p =>
          have hr : r = _ := realMain_connected e l src hs tr p hn
          rw [hr]
          have hk : Open.Ev.keepAlive ∈ tr := by
            obtain ⟨-, -, -, calls, h, -⟩ := Open.C97_provider_is_what_was_opened e.open_ src l.cmd.db none none tr p hn
            rw [h]; simp
          obtain ⟨i1, i2, i3⟩ := runOn_inner e l.o p.name p.connstr l.cmd
          simp only [exited_append, closed_append, connecting_append, a4, a5, a6, i1, i2, i3]
          cases (runOn e l.o p.name p.connstr l.cmd).2 <;> cases e.exits <;> simp [hk, Spec.exited, Spec.closed, Spec.connecting]

theorem askedUntil_all (e : Env) (d s : Bytes) : ∀ (qs asked : List Query), Spec.askedUntil e d s qs asked → (∀ q ∈ qs, Spec.answers e d s q) → asked = qs
  | [], asked, h, _ => h
  | q :: qs, asked, ⟨rest, h1, h2, h3⟩, ha => by
    rw [h1, askedUntil_all e d s qs rest (h2 (ha q (List.mem_cons_self ..))) (fun x hx => ha x (List.mem_cons_of_mem _ hx))]

/-- **C99**: with the table format, a printing command succeeds exactly when there is a data source, the database opens (C97) and answers every question of the command; all questions have then been asked. -/
theorem C99_success_iff (e : Env) (l : Line) (ho : l.o ≠ b!"json" ∧ l.o ≠ b!"yaml") (hc : Spec.isPrint l.cmd = true) :
    (realMain e (some l)).2 = .ok ↔ ∃ src tr p, Spec.Source e l src ∧ Open.newProvider e.open_ src l.cmd.db none none = (tr, .ok p)
      ∧ (∀ q ∈ Spec.questions l.cmd, Spec.answers e p.name p.connstr q) ∧ Spec.asked (realMain e (some l)).1 = Spec.questions l.cmd := by
  have ho' : ∀ v, (object e.enc l.o v).2 = true := by
    intro v
    unfold object
    rw [if_neg ho.2, if_neg ho.1]
  have hl' : ∀ ts, (listing e.enc l.o ts).2 = true := by
    intro ts
    unfold listing
    rw [if_neg (by rintro (h | h); exacts [ho.1 h, ho.2 h])]
  have key : ∀ d s, (Spec.printed e l.o d s l.cmd).2 = true ↔ ∀ q ∈ Spec.questions l.cmd, Spec.answers e d s q := by
    intro d s
    cases hcm : l.cmd with
    | generate f sc ts deps => rw [hcm] at hc; cases hc
    | columns db sc ts deps vs =>
      simp only [Spec.printed, printColumns, Spec.answersOf, Spec.questions, if_true]
      cases vs <;> cases h1 : e.listTables d s sc ts deps <;> cases h2 : e.listViews d s sc ts <;> simp [Spec.answers, h1, h2]
    | tables db sc ts vs =>
      simp only [Spec.printed, printTables, Spec.answersOf, Spec.questions, if_true]
      cases vs <;> cases h1 : e.listTables d s sc ts true <;> cases h2 : e.listViews d s sc ts <;> simp [Spec.answers, h1, h2, hl']
    | views db sc vs =>
      simp only [Spec.printed, printViews, Spec.answersOf, Spec.questions, if_true]
      cases h1 : e.listViews d s sc vs <;> simp [Spec.answers, h1, hl']
    | fks db sc ts =>
      simp only [Spec.printed, printFks, Spec.answersOf, Spec.questions, if_true]
      cases h1 : e.listFks d s sc ts <;> simp [Spec.answers, h1, ho']
  constructor
  · intro h
    by_cases hs : ∃ src, Spec.Source e l src
    · obtain ⟨src, hs⟩ := hs
      cases hn : Open.newProvider e.open_ src l.cmd.db none none with
      | mk tr q =>
        cases q with
        | error f => rw [realMain_unconnected e l src hs tr f hn] at h; cases h
        | ok p =>
          obtain ⟨h1, -, -, h4, -⟩ := C99_printing e l src hs tr p hn hc
          have ha := (key _ _).1 (h4.1 h)
          exact ⟨src, tr, p, hs, hn, ha, askedUntil_all e _ _ _ _ h1 ha⟩
    · have := C99_no_source e (some l) (fun l' hl' => by cases hl'; exact hs)
      rw [this.1] at h; cases h
  · rintro ⟨src, tr, p, hs, hp, ha, -⟩
    obtain ⟨-, -, -, h4, -⟩ := C99_printing e l src hs tr p hp hc
    exact h4.2 ((key _ _).2 ha)

/-! ### Concrete cases -/

/-- A database with one table, and no answer for views. -/
def mainEnv (exits : Bool) (var : Bytes) : Env :=
  { open_ := Open.exEnv none true, getenv := var, listTables := fun _ _ _ _ deps => if deps then some toyRes else some [toyTable b!"app" b!"users"], listViews := fun _ _ _ _ => none, listFks := fun _ _ _ _ => some []
    enc := ⟨fun _ => none, fun _ => none⟩, lib := toyLib, fmtOK := fun _ => true, order := [b!"app", b!"audit"], exits := exits }

/-- `xdbcli schema tables --db db`, with and without `--views`, and `--sql-source`. -/
def exLine (src : Bytes) (views : Bool) : Line := ⟨src, b!"table", .tables b!"db" [] [b!"users"] views⟩

example : Spec.Source (mainEnv true b!"env://A") (exLine b!"env://B" false) b!"env://B" := ⟨by decide, .inl rfl⟩
example : Spec.Source (mainEnv true b!"env://B") (exLine [] false) b!"env://B" := ⟨by decide, .inr ⟨rfl, rfl⟩⟩
example : ¬ ∃ src, Spec.Source (mainEnv true []) (exLine [] false) src := by
  rintro ⟨src, h, h2 | ⟨-, h2⟩⟩ <;> exact h h2
-- Success: all tables with dependencies, one per line; closed at the end.
example : (realMain (mainEnv true []) (some (exLine b!"env://B" false))).2 = .ok
    ∧ Spec.asked (realMain (mainEnv true []) (some (exLine b!"env://B" false))).1 = [.tables [] [b!"users"] true]
    ∧ Spec.output (realMain (mainEnv true []) (some (exLine b!"env://B" false))).1 = [.text b!"app.users\n", .text b!"audit.logs\n", .text b!"app.roles\n"]
    ∧ Spec.closed (realMain (mainEnv true []) (some (exLine b!"env://B" false))).1 = 1 := by decide +kernel
-- The views are not answered: failure, nothing printed, not closed.
example : (realMain (mainEnv true []) (some (exLine b!"env://B" true))).2 = .failed
    ∧ Spec.asked (realMain (mainEnv true []) (some (exLine b!"env://B" true))).1 = [.tables [] [b!"users"] true, .views [] [b!"users"]]
    ∧ Spec.output (realMain (mainEnv true []) (some (exLine b!"env://B" true))).1 = []
    ∧ Spec.exited (realMain (mainEnv true []) (some (exLine b!"env://B" true))).1 = 1
    ∧ Spec.closed (realMain (mainEnv true []) (some (exLine b!"env://B" true))).1 = 0 := by decide +kernel
example : ∃ tr p, Open.newProvider (mainEnv true []).open_ b!"env://B" b!"db" none none = (tr, .ok p) := ⟨_, _, rfl⟩
example : (realMain (mainEnv true []) (some ⟨b!"env://B", b!"table", .generate toyFlags [] [] true⟩)).2 = .ok
    ∧ (Spec.files (realMain (mainEnv true []) (some ⟨b!"env://B", b!"table", .generate toyFlags [] [] true⟩)).1).length > 0 := by decide +kernel

end Cli
