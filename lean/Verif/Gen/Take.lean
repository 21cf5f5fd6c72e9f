import Verif.Gen.TakeText
set_option linter.unusedVariables false
set_option linter.unusedSimpArgs false
set_option linter.unusedSectionVars false
/-!
Taking rows: what the database makes of `DELETE FROM t WHERE … RETURNING …`, what `ExecuteListQuery` returns, and what becomes of the rows in any history of such statements.  C121.
-/
namespace Gen
open Schema Types Xsql

variable {α : Type}

/-! ### The database -/

/-- `DELETE FROM t WHERE … RETURNING a , b`: the table, the conditions, the columns. -/
def parseTake (sql : Bytes) : Option (Bytes × List (Bytes × Bytes) × List Bytes) :=
  match words [] sql with
  | d :: f :: t :: r =>
    if d = b!"DELETE" ∧ f = b!"FROM" then do
      let (conds, r) ← whereThen r
      match r with
      | w :: r =>
        if w = b!"RETURNING" then do
          let (rs, r) ← setList r
          if r = [] then some (t, conds, rs) else none
        else none
      | [] => none
    else none
  | _ => none

/-- What the database may do: remove the rows that meet the conditions, and answer with the listed columns of these, in some order. -/
def Table.MayTake (drv : Driver) (eq : Equal) (T : Table) (sql : Bytes) (args : List Given) (T' : Table) (out : List (List Given)) : Prop :=
  ∃ t conds rs vs, parseTake sql = some (t, conds, rs) ∧ t = T.name ∧ args.length = conds.length ∧ groupArgs args 0 (conds.map (·.2)) = some vs
    ∧ (((conds.map (·.1)).zip vs).all (accepts T.cols)) = true
    ∧ T' = { T with rows := T.rows.filter fun row => !((conds.map (·.1)).zip vs).all (holds eq T.cols row) }
    ∧ ∃ S : List (List Cell), S.Perm (T.rows.filter fun row => ((conds.map (·.1)).zip vs).all (holds eq T.cols row)) ∧ each (fun row => each (selected drv T.cols row) rs) S = some out

/-! ### Specification -/

/-- Columns that can be asked for by name. -/
def Spec.Asked (ret : List Bytes) : Prop := ret ≠ [] ∧ ∀ n ∈ ret, NameOK n ∧ IsWord n ∧ ∃ z, n.getLast? = some z ∧ isCut z = false

/-- A connection that, whenever it may run `sql`, runs it in one of the possible ways. -/
def Spec.Removes {V E : Type} (drv : Driver) (eq : Equal) (T : Table) (val : V → Option Given) (sql : Bytes) (db : List (Query.Arg V) → Sql.Answer (List Given) E × Table) : Prop :=
  ∀ passed args, each (sentArg val) passed = some args → (∃ T' out, T.MayTake drv eq sql args T' out) →
    ∃ T' out, T.MayTake drv eq sql args T' out ∧ db passed = (.ok (.fresh (out.map fun r => ⟨r, none⟩) none none), T')

/-- A history of such statements, each with its own conditions and columns: the columns asked for and the rows given out by each, from one state of the table to another. -/
inductive Spec.Taken (drv : Driver) (eq : Equal) : Table → List (List Bytes × List (List Given)) → Table → Prop
  | none (T : Table) : Spec.Taken drv eq T [] T
  | one {T T' T'' : Table} {out : List (List Given)} {rest : List (List Bytes × List (List Given))} (dia : Dia) (nl : Bool) (st : Nat) (l : List (Step Given)) (ret : List Bytes)
      (hl : Spec.IsDelete l) (hok : ∀ x ∈ l, x.OK) (hw : Spec.Words l) (hr : Spec.Asked ret)
      (h : T.MayTake drv eq (build dia nl st (takeCalls T.name l ret)).render (build dia nl st (takeCalls T.name l ret)).args T' out) (hrest : Spec.Taken drv eq T' rest T'') : Spec.Taken drv eq T ((ret, out) :: rest) T''

/-! ### Reading the statement -/

theorem take_read (pg nl : Bool) (t : Bytes) (ht : IsWord t) (C : List (Bytes × α)) (hC : ∀ p ∈ C, IsWord p.1) (ret : List Bytes) (hr0 : ret ≠ []) (hr : ∀ n ∈ ret, IsWord n) :
    parseTake (takeSql pg nl t C ret) = some (t, phPairs pg 1 C, ret) := by
  have w1 : IsWord b!"DELETE" := ⟨by decide, by decide⟩
  have w2 : IsWord b!"FROM" := ⟨by decide, by decide⟩
  have w3 : IsWord b!"RETURNING" := ⟨by decide, by decide⟩
  have e : takeSql pg nl t C ret = b!"DELETE" ++ c!" " :: (b!"FROM" ++ c!" " :: (t ++ whereText pg nl 1 C ++ c!" " :: ((if nl then b!"\n" else []) ++ (b!"RETURNING" ++ c!" " :: joinBytes b!", " ret)))) := by
    simp [takeSql]
  unfold parseTake
  rw [e, words_space w1, words_space w2, words_where_then ht pg nl 1 C hC, words_break, words_space w3, words_last ret hr0 hr]
  simp only [and_self, if_true]
  rw [whereThen_words pg 1 C b!"RETURNING" (by decide)]
  simp only [bind, Option.bind_some, if_true]
  rw [setList_last ret hr0]
  rfl

/-! ### What is taken -/

open Classical in
/-- Taken and left rows together are the rows. -/
theorem taken_perm {P : List Cell → Prop} {rows S : List (List Cell)} (h : S.Perm (rows.filter fun row => decide (P row))) : (S ++ rows.filter fun row => decide (¬ P row)).Perm rows := by
  refine (h.append_right _).trans ?_
  have := List.filter_append_perm (fun row => decide (P row)) rows
  simpa using this

section
variable (drv : Driver) (eq : Equal) (T : Table) (hnd : (T.cols.map (·.col.name)).Nodup) (htn : Plain T.name) (htw : IsWord T.name) (htz : ∃ z, T.name.getLast? = some z ∧ isCut z = false)
  (ret : List Bytes) (hr : Spec.Asked ret) (dia : Dia) (nl : Bool) (st : Nat)
include hnd htn htw htz hr

open Classical in
/-- **C121**: on every dialect the statement built by `DeleteFrom`, `Where` calls in any order and `Returning` may be carried out in exactly these ways: the rows that meet all conditions are removed, all others stay as they
are and in their order, and the answer is the columns asked for of the removed rows, each once, in some order; it is refused if a condition compares a column with a value of another type. -/
theorem C121_taken {l : List (Step α)} (h : Spec.IsDelete l) (hok : ∀ x ∈ l, x.OK) (hw : Spec.Words l) (C : List (Bytes × Given)) (hC : C.map (·.1) = (condsOf l).map (·.1)) (T' : Table) (out : List (List Given)) :
    T.MayTake drv eq (build dia nl st (takeCalls T.name l ret)).render (C.map (·.2)) T' out
      ↔ Spec.Sensible T.cols C ∧ T' = { T with rows := T.rows.filter fun row => decide (¬ Spec.Matches eq T.cols C row) }
        ∧ ∃ S : List (List Cell), S.Perm (T.rows.filter fun row => decide (Spec.Matches eq T.cols C row)) ∧ Spec.Shown drv T ret S out := by
  rw [(take_text dia nl st T.name htw.1 htn htz l h hok ret hr.1 (fun c hc => (hr.2 c hc).1) (last_of_join ret hr.1 fun c hc => (hr.2 c hc).2.2)).1]
  generalize decide (dia = .postgres) = pg
  have hread := take_read pg nl T.name htw (condsOf l) hw.2.2 ret hr.1 (fun n hn => (hr.2 n hn).2.1)
  have hlen : C.length = (condsOf l).length := by simpa using congrArg List.length hC
  have hga : groupArgs (C.map (·.2)) 0 ((phPairs pg 1 (condsOf l)).map (·.2)) = some (C.map (·.2)) := by
    rw [phPairs_snd, ← hlen]
    have := all_args pg (C.map (·.2))
    rwa [List.length_map] at this
  have hzip : ((phPairs pg 1 (condsOf l)).map (·.1)).zip (C.map (·.2)) = C := by rw [phPairs_fst, ← hC, zip_unzip]
  have hin : (T.rows.filter fun row => C.all (holds eq T.cols row)) = T.rows.filter fun row => decide (Spec.Matches eq T.cols C row) :=
    List.filter_congr fun row _ => by rw [Bool.eq_iff_iff, matches_iff eq hnd C row, decide_eq_true_iff]
  have hout : (T.rows.filter fun row => !C.all (holds eq T.cols row)) = T.rows.filter fun row => decide (¬ Spec.Matches eq T.cols C row) :=
    List.filter_congr fun row _ => by rw [Bool.eq_iff_iff, Bool.not_eq_true', ← Bool.not_eq_true, matches_iff eq hnd C row, decide_eq_true_iff]
  constructor
  · rintro ⟨t, conds, rs, vs, a1, a2, a3, a4, a5, a6, S, a7, a8⟩
    rw [hread, Option.some.injEq] at a1
    obtain ⟨rfl, rfl, rfl⟩ : T.name = t ∧ phPairs pg 1 (condsOf l) = conds ∧ ret = rs := by simpa using a1
    rw [hga, Option.some.injEq] at a4
    subst a4
    rw [hzip] at a5 a6 a7
    rw [hout] at a6
    rw [hin] at a7
    exact ⟨(sensible_iff hnd C).1 a5, a6, S, a7, (shown_iff drv T hnd _ _ _).1 a8⟩
  · rintro ⟨a5, a6, S, a7, a8⟩
    exact ⟨_, _, _, _, hread, rfl, by rw [List.length_map, hlen, phPairs_length], hga, by rw [hzip]; exact (sensible_iff hnd C).2 a5, by rw [hzip, hout]; exact a6, S, by rw [hzip, hin]; exact a7, (shown_iff drv T hnd _ _ _).2 a8⟩

variable (hrows : ∀ row ∈ T.rows, row.length = T.cols.length) (hknown : ∀ n ∈ ret, ∃ c ∈ T.cols, c.col.name = n)
include hrows hknown

open Classical in
/-- **C121**, end to end: `ExecuteListQuery` with the statement and its arguments returns the rows that were removed, each converted once; these and the rows left are together all the rows. -/
theorem C121_the_caller_gets_the_removed_rows {V E τ : Type} (val : V → Option Given) {l : List (Step (Query.Arg V))} (h : Spec.IsDelete l) (hok : ∀ x ∈ l, x.OK) (hw : Spec.Words l)
    (C : List (Bytes × Given)) (hC : Spec.Sent (sentArg val) (condsOf l) C) (hs : Spec.Sensible T.cols C) (conv : List Given → τ) (db : List (Query.Arg V) → Sql.Answer (List Given) E × Table)
    (hdb : Spec.Removes drv eq T val (build dia nl st (takeCalls T.name l ret)).render db) :
    ∃ (S : List (List Cell)) (rows : List (List Given)), (∀ row, row ∈ S ↔ row ∈ T.rows ∧ Spec.Matches eq T.cols C row) ∧ Spec.Shown drv T ret S rows
      ∧ (Query.execList (fun p => (db p).1) (fun r => .ok (conv r)) (build dia nl st (takeCalls T.name l ret)).args).1 = .ok (rows.map conv)
      ∧ (db (build dia nl st (takeCalls T.name l ret)).args).2 = { T with rows := T.rows.filter fun row => decide (¬ Spec.Matches eq T.cols C row) }
      ∧ (S ++ (db (build dia nl st (takeCalls T.name l ret)).args).2.rows).Perm T.rows := by
  have hexact := fun T' out => C121_taken drv eq T hnd htn htw htz ret hr dia nl st h hok hw C (sent_fst hC).symm T' out
  have hargs := (take_text dia nl st T.name htw.1 htn htz l h hok ret hr.1 (fun c hc => (hr.2 c hc).1) (last_of_join ret hr.1 fun c hc => (hr.2 c hc).2.2)).2
  obtain ⟨rows, hrs⟩ := each_some (fun row => each (selected drv T.cols row) ret) (T.rows.filter fun row => decide (Spec.Matches eq T.cols C row)) (by
    intro row hm
    have hm' := (List.mem_filter.1 hm).1
    obtain ⟨r, e⟩ := each_some (selected drv T.cols row) ret (by
      intro n hn
      obtain ⟨c, hc, rfl⟩ := hknown n hn
      obtain ⟨j, hj⟩ := List.getElem?_of_mem hc
      have hlt := (List.getElem?_eq_some_iff.1 hj).1
      have hl := hrows row hm'
      unfold selected
      rw [find_at hnd hj (List.getElem?_eq_getElem (by omega))]; rfl)
    rw [e]; rfl)
  obtain ⟨T', out, o1, o2⟩ := hdb _ _ (sent_args hC) ⟨_, rows, (hexact _ rows).2 ⟨hs, rfl, _, List.Perm.refl _, (shown_iff drv T hnd _ _ _).1 hrs⟩⟩
  obtain ⟨-, b1, S, b2, b3⟩ := (hexact T' out).1 o1
  refine ⟨S, out, ?_, b3, ?_, by rw [hargs, o2]; exact b1, ?_⟩
  · intro row
    rw [b2.mem_iff, List.mem_filter, decide_eq_true_iff]
  · rw [hargs, Query.execList_eq (fun p => (db p).1) _ _ _ (by rw [o2]) rfl rfl]
    simp only [Sql.Rows.fresh, Query.convertAll_clean, Query.liftErr]
  · rw [hargs, o2, b1]
    exact taken_perm b2

end

open Classical in
/-- **C121**, histories: however many such statements run, with whatever conditions and columns, in whatever order their rows are answered: every row of the table at the start is given out by exactly one of them, once, or is
still there at the end – and nothing else is given out. -/
theorem C121_every_row_is_taken_once (drv : Driver) (eq : Equal) {T : Table} {steps : List (List Bytes × List (List Given))} {T' : Table} (h : Spec.Taken drv eq T steps T')
    (hnd : (T.cols.map (·.col.name)).Nodup) (htn : Plain T.name) (htw : IsWord T.name) (htz : ∃ z, T.name.getLast? = some z ∧ isCut z = false) :
    ∃ Ss : List (List (List Cell)), List.Forall₂ (fun step S => Spec.Shown drv T step.1 S step.2) steps Ss ∧ (Ss.flatten ++ T'.rows).Perm T.rows := by
  induction h with
  | none T => exact ⟨[], .nil, List.Perm.refl _⟩
  | @one T T' T'' out rest dia nl st l ret hl hok hw hr h _ ih =>
    have hargs := (take_text dia nl st T.name htw.1 htn htz l hl hok ret hr.1 (fun c hc => (hr.2 c hc).1) (last_of_join ret hr.1 fun c hc => (hr.2 c hc).2.2)).2
    rw [hargs] at h
    obtain ⟨-, b1, S, b2, b3⟩ := (C121_taken drv eq T hnd htn htw htz ret hr dia nl st hl hok hw (condsOf l) rfl T' out).1 h
    have hc : T'.cols = T.cols := by rw [b1]
    have hn : T'.name = T.name := by rw [b1]
    have hrw : T'.rows = T.rows.filter fun row => decide (¬ Spec.Matches eq T.cols (condsOf l) row) := by rw [b1]
    obtain ⟨Ss, i1, i2⟩ := ih (by rw [hc]; exact hnd) (by rw [hn]; exact htn) (by rw [hn]; exact htw) (by rw [hn]; exact htz)
    have hsh : ∀ ns S out, Spec.Shown drv T' ns S out ↔ Spec.Shown drv T ns S out := fun ns S out => by unfold Spec.Shown; rw [hc]
    refine ⟨S :: Ss, .cons b3 (i1.imp fun _ _ h => (hsh _ _ _).1 h), ?_⟩
    rw [List.flatten_cons, List.append_assoc]
    refine (List.Perm.append_left S i2).trans ?_
    rw [hrw]
    exact taken_perm b2

open Classical in
/-- **C121**, keys: if no two rows have the same key at the start, no key is given out twice in a history, nor given out and still there. -/
theorem C121_no_key_is_taken_twice (drv : Driver) (eq : Equal) {T : Table} {steps : List (List Bytes × List (List Given))} {T' : Table} (h : Spec.Taken drv eq T steps T')
    (hnd : (T.cols.map (·.col.name)).Nodup) (htn : Plain T.name) (htw : IsWord T.name) (htz : ∃ z, T.name.getLast? = some z ∧ isCut z = false) (j : Nat) (huniq : (T.rows.map fun row => row[j]?).Nodup) :
    ∃ Ss : List (List (List Cell)), List.Forall₂ (fun step S => Spec.Shown drv T step.1 S step.2) steps Ss ∧ ((Ss.flatten ++ T'.rows).map fun row => row[j]?).Nodup := by
  obtain ⟨Ss, h1, h2⟩ := C121_every_row_is_taken_once drv eq h hnd htn htw htz
  exact ⟨Ss, h1, ((h2.map _).nodup_iff).2 huniq⟩

/-! ### Findings -/

open Classical in
/-- **C121**, finding: without a `Where` the statement empties the table. -/
theorem C121_no_condition_takes_all (drv : Driver) (eq : Equal) (T : Table) (hnd : (T.cols.map (·.col.name)).Nodup) (htn : Plain T.name) (htw : IsWord T.name) (htz : ∃ z, T.name.getLast? = some z ∧ isCut z = false)
    (ret : List Bytes) (hr : Spec.Asked ret) (dia : Dia) (nl : Bool) (st : Nat) (T' : Table) (out : List (List Given))
    (h : T.MayTake drv eq (build dia nl st (takeCalls (α := Given) T.name [.delete] ret)).render [] T' out) : T'.rows = [] ∧ ∃ S : List (List Cell), S.Perm T.rows ∧ Spec.Shown drv T ret S out := by
  have hl : Spec.IsDelete (α := Given) [.delete] := ⟨[], [], rfl, fun s hs => by simp at hs⟩
  obtain ⟨-, b1, S, b2, b3⟩ := (C121_taken drv eq T hnd htn htw htz ret hr dia nl st hl (fun x hx => by rw [List.mem_singleton] at hx; subst hx; trivial)
    ⟨fun n hn => by simp [colsOf] at hn, fun p hp => by simp [setsOf] at hp, fun p hp => by simp [condsOf] at hp⟩ [] rfl T' out).1 h
  have hall : ∀ row, Spec.Matches eq T.cols [] row := fun row p hp => by simp at hp
  refine ⟨by rw [b1]; exact List.filter_eq_nil_iff.2 fun row _ hx => (of_decide_eq_true hx) (hall row), S, ?_, b3⟩
  rw [List.filter_eq_self.2 fun row _ => decide_eq_true (hall row)] at b2
  exact b2

/-! ### Concrete cases -/

/-- A condition before and one after `DeleteFrom`. -/
def takeAnn : List (Step Given) := [.cond b!"name" (.dv (.text b!"Ann")), .delete, .cond b!"id" (goInt 8)]

example : (build .postgres false 0 (takeCalls b!"users" takeAnn [b!"id", b!"secret"])).render = b!"DELETE FROM users WHERE name = $1 AND id = $2 RETURNING id, secret" := by decide +kernel
example : (build .sqlserver false 0 (takeCalls b!"users" takeAnn [b!"id"])).render = b!"DELETE FROM users WHERE name = ? AND id = ? RETURNING id" := by decide +kernel
example : (build .postgres false 0 (takeCalls (α := Given) b!"users" [.delete] [b!"id"])).render = b!"DELETE FROM users RETURNING id" := by decide +kernel

theorem asked_id_secret : Spec.Asked [b!"id", b!"secret"] := by
  refine ⟨by decide, fun n hn => ?_⟩
  simp only [List.mem_cons, List.not_mem_nil, or_false] at hn
  rcases hn with rfl | rfl
  · exact ⟨⟨by decide, by unfold Plain; decide⟩, ⟨by decide, by decide⟩, 100, rfl, rfl⟩
  · exact ⟨⟨by decide, by unfold Plain; decide⟩, ⟨by decide, by decide⟩, 116, rfl, rfl⟩

/-- One row is taken, the other stays. -/
theorem takeAnn_taken : twins.MayTake .pg plainEqual b!"DELETE FROM users WHERE name = $1 AND id = $2 RETURNING id, secret" [.dv (.text b!"Ann"), goInt 8] { twins with rows := [[.int 7, .text b!"x", .text b!"Ann"]] }
    [[.dv (.i64 8), .dv (.text b!"y")]] := by
  refine ⟨b!"users", [(b!"name", b!"$1"), (b!"id", b!"$2")], [b!"id", b!"secret"], [.dv (.text b!"Ann"), goInt 8], by decide +kernel, rfl, rfl, by decide +kernel, by decide +kernel, ?_,
    [[.int 8, .text b!"y", .text b!"Ann"]], ?_, by decide +kernel⟩
  · rw [show twins.rows = [[.int 7, .text b!"x", .text b!"Ann"], [.int 8, .text b!"y", .text b!"Ann"]] from rfl, List.filter_cons_of_pos (by decide +kernel), List.filter_cons_of_neg (by decide +kernel), List.filter_nil]
  · rw [show twins.rows = [[.int 7, .text b!"x", .text b!"Ann"], [.int 8, .text b!"y", .text b!"Ann"]] from rfl, List.filter_cons_of_neg (by decide +kernel), List.filter_cons_of_pos (by decide +kernel), List.filter_nil]

/-- A history as assumed. -/
example : Spec.Taken .pg plainEqual twins [([b!"id", b!"secret"], [[.dv (.i64 8), .dv (.text b!"y")]])] { twins with rows := [[.int 7, .text b!"x", .text b!"Ann"]] } := by
  refine .one .postgres false 0 takeAnn [b!"id", b!"secret"] ⟨[.cond b!"name" (.dv (.text b!"Ann"))], [.cond b!"id" (goInt 8)], rfl, ?_⟩ ?_ ⟨?_, ?_, ?_⟩ asked_id_secret ?_ (.none _)
  · intro s hs
    simp only [List.cons_append, List.nil_append, List.mem_cons, List.not_mem_nil, or_false] at hs
    rcases hs with rfl | rfl <;> exact ⟨_, _, rfl⟩
  · intro x hx
    simp only [takeAnn, List.mem_cons, List.not_mem_nil, or_false] at hx
    rcases hx with rfl | rfl | rfl
    · exact ⟨by decide, by unfold Plain; decide⟩
    · trivial
    · exact ⟨by decide, by unfold Plain; decide⟩
  · intro n hn; simp [takeAnn, colsOf] at hn
  · intro p hp; simp [takeAnn, setsOf] at hp
  · intro p hp
    simp only [takeAnn, condsOf, List.filterMap_cons, List.filterMap_nil, List.mem_cons, List.not_mem_nil, or_false] at hp
    rcases hp with rfl | rfl <;> exact ⟨by decide, by decide⟩
  · rw [show (build .postgres false 0 (takeCalls twins.name takeAnn [b!"id", b!"secret"])).render = b!"DELETE FROM users WHERE name = $1 AND id = $2 RETURNING id, secret" by decide +kernel,
      show (build .postgres false 0 (takeCalls twins.name takeAnn [b!"id", b!"secret"])).args = [.dv (.text b!"Ann"), goInt 8] from rfl]
    exact takeAnn_taken

open Classical in
/-- There always is a database as assumed. -/
theorem removes_exists {V : Type} (drv : Driver) (eq : Equal) (T : Table) (val : V → Option Given) (sql : Bytes) :
    ∃ db : List (Query.Arg V) → Sql.Answer (List Given) Unit × Table, Spec.Removes drv eq T val sql db := by
  refine ⟨fun passed => if h : ∃ p : List Given × Table × List (List Given), each (sentArg val) passed = some p.1 ∧ T.MayTake drv eq sql p.1 p.2.1 p.2.2
    then (.ok (.fresh (h.choose.2.2.map fun r => ⟨r, none⟩) none none), h.choose.2.1) else (.error (), T), ?_⟩
  rintro passed args h ⟨T', out, ho⟩
  have hx : ∃ p : List Given × Table × List (List Given), each (sentArg val) passed = some p.1 ∧ T.MayTake drv eq sql p.1 p.2.1 p.2.2 := ⟨(args, T', out), h, ho⟩
  have hs := hx.choose_spec
  have e : args = hx.choose.1 := Option.some.inj (h.symm.trans hs.1)
  exact ⟨hx.choose.2.1, hx.choose.2.2, by rw [e]; exact hs.2, dif_pos hx⟩

end Gen
