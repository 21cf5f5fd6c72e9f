import Verif.Gen.CreateText
set_option linter.unusedVariables false
set_option linter.unusedSimpArgs false
set_option linter.unusedSectionVars false
/-!
Creating a row and getting it back: what the database makes of `INSERT INTO t (…) VALUES (…) RETURNING …`, and what `QueryRow` returns.  C120.
-/
namespace Gen
open Schema Types Xsql

/-! ### The database -/

/-- An insert of one row that answers with some of its columns, as read by the database. -/
structure CreateQuery where
  table : Bytes
  cols : List Bytes
  phs : List Bytes
  ret : List Bytes
  deriving DecidableEq

/-- `INSERT INTO t ( a , b ) VALUES ( ? , ? ) RETURNING c , d`. -/
def parseCreate (sql : Bytes) : Option CreateQuery :=
  match words [] sql with
  | i :: n :: t :: o :: r =>
    if i = b!"INSERT" ∧ n = b!"INTO" ∧ o = b!"(" then do
      let (cs, r) ← names b!")" r
      match r with
      | v :: o :: r =>
        if v = b!"VALUES" ∧ o = b!"(" then do
          let (ps, r) ← names b!")" r
          match r with
          | w :: r =>
            if w = b!"RETURNING" then do
              let (rs, r) ← setList r
              if r = [] then some ⟨t, cs, ps, rs⟩ else none
            else none
          | _ => none
        else none
      | _ => none
    else none
  | _ => none

/-- What the database may put into a column that is not listed, given the rows there are: NULL, a default, the next number, …. -/
abbrev Default := TCol → List (List Cell) → Cell → Prop

/-- What the database may do: a new row, with what each listed column keeps of its value and a default in the others, if the table with it is legal (keys, constraints); the answer is the listed columns of it. -/
def Table.MayCreate (drv : Driver) (dflt : Default) (legal : List (List Cell) → Prop) (T : Table) (sql : Bytes) (args : List Given) (T' : Table) (out : List Given) : Prop :=
  ∃ q vs row, parseCreate sql = some q ∧ q.table = T.name ∧ q.cols.length = q.phs.length ∧ args.length = q.phs.length ∧ groupArgs args 0 q.phs = some vs
    ∧ q.cols.Nodup ∧ (∀ n ∈ q.cols, ∃ c ∈ T.cols, c.col.name = n)
    ∧ List.Forall₂ (fun c x => match (q.cols.zip vs).lookup c.col.name with
        | some v => c.put v = some x
        | none => dflt c T.rows x) T.cols row
    ∧ legal (T.rows ++ [row]) ∧ T' = { T with rows := T.rows ++ [row] } ∧ each (selected drv T.cols row) q.ret = some out

/-! ### Specification -/

/-- A new row for the columns and values sent: a listed column has what it keeps of its value, another one a default. -/
def Spec.NewRow (dflt : Default) (T : Table) (sent : List (Bytes × Given)) (row : List Cell) : Prop :=
  row.length = T.cols.length ∧ ∀ (j : Nat) (c : TCol) (x : Cell), T.cols[j]? = some c → row[j]? = some x →
    (∀ v, (c.col.name, v) ∈ sent → c.put v = some x) ∧ ((∀ v, (c.col.name, v) ∉ sent) → dflt c T.rows x)

/-- A connection that, whenever it may run `sql`, runs it in one of the possible ways: its answer is the one row, and the table is changed. -/
def Spec.Creates {V E : Type} (drv : Driver) (dflt : Default) (legal : List (List Cell) → Prop) (T : Table) (val : V → Option Given) (sql : Bytes) (db : List (Query.Arg V) → Sql.Answer (List Given) E × Table) : Prop :=
  ∀ passed args, each (sentArg val) passed = some args → (∃ T' out, T.MayCreate drv dflt legal sql args T' out) →
    ∃ T' out, T.MayCreate drv dflt legal sql args T' out ∧ db passed = (.ok (.fresh [⟨out, none⟩] none none), T')

/-! ### Reading the statement -/

theorem words_last (l : List Bytes) (h0 : l ≠ []) (h : ∀ w ∈ l, IsWord w) : words [] (joinBytes b!", " l) = commas l := by
  have := words_list_where (α := Unit) false false 1 [] (by simp) l h0 h
  simpa [whereText, whereWords] using this

theorem setList_last (l : List Bytes) (h0 : l ≠ []) : setList (commas l) = some (l, []) := by
  have := setList_words (α := Unit) false 1 [] l h0
  simpa [whereWords] using this

theorem create_read (pg nl : Bool) (t : Bytes) (ht : IsWord t) (cs : List Bytes) (hc0 : cs ≠ []) (hc : ∀ n ∈ cs, IsWord n) (ret : List Bytes) (hr0 : ret ≠ []) (hr : ∀ n ∈ ret, IsWord n) :
    parseCreate (createSql pg nl t cs ret) = some ⟨t, cs, phFrom pg 1 cs.length, ret⟩ := by
  have w1 : IsWord b!"INSERT" := ⟨by decide, by decide⟩
  have w2 : IsWord b!"INTO" := ⟨by decide, by decide⟩
  have w3 : IsWord b!"VALUES" := ⟨by decide, by decide⟩
  have w4 : IsWord b!"RETURNING" := ⟨by decide, by decide⟩
  have hp0 : phFrom pg 1 cs.length ≠ [] := by
    intro e
    have := phFrom_length pg cs.length 1
    rw [e] at this
    exact hc0 (List.length_eq_zero_iff.1 this.symm)
  have e : createSql pg nl t cs ret = b!"INSERT" ++ c!" " :: (b!"INTO" ++ c!" " :: (t ++ c!" " :: ((if nl then b!"\n" else []) ++ (c!"(" :: (c!" " :: (joinBytes b!", " cs ++ c!" " ::
      ((if nl then b!"\n" else []) ++ (c!")" :: (c!" " :: (b!"VALUES" ++ c!" " :: (c!"(" :: (c!" " :: (joinBytes b!", " (phFrom pg 1 cs.length) ++ c!" " :: ((if nl then b!"\n" else []) ++
      (c!")" :: (c!" " :: ((if nl then b!"\n" else []) ++ (b!"RETURNING" ++ c!" " :: joinBytes b!", " ret)))))))))))))))))) := by
    simp [createSql, insertSQL]
  unfold parseCreate
  rw [e, words_space w1, words_space w2, words_space ht, words_break, words_open, words_skip, words_join cs hc0 hc, words_break, words_close, words_skip, words_space w3, words_open, words_skip,
    words_join _ hp0 (phFrom_words pg _ 1), words_break, words_close, words_skip, words_break, words_space w4, words_last ret hr0 hr]
  simp only [and_self, if_true]
  rw [names_commas b!")" (by decide) cs hc0]
  simp only [bind, Option.bind_some, and_self, if_true]
  rw [names_commas b!")" (by decide) _ hp0]
  simp only [bind, Option.bind_some, if_true]
  rw [setList_last ret hr0]
  rfl

/-! ### What is created -/

theorem newRow_iff (dflt : Default) (T : Table) (S : List (Bytes × Given)) (hS : (S.map (·.1)).Nodup) (row : List Cell) :
    List.Forall₂ (fun c x => match S.lookup c.col.name with
        | some v => TCol.put c v = some x
        | none => dflt c T.rows x) T.cols row ↔ Spec.NewRow dflt T S row := by
  rw [List.forall₂_iff_get]
  unfold Spec.NewRow
  constructor
  · rintro ⟨hl, h⟩
    refine ⟨hl.symm, fun j c x hc hx => ?_⟩
    obtain ⟨h1, rfl⟩ := List.getElem?_eq_some_iff.1 hc
    obtain ⟨h2, rfl⟩ := List.getElem?_eq_some_iff.1 hx
    have := h j h1 h2
    simp only [List.get_eq_getElem] at this
    constructor
    · intro v hv
      rw [lookup_mem hS hv] at this
      exact this
    · intro hv
      rw [lookup_none hv] at this
      exact this
  · rintro ⟨hl, h⟩
    refine ⟨hl.symm, fun j h1 h2 => ?_⟩
    obtain ⟨a, b⟩ := h j _ _ (List.getElem?_eq_getElem h1) (List.getElem?_eq_getElem h2)
    simp only [List.get_eq_getElem]
    cases hk : S.lookup (T.cols[j]).col.name with
    | some v => exact a v (lookup_some hk)
    | none => exact b fun v hv => by rw [lookup_mem hS hv] at hk; cases hk

theorem last_of_join {sep : Bytes} : ∀ (l : List Bytes), l ≠ [] → (∀ c ∈ l, ∃ z, c.getLast? = some z ∧ isCut z = false) → ∃ z, (joinBytes sep l).getLast? = some z ∧ isCut z = false := by
  intro l
  induction l with
  | nil => intro h; exact absurd rfl h
  | cons a l ih =>
    intro _ h
    cases l with
    | nil => exact h a (by simp)
    | cons b l =>
      obtain ⟨z, h1, h2⟩ := ih (by simp) fun c hc => h c (by simp [hc])
      exact ⟨z, by rw [join_two, List.getLast?_append, List.getLast?_append, h1]; rfl, h2⟩

section
variable (drv : Driver) (dflt : Default) (legal : List (List Cell) → Prop) (T : Table) (hnd : (T.cols.map (·.col.name)).Nodup) (ht0 : T.name ≠ []) (htn : Plain T.name) (htw : IsWord T.name)
  (ret : List Bytes) (hr0 : ret ≠ []) (hr : ∀ n ∈ ret, NameOK n ∧ IsWord n ∧ ∃ z, n.getLast? = some z ∧ isCut z = false)
include hnd ht0 htn htw hr0 hr

/-- **C120**: on every dialect the statement built by `InsertInto`, `Set(column, value)` and `Returning(column)` may be carried out in exactly these ways: no column is set twice, all are columns of the table, one row is added at
the end – a set column has what it keeps of its value, every other one a default – and the answer is the columns asked for, of that row. -/
theorem C120_created {α : Type} (dia : Dia) (nl : Bool) (st : Nat) (sets : List (Bytes × α)) (hs0 : sets ≠ []) (hs : ∀ p ∈ sets, NameOK p.1 ∧ IsWord p.1)
    (S : List (Bytes × Given)) (hS : S.map (·.1) = sets.map (·.1)) (T' : Table) (out : List Given) :
    T.MayCreate drv dflt legal (build dia nl st (createCalls T.name sets ret)).render (S.map (·.2)) T' out
      ↔ (S.map (·.1)).Nodup ∧ (∀ p ∈ S, ∃ c ∈ T.cols, c.col.name = p.1)
        ∧ ∃ row, Spec.NewRow dflt T S row ∧ legal (T.rows ++ [row]) ∧ T' = { T with rows := T.rows ++ [row] } ∧ Spec.Shown drv T ret [row] [out] := by
  rw [(create_text dia nl st T.name ht0 htn sets hs0 (fun p hp => (hs p hp).1) ret hr0 (fun c hc => (hr c hc).1) (last_of_join ret hr0 fun c hc => (hr c hc).2.2)).1]
  generalize decide (dia = .postgres) = pg
  have hcs0 : sets.map (·.1) ≠ [] := by simpa using hs0
  have hread := create_read pg nl T.name htw (sets.map (·.1)) hcs0 (by intro n hn; obtain ⟨p, hp, rfl⟩ := List.mem_map.1 hn; exact (hs p hp).2) ret hr0 (fun n hn => (hr n hn).2.1)
  have hlen : (S.map (·.2)).length = (sets.map (·.1)).length := by rw [← hS, List.length_map, List.length_map]
  have hga : groupArgs (S.map (·.2)) 0 (phFrom pg 1 (sets.map (·.1)).length) = some (S.map (·.2)) := by rw [phFrom_eq, ← hlen]; exact all_args pg _
  have hshow : ∀ row : List Cell, each (selected drv T.cols row) ret = some out ↔ Spec.Shown drv T ret [row] [out] := by
    intro row
    rw [← shown_iff drv T hnd]
    simp only [each]
    cases each (selected drv T.cols row) ret <;> simp
  constructor
  · rintro ⟨q, vs, row, a1, a2, a3, a4, a5, a6, a7, a8, a9, a10, a11⟩
    rw [hread, Option.some.injEq] at a1
    subst a1
    rw [hga, Option.some.injEq] at a5
    subst a5
    simp only [← hS] at a6 a7 a8
    rw [zip_unzip] at a8
    exact ⟨a6, fun p hp => a7 p.1 (List.mem_map_of_mem hp), row, (newRow_iff dflt T S a6 row).1 a8, a9, a10, (hshow row).1 a11⟩
  · rintro ⟨a6, a7, row, a8, a9, a10, a11⟩
    refine ⟨_, _, row, hread, rfl, (phFrom_length pg _ _).symm, by rw [hlen]; exact (phFrom_length pg _ _).symm, hga, ?_, ?_, ?_, a9, a10, (hshow row).2 a11⟩
    · simp only [← hS]; exact a6
    · simp only [← hS]
      intro n hn
      obtain ⟨p, hp, rfl⟩ := List.mem_map.1 hn
      exact a7 p hp
    · simp only [← hS]
      rw [zip_unzip]
      exact (newRow_iff dflt T S a6 row).2 a8

variable (hknown : ∀ n ∈ ret, ∃ c ∈ T.cols, c.col.name = n)
include hknown

/-- **C120**, end to end: `QueryRow` with the statement and its arguments returns the converted columns of the row that was added; the table has that row at the end, and every other row is as before. -/
theorem C120_the_caller_gets_the_row {V E τ : Type} (dia : Dia) (nl : Bool) (st : Nat) (val : V → Option Given) (sets : List (Bytes × Query.Arg V)) (hs0 : sets ≠ []) (hs : ∀ p ∈ sets, NameOK p.1 ∧ IsWord p.1)
    (S : List (Bytes × Given)) (hS : Spec.Sent (sentArg val) sets S) (hSn : (S.map (·.1)).Nodup) (hSk : ∀ p ∈ S, ∃ c ∈ T.cols, c.col.name = p.1)
    (hcan : ∃ row, Spec.NewRow dflt T S row ∧ legal (T.rows ++ [row])) (conv : List Given → τ) (db : List (Query.Arg V) → Sql.Answer (List Given) E × Table)
    (hdb : Spec.Creates drv dflt legal T val (build dia nl st (createCalls T.name sets ret)).render db) :
    ∃ (row : List Cell) (out : List Given), Spec.NewRow dflt T S row ∧ legal (T.rows ++ [row]) ∧ Spec.Shown drv T ret [row] [out]
      ∧ (db (build dia nl st (createCalls T.name sets ret)).args).2 = { T with rows := T.rows ++ [row] }
      ∧ Query.queryOne (fun p => (db p).1) (fun r => .ok (conv r)) (build dia nl st (createCalls T.name sets ret)).args = .ok (conv out) := by
  have hexact := fun T' out => C120_created drv dflt legal T hnd ht0 htn htw ret hr0 hr dia nl st sets hs0 hs S (sent_fst hS).symm T' out
  obtain ⟨row, r1, r2⟩ := hcan
  obtain ⟨o, ho⟩ := each_some (selected drv T.cols row) ret (by
    intro n hn
    obtain ⟨c, hc, rfl⟩ := hknown n hn
    obtain ⟨j, hj⟩ := List.getElem?_of_mem hc
    have hlt := (List.getElem?_eq_some_iff.1 hj).1
    have hl := r1.1
    unfold selected
    rw [find_at hnd hj (List.getElem?_eq_getElem (by omega))]; rfl)
  have hsh : Spec.Shown drv T ret [row] [o] := by
    rw [← shown_iff drv T hnd]
    simp [each, ho]
  have hargs := (create_text dia nl st T.name ht0 htn sets hs0 (fun p hp => (hs p hp).1) ret hr0 (fun c hc => (hr c hc).1) (last_of_join ret hr0 fun c hc => (hr c hc).2.2)).2
  obtain ⟨T', out, o1, o2⟩ := hdb (sets.map (·.2)) (S.map (·.2)) (sent_args hS) ⟨_, o, (hexact _ _).2 ⟨hSn, hSk, row, r1, r2, rfl, hsh⟩⟩
  obtain ⟨-, -, row', b1, b2, b3, b4⟩ := (hexact T' out).1 o1
  refine ⟨row', out, b1, b2, b4, by rw [hargs, o2]; exact b3, ?_⟩
  rw [hargs, ((Query.C38_query_row (fun p => (db p).1) (fun r => .ok (conv r)) (sets.map (·.2))).2 _ (by rw [o2]) rfl rfl).2 _ _ rfl rfl]
  rfl

end

open Classical in
/-- **C120**, reading it back: if no two rows of a legal table have the same key and the key the caller was given is not NULL, then on every dialect a `Select` by that key, of the same columns, finds in the changed
table exactly the new row: one row, with the very values that were returned when it was created. -/
theorem C120_found_by_the_returned_key {α : Type} (eq : Equal) (drv : Driver) (dflt : Default) (T : Table) (hnd : (T.cols.map (·.col.name)).Nodup) (hrows : ∀ row ∈ T.rows, row.length = T.cols.length)
    (htn : Plain T.name) (htw : IsWord T.name) (htz : ∃ z, T.name.getLast? = some z ∧ isCut z = false) (ret : List Bytes) (hr0 : ret ≠ []) (hknown : ∀ n ∈ ret, ∃ c ∈ T.cols, c.col.name = n)
    (S : List (Bytes × Given)) (row : List Cell) (out : List Given) (hnew : Spec.NewRow dflt T S row) (hshown : Spec.Shown drv T ret [row] [out])
    (j : Nat) (c : TCol) (hc : T.cols[j]? = some c) (y : Cell) (hy : row[j]? = some y) (hy0 : y ≠ .null) (heq : ∀ x y, x ≠ .null → y ≠ .null → (eq c x y = true ↔ x = y))
    (huniq : ((T.rows ++ [row]).map fun row => row[j]?).Nodup)
    (val : α → Option Given) (dia : Dia) (nl : Bool) (st : Nat) (l : List (Step α)) (hok : ∀ x ∈ l, x.OK) (hw : Spec.Words l) (hl : Spec.IsSelect l) (hcols : colsOf l = ret)
    (key : α) (d : Given) (hcond : condsOf l = [(c.col.name, key)]) (hd : val key = some d) (hst : store c.kind true d = some y) :
    ∃ args, each val (build dia nl st (l.map (Step.call T.name))).args = some args
      ∧ Table.query drv eq { T with rows := T.rows ++ [row] } (build dia nl st (l.map (Step.call T.name))).render args = some [out] := by
  have hnew' := hnew.1
  have hC : Spec.Sent val (condsOf l) [(c.col.name, d)] := by simp [Spec.Sent, hcond, hd]
  have hCs : Spec.Sensible T.cols [(c.col.name, d)] := by
    intro p hp
    rw [List.mem_singleton] at hp
    subst hp
    exact ⟨c, List.mem_of_getElem? hc, rfl, by rw [hst]; rfl⟩
  have hmatch := fun r : List Cell => matches_key eq hnd hc hst hy0 heq r
  have hfil : ((T.rows ++ [row]).filter fun r => decide (Spec.Matches eq T.cols [(c.col.name, d)] r)) = [row] := by
    rw [List.filter_append, List.filter_cons_of_pos (by rw [decide_eq_true_eq]; exact (hmatch row).2 hy), List.filter_nil, List.filter_eq_nil_iff.2, List.nil_append]
    intro r hr hm
    rw [decide_eq_true_eq, hmatch] at hm
    rw [List.map_append, List.nodup_append] at huniq
    exact huniq.2.2 _ (List.mem_map_of_mem hr) _ (List.mem_map_of_mem (List.mem_singleton_self row)) (by rw [hm, hy])
  obtain ⟨args, out', e1, e2, e3, e4⟩ := C111_select eq { T with rows := T.rows ++ [row] } hnd (by
      intro r hr
      rcases List.mem_append.1 hr with h | h
      · exact hrows r h
      · rw [List.mem_singleton] at h; subst h; exact hnew') htn htw htz val dia nl st l hok hw drv hl (by rw [hcols]; exact hr0) (by rw [hcols]; exact hknown) hC hCs
  simp only at e3 e4
  rw [hfil] at e3 e4
  refine ⟨args, e1, ?_⟩
  obtain ⟨r, r1, r2, r3⟩ := e4 0 row rfl
  rw [hcols] at r2 r3
  have hout : out' = [r] := by
    match out', e3, r1 with
    | [a], _, h => simp at h; rw [h]
  rw [e2, hout]
  obtain ⟨hrow, -⟩ := List.forall₂_cons.1 hshown
  obtain ⟨g1, g2⟩ := List.forall₂_iff_get.1 hrow
  congr 2
  refine List.ext_getElem (by rw [r2, g1]) fun k k1 k2 => ?_
  obtain ⟨j', c', x', q1, q2, q3, q4⟩ := g2 k (by omega) k2
  have := r3 k j' c' x' (by rw [List.getElem?_eq_getElem (by omega)]; simp only [List.get_eq_getElem] at q2; rw [q2]) q1 q3
  rw [List.getElem?_eq_getElem k1, Option.some.injEq] at this
  rw [this]
  simpa using q4.symm

/-- **C120**, NULL: a column set to `nil` is NULL in the new row, so this is possible only if the column may be NULL. -/
theorem C120_nil_is_null {V : Type} (dflt : Default) (T : Table) (val : V → Option Given) (sets : List (Bytes × Query.Arg V)) (S : List (Bytes × Given)) (hS : Spec.Sent (sentArg val) sets S)
    (row : List Cell) (hnew : Spec.NewRow dflt T S row) (j : Nat) (c : TCol) (hc : T.cols[j]? = some c) (hset : (c.col.name, .nil) ∈ sets) : row[j]? = some .null ∧ c.col.nullable = true := by
  have hj := (List.getElem?_eq_some_iff.1 hc).1
  have hx : row[j]? = some (row[j]'(by rw [hnew.1]; exact hj)) := List.getElem?_eq_getElem _
  have := (hnew.2 j c _ hc hx).1 (.dv .null) ((sent_mem hS).2 ⟨.nil, hset, rfl⟩)
  rw [hx]
  unfold TCol.put at this
  cases hn : c.col.nullable with
  | false => rw [hn] at this; cases hk : c.kind <;> simp [hk, store] at this
  | true =>
    rw [hn] at this
    have e : store c.kind true (.dv .null) = some .null := by cases c.kind <;> rfl
    rw [e] at this
    exact ⟨by rw [← this]; rfl, rfl⟩

/-- **C120**, numbers: a column of integers set to a Go integer has that integer in the new row, so this is possible only if the column is wide enough. -/
theorem C120_integers_are_kept {V : Type} (dflt : Default) (T : Table) (val : V → Option Given) (sets : List (Bytes × Query.Arg V)) (S : List (Bytes × Given)) (hS : Spec.Sent (sentArg val) sets S)
    (row : List Cell) (hnew : Spec.NewRow dflt T S row) (j : Nat) (c : TCol) (hc : T.cols[j]? = some c) (w : Width) (hk : c.kind = .int w) (i : Int) (h1 : -2 ^ 63 ≤ i) (h2 : i < 2 ^ 63)
    (hset : (c.col.name, .int i) ∈ sets) : row[j]? = some (.int i) ∧ w.lo ≤ i ∧ i ≤ w.hi := by
  have hj := (List.getElem?_eq_some_iff.1 hc).1
  have hx : row[j]? = some (row[j]'(by rw [hnew.1]; exact hj)) := List.getElem?_eq_getElem _
  have := (hnew.2 j c _ hc hx).1 (.dv (.i64 (Int64.ofInt i))) ((sent_mem hS).2 ⟨.int i, hset, rfl⟩)
  rw [hx, ← this]
  have hi : (Int64.ofInt i).toInt = i := Int64.toInt_ofInt_of_le h1 h2
  unfold TCol.put at this ⊢
  rw [hk] at this ⊢
  simp only [store, hi] at this ⊢
  by_cases h : w.lo ≤ i ∧ i ≤ w.hi
  · rw [if_pos h]; exact ⟨rfl, h⟩
  · rw [if_neg h] at this; cases this

/-- **C120**, named arguments: a value passed as `sql.Named` is never sent, so that no row is created with it. -/
theorem C120_named_are_not_sent {V : Type} (val : V → Option Given) (sets : List (Bytes × Query.Arg V)) (c name : Bytes) (v : Query.Arg V) (hset : (c, .named name v) ∈ sets) (S : List (Bytes × Given)) :
    ¬ Spec.Sent (sentArg val) sets S := by
  intro h
  have : (c, sentArg val (.named name v)) ∈ S.map fun p => (p.1, some p.2) := by
    rw [← h]; exact List.mem_map_of_mem (f := fun p : Bytes × Query.Arg V => (p.1, sentArg val p.2)) hset
  obtain ⟨p, -, hp⟩ := List.mem_map.1 this
  exact absurd (congrArg Prod.snd hp) (by simp [sentArg])

/-! ### Findings -/

/-- **C120**, finding: a value set before `InsertInto` is dropped without an error; the statement is the one without it, and the column gets its default. -/
theorem C120_set_before_insert_is_lost {α : Type} (dia : Dia) (nl : Bool) (st : Nat) (c e : Bytes) (vs : List α) (calls : List (Call α)) :
    (build dia nl st (.setExpr c e vs :: calls)).render = (build dia nl st calls).render ∧ (build dia nl st (.setExpr c e vs :: calls)).args = (build dia nl st calls).args := ⟨rfl, rfl⟩

/-- **C120**, finding: setting a column twice is not noticed by the builder, and refused by the database. -/
theorem C120_set_twice_refused {α : Type} (drv : Driver) (dflt : Default) (legal : List (List Cell) → Prop) (T : Table) (hnd : (T.cols.map (·.col.name)).Nodup) (ht0 : T.name ≠ []) (htn : Plain T.name) (htw : IsWord T.name)
    (ret : List Bytes) (hr0 : ret ≠ []) (hr : ∀ n ∈ ret, NameOK n ∧ IsWord n ∧ ∃ z, n.getLast? = some z ∧ isCut z = false) (dia : Dia) (nl : Bool) (st : Nat) (sets : List (Bytes × α)) (hs0 : sets ≠ [])
    (hs : ∀ p ∈ sets, NameOK p.1 ∧ IsWord p.1) (htwice : ¬ (sets.map (·.1)).Nodup) (S : List (Bytes × Given)) (hS : S.map (·.1) = sets.map (·.1)) (T' : Table) (out : List Given) :
    ¬ T.MayCreate drv dflt legal (build dia nl st (createCalls T.name sets ret)).render (S.map (·.2)) T' out := fun h =>
  htwice (hS ▸ ((C120_created drv dflt legal T hnd ht0 htn htw ret hr0 hr dia nl st sets hs0 hs S hS T' out).1 h).1)

/-! ### Concrete cases -/

example : (build .postgres false 0 (createCalls b!"users" [(b!"name", 1), (b!"secret", 2)] [b!"id", b!"name"])).render = b!"INSERT INTO users ( name, secret ) VALUES ( $1, $2 ) RETURNING id, name" := by decide +kernel
example : (build .sqlserver false 0 (createCalls b!"users" [(b!"name", 1), (b!"secret", 2)] [b!"id"])).render = b!"INSERT INTO users ( name, secret ) VALUES ( ?, ? ) RETURNING id" := by decide +kernel
example : (build .postgres false 0 [.setExpr b!"name" b!"?" [1], .insertInto b!"users", .setExpr b!"secret" b!"?" [2], .returning b!"id"]).render = b!"INSERT INTO users ( secret ) VALUES ( $1 ) RETURNING id" := by decide +kernel
example : (build .postgres false 0 ([.insertInto b!"users", .returning b!"id"] : List (Call Nat))).render = b!"INSERT INTO users ( ) VALUES ( ) RETURNING id" ∧ parseCreate b!"INSERT INTO users ( ) VALUES ( ) RETURNING id" = none :=
  ⟨by decide +kernel, by decide +kernel⟩

/-- The default of the numbered column is any number that no row has; of the others it is NULL. -/
def serial : Default := fun c rows x => if c.col.name = b!"id" then ∃ n, x = .int n ∧ ∀ row ∈ rows, row[0]? ≠ some (.int n) else x = .null

/-- The keys of the rows are different. -/
def keyed (rows : List (List Cell)) : Prop := (rows.map fun row => row[0]?).Nodup

/-- A row without the number, and the same row with it. -/
example : Spec.NewRow serial twins [(b!"name", .dv (.text b!"Eve"))] [.int 9, .null, .text b!"Eve"] ∧ keyed (twins.rows ++ [[.int 9, .null, .text b!"Eve"]])
    ∧ twins.MayCreate .pg serial keyed b!"INSERT INTO users ( name ) VALUES ( $1 ) RETURNING id, name" [.dv (.text b!"Eve")] { twins with rows := twins.rows ++ [[.int 9, .null, .text b!"Eve"]] } [.dv (.i64 9), .dv (.text b!"Eve")] := by
  have hn : Spec.NewRow serial twins [(b!"name", .dv (.text b!"Eve"))] [.int 9, .null, .text b!"Eve"] := by
    refine (newRow_iff serial twins _ (by decide) _).1 ?_
    refine .cons ?_ (.cons ?_ (.cons ?_ .nil))
    · change serial _ twins.rows (.int 9)
      refine ⟨9, rfl, ?_⟩
      intro row hr
      rw [show twins.rows = [[.int 7, .text b!"x", .text b!"Ann"], [.int 8, .text b!"y", .text b!"Ann"]] from rfl] at hr
      simp only [List.mem_cons, List.not_mem_nil, or_false] at hr
      rcases hr with rfl | rfl <;> simp
    · rfl
    · rfl
  have hk : keyed (twins.rows ++ [[.int 9, .null, .text b!"Eve"]]) := by simp [keyed, twins]
  refine ⟨hn, hk, ?_⟩
  have h := (C120_created .pg serial keyed twins (by decide +kernel) (by decide) (by unfold Plain; decide) ⟨by decide, by decide⟩ [b!"id", b!"name"] (by decide)
    (by
      intro n hn
      simp only [List.mem_cons, List.not_mem_nil, or_false] at hn
      rcases hn with rfl | rfl
      · exact ⟨⟨by decide, by unfold Plain; decide⟩, ⟨by decide, by decide⟩, 100, rfl, rfl⟩
      · exact ⟨⟨by decide, by unfold Plain; decide⟩, ⟨by decide, by decide⟩, 101, rfl, rfl⟩)
    .postgres false 0 [(b!"name", ())] (by decide) (by
      intro p hp
      simp only [List.mem_cons, List.not_mem_nil, or_false] at hp
      subst hp
      exact ⟨⟨by decide, by unfold Plain; decide⟩, ⟨by decide, by decide⟩⟩) [(b!"name", .dv (.text b!"Eve"))] rfl _ [.dv (.i64 9), .dv (.text b!"Eve")]).2
      ⟨by decide, by
        intro p hp
        simp only [List.mem_cons, List.not_mem_nil, or_false] at hp
        subst hp
        exact ⟨_, List.mem_of_getElem? (show twins.cols[2]? = some _ from rfl), rfl⟩, _, hn, hk, rfl, .cons (.cons ⟨0, _, _, rfl, rfl, rfl, rfl⟩ (.cons ⟨2, _, _, rfl, rfl, rfl, rfl⟩ .nil)) .nil⟩
  rw [show (build .postgres false 0 (createCalls twins.name [(b!"name", ())] [b!"id", b!"name"])).render = b!"INSERT INTO users ( name ) VALUES ( $1 ) RETURNING id, name" by decide +kernel] at h
  exact h

open Classical in
/-- There always is a database as assumed. -/
theorem creates_exists {V : Type} (drv : Driver) (dflt : Default) (legal : List (List Cell) → Prop) (T : Table) (val : V → Option Given) (sql : Bytes) :
    ∃ db : List (Query.Arg V) → Sql.Answer (List Given) Unit × Table, Spec.Creates drv dflt legal T val sql db := by
  refine ⟨fun passed => if h : ∃ p : List Given × Table × List Given, each (sentArg val) passed = some p.1 ∧ T.MayCreate drv dflt legal sql p.1 p.2.1 p.2.2
    then (.ok (.fresh [⟨h.choose.2.2, none⟩] none none), h.choose.2.1) else (.error (), T), ?_⟩
  rintro passed args h ⟨T', out, ho⟩
  have hx : ∃ p : List Given × Table × List Given, each (sentArg val) passed = some p.1 ∧ T.MayCreate drv dflt legal sql p.1 p.2.1 p.2.2 := ⟨(args, T', out), h, ho⟩
  have hs := hx.choose_spec
  have e : args = hx.choose.1 := Option.some.inj (h.symm.trans hs.1)
  exact ⟨hx.choose.2.1, hx.choose.2.2, by rw [e]; exact hs.2, dif_pos hx⟩

/-- The hypotheses of `C120_found_by_the_returned_key` can be met. -/
example : (twins.cols.map (·.col.name)).Nodup ∧ (∀ row ∈ twins.rows, row.length = twins.cols.length) ∧ Plain twins.name ∧ IsWord twins.name ∧ (∃ z, twins.name.getLast? = some z ∧ isCut z = false)
    ∧ keyed (twins.rows ++ [[.int 9, .null, .text b!"Eve"]])
    ∧ (∃ c, twins.cols[0]? = some c ∧ c.col.name = b!"id" ∧ store c.kind true (goInt 9) = some (.int 9))
    ∧ Spec.IsSelect [.cond b!"id" (goInt 9), .from_, .col b!"id", .col b!"name"]
    ∧ colsOf [.cond b!"id" (goInt 9), .from_, .col b!"id", .col b!"name"] = [b!"id", b!"name"] ∧ condsOf [.cond b!"id" (goInt 9), .from_, .col b!"id", .col b!"name"] = [(b!"id", goInt 9)] := by
  refine ⟨by decide +kernel, by decide +kernel, by unfold Plain; decide, ⟨by decide, by decide⟩, ⟨115, rfl, rfl⟩, by simp [keyed, twins], ⟨_, rfl, rfl, ?_⟩, ?_, rfl, rfl⟩
  · rfl
  · refine ⟨[.cond b!"id" (goInt 9)], [.col b!"id", .col b!"name"], rfl, ?_⟩
    intro s hs
    simp only [List.cons_append, List.nil_append, List.mem_cons, List.not_mem_nil, or_false] at hs
    rcases hs with rfl | rfl | rfl
    · exact .inl ⟨_, _, rfl⟩
    · exact .inr ⟨_, rfl⟩
    · exact .inr ⟨_, rfl⟩

end Gen
