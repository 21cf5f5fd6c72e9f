import Verif.Gen.InList
import Verif.Gen.ModifyModel
import Verif.Gen.KeysetPages
set_option linter.unusedVariables false
set_option linter.unusedSimpArgs false
set_option linter.unusedSectionVars false
/-!
Rows by a list of values: what the database answers to the statement and what `ExecuteListQuery` returns.  C119.
-/
namespace Gen
open Schema Types Xsql

/-! ### The database -/

/-- A query for the rows whose column is one of some values, as read by the database. -/
structure InQuery where
  cols : List Bytes
  table : Bytes
  key : Bytes
  phs : List Bytes
  deriving DecidableEq

/-- `SELECT a , b FROM t WHERE k IN ( ? , ? )`; the list may not be empty. -/
def parseIn (sql : Bytes) : Option InQuery :=
  match words [] sql with
  | s :: r =>
    if s = b!"SELECT" then do
      let (cs, r) ← names b!"FROM" r
      match r with
      | t :: w :: k :: i :: o :: r =>
        if w = b!"WHERE" ∧ i = b!"IN" ∧ o = b!"(" then do
          let (ps, r) ← names b!")" r
          if r = [] then some ⟨cs, t, k, ps⟩ else none
        else none
      | _ => none
    else none
  | _ => none

/-- What the database may answer: the rows whose column equals one of the values, in some order. A value of another type than the column is refused. -/
def Table.MayAnswerIn (drv : Driver) (eq : Equal) (T : Table) (sql : Bytes) (args : List Given) (out : List (List Given)) : Prop :=
  ∃ q vs, parseIn sql = some q ∧ q.table = T.name ∧ args.length = q.phs.length ∧ groupArgs args 0 q.phs = some vs ∧ (vs.all fun v => accepts T.cols (q.key, v)) = true
    ∧ ∃ S : List (List Cell), S.Perm (T.rows.filter fun row => vs.any fun v => holds eq T.cols row (q.key, v)) ∧ each (fun row => each (selected drv T.cols row) q.cols) S = some out

/-- A connection that answers the query `sql` whenever the table has an answer to it, with one of the possible answers. -/
def Spec.AnswersIn {V E : Type} (drv : Driver) (eq : Equal) (T : Table) (val : V → Option Given) (sql : Bytes) (db : List (Query.Arg V) → Sql.Answer (List Given) E) : Prop :=
  ∀ passed args, each (sentArg val) passed = some args → (∃ out, T.MayAnswerIn drv eq sql args out) →
    ∃ out, T.MayAnswerIn drv eq sql args out ∧ db passed = .ok (.fresh (out.map fun r => ⟨r, none⟩) none none)

/-! ### Reading the statement -/

theorem words_shut {w : Bytes} (h : IsWord w) (s : Bytes) : words [] (w ++ c!")" :: s) = w :: b!")" :: words [] s := by
  rw [words_word w h.2, List.nil_append, words, if_neg (by decide), if_pos (by simp), flush, if_neg h.1]; rfl

theorem words_list : ∀ (l : List Bytes), (∀ w ∈ l, IsWord w) → words [] (joinBytes b!"," l ++ b!")") = commas l ++ [b!")"] := by
  intro l
  induction l with
  | nil => intro _; exact words_close []
  | cons a l ih =>
    intro h
    cases l with
    | nil => exact words_shut (h a (by simp)) []
    | cons b l =>
      have e : joinBytes b!"," (a :: b :: l) ++ b!")" = a ++ c!"," :: (joinBytes b!"," (b :: l) ++ b!")") := by
        rw [show joinBytes b!"," (a :: b :: l) = a ++ b!"," ++ joinBytes b!"," (b :: l) from rfl]; simp
      rw [e, words_comma (h a (by simp)), ih fun w hw => h w (by simp [hw])]
      rfl

theorem phFrom_words (pg : Bool) : ∀ (n i : Nat), ∀ w ∈ phFrom pg i n, IsWord w := by
  intro n
  induction n with
  | zero => intro i w h; cases h
  | succ n ih =>
    intro i w h
    rcases List.mem_cons.1 h with rfl | h
    · exact isWord_ph pg i
    · exact ih _ _ h

theorem phFrom_eq (pg : Bool) : ∀ (n i : Nat), phFrom pg i n = if pg then dollars i n else List.replicate n b!"?" := by
  intro n
  induction n with
  | zero => intro i; cases pg <;> rfl
  | succ n ih => intro i; rw [phFrom, ih]; cases pg <;> rfl

theorem phFrom_length (pg : Bool) : ∀ (n i : Nat), (phFrom pg i n).length = n := by
  intro n
  induction n with
  | zero => intro i; rfl
  | succ n ih => intro i; rw [phFrom, List.length_cons, ih]

theorem in_read (pg nl : Bool) (t : Bytes) (ht : IsWord t) (ns : List Bytes) (hn0 : ns ≠ []) (hn : ∀ n ∈ ns, IsWord n) (key : Bytes) (hk : IsWord key) (n : Nat) :
    parseIn (inSql pg nl t ns key n) = if n = 0 then none else some ⟨ns, t, key, phFrom pg 1 n⟩ := by
  have w1 : IsWord b!"SELECT" := ⟨by decide, by decide⟩
  have w2 : IsWord b!"FROM" := ⟨by decide, by decide⟩
  have w3 : IsWord b!"WHERE" := ⟨by decide, by decide⟩
  have w4 : IsWord b!"IN" := ⟨by decide, by decide⟩
  have e : inSql pg nl t ns key n = b!"SELECT" ++ c!" " :: (joinBytes b!", " ns ++ c!" " :: ((if nl then b!"\n" else []) ++ (b!"FROM" ++ c!" " :: (t ++ c!" " ::
      ((if nl then b!"\n" else []) ++ (b!"WHERE" ++ c!" " :: (key ++ c!" " :: (b!"IN" ++ c!" " :: (c!"(" :: (joinBytes b!"," (phFrom pg 1 n) ++ b!")")))))))))) := by
    simp [inSql]
  unfold parseIn
  rw [e, words_space w1, words_join ns hn0 hn, words_break, words_space w2, words_space ht, words_break, words_space w3, words_space hk, words_space w4, words_open, words_list _ (phFrom_words pg n 1)]
  simp only [if_true]
  rw [names_commas b!"FROM" (by decide) ns hn0]
  cases n with
  | zero => rfl
  | succ n =>
    have := names_commas b!")" (by decide) (phFrom pg 1 (n + 1)) (by simp [phFrom]) []
    simp [bind, this]

/-! ### What is answered -/

section
variable (drv : Driver) (eq : Equal) (T : Table) (hnd : (T.cols.map (·.col.name)).Nodup) (htn : Plain T.name) (htw : IsWord T.name)
  (ns : List Bytes) (hn0 : ns ≠ []) (hn : ∀ n ∈ ns, NameOK n ∧ IsWord n) (key : Bytes) (hk : NameOK key ∧ IsWord key)
include hnd htn htw hn0 hn hk

open Classical in
/-- **C119**: the answers to the statement built by `From`, `Select`, `Where(key)` and `In(values…)` are, on every dialect, exactly the rows whose column equals one of the values – each once, however often
its value is listed – in any order; it is refused if there are no values, or one that the column cannot be compared with. -/
theorem C119_exactly_the_named_rows {α : Type} (dia : Dia) (nl : Bool) (st : Nat) (vs : List α) (args : List Given) (hlen : args.length = vs.length) (out : List (List Given)) :
    T.MayAnswerIn drv eq (build dia nl st (inCalls T.name ns key vs)).render args out
      ↔ args ≠ [] ∧ (∀ v ∈ args, Spec.Sensible T.cols [(key, v)])
        ∧ ∃ S : List (List Cell), S.Perm (T.rows.filter fun row => decide (∃ v ∈ args, Spec.Matches eq T.cols [(key, v)] row)) ∧ Spec.Shown drv T ns S out := by
  rw [(in_text dia nl st T.name htw.1 htn ns hn0 (fun c hc => (hn c hc).1) key hk.1 vs).1]
  generalize decide (dia = .postgres) = pg
  have hread := in_read pg nl T.name htw ns hn0 (fun n h => (hn n h).2) key hk.2 vs.length
  have hga : groupArgs args 0 (phFrom pg 1 vs.length) = some args := by rw [phFrom_eq, ← hlen]; exact all_args pg args
  have hacc : ∀ v, accepts T.cols (key, v) = true ↔ Spec.Sensible T.cols [(key, v)] := by
    intro v
    rw [← sensible_iff hnd]; simp
  have hhold : ∀ (row : List Cell) v, holds eq T.cols row (key, v) = true ↔ Spec.Matches eq T.cols [(key, v)] row := by
    intro row v
    rw [← matches_iff eq hnd]; simp
  have hfilter : (T.rows.filter fun row => args.any fun v => holds eq T.cols row (key, v)) = T.rows.filter fun row => decide (∃ v ∈ args, Spec.Matches eq T.cols [(key, v)] row) := by
    refine List.filter_congr fun row hr => ?_
    rw [Bool.eq_iff_iff, List.any_eq_true, decide_eq_true_eq]
    exact exists_congr fun v => and_congr_right fun _ => hhold row v
  constructor
  · rintro ⟨q, ws, a1, a2, a3, a4, a5, S, a6, a7⟩
    rw [hread] at a1
    split at a1
    · cases a1
    rename_i h0
    rw [Option.some.injEq] at a1
    subst a1
    rw [hga, Option.some.injEq] at a4
    subst a4
    rw [hfilter] at a6
    refine ⟨fun e => h0 (by rw [← hlen, e]; rfl), fun v hv => (hacc v).1 (List.all_eq_true.1 a5 v hv), S, a6, (shown_iff drv T hnd _ _ _).1 a7⟩
  · rintro ⟨h0, a5, S, a6, a7⟩
    have h0 : vs.length ≠ 0 := by rw [← hlen]; exact fun e => h0 (List.length_eq_zero_iff.1 e)
    rw [if_neg h0] at hread
    exact ⟨_, args, hread, rfl, by rw [hlen]; exact (phFrom_length pg _ _).symm, hga, List.all_eq_true.2 fun v hv => (hacc v).2 (a5 v hv), S, by rw [hfilter]; exact a6, (shown_iff drv T hnd _ _ _).2 a7⟩

variable (hrows : ∀ row ∈ T.rows, row.length = T.cols.length) (hknown : ∀ n ∈ ns, ∃ c ∈ T.cols, c.col.name = n)
include hrows hknown

open Classical in
/-- **C119**, end to end: `ExecuteListQuery` with the statement and its arguments returns exactly those rows, each converted once. -/
theorem C119_the_list {V E τ : Type} (dia : Dia) (nl : Bool) (st : Nat) (val : V → Option Given) (vs : List (Query.Arg V)) (args : List Given) (hsent : each (sentArg val) vs = some args) (h0 : vs ≠ [])
    (hs : ∀ v ∈ args, Spec.Sensible T.cols [(key, v)]) (conv : List Given → τ) (db : List (Query.Arg V) → Sql.Answer (List Given) E)
    (hdb : Spec.AnswersIn drv eq T val (build dia nl st (inCalls T.name ns key vs)).render db) :
    ∃ (S : List (List Cell)) (rows : List (List Given)), S.Perm (T.rows.filter fun row => decide (∃ v ∈ args, Spec.Matches eq T.cols [(key, v)] row)) ∧ Spec.Shown drv T ns S rows
      ∧ (Query.execList db (fun r => .ok (conv r)) (build dia nl st (inCalls T.name ns key vs)).args).1 = .ok (rows.map conv) := by
  have hlen : args.length = vs.length := (each_get _ hsent).1
  have hexact := C119_exactly_the_named_rows drv eq T hnd htn htw ns hn0 hn key hk dia nl st vs args hlen
  have h0' : args ≠ [] := fun e => h0 (List.length_eq_zero_iff.1 (by rw [← hlen, e]; rfl))
  obtain ⟨rows, hrs⟩ := each_some (fun row => each (selected drv T.cols row) ns) (T.rows.filter fun row => decide (∃ v ∈ args, Spec.Matches eq T.cols [(key, v)] row)) (by
    intro row hr
    have hr' := (List.mem_filter.1 hr).1
    obtain ⟨r, e⟩ := each_some (selected drv T.cols row) ns (by
      intro n hn
      obtain ⟨c, hc, rfl⟩ := hknown n hn
      obtain ⟨j, hj⟩ := List.getElem?_of_mem hc
      have hlt := (List.getElem?_eq_some_iff.1 hj).1
      have hl := hrows row hr'
      unfold selected
      rw [find_at hnd hj (List.getElem?_eq_getElem (by omega))]; rfl)
    rw [e]; rfl)
  obtain ⟨out, o1, o2⟩ := hdb vs args hsent ⟨rows, (hexact rows).2 ⟨h0', hs, _, List.Perm.refl _, (shown_iff drv T hnd _ _ _).1 hrs⟩⟩
  obtain ⟨-, -, S, s1, s2⟩ := (hexact out).1 o1
  refine ⟨S, out, s1, s2, ?_⟩
  rw [(in_text dia nl st T.name htw.1 htn ns hn0 (fun c hc => (hn c hc).1) key hk.1 vs).2, Query.execList_eq db _ vs _ o2 rfl rfl]
  simp only [Sql.Rows.fresh, Query.convertAll_clean, Query.liftErr]

open Classical in
/-- **C119**, by key: if the database's equality on the column is equality, and no two rows have the same key, then for every value listed there is exactly one row in the result if the table holds that key, and none
if not; no other row is in it, and the result is not longer than the list of values. -/
theorem C119_by_key {V E τ : Type} (dia : Dia) (nl : Bool) (st : Nat) (val : V → Option Given) (vs : List (Query.Arg V)) (args : List Given) (hsent : each (sentArg val) vs = some args) (h0 : vs ≠ [])
    (j : Nat) (c : TCol) (hc : T.cols[j]? = some c) (hck : c.col.name = key) (heq : ∀ x y, x ≠ .null → y ≠ .null → (eq c x y = true ↔ x = y))
    (hs : ∀ v ∈ args, ∃ y, store c.kind true v = some y ∧ y ≠ .null) (huniq : (T.rows.map fun row => row[j]?).Nodup) (conv : List Given → τ) (db : List (Query.Arg V) → Sql.Answer (List Given) E)
    (hdb : Spec.AnswersIn drv eq T val (build dia nl st (inCalls T.name ns key vs)).render db) :
    ∃ (S : List (List Cell)) (rows : List (List Given)), Spec.Shown drv T ns S rows
      ∧ (Query.execList db (fun r => .ok (conv r)) (build dia nl st (inCalls T.name ns key vs)).args).1 = .ok (rows.map conv)
      ∧ S.Nodup ∧ (∀ row, row ∈ S ↔ row ∈ T.rows ∧ ∃ v ∈ args, row[j]? = store c.kind true v)
      ∧ (S.map fun row => row[j]?).Nodup ∧ S.length ≤ vs.length := by
  obtain ⟨S, rows, s1, s2, s3⟩ := C119_the_list drv eq T hnd htn htw ns hn0 hn key hk hrows hknown dia nl st val vs args hsent h0
    (fun v hv => by
      intro p hp
      rw [List.mem_singleton] at hp
      subst hp
      obtain ⟨y, hy, -⟩ := hs v hv
      exact ⟨c, List.mem_of_getElem? hc, hck, by rw [hy]; rfl⟩) conv db hdb
  have hmatch : ∀ (row : List Cell), ∀ v ∈ args, (Spec.Matches eq T.cols [(key, v)] row ↔ row[j]? = store c.kind true v) := by
    intro row v hv
    obtain ⟨y, hy, hy0⟩ := hs v hv
    rw [hy, ← hck]
    exact matches_key eq hnd hc hy hy0 heq row
  have hmem : ∀ row, row ∈ S ↔ row ∈ T.rows ∧ ∃ v ∈ args, row[j]? = store c.kind true v := by
    intro row
    rw [s1.mem_iff, List.mem_filter, decide_eq_true_eq]
    exact and_congr_right fun _ => exists_congr fun v => and_congr_right fun hv => hmatch row v hv
  have hkeys : (S.map fun row => row[j]?).Nodup := ((s1.map _).nodup_iff).2 (huniq.sublist (List.filter_sublist.map _))
  have hsub : (S.map fun row => row[j]?) ⊆ args.map fun v => store c.kind true v := by
    intro x hx
    obtain ⟨row, hr, rfl⟩ := List.mem_map.1 hx
    obtain ⟨v, hv, e⟩ := ((hmem row).1 hr).2
    exact List.mem_map.2 ⟨v, hv, e.symm⟩
  have hle := (List.subperm_of_subset hkeys hsub).length_le
  rw [List.length_map, List.length_map, (each_get _ hsent).1] at hle
  exact ⟨S, rows, s2, s3, List.Nodup.of_map _ hkeys, hmem, hkeys, hle⟩

end

open Classical in
/-- **C119**, finding: a row whose column is NULL is never found, whatever the values, and a NULL among the values finds nothing. -/
theorem C119_null_is_never_found (eq : Equal) (cols : List TCol) (hnd : (cols.map (·.col.name)).Nodup) (j : Nat) (c : TCol) (hc : cols[j]? = some c) (row : List Cell) (v : Given)
    (h : row[j]? = some .null ∨ store c.kind true v = some .null) : ¬ Spec.Matches eq cols [(c.col.name, v)] row := by
  intro hm
  obtain ⟨j', c', x, y, h1, h2, h3, h4, h5, h6, -⟩ := hm (c.col.name, v) (by simp)
  have hjj : j' = j := by
    have a : (cols.map (·.col.name))[j']? = some c.col.name := by rw [List.getElem?_map, h1]; simpa using h2
    have b : (cols.map (·.col.name))[j]? = some c.col.name := by rw [List.getElem?_map, hc]; rfl
    exact (List.getElem?_inj (List.getElem?_eq_some_iff.1 a).1 hnd).1 (a.trans b.symm)
  subst hjj
  rw [hc] at h1
  cases h1
  rcases h with h | h
  · rw [h] at h3; exact h4 (Option.some.inj h3).symm
  · rw [h] at h5; exact h6 (Option.some.inj h5).symm

/-- **C119**, finding: `In()` without values writes `key IN ()`, which the database refuses. -/
theorem C119_no_values_refused {α : Type} (drv : Driver) (eq : Equal) (T : Table) (htn : Plain T.name) (htw : IsWord T.name) (ns : List Bytes) (hn0 : ns ≠ []) (hn : ∀ n ∈ ns, NameOK n ∧ IsWord n)
    (key : Bytes) (hk : NameOK key ∧ IsWord key) (dia : Dia) (nl : Bool) (st : Nat) (args : List Given) (out : List (List Given)) :
    ¬ T.MayAnswerIn drv eq (build dia nl st (inCalls T.name ns key ([] : List α))).render args out := by
  rintro ⟨q, ws, a1, -⟩
  rw [(in_text dia nl st T.name htw.1 htn ns hn0 (fun c hc => (hn c hc).1) key hk.1 []).1, in_read _ nl T.name htw ns hn0 (fun n h => (hn n h).2) key hk.2] at a1
  cases a1

/-! ### Concrete cases -/

example : (build .postgres false 0 (inCalls b!"users" [b!"id", b!"name"] b!"id" [8, 5, 8])).render = b!"SELECT id, name FROM users WHERE id IN ($1,$2,$3)" := by decide +kernel
example : (build .sqlserver false 0 (inCalls b!"users" [b!"id"] b!"id" [8, 5])).render = b!"SELECT id FROM users WHERE id IN (?,?)" := by decide +kernel
example : (build .default false 0 (inCalls b!"users" [b!"id"] b!"id" ([] : List Nat))).render = b!"SELECT id FROM users WHERE id IN ()" := by decide +kernel

/-- One value twice, one that no row has: one row. -/
example : twins.MayAnswerIn .pg plainEqual b!"SELECT id, name FROM users WHERE id IN ($1,$2,$3)" [goInt 8, goInt 5, goInt 8] [[.dv (.i64 8), .dv (.text b!"Ann")]] := by
  refine ⟨⟨[b!"id", b!"name"], b!"users", b!"id", [b!"$1", b!"$2", b!"$3"]⟩, [goInt 8, goInt 5, goInt 8], by decide +kernel, rfl, rfl, by decide +kernel, by decide +kernel, [[.int 8, .text b!"y", .text b!"Ann"]], ?_, by decide +kernel⟩
  rw [show twins.rows = [[.int 7, .text b!"x", .text b!"Ann"], [.int 8, .text b!"y", .text b!"Ann"]] from rfl, List.filter_cons_of_neg (by decide +kernel), List.filter_cons_of_pos (by decide +kernel), List.filter_nil]

open Classical in
/-- There always is a database as assumed. -/
theorem answers_in_exists {V : Type} (drv : Driver) (eq : Equal) (T : Table) (val : V → Option Given) (sql : Bytes) :
    ∃ db : List (Query.Arg V) → Sql.Answer (List Given) Unit, Spec.AnswersIn drv eq T val sql db := by
  refine ⟨fun passed => if h : ∃ args out, each (sentArg val) passed = some args ∧ T.MayAnswerIn drv eq sql args out then .ok (.fresh (h.choose_spec.choose.map fun r => ⟨r, none⟩) none none) else .error (), ?_⟩
  rintro passed args h ⟨out, ho⟩
  have hx : ∃ args out, each (sentArg val) passed = some args ∧ T.MayAnswerIn drv eq sql args out := ⟨args, out, h, ho⟩
  have hs := hx.choose_spec.choose_spec
  have key : ∀ a, each (sentArg val) passed = some a → ∀ o, T.MayAnswerIn drv eq sql a o → T.MayAnswerIn drv eq sql args o := by
    intro a ha o hao
    rw [h, Option.some.injEq] at ha
    exact ha ▸ hao
  exact ⟨hx.choose_spec.choose, key _ hs.1 _ hs.2, dif_pos hx⟩

open Classical in
/-- The other hypotheses of `C119_by_key` can be met. -/
example : (twins.cols.map (·.col.name)).Nodup ∧ (∀ row ∈ twins.rows, row.length = twins.cols.length) ∧ Plain twins.name ∧ IsWord twins.name
    ∧ (∃ c, twins.cols[0]? = some c ∧ c.col.name = b!"id" ∧ (∀ x y, x ≠ .null → y ≠ .null → ((fun _ x y => decide (x = y) : Equal) c x y = true ↔ x = y))
      ∧ ∀ v ∈ [goInt 8, goInt 5, goInt 8], ∃ y, store c.kind true v = some y ∧ y ≠ .null)
    ∧ (twins.rows.map fun row => row[0]?).Nodup
    ∧ each (sentArg (V := Given) some) [.int 8, .int 5, .int 8] = some [goInt 8, goInt 5, goInt 8] := by
  have h : ∀ v : Option Cell, v.any (fun x => !x.isNull) = true → ∃ y, v = some y ∧ y ≠ .null := by
    intro v h
    cases v with
    | none => cases h
    | some y => exact ⟨y, rfl, (isNull_iff y).1 h⟩
  refine ⟨by decide +kernel, by decide +kernel, by unfold Plain; decide, ⟨by decide, by decide⟩, ⟨_, rfl, rfl, ?_, ?_⟩, by simp [twins], by simp [each, sentArg, goInt]⟩
  · intro x y hx hy
    exact decide_eq_true_iff
  · intro v hv
    simp only [List.mem_cons, List.not_mem_nil, or_false] at hv
    rcases hv with rfl | rfl | rfl <;> exact h _ (by decide +kernel)

end Gen
