import Verif.Gen.Keyset
set_option linter.unusedVariables false
set_option linter.unusedSimpArgs false
set_option linter.unusedSectionVars false
/-!
The endpoint that pages by key: the database, the client, and what the client gets.  C118.
-/
namespace Gen
open Schema Types Xsql

/-! ### The database -/

/-- A query for the rows after a key, as read by the database. -/
structure AfterQuery where
  cols : List Bytes
  table : Bytes
  key : Bytes
  ph : Bytes
  order : Bytes
  limit : Bytes
  deriving DecidableEq

/-- `SELECT a , b FROM t WHERE k > ? ORDER BY k LIMIT ?`. -/
def parseAfter (sql : Bytes) : Option AfterQuery :=
  match words [] sql with
  | s :: r =>
    if s = b!"SELECT" then do
      let (cs, r) ← names b!"FROM" r
      match r with
      | [t, w, k, g, p, o, b, k', l, q] => if w = b!"WHERE" ∧ g = b!">" ∧ o = b!"ORDER" ∧ b = b!"BY" ∧ l = b!"LIMIT" then some ⟨cs, t, k, p, k', q⟩ else none
      | _ => none
    else none
  | _ => none

/-- How the database decides `column > value`. -/
abbrev Greater := TCol → Cell → Given → Bool

/-- What the database may answer: it takes the rows that meet the condition, in some order that agrees with the order column, and returns at most as many as `LIMIT` says. -/
def Table.MayAnswerAfter (drv : Driver) (gt : Greater) (le : Order) (T : Table) (sql : Bytes) (args : List Given) (out : List (List Given)) : Prop :=
  ∃ q v n c lim, parseAfter sql = some q ∧ q.table = T.name ∧ args.length = 2 ∧ groupArgs args 0 [q.ph, q.limit] = some [v, n]
    ∧ T.cols.find? (fun x => x.col.name == q.key) = some c ∧ q.order ∈ T.cols.map (·.col.name) ∧ rowCount n = some lim
    ∧ ∃ S : List (List Cell), S.Perm (T.rows.filter fun row => gt c (cellAt T.cols row q.key) v) ∧ S.Pairwise (fun a b => rowLe le T.cols a b [(q.order, false)] = true)
      ∧ each (fun row => each (selected drv T.cols row) q.cols) (S.take lim) = some out

/-! ### Specification -/

/-- Whole numbers are compared as numbers. -/
def Spec.ComparesInts (gt : Greater) (le : Order) : Prop :=
  (∀ c (a : Int) (n : Int64), gt c (.int a) (.dv (.i64 n)) = decide (n.toInt < a)) ∧ ∀ c (a b : Int), le c (.int a) (.int b) = decide (a ≤ b)

/-- Column number `j` is the key: positive 63-bit numbers, all different; the client finds the key of a row in what it is shown of it. -/
structure Spec.KeyColumn (drv : Driver) (T : Table) (ns : List Bytes) (key : Bytes) (j : Nat) (keyIn : List Given → Nat) : Prop where
  here : ∃ c, T.cols[j]? = some c ∧ c.col.name = key
  keys : ∀ row ∈ T.rows, ∃ k : Nat, 0 < k ∧ k < 2 ^ 63 ∧ row[j]? = some (.int k) ∧ ∀ r, Spec.Shown drv T ns [row] [r] → keyIn r = k
  unique : (T.rows.map fun row => row[j]?).Nodup

/-- A cursor that carries the key, as text, or as a number that a double can hold (`EncodeCursor`, query.go:152-160). -/
def Spec.Carries (k : Nat) (c : Bytes) : Prop := c = Query.textCursor k ∨ (k ≤ 2 ^ 53 ∧ c = Query.numCursor k)

/-- A cursor that cannot be read, or holds no key. -/
def Spec.NoKey (hex : Bytes → Option Dbl) (c : Bytes) : Prop := ∀ m, Query.decodeMap hex c = some (some m) → m.lookup b!"after" = none

/-- A connection that answers the query `sql` whenever the table has an answer to it, with one of the possible answers. -/
def Spec.AnswersAfter {V E : Type} (drv : Driver) (gt : Greater) (le : Order) (T : Table) (val : V → Option Given) (sql : Bytes) (db : List (Query.Arg V) → Sql.Answer (List Given) E) : Prop :=
  ∀ passed args, each (sentArg val) passed = some args → (∃ out, T.MayAnswerAfter drv gt le sql args out) →
    ∃ out, T.MayAnswerAfter drv gt le sql args out ∧ db passed = .ok (.fresh (out.map fun r => ⟨r, none⟩) none none)

/-- The number a client takes from a cursor: `DecodeCursor` (query.go:162-168), `values.MapAny.UInt64("after")` (0 if there is none), as `int64`; the arguments follow query.go:110-120. -/
def afterNumber (hex : Bytes → Option Dbl) (c : Bytes) : Int64 := Int64.ofInt ((Query.afterOf hex c).getD 0 : Nat)

/-- The arguments of a call (query.go:110-120): the number of the cursor and the limit, as plain arguments or set by `SetCursor` (params.go:194-200). -/
def Spec.AsksAfter {V : Type} (hex : Bytes → Option Dbl) (limit : UInt32) (ask : Bytes → Query.QArgs V) : Prop :=
  ∀ c, ask c = .plain [.int (afterNumber hex c).toInt, .u32 limit]
    ∨ ∃ l name pos b, limit = Query.pageSize l ∧ (Query.new name).setCursor l pos (.int (afterNumber hex c).toInt) = some b ∧ ask c = .params b

/-- Plain arguments. -/
def askAfter {V : Type} (hex : Bytes → Option Dbl) (limit : UInt32) (c : Bytes) : Query.QArgs V := .plain [.int (afterNumber hex c).toInt, .u32 limit]

/-! ### Reading the statement -/

theorem after_read (pg nl : Bool) (t : Bytes) (ht : IsWord t) (ns : List Bytes) (hn0 : ns ≠ []) (hn : ∀ n ∈ ns, IsWord n) (key : Bytes) (hk : IsWord key) :
    parseAfter (keysetText pg nl t ns key) = some ⟨ns, t, key, phText pg 1, key, phText pg 2⟩ := by
  have w1 : IsWord b!"SELECT" := ⟨by decide, by decide⟩
  have w2 : IsWord b!"FROM" := ⟨by decide, by decide⟩
  have w3 : IsWord b!"WHERE" := ⟨by decide, by decide⟩
  have w4 : IsWord b!">" := ⟨by decide, by decide⟩
  have w5 : IsWord b!"ORDER" := ⟨by decide, by decide⟩
  have w6 : IsWord b!"BY" := ⟨by decide, by decide⟩
  have w7 : IsWord b!"LIMIT" := ⟨by decide, by decide⟩
  have e : keysetText pg nl t ns key = b!"SELECT" ++ c!" " :: (joinBytes b!", " ns ++ c!" " :: ((if nl then b!"\n" else []) ++ (b!"FROM" ++ c!" " :: (t ++ c!" " ::
      ((if nl then b!"\n" else []) ++ (b!"WHERE" ++ c!" " :: (key ++ c!" " :: (b!">" ++ c!" " :: (phText pg 1 ++ c!" " :: ((if nl then b!"\n" else []) ++ (b!"ORDER" ++ c!" " :: (b!"BY" ++ c!" " :: (key ++ c!" " ::
      ((if nl then b!"\n" else []) ++ (b!"LIMIT" ++ c!" " :: phText pg 2))))))))))))))) := by
    simp [keysetText]
  unfold parseAfter
  rw [e, words_space w1, words_join ns hn0 hn, words_break, words_space w2, words_space ht, words_break, words_space w3, words_space hk, words_space w4, words_space (isWord_ph pg 1), words_break,
    words_space w5, words_space w6, words_space hk, words_break, words_space w7, words_end (isWord_ph pg 2)]
  simp only [if_true]
  rw [names_commas b!"FROM" (by decide) ns hn0]
  simp [bind]

theorem asks_after {V : Type} {x : Query.Arg V} {limit : UInt32} {q : Query.QArgs V}
    (h : q = .plain [x, .u32 limit] ∨ ∃ l name pos b, limit = Query.pageSize l ∧ (Query.new name).setCursor l pos x = some b ∧ q = .params b) : Query.AsksCursor q limit [x, .u32 limit] := by
  rcases h with rfl | ⟨l, name, pos, b, rfl, h, rfl⟩
  · exact ⟨rfl, [], _, _, rfl, .u32 limit⟩
  · unfold Query.Builder.setCursor at h
    obtain ⟨b', h1, rfl⟩ := Option.map_eq_some_iff.1 h
    unfold Query.Builder.set at h1
    split at h1
    · cases h1
    split at h1
    · cases h1
    rw [Option.some.injEq] at h1
    subst h1
    exact ⟨Query.coalesce_eq l, by simp [Query.coalesce_eq, Query.new]⟩

/-! ### What is answered -/

theorem forall2_filter {β γ : Type} {R : β → γ → Prop} {p : β → Bool} {q : γ → Bool} {l : List β} {r : List γ} (h : List.Forall₂ R l r) (hpq : ∀ a b, a ∈ l → R a b → p a = q b) : List.Forall₂ R (l.filter p) (r.filter q) := by
  induction h with
  | nil => exact .nil
  | @cons a b l r h1 h2 ih =>
    have := hpq a b (by simp) h1
    have ih' := ih fun a b ha hab => hpq a b (by simp [ha]) hab
    rw [List.filter_cons, List.filter_cons, ← this]
    cases p a
    · exact ih'
    · exact .cons h1 ih'

/-- The key in the row. -/
def keyAt (j : Nat) (row : List Cell) : Int := match row[j]? with
  | some (.int k) => k
  | _ => 0

section
variable (drv : Driver) (gt : Greater) (le : Order) (hcmp : Spec.ComparesInts gt le) (T : Table) (hnd : (T.cols.map (·.col.name)).Nodup) (hrows : ∀ row ∈ T.rows, row.length = T.cols.length)
  (htn : Plain T.name) (htw : IsWord T.name) (ns : List Bytes) (hn0 : ns ≠ []) (hn : ∀ n ∈ ns, NameOK n ∧ IsWord n) (hknown : ∀ n ∈ ns, ∃ c ∈ T.cols, c.col.name = n)
  (key : Bytes) (hk : NameOK key ∧ IsWord key) (j : Nat) (keyIn : List Given → Nat) (hkey : Spec.KeyColumn drv T ns key j keyIn)
include hcmp hnd htn htw hn0 hn hk hkey

omit hcmp htn htw hn0 hn hk in
theorem key_cell {row : List Cell} (hr : row ∈ T.rows) : ∃ k : Nat, 0 < k ∧ k < 2 ^ 63 ∧ row[j]? = some (.int k) ∧ keyAt j row = k ∧ cellAt T.cols row key = .int k := by
  obtain ⟨c, h1, rfl⟩ := hkey.here
  obtain ⟨k, k1, k2, k3, -⟩ := hkey.keys row hr
  refine ⟨k, k1, k2, k3, by rw [keyAt, k3], ?_⟩
  unfold cellAt
  rw [find_at hnd h1 k3]; rfl

/-- What the database may answer. -/
theorem after_answer {α : Type} (dia : Dia) (nl : Bool) (st : Nat) (a b : α) (x : Int64) {gl : Given} {L : Nat} (h1 : rowCount gl = some L) (out : List (List Given)) :
    T.MayAnswerAfter drv gt le (build dia nl st (keysetCalls T.name ns key a b)).render [.dv (.i64 x), gl] out
      ↔ ∃ S : List (List Cell), S.Perm (T.rows.filter fun row => decide (x.toInt < keyAt j row)) ∧ S.Pairwise (fun r s => keyAt j r ≤ keyAt j s) ∧ Spec.Shown drv T ns (S.take L) out := by
  rw [(keyset_text dia nl st T.name htw.1 htn ns hn0 (fun c hc => (hn c hc).1) key hk.1 a b).1]
  generalize decide (dia = .postgres) = pg
  have hread := after_read pg nl T.name htw ns hn0 (fun n h => (hn n h).2) key hk.2
  have hga : groupArgs [.dv (.i64 x), gl] 0 [phText pg 1, phText pg 2] = some [.dv (.i64 x), gl] := by
    have := all_args pg [.dv (.i64 x), gl]
    cases pg
    · exact this
    · exact this
  obtain ⟨c, hc, hck⟩ := hkey.here
  have hfind : T.cols.find? (fun x => x.col.name == key) = some c := by rw [← hck]; exact find_col_at j c hnd hc
  have hfilter : (T.rows.filter fun row => gt c (cellAt T.cols row key) (.dv (.i64 x))) = T.rows.filter fun row => decide (x.toInt < keyAt j row) := by
    refine List.filter_congr fun row hr => ?_
    obtain ⟨k, -, -, -, e1, e2⟩ := key_cell drv T hnd ns key j keyIn hkey hr
    rw [e2, hcmp.1, e1]
  have hpair : ∀ S : List (List Cell), S.Perm (T.rows.filter fun row => decide (x.toInt < keyAt j row)) →
      (S.Pairwise (fun a b => rowLe le T.cols a b [(key, false)] = true) ↔ S.Pairwise (fun r s => keyAt j r ≤ keyAt j s)) := by
    intro S hS
    have hm : ∀ a ∈ S, a ∈ T.rows := fun a ha => (List.mem_filter.1 (hS.mem_iff.1 ha)).1
    have key2 : ∀ a ∈ S, ∀ b ∈ S, (rowLe le T.cols a b [(key, false)] = true ↔ keyAt j a ≤ keyAt j b) := by
      intro a ha b hb
      obtain ⟨k, -, -, -, e1, e2⟩ := key_cell drv T hnd ns key j keyIn hkey (hm a ha)
      obtain ⟨k', -, -, -, e3, e4⟩ := key_cell drv T hnd ns key j keyIn hkey (hm b hb)
      simp only [rowLe, hfind, Bool.false_eq_true, if_false, e2, e4, hcmp.2, e1, e3]
      simp
    exact List.Pairwise.iff_of_mem fun {a b} ha hb => key2 a ha b hb
  constructor
  · rintro ⟨q, v, n, c', lim, a1, a2, a3, a4, a5, a6, a7, S, a8, a9, a10⟩
    rw [hread, Option.some.injEq] at a1
    subst a1
    rw [hga] at a4
    simp only [Option.some.injEq, List.cons.injEq, and_true] at a4
    obtain ⟨rfl, rfl⟩ := a4
    rw [hfind, Option.some.injEq] at a5
    subst a5
    rw [h1, Option.some.injEq] at a7
    subst a7
    rw [hfilter] at a8
    exact ⟨S, a8, (hpair S a8).1 a9, (shown_iff drv T hnd _ _ _).1 a10⟩
  · rintro ⟨S, a8, a9, a10⟩
    exact ⟨_, _, _, c, L, hread, rfl, rfl, hga, hfind, List.mem_map.2 ⟨c, List.mem_of_getElem? hc, hck⟩, h1, S, by rw [hfilter]; exact a8, (hpair S a8).2 a9, (shown_iff drv T hnd _ _ _).2 a10⟩

omit hcmp htn htw hn0 hn hk in
theorem key_inj {a b : List Cell} (ha : a ∈ T.rows) (hb : b ∈ T.rows) (h : keyAt j a = keyAt j b) : a = b := by
  obtain ⟨k, -, -, e1, e2, -⟩ := key_cell drv T hnd ns key j keyIn hkey ha
  obtain ⟨k', -, -, e3, e4, -⟩ := key_cell drv T hnd ns key j keyIn hkey hb
  have : (k : Int) = k' := by rw [← e2, ← e4, h]
  exact List.inj_on_of_nodup_map hkey.unique ha hb (by rw [e1, e3, this])

omit hcmp htn htw hn0 hn hk in
theorem key_shown {S : List (List Cell)} (hS : ∀ row ∈ S, row ∈ T.rows) {rows : List (List Given)} (h : Spec.Shown drv T ns S rows) :
    List.Forall₂ (fun row r => row ∈ T.rows ∧ Spec.Shown drv T ns [row] [r] ∧ keyAt j row = keyIn r ∧ 0 < keyIn r ∧ keyIn r < 2 ^ 63) S rows := by
  unfold Spec.Shown at h
  induction h with
  | nil => exact .nil
  | @cons a b l r h1 h2 ih =>
    refine .cons ?_ (ih fun row hr => hS row (by simp [hr]))
    have ha := hS a (by simp)
    have hs : Spec.Shown drv T ns [a] [b] := .cons h1 .nil
    obtain ⟨k, k1, k2, k3, k4⟩ := hkey.keys a ha
    have := k4 b hs
    exact ⟨ha, hs, by rw [keyAt, k3, this], by omega, by omega⟩

/-- The rows after the number in the cursor. -/
def afterShown (hex : Bytes → Option Dbl) (keyIn : List Given → Nat) (c : Bytes) (r : List Given) : Bool := decide ((afterNumber hex c).toInt < keyIn r)

/-- The database serves the client. -/
theorem after_serves {α V E : Type} (dia : Dia) (nl : Bool) (st : Nat) (a b : α) (val : V → Option Given) (db : List (Query.Arg V) → Sql.Answer (List Given) E)
    (hdb : Spec.AnswersAfter drv gt le T val (build dia nl st (keysetCalls T.name ns key a b)).render db) (hex : Bytes → Option Dbl) (limit : UInt32) (ask : Bytes → Query.QArgs V) (hask : Spec.AsksAfter hex limit ask)
    {S : List (List Cell)} (hS : S.Perm T.rows) (hS2 : S.Pairwise fun r s => keyAt j r < keyAt j s) {rows : List (List Given)} (hr : Spec.Shown drv T ns S rows) :
    Query.ServesCursor db rows (afterShown hex keyIn) ask limit := by
  intro c
  refine ⟨[.int (afterNumber hex c).toInt, .u32 limit], asks_after (hask c), ?_⟩
  have hsent : each (sentArg val) [.int (afterNumber hex c).toInt, .u32 limit] = some [.dv (.i64 (afterNumber hex c)), .dv (.i64 (Int64.ofInt limit.toNat))] := by
    simp [each, sentArg]
  have hks := key_shown drv T hnd ns key j keyIn hkey (fun row h => hS.mem_iff.1 h) hr
  have hfil : Spec.Shown drv T ns ((S.filter fun row => decide ((afterNumber hex c).toInt < keyAt j row)).take limit.toNat) ((rows.filter (afterShown hex keyIn c)).take limit.toNat) := by
    refine List.forall₂_take _ (List.Forall₂.imp (fun row r h => ?_) (forall2_filter hks ?_))
    · cases h.2.1 with
      | cons h1 h2 => exact h1
    · intro row r _ h
      rw [afterShown, h.2.2.1]
  have hexact := after_answer drv gt le hcmp T hnd htn htw ns hn0 hn key hk j keyIn hkey dia nl st a b (afterNumber hex c) (u32_count limit)
  have hperm := hS.filter fun row => decide ((afterNumber hex c).toInt < keyAt j row)
  have hsort : (S.filter fun row => decide ((afterNumber hex c).toInt < keyAt j row)).Pairwise fun r s => keyAt j r ≤ keyAt j s := (hS2.filter _).imp fun h => le_of_lt h
  obtain ⟨out, o1, o2⟩ := hdb _ _ hsent ⟨_, (hexact _).2 ⟨_, hperm, hsort, hfil⟩⟩
  obtain ⟨S', s1, s2, s3⟩ := (hexact out).1 o1
  have hmem : ∀ a ∈ S', a ∈ T.rows := fun a h => (List.mem_filter.1 (s1.mem_iff.1 h)).1
  have hmem2 : ∀ a ∈ S.filter fun row => decide ((afterNumber hex c).toInt < keyAt j row), a ∈ T.rows := fun a h => hS.mem_iff.1 (List.mem_filter.1 h).1
  have : S' = S.filter fun row => decide ((afterNumber hex c).toInt < keyAt j row) :=
    List.Perm.eq_of_pairwise (fun a b ha hb hab hba => key_inj drv T hnd ns key j keyIn hkey (hmem a ha) (hmem2 b hb) (le_antisymm hab hba)) s2 hsort (s1.trans hperm.symm)
  rw [this] at s3
  rw [o2, each_unique_shown hnd s3 hfil]

omit hcmp htn htw hn0 hn hk in
include hrows hknown in
/-- The rows by key, and what is shown of them. -/
theorem by_key : ∃ (S : List (List Cell)) (rows : List (List Given)), S.Perm T.rows ∧ S.Pairwise (fun r s => keyAt j r < keyAt j s) ∧ Spec.Shown drv T ns S rows := by
  have hp := List.mergeSort_perm T.rows fun r s => decide (keyAt j r ≤ keyAt j s)
  have hs := List.pairwise_mergeSort (le := fun r s => decide (keyAt j r ≤ keyAt j s)) (fun a b c h1 h2 => by simp only [decide_eq_true_eq] at *; omega)
    (fun a b => by simp only [Bool.or_eq_true, decide_eq_true_eq]; omega) T.rows
  generalize T.rows.mergeSort (fun r s => decide (keyAt j r ≤ keyAt j s)) = S at hp hs
  have hnd2 : S.Nodup := hp.nodup_iff.2 (List.Nodup.of_map _ hkey.unique)
  have hlt : S.Pairwise fun r s => keyAt j r < keyAt j s := by
    refine (List.Pairwise.and hs hnd2).imp_of_mem ?_
    intro a b ha hb h
    have h1 := of_decide_eq_true h.1
    rcases lt_or_eq_of_le h1 with h2 | h2
    · exact h2
    · exact absurd (key_inj drv T hnd ns key j keyIn hkey (hp.mem_iff.1 ha) (hp.mem_iff.1 hb) h2) h.2
  obtain ⟨rows, hrs⟩ := each_some (fun row => each (selected drv T.cols row) ns) S (by
    intro row hr
    have hr' := hp.mem_iff.1 hr
    obtain ⟨r, e⟩ := each_some (selected drv T.cols row) ns (by
      intro n hn
      obtain ⟨c, hc, rfl⟩ := hknown n hn
      obtain ⟨j, hj⟩ := List.getElem?_of_mem hc
      have hlt := (List.getElem?_eq_some_iff.1 hj).1
      have hl := hrows row hr'
      unfold selected
      rw [find_at hnd hj (List.getElem?_eq_getElem (by omega))]; rfl)
    rw [e]; rfl)
  exact ⟨S, rows, hp, hlt, (shown_iff drv T hnd _ _ _).1 hrs⟩

end

theorem no_key {hex : Bytes → Option Dbl} {c : Bytes} (h : Spec.NoKey hex c) : Query.afterOf hex c = none := by
  unfold Query.afterOf
  split
  · rename_i m hm
    rw [h m hm]; rfl
  · rfl

theorem carried {k : Nat} (hk : k < 2 ^ 63) (hex : Bytes → Option Dbl) {c : Bytes} (h : Spec.Carries k c) : (afterNumber hex c).toInt = k := by
  have : Query.afterOf hex c = some k := by
    rcases h with rfl | ⟨h1, rfl⟩
    · exact Query.after_text hex k (by omega)
    · exact Query.after_small hex k h1
  rw [afterNumber, this]
  exact Int64.toInt_ofInt_of_le (by simp) (by simp; omega)

/-! ### What the client gets -/

section
variable (drv : Driver) (gt : Greater) (le : Order) (hcmp : Spec.ComparesInts gt le) (ns : List Bytes) (hn0 : ns ≠ []) (hn : ∀ n ∈ ns, NameOK n ∧ IsWord n)
  (key : Bytes) (hk : NameOK key ∧ IsWord key) (j : Nat) (keyIn : List Given → Nat) {α V E τ : Type} (dia : Dia) (nl : Bool) (st : Nat) (a b : α) (val : V → Option Given) (hex : Bytes → Option Dbl)
  (conv : List Given → τ) (cursor : τ → Bytes) (limit : UInt32) (hl : limit ≠ 0) (ask : Bytes → Query.QArgs V) (hask : Spec.AsksAfter hex limit ask) (start : Bytes) (hstart : Spec.NoKey hex start ∨ Query.afterOf hex start = some 0)
include hcmp hn0 hn hk hl hstart hask

omit hcmp hn0 hn hk hl hask in
theorem start_zero : (afterNumber hex start).toInt = 0 := by
  have : (Query.afterOf hex start).getD 0 = 0 := by 
    rcases hstart with h | h
    · rw [no_key h]; rfl
    · rw [h]; rfl
  rw [afterNumber, this]; rfl

/-- **C118**: a client that follows the cursors receives every row of the table exactly once, by increasing key, and the loop ends after ⌊rows / limit⌋ + 1 calls. -/
theorem C118_every_row_once (T : Table) (hnd : (T.cols.map (·.col.name)).Nodup) (hrows : ∀ row ∈ T.rows, row.length = T.cols.length) (htn : Plain T.name) (htw : IsWord T.name)
    (hknown : ∀ n ∈ ns, ∃ c ∈ T.cols, c.col.name = n) (hkey : Spec.KeyColumn drv T ns key j keyIn) (hsize : T.rows.length < 2 ^ 32)
    (hcursor : ∀ row ∈ T.rows, ∀ r, Spec.Shown drv T ns [row] [r] → Spec.Carries (keyIn r) (cursor (conv r)))
    (db : List (Query.Arg V) → Sql.Answer (List Given) E) (hdb : Spec.AnswersAfter drv gt le T val (build dia nl st (keysetCalls T.name ns key a b)).render db) :
    ∃ S rows pages, S.Perm T.rows ∧ Spec.Shown drv T ns S rows ∧ (rows.Pairwise fun r s => keyIn r < keyIn s)
      ∧ Query.followCursor (fun c => Query.execCursor db (fun r => .ok (conv r)) cursor (ask c)) (T.rows.length / limit.toNat + 1) start = some pages
      ∧ pages.flatten = rows.map conv ∧ pages.length = T.rows.length / limit.toNat + 1 := by
  obtain ⟨S, rows, s1, s2, s3⟩ := by_key drv T hnd hrows ns hknown key j keyIn hkey
  have hks := key_shown drv T hnd ns key j keyIn hkey (fun row h => s1.mem_iff.1 h) s3
  have hserve := after_serves drv gt le hcmp T hnd htn htw ns hn0 hn key hk j keyIn hkey dia nl st a b val db hdb hex limit ask hask s1 s2 s3
  have hlen : T.rows.length = rows.length := by rw [← s1.length_eq]; exact List.Forall₂.length_eq s3
  have hof : ∀ r ∈ rows, (∃ row ∈ T.rows, Spec.Shown drv T ns [row] [r]) ∧ 0 < keyIn r ∧ keyIn r < 2 ^ 63 := by
    intro r hr
    obtain ⟨i, hi⟩ := List.getElem?_of_mem hr
    obtain ⟨hi1, hi2⟩ := List.getElem?_eq_some_iff.1 hi
    have := List.Forall₂.get hks (i := i) (by rw [List.Forall₂.length_eq s3]; exact hi1) hi1
    simp only [List.get_eq_getElem, hi2] at this
    exact ⟨⟨_, this.1, this.2.1⟩, this.2.2.2⟩
  have hpair : rows.Pairwise fun r s => keyIn r < keyIn s := by
    rw [List.pairwise_iff_getElem] at s2 ⊢
    intro x y hx hy hxy
    have l1 : x < S.length := by rw [List.Forall₂.length_eq s3]; exact hx
    have l2 : y < S.length := by rw [List.Forall₂.length_eq s3]; exact hy
    have e1 := (List.Forall₂.get hks l1 hx).2.2.1
    have e2 := (List.Forall₂.get hks l2 hy).2.2.1
    simp only [List.get_eq_getElem] at e1 e2
    have := s2 x y l1 l2 hxy
    rw [e1, e2] at this
    exact_mod_cast this
  have hafter : ∀ r ∈ rows, ∀ x, afterShown hex keyIn (cursor (conv r)) x = decide (keyIn r < keyIn x) := by
    intro r hr x
    obtain ⟨⟨row, h1, h2⟩, -, h3⟩ := hof r hr
    simp only [afterShown, carried h3 hex (hcursor row h1 r h2), Nat.cast_lt]
  have hord : Query.OrderedBy rows (afterShown hex keyIn) (fun r => cursor (conv r)) := by
    intro pre r post e
    have hr : r ∈ rows := by rw [e]; simp
    rw [e, List.pairwise_append, List.pairwise_cons] at hpair
    obtain ⟨_, ⟨h1, _⟩, h2⟩ := hpair
    refine ⟨fun x hx => ?_, ?_, fun x hx => ?_⟩
    · rw [hafter r hr]; exact decide_eq_false (by have := h2 x hx r (by simp); omega)
    · rw [hafter r hr]; exact decide_eq_false (Nat.lt_irrefl _)
    · rw [hafter r hr]; exact decide_eq_true (h1 x hx)
  obtain ⟨pages, p1, p2, p3⟩ := Query.C37_every_row_once db conv cursor rows (by rw [← hlen]; exact hsize) (afterShown hex keyIn) ask limit hl hserve hord start (by
    intro r hr
    obtain ⟨-, h, -⟩ := hof r hr
    rw [afterShown, start_zero hex start hstart]
    exact decide_eq_true (by exact_mod_cast h))
  rw [← hlen] at p1 p3
  exact ⟨S, rows, pages, s1, s3, hpair, p1, p2, p3⟩

variable (T : Table) (R : Nat → List (List Cell)) (hnd : (T.cols.map (·.col.name)).Nodup) (hrows : ∀ t, ∀ row ∈ R t, row.length = T.cols.length) (htn : Plain T.name) (htw : IsWord T.name)
    (hknown : ∀ n ∈ ns, ∃ c ∈ T.cols, c.col.name = n) (hkey : ∀ t, Spec.KeyColumn drv { T with rows := R t } ns key j keyIn)
    (hcursor : ∀ t, ∀ row ∈ R t, ∀ r, Spec.Shown drv T ns [row] [r] → Spec.Carries (keyIn r) (cursor (conv r)))
    (db : Nat → List (Query.Arg V) → Sql.Answer (List Given) E) (hdb : ∀ t, Spec.AnswersAfter drv gt le { T with rows := R t } val (build dia nl st (keysetCalls T.name ns key a b)).render (db t))
include hnd hrows htn htw hknown hkey hcursor hdb

theorem changing_core : ∃ data : Nat → List (List Given), (∀ t, Query.ServesCursor (db t) (data t) (afterShown hex keyIn) ask limit)
    ∧ Query.KeyedBy data (afterShown hex keyIn) (fun r => cursor (conv r)) keyIn ∧ (∀ t, ∀ r ∈ data t, afterShown hex keyIn start r = true)
    ∧ (∀ t, ∀ r ∈ data t, ∃ row ∈ R t, Spec.Shown drv T ns [row] [r] ∧ row[j]? = some (.int (keyIn r)))
    ∧ ∀ t, ∀ row ∈ R t, ∃ r ∈ data t, row[j]? = some (.int (keyIn r)) := by
  have hone : ∀ t, ∃ rows : List (List Given), Query.ServesCursor (db t) rows (afterShown hex keyIn) ask limit
      ∧ (rows.Pairwise fun r s => keyIn r < keyIn s)
      ∧ (∀ r ∈ rows, (∃ row ∈ R t, Spec.Shown drv T ns [row] [r] ∧ row[j]? = some (.int (keyIn r))) ∧ 0 < keyIn r ∧ keyIn r < 2 ^ 63)
      ∧ ∀ row ∈ R t, ∃ r ∈ rows, row[j]? = some (.int (keyIn r)) := by
    intro t
    obtain ⟨S, rows, s1, s2, s3⟩ := by_key drv { T with rows := R t } hnd (hrows t) ns hknown key j keyIn (hkey t)
    have hks := key_shown drv { T with rows := R t } hnd ns key j keyIn (hkey t) (fun row h => s1.mem_iff.1 h) s3
    have hat : ∀ row ∈ R t, ∀ r, Spec.Shown drv T ns [row] [r] → row[j]? = some (.int (keyIn r)) := by
      intro row hr r h
      obtain ⟨k, -, -, k3, k4⟩ := (hkey t).keys row hr
      rw [k3, k4 r h]
    refine ⟨rows, after_serves drv gt le hcmp { T with rows := R t } hnd htn htw ns hn0 hn key hk j keyIn (hkey t) dia nl st a b val (db t) (hdb t) hex limit ask hask s1 s2 s3, ?_, ?_, ?_⟩
    · rw [List.pairwise_iff_getElem] at s2 ⊢
      intro x y hx hy hxy
      have l1 : x < S.length := by rw [List.Forall₂.length_eq s3]; exact hx
      have l2 : y < S.length := by rw [List.Forall₂.length_eq s3]; exact hy
      have e1 := (List.Forall₂.get hks l1 hx).2.2.1
      have e2 := (List.Forall₂.get hks l2 hy).2.2.1
      simp only [List.get_eq_getElem] at e1 e2
      have := s2 x y l1 l2 hxy
      rw [e1, e2] at this
      exact_mod_cast this
    · intro r hr
      obtain ⟨i, hi⟩ := List.getElem?_of_mem hr
      obtain ⟨hi1, hi2⟩ := List.getElem?_eq_some_iff.1 hi
      have := List.Forall₂.get hks (i := i) (by rw [List.Forall₂.length_eq s3]; exact hi1) hi1
      simp only [List.get_eq_getElem, hi2] at this
      exact ⟨⟨_, this.1, this.2.1, hat _ this.1 r this.2.1⟩, this.2.2.2⟩
    · intro row hr
      obtain ⟨i, hi⟩ := List.getElem?_of_mem (s1.mem_iff.2 hr)
      obtain ⟨hi1, hi2⟩ := List.getElem?_eq_some_iff.1 hi
      have hi3 : i < rows.length := by rw [← List.Forall₂.length_eq s3]; exact hi1
      have := List.Forall₂.get hks hi1 hi3
      simp only [List.get_eq_getElem, hi2] at this
      exact ⟨_, List.getElem_mem hi3, hat row this.1 _ this.2.1⟩
  choose data d1 d2 d3 d4 using hone
  refine ⟨data, d1, ⟨d2, ?_⟩, ?_, fun t r hr => (d3 t r hr).1, d4⟩
  · intro t r hr x
    obtain ⟨⟨row, h1, h2, -⟩, -, h3⟩ := d3 t r hr
    simp only [afterShown, carried h3 hex (hcursor t row h1 r h2), Nat.cast_lt]
  · intro t r hr
    have h := (d3 t r hr).2.1
    rw [afterShown, start_zero hex start hstart]
    exact decide_eq_true (by exact_mod_cast h)

/-- **C118**, while rows are inserted, changed and deleted between the calls: if the loop ends, the keys shown increase strictly, every row shown was in the table when its page was asked for, and a key
that was in the table at every call was shown. -/
theorem C118_while_rows_change (n : Nat) (pages : List (List τ))
    (hf : Query.followCursorAt (fun t c => Query.execCursor (db t) (fun r => .ok (conv r)) cursor (ask c)) n 0 start = some pages) :
    ∃ shown : List (List (List Given)), pages = shown.map (·.map conv) ∧ (shown.flatten.Pairwise fun r s => keyIn r < keyIn s)
      ∧ (∀ t (page : List (List Given)), shown[t]? = some page → ∀ r ∈ page, ∃ row ∈ R t, Spec.Shown drv T ns [row] [r] ∧ row[j]? = some (.int (keyIn r)))
      ∧ ∀ k : Nat, (∀ t < pages.length, ∃ row ∈ R t, row[j]? = some (.int k)) → ∃ r ∈ shown.flatten, keyIn r = k := by
  obtain ⟨data, d1, d2, d3, d4, d5⟩ := changing_core drv gt le hcmp ns hn0 hn key hk j keyIn dia nl st a b val hex conv cursor limit hl ask hask start hstart T R hnd hrows htn htw hknown hkey hcursor db hdb
  obtain ⟨shown, h1, h2, h3, h4⟩ := Query.C117_cursor_shows_what_stays db conv cursor data (afterShown hex keyIn) keyIn ask limit hl d1 d2 start d3 n pages hf
  refine ⟨shown, h1, h2, fun t page hp r hr => d4 t r (h3 t page hp r hr), fun k hthere => h4 k fun t ht => ?_⟩
  obtain ⟨row, hr, e⟩ := hthere t ht
  obtain ⟨r, hr', e'⟩ := d5 t row hr
  rw [e'] at e
  simp only [Option.some.injEq, Cell.int.injEq, Nat.cast_inj] at e
  exact ⟨r, hr', e⟩

/-- If the keys ever in the table are among finitely many, the loop ends after at most ⌊number of keys / limit⌋ + 1 calls. -/
theorem C118_ends (U : Finset Nat) (hU : ∀ t, ∀ row ∈ R t, ∀ k : Nat, row[j]? = some (.int k) → k ∈ U) :
    ∃ pages, Query.followCursorAt (fun t c => Query.execCursor (db t) (fun r => .ok (conv r)) cursor (ask c)) (U.card / limit.toNat + 1) 0 start = some pages
      ∧ pages.length ≤ U.card / limit.toNat + 1 := by
  obtain ⟨data, d1, d2, d3, d4, d5⟩ := changing_core drv gt le hcmp ns hn0 hn key hk j keyIn dia nl st a b val hex conv cursor limit hl ask hask start hstart T R hnd hrows htn htw hknown hkey hcursor db hdb
  refine Query.C117_cursor_ends db conv cursor data (afterShown hex keyIn) keyIn ask limit hl d1 d2 start d3 U ?_
  intro t r hr
  obtain ⟨row, h1, -, h2⟩ := d4 t r hr
  exact hU t row h1 _ h2

end

/-! ### Equal keys, and concrete cases -/

/-- Integers by size; nothing else is greater than anything. -/
def plainGreater : Greater := fun _ x v => match x, v with
  | .int a, .dv (.i64 n) => decide (n.toInt < a)
  | _, _ => false

example : Spec.ComparesInts plainGreater plainOrder := ⟨fun _ _ _ => rfl, fun _ _ _ => rfl⟩

/-- The number in the first place. -/
def firstInt : List Given → Nat
  | .dv (.i64 n) :: _ => n.toInt.toNat
  | _ => 0

example : (build .postgres true 0 (keysetCalls b!"users" [b!"id", b!"name"] b!"id" 7 100)).render = b!"SELECT id, name \nFROM users \nWHERE id > $1 \nORDER BY id \nLIMIT $2" := by decide +kernel

/-- Both ways of passing the arguments; a limit of 0 means 500. -/
example (hex : Bytes → Option Dbl) : Spec.AsksAfter (V := Given) hex 20 (askAfter hex 20) := fun _ => Or.inl rfl
example (hex : Bytes → Option Dbl) : Spec.AsksAfter (V := Given) hex 500 (fun c => .params (((Query.new b!"users").setCursor 0 3 (.int (afterNumber hex c).toInt)).getD (Query.new []))) :=
  fun c => Or.inr ⟨0, b!"users", 3, _, rfl, rfl, rfl⟩

/-- The first call, without a cursor. -/
example (hex : Bytes → Option Dbl) : Spec.NoKey hex [] := fun m h => (nomatch h)

/-- Two rows with the same key. -/
def sameKey : Table := { twins with rows := [[.int 7, .text b!"x", .text b!"Ann"], [.int 7, .text b!"y", .text b!"Bob"]] }

/-- A database that holds them. -/
def sameKeyDb : List (Query.Arg Given) → Sql.Answer (List Given) Unit
  | [.int 0, .u32 1] => .ok (.fresh [⟨[.dv (.i64 7), .dv (.text b!"Ann")], none⟩] none none)
  | _ => .ok (.fresh [] none none)

/-- **C118**, equal keys: if two rows have the same key, a page may end between them, and the client never receives the second, although every answer is a possible one. -/
theorem C118_equal_keys_skip (hex : Bytes → Option Dbl) :
    (build .postgres false 0 (keysetCalls b!"users" [b!"id", b!"name"] b!"id" 0 1)).render = b!"SELECT id, name FROM users WHERE id > $1 ORDER BY id LIMIT $2"
    ∧ sameKey.MayAnswerAfter .pg plainGreater plainOrder b!"SELECT id, name FROM users WHERE id > $1 ORDER BY id LIMIT $2" [goInt 0, goInt 1] [[.dv (.i64 7), .dv (.text b!"Ann")]]
    ∧ sameKey.MayAnswerAfter .pg plainGreater plainOrder b!"SELECT id, name FROM users WHERE id > $1 ORDER BY id LIMIT $2" [goInt 7, goInt 1] []
    ∧ Query.followCursor (fun c => Query.execCursor sameKeyDb (fun r => .ok r) (fun r => Query.textCursor (firstInt r)) (askAfter hex 1 c)) 2 (Query.textCursor 0) = some [[[.dv (.i64 7), .dv (.text b!"Ann")]], []]
    ∧ sameKey.rows.length = 2 := by
  refine ⟨by decide +kernel, ?_, ?_, ?_, rfl⟩
  · refine ⟨⟨[b!"id", b!"name"], b!"users", b!"id", b!"$1", b!"id", b!"$2"⟩, goInt 0, goInt 1, _, 1, by decide +kernel, rfl, rfl, rfl, rfl, by decide +kernel, by decide +kernel, sameKey.rows, ?_, ?_, by decide +kernel⟩
    · rw [List.filter_eq_self.2]
      decide +kernel
    · rw [show sameKey.rows = [_, _] from rfl, List.pairwise_pair]; decide +kernel
  · refine ⟨⟨[b!"id", b!"name"], b!"users", b!"id", b!"$1", b!"id", b!"$2"⟩, goInt 7, goInt 1, _, 1, by decide +kernel, rfl, rfl, rfl, rfl, by decide +kernel, by decide +kernel, [], ?_, List.Pairwise.nil, rfl⟩
    rw [List.filter_eq_nil_iff.2]
    decide +kernel
  · have a0 : askAfter (V := Given) hex 1 (Query.textCursor 0) = .plain [.int 0, .u32 1] := by
      rw [askAfter, carried (by decide) hex (Or.inl rfl)]; rfl
    have a7 : askAfter (V := Given) hex 1 (Query.textCursor 7) = .plain [.int 7, .u32 1] := by
      rw [askAfter, carried (by decide) hex (Or.inl rfl)]; rfl
    have e1 : Query.execCursor sameKeyDb (fun r => Except.ok r) (fun r => Query.textCursor (firstInt r)) (askAfter hex 1 (Query.textCursor 0)) = .set [[.dv (.i64 7), .dv (.text b!"Ann")]] true (Query.textCursor 7) := by
      rw [a0]; rfl
    have e2 : ∃ c, Query.execCursor sameKeyDb (fun r => Except.ok r) (fun r => Query.textCursor (firstInt r)) (askAfter hex 1 (Query.textCursor 7)) = .set [] false c := by
      rw [a7]; exact ⟨_, rfl⟩
    obtain ⟨c, e2⟩ := e2
    simp only [Query.followCursor, e1, e2, if_true, Bool.false_eq_true, if_false, Option.map_some]

open Classical in
/-- There always is a database as assumed. -/
theorem answers_after_exists {V : Type} (drv : Driver) (gt : Greater) (le : Order) (T : Table) (val : V → Option Given) (sql : Bytes) :
    ∃ db : List (Query.Arg V) → Sql.Answer (List Given) Unit, Spec.AnswersAfter drv gt le T val sql db := by
  refine ⟨fun passed => if h : ∃ args out, each (sentArg val) passed = some args ∧ T.MayAnswerAfter drv gt le sql args out then .ok (.fresh (h.choose_spec.choose.map fun r => ⟨r, none⟩) none none) else .error (), ?_⟩
  rintro passed args h ⟨out, ho⟩
  have hx : ∃ args out, each (sentArg val) passed = some args ∧ T.MayAnswerAfter drv gt le sql args out := ⟨args, out, h, ho⟩
  have hs := hx.choose_spec.choose_spec
  have key : ∀ a, each (sentArg val) passed = some a → ∀ o, T.MayAnswerAfter drv gt le sql a o → T.MayAnswerAfter drv gt le sql args o := by
    intro a ha o hao
    rw [h, Option.some.injEq] at ha
    exact ha ▸ hao
  exact ⟨hx.choose_spec.choose, key _ hs.1 _ hs.2, dif_pos hx⟩

/-- The other hypotheses of `C118_every_row_once` can be met. -/
example : Spec.KeyColumn .pg twins [b!"id", b!"name"] b!"id" 0 firstInt ∧ (twins.cols.map (·.col.name)).Nodup ∧ (∀ row ∈ twins.rows, row.length = twins.cols.length)
    ∧ (∀ n ∈ [b!"id", b!"name"], (NameOK n ∧ IsWord n) ∧ ∃ c ∈ twins.cols, c.col.name = n) ∧ Plain twins.name ∧ IsWord twins.name
    ∧ ∀ r, Spec.Carries (firstInt r) (Query.textCursor (firstInt r)) := by
  refine ⟨⟨⟨_, rfl, rfl⟩, ?_, by simp [twins]⟩, by decide +kernel, by decide +kernel, ?_, by unfold Plain; decide, ⟨by decide, by decide⟩, fun r => Or.inl rfl⟩
  · have hone : ∀ (k : Nat) (row : List Cell) (r : List Given), row[0]? = some (.int k) → k < 2 ^ 63 → Spec.Shown .pg twins [b!"id", b!"name"] [row] [r] → firstInt r = k := by
      intro k row r hk h63 h
      cases h with
      | cons h1 _ =>
        cases h1 with
        | @cons _ v _ _ h2 _ =>
          obtain ⟨j, c, x, c1, c2, c3, rfl⟩ := h2
          have hj : j = 0 := by
            have hnd : (twins.cols.map (·.col.name)).Nodup := by decide +kernel
            have e1 : (twins.cols.map (·.col.name))[j]? = some b!"id" := by rw [List.getElem?_map, c1]; simp [c2]
            have e2 : (twins.cols.map (·.col.name))[0]? = some b!"id" := by decide +kernel
            obtain ⟨l1, -⟩ := List.getElem?_eq_some_iff.1 e1
            exact (List.getElem?_inj l1 hnd).1 (e1.trans e2.symm)
          subst hj
          rw [hk, Option.some.injEq] at c3
          subst c3
          show ((Int64.ofInt k).toInt).toNat = k
          rw [Int64.toInt_ofInt_of_le (by omega) (by omega)]; rfl
    intro row hr
    simp only [twins, List.mem_cons, List.not_mem_nil, or_false] at hr
    rcases hr with rfl | rfl
    · exact ⟨7, by decide, by decide, rfl, fun r h => hone 7 _ r rfl (by decide) h⟩
    · exact ⟨8, by decide, by decide, rfl, fun r h => hone 8 _ r rfl (by decide) h⟩
  · intro n hn
    simp only [List.mem_cons, List.not_mem_nil, or_false] at hn
    rcases hn with rfl | rfl
    · exact ⟨⟨⟨by decide, by unfold Plain; decide⟩, by decide, by decide⟩, by decide +kernel⟩
    · exact ⟨⟨⟨by decide, by unfold Plain; decide⟩, by decide, by decide⟩, by decide +kernel⟩

end Gen
