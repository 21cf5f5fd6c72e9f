import Verif.Gen.ClaimText
set_option linter.unusedVariables false
set_option linter.unusedSimpArgs false
set_option linter.unusedSectionVars false
/-!
Claiming rows: what the database makes of `UPDATE t SET … WHERE … RETURNING …`, what `ExecuteListQuery` returns, and what a history of such statements gives out.  C122.
-/
namespace Gen
open Schema Types Xsql

variable {α : Type}

/-! ### The database -/

/-- `UPDATE t SET a=x , b=y WHERE … RETURNING a , b`: the table, the assignments, the conditions, the columns. -/
def parseClaim (sql : Bytes) : Option (Bytes × List (Bytes × Bytes) × List (Bytes × Bytes) × List Bytes) :=
  match words [] sql with
  | u :: t :: s :: r =>
    if u = b!"UPDATE" ∧ s = b!"SET" then do
      let (ws, r) ← setList r
      let sets ← each splitEq ws
      let (conds, r) ← whereThen r
      match r with
      | w :: r =>
        if w = b!"RETURNING" then do
          let (rs, r) ← setList r
          if r = [] then some (t, sets, conds, rs) else none
        else none
      | [] => none
    else none
  | _ => none

/-- What the database may do: change the rows that meet the conditions, and answer with the listed columns of these as they are afterwards, in some order. -/
def Table.MayClaim (drv : Driver) (eq : Equal) (T : Table) (sql : Bytes) (args : List Given) (T' : Table) (out : List (List Given)) : Prop :=
  ∃ t sets conds rs vs, parseClaim sql = some (t, sets, conds, rs) ∧ t = T.name ∧ (∀ n ∈ sets.map (·.1), n ∈ T.cols.map (·.col.name)) ∧ (sets.map (·.1)).Nodup
    ∧ args.length = sets.length + conds.length ∧ groupArgs args 0 (sets.map (·.2) ++ conds.map (·.2)) = some vs
    ∧ (((conds.map (·.1)).zip (vs.drop sets.length)).all (accepts T.cols)) = true
    ∧ ∃ rows, each (fun row => if ((conds.map (·.1)).zip (vs.drop sets.length)).all (holds eq T.cols row) then assignRow T.cols ((sets.map (·.1)).zip (vs.take sets.length)) row else some row) T.rows = some rows
      ∧ T' = { T with rows := rows }
      ∧ ∃ W : List (List Cell), W.Perm (((T.rows.zip rows).filter fun p => ((conds.map (·.1)).zip (vs.drop sets.length)).all (holds eq T.cols p.1)).map (·.2)) ∧ each (fun row => each (selected drv T.cols row) rs) W = some out

/-! ### Specification -/

/-- `row'` is `row` with the assignments made: the assigned columns keep what they keep of the values, the others are as before. -/
def Spec.Assigned (cols : List TCol) (S : List (Bytes × Given)) (row row' : List Cell) : Prop :=
  row'.length = row.length ∧ ∀ (j : Nat) (c : TCol), cols[j]? = some c →
    (∀ v, (c.col.name, v) ∈ S → row'[j]? = (store c.kind c.col.nullable v).bind c.storage.apply) ∧ ((∀ v, (c.col.name, v) ∉ S) → row'[j]? = row[j]?)

open Classical in
/-- The rows that met the conditions, as they are afterwards. -/
noncomputable def Spec.changed (eq : Equal) (T : Table) (C : List (Bytes × Given)) (rows : List (List Cell)) : List (List Cell) :=
  ((T.rows.zip rows).filter fun p => decide (Spec.Matches eq T.cols C p.1)).map (·.2)

/-! ### Reading the statement -/

theorem words_list_then (pg nl : Bool) (i : Nat) (l : List (Bytes × α)) (h : ∀ p ∈ l, IsWord p.1) (s : Bytes) : ∀ (ws : List Bytes), ws ≠ [] → (∀ w ∈ ws, IsWord w) →
    words [] (joinBytes b!", " ws ++ whereText pg nl i l ++ c!" " :: s) = commas ws ++ (whereWords pg i l ++ words [] s) := by
  intro ws
  induction ws with
  | nil => intro h; exact absurd rfl h
  | cons a ws ih =>
    intro _ hw
    cases ws with
    | nil => rw [joinBytes, words_where_then (hw a (by simp)) pg nl i l h]; rfl
    | cons b ws =>
      rw [join_two, List.append_assoc, List.append_assoc, List.append_assoc]
      change words [] (a ++ c!"," :: (c!" " :: (joinBytes b!", " (b :: ws) ++ (whereText pg nl i l ++ c!" " :: s)))) = _
      rw [words_comma (hw a (by simp)), words_skip, ← List.append_assoc, ih (by simp) (fun w h => hw w (by simp [h]))]
      rfl

theorem setList_then {x : Bytes} (hx : x ≠ b!",") (R : List Bytes) : ∀ (ws : List Bytes), ws ≠ [] → setList (commas ws ++ x :: R) = some (ws, x :: R) := by
  intro ws
  induction ws with
  | nil => intro h; exact absurd rfl h
  | cons a ws ih =>
    intro _
    cases ws with
    | nil => simp [commas, setList, hx]
    | cons b ws =>
      have := ih (by simp)
      rw [commas, List.cons_append, List.cons_append, setList, if_pos rfl, this]; rfl
      simp

theorem claim_read (pg nl : Bool) (t : Bytes) (ht : IsWord t) (S C : List (Bytes × α)) (hS0 : S ≠ []) (hS : ∀ p ∈ S, IsWord p.1 ∧ c!"=" ∉ p.1) (hC : ∀ p ∈ C, IsWord p.1)
    (ret : List Bytes) (hr0 : ret ≠ []) (hr : ∀ n ∈ ret, IsWord n) :
    parseClaim (claimSql pg nl t S C ret) = some (t, phPairs pg 1 S, phPairs pg (1 + S.length) C, ret) := by
  have w1 : IsWord b!"UPDATE" := ⟨by decide, by decide⟩
  have w2 : IsWord b!"SET" := ⟨by decide, by decide⟩
  have w3 : IsWord b!"RETURNING" := ⟨by decide, by decide⟩
  have e : claimSql pg nl t S C ret = b!"UPDATE" ++ c!" " :: (t ++ c!" " :: ((if nl then b!"\n" else []) ++ (b!"SET" ++ c!" " :: (joinBytes b!", " (itemTexts pg b!"=" 1 S) ++ whereText pg nl (1 + S.length) C
      ++ c!" " :: ((if nl then b!"\n" else []) ++ (b!"RETURNING" ++ c!" " :: joinBytes b!", " ret)))))) := by
    simp [claimSql]
  have h0 : itemTexts pg b!"=" 1 S ≠ [] := by
    cases S with
    | nil => exact absurd rfl hS0
    | cons => simp [itemTexts]
  unfold parseClaim
  rw [e, words_space w1, words_space ht, words_break, words_space w2, words_list_then pg nl _ C hC _ _ h0 (items_words pg S 1 fun p hp => (hS p hp).1), words_break, words_space w3, words_last ret hr0 hr]
  simp only [and_self, if_true]
  have hsl : setList (commas (itemTexts pg b!"=" 1 S) ++ (whereWords pg (1 + S.length) C ++ b!"RETURNING" :: commas ret)) = some (itemTexts pg b!"=" 1 S, whereWords pg (1 + S.length) C ++ b!"RETURNING" :: commas ret) := by
    unfold whereWords
    by_cases h : C = []
    · rw [if_pos h, List.nil_append, setList_then (by decide) _ _ h0]
    · rw [if_neg h, List.cons_append, setList_then (by decide) _ _ h0]
  rw [hsl]
  simp only [bind, Option.bind_some, split_items pg S 1 (fun p hp => (hS p hp).2)]
  rw [whereThen_words pg _ C b!"RETURNING" (by decide)]
  simp only [Option.bind_some, if_true]
  rw [setList_last ret hr0]
  rfl

/-! ### The rows afterwards -/

theorem assigned_iff {cols : List TCol} (hnd : (cols.map (·.col.name)).Nodup) {S : List (Bytes × Given)} (hS : (S.map (·.1)).Nodup) {row row' : List Cell} (hl : row.length = cols.length) :
    assignRow cols S row = some row' ↔ Spec.Assigned cols S row row' := by
  constructor
  · intro h
    obtain ⟨r, h1, h2, h3⟩ := assign_ok hS hl (fun c hc v hv => by
      cases hp : c.put v with
      | none => rw [assign_refused hS hl hc hv hp] at h; cases h
      | some => rfl)
    rw [h1, Option.some.injEq] at h
    subst h
    exact ⟨h2, h3⟩
  · rintro ⟨h1, h2⟩
    obtain ⟨r, g1, g2, g3⟩ := assign_ok hS hl (fun c hc v hv => by
      obtain ⟨j, hj⟩ := List.getElem?_of_mem hc
      have hlt := (List.getElem?_eq_some_iff.1 hj).1
      have := (h2 j c hj).1 v hv
      rw [TCol.put, ← this, List.getElem?_eq_getElem (by omega)]; rfl)
    rw [g1, Option.some.injEq]
    refine List.ext_getElem? fun j => ?_
    by_cases hj : j < cols.length
    · have hc : cols[j]? = some cols[j] := List.getElem?_eq_getElem hj
      by_cases hv : ∃ v, (cols[j].col.name, v) ∈ S
      · obtain ⟨v, hv⟩ := hv
        rw [(g3 j _ hc).1 v hv, (h2 j _ hc).1 v hv]; rfl
      · rw [(g3 j _ hc).2 (fun v h => hv ⟨v, h⟩), (h2 j _ hc).2 (fun v h => hv ⟨v, h⟩)]
    · rw [List.getElem?_eq_none (by omega), List.getElem?_eq_none (by omega)]

theorem forall2_congr_mem {R R' : β → γ → Prop} : ∀ {l : List β} {r : List γ}, (∀ a ∈ l, ∀ b, R a b ↔ R' a b) → (List.Forall₂ R l r ↔ List.Forall₂ R' l r) := by
  intro l
  induction l with
  | nil => intro r _; cases r <;> simp
  | cons a l ih =>
    intro r h
    cases r with
    | nil => simp
    | cons b r => simp only [List.forall₂_cons, h a (by simp) b, ih fun a ha => h a (by simp [ha])]

section
variable (drv : Driver) (eq : Equal) (T : Table) (hnd : (T.cols.map (·.col.name)).Nodup) (htn : Plain T.name) (htw : IsWord T.name) (htz : ∃ z, T.name.getLast? = some z ∧ isCut z = false)
  (hrows : ∀ row ∈ T.rows, row.length = T.cols.length) (ret : List Bytes) (hr : Spec.Asked ret) (dia : Dia) (nl : Bool) (st : Nat)
include hnd htn htw htz hrows hr

open Classical in
/-- **C122**: on every dialect the statement built by `Update`, `Set` and `Where` calls in any order and `Returning` may be carried out in exactly these ways: each row that meets all conditions gets the assigned values in
the assigned columns and keeps the others, every other row stays as it is, and the answer is the columns asked for of the changed rows, as they are afterwards, each once, in some order; it is refused if a condition compares
a column with a value of another type, if a column does not exist or is assigned twice. -/
theorem C122_claimed {l : List (Step α)} (h : Spec.IsUpdate l) (hok : ∀ x ∈ l, x.OK) (hw : Spec.Words l) (hs0 : setsOf l ≠ []) (S C : List (Bytes × Given)) (hS : S.map (·.1) = (setsOf l).map (·.1))
    (hC : C.map (·.1) = (condsOf l).map (·.1)) (T' : Table) (out : List (List Given)) :
    T.MayClaim drv eq (build dia nl st (takeCalls T.name l ret)).render (S.map (·.2) ++ C.map (·.2)) T' out
      ↔ Spec.Sensible T.cols C ∧ (∀ p ∈ S, ∃ c ∈ T.cols, c.col.name = p.1) ∧ (S.map (·.1)).Nodup
        ∧ ∃ rows, List.Forall₂ (fun row row' => (Spec.Matches eq T.cols C row → Spec.Assigned T.cols S row row') ∧ (¬ Spec.Matches eq T.cols C row → row' = row)) T.rows rows
          ∧ T' = { T with rows := rows } ∧ ∃ W : List (List Cell), W.Perm (Spec.changed eq T C rows) ∧ Spec.Shown drv T ret W out := by
  rw [(claim_text dia nl st T.name htw.1 htn l h hok hs0 ret hr.1 (fun c hc => (hr.2 c hc).1) (last_of_join ret hr.1 fun c hc => (hr.2 c hc).2.2)).1]
  generalize decide (dia = .postgres) = pg
  have hread := claim_read pg nl T.name htw (setsOf l) (condsOf l) hs0 hw.2.1 hw.2.2 ret hr.1 (fun n hn => (hr.2 n hn).2.1)
  have hl1 : (setsOf l).length = S.length := by simpa using (congrArg List.length hS).symm
  have hl2 : (condsOf l).length = C.length := by simpa using (congrArg List.length hC).symm
  have hga : groupArgs (S.map (·.2) ++ C.map (·.2)) 0 ((phPairs pg 1 (setsOf l)).map (·.2) ++ (phPairs pg (1 + (setsOf l).length) (condsOf l)).map (·.2)) = some (S.map (·.2) ++ C.map (·.2)) := by
    have := all_args pg (S.map (·.2) ++ C.map (·.2))
    rw [phPairs_snd, phPairs_snd]
    rw [show (if pg then dollars 1 (setsOf l).length else List.replicate (setsOf l).length b!"?") ++ (if pg then dollars (1 + (setsOf l).length) (condsOf l).length else List.replicate (condsOf l).length b!"?")
      = (if pg then dollars 1 (S.map (·.2) ++ C.map (·.2)).length else List.replicate (S.map (·.2) ++ C.map (·.2)).length b!"?") by
        cases pg
        · simp [hl1, hl2]
        · simp only [if_true, dollars_append]; simp [hl1, hl2]]
    exact this
  have z1 : ((phPairs pg 1 (setsOf l)).map (·.1)).zip ((S.map (·.2) ++ C.map (·.2)).take (phPairs pg 1 (setsOf l)).length) = S := by
    rw [phPairs_fst, ← hS, phPairs_length, hl1, List.take_left' (by simp), zip_unzip]
  have z2 : ((phPairs pg (1 + (setsOf l).length) (condsOf l)).map (·.1)).zip ((S.map (·.2) ++ C.map (·.2)).drop (phPairs pg 1 (setsOf l)).length) = C := by
    rw [phPairs_fst, ← hC, phPairs_length, hl1, List.drop_left' (by simp), zip_unzip]
  have hk : (∀ n ∈ (phPairs pg 1 (setsOf l)).map (·.1), n ∈ T.cols.map (·.col.name)) ↔ ∀ p ∈ S, ∃ c ∈ T.cols, c.col.name = p.1 := by
    rw [phPairs_fst, ← hS]
    simp only [List.mem_map, forall_exists_index, and_imp, forall_apply_eq_imp_iff₂]
  have hchg : ∀ rows : List (List Cell), ((T.rows.zip rows).filter fun p => C.all (holds eq T.cols p.1)).map (·.2) = Spec.changed eq T C rows := by
    intro rows
    unfold Spec.changed
    congr 1
    exact List.filter_congr fun p _ => by rw [Bool.eq_iff_iff, matches_iff eq hnd C p.1, decide_eq_true_iff]
  have hall : (S.map (·.1)).Nodup → ∀ rows : List (List Cell), each (fun row => if C.all (holds eq T.cols row) = true then assignRow T.cols S row else some row) T.rows = some rows
      ↔ List.Forall₂ (fun row row' => (Spec.Matches eq T.cols C row → Spec.Assigned T.cols S row row') ∧ (¬ Spec.Matches eq T.cols C row → row' = row)) T.rows rows := by
    intro hSn rows
    rw [each_forall2]
    refine forall2_congr_mem fun row hm row' => ?_
    by_cases hM : Spec.Matches eq T.cols C row
    · rw [if_pos ((matches_iff eq hnd C row).2 hM), assigned_iff hnd hSn (hrows row hm)]
      exact ⟨fun h => ⟨fun _ => h, fun h' => absurd hM h'⟩, fun h => h.1 hM⟩
    · rw [if_neg (fun h' => hM ((matches_iff eq hnd C row).1 h')), Option.some.injEq]
      exact ⟨fun h => ⟨fun h' => absurd h' hM, fun _ => h.symm⟩, fun h => (h.2 hM).symm⟩
  constructor
  · rintro ⟨t, sets, conds, rs, vs, a1, a2, a3, a3', a4, a5, a6, rows, a7, a8, W, a9, a10⟩
    rw [hread, Option.some.injEq] at a1
    obtain ⟨rfl, rfl, rfl, rfl⟩ : T.name = t ∧ phPairs pg 1 (setsOf l) = sets ∧ phPairs pg (1 + (setsOf l).length) (condsOf l) = conds ∧ ret = rs := by simpa using a1
    rw [hga, Option.some.injEq] at a5
    subst a5
    rw [z2] at a6 a7 a9
    rw [z1] at a7
    rw [phPairs_fst, ← hS] at a3'
    rw [hchg] at a9
    exact ⟨(sensible_iff hnd C).1 a6, hk.1 a3, a3', rows, (hall a3' rows).1 a7, a8, W, a9, (shown_iff drv T hnd _ _ _).1 a10⟩
  · rintro ⟨a6, a3, a3', rows, a7, a8, W, a9, a10⟩
    refine ⟨_, _, _, _, _, hread, rfl, hk.2 a3, by rw [phPairs_fst, ← hS]; exact a3', by simp [phPairs_length, hl1, hl2], hga, by rw [z2]; exact (sensible_iff hnd C).2 a6, rows, ?_, a8, W, ?_, (shown_iff drv T hnd _ _ _).2 a10⟩
    · rw [z1, z2]; exact (hall a3' rows).2 a7
    · rw [z2, hchg]; exact a9

end

/-- A connection that, whenever it may run `sql`, runs it in one of the possible ways. -/
def Spec.Claims {V E : Type} (drv : Driver) (eq : Equal) (T : Table) (val : V → Option Given) (sql : Bytes) (db : List (Query.Arg V) → Sql.Answer (List Given) E × Table) : Prop :=
  ∀ passed args, each (sentArg val) passed = some args → (∃ T' out, T.MayClaim drv eq sql args T' out) →
    ∃ T' out, T.MayClaim drv eq sql args T' out ∧ db passed = (.ok (.fresh (out.map fun r => ⟨r, none⟩) none none), T')

section
variable (drv : Driver) (eq : Equal) (T : Table) (hnd : (T.cols.map (·.col.name)).Nodup) (htn : Plain T.name) (htw : IsWord T.name) (htz : ∃ z, T.name.getLast? = some z ∧ isCut z = false)
  (hrows : ∀ row ∈ T.rows, row.length = T.cols.length) (ret : List Bytes) (hr : Spec.Asked ret) (dia : Dia) (nl : Bool) (st : Nat) (hknown : ∀ n ∈ ret, ∃ c ∈ T.cols, c.col.name = n)
include hnd htn htw htz hrows hr hknown

open Classical in
/-- **C122**, end to end: `ExecuteListQuery` with the statement and its arguments returns the rows that were changed, as they are afterwards, each converted once. -/
theorem C122_the_caller_gets_the_changed_rows {V E τ : Type} (val : V → Option Given) {l : List (Step (Query.Arg V))} (h : Spec.IsUpdate l) (hok : ∀ x ∈ l, x.OK) (hw : Spec.Words l) (hs0 : setsOf l ≠ [])
    (S C : List (Bytes × Given)) (hS : Spec.Sent (sentArg val) (setsOf l) S) (hC : Spec.Sent (sentArg val) (condsOf l) C) (hs : Spec.Sensible T.cols C)
    (hSk : ∀ p ∈ S, ∃ c ∈ T.cols, c.col.name = p.1) (hSn : (S.map (·.1)).Nodup) (hput : ∀ c ∈ T.cols, ∀ v, (c.col.name, v) ∈ S → ∃ w, (store c.kind c.col.nullable v).bind c.storage.apply = some w)
    (conv : List Given → τ) (db : List (Query.Arg V) → Sql.Answer (List Given) E × Table) (hdb : Spec.Claims drv eq T val (build dia nl st (takeCalls T.name l ret)).render db) :
    ∃ (rows W : List (List Cell)) (out : List (List Given)),
      (db (build dia nl st (takeCalls T.name l ret)).args).2 = { T with rows := rows }
      ∧ List.Forall₂ (fun row row' => (Spec.Matches eq T.cols C row → Spec.Assigned T.cols S row row') ∧ (¬ Spec.Matches eq T.cols C row → row' = row)) T.rows rows
      ∧ W.Perm (Spec.changed eq T C rows) ∧ Spec.Shown drv T ret W out
      ∧ (Query.execList (fun p => (db p).1) (fun r => .ok (conv r)) (build dia nl st (takeCalls T.name l ret)).args).1 = .ok (out.map conv) := by
  have hexact := fun T' out => C122_claimed drv eq T hnd htn htw htz hrows ret hr dia nl st h hok hw hs0 S C (sent_fst hS).symm (sent_fst hC).symm T' out
  have hargs := (claim_text dia nl st T.name htw.1 htn l h hok hs0 ret hr.1 (fun c hc => (hr.2 c hc).1) (last_of_join ret hr.1 fun c hc => (hr.2 c hc).2.2)).2
  obtain ⟨rows, hrs⟩ := each_some (fun row => if C.all (holds eq T.cols row) = true then assignRow T.cols S row else some row) T.rows (by
    intro row hm
    split
    · obtain ⟨r, e, -⟩ := assign_ok hSn (hrows row hm) (fun c hc v hv => by obtain ⟨w, e⟩ := hput c hc v hv; rw [TCol.put, e]; rfl)
      rw [e]; rfl
    · rfl)
  have hF : List.Forall₂ (fun row row' => (Spec.Matches eq T.cols C row → Spec.Assigned T.cols S row row') ∧ (¬ Spec.Matches eq T.cols C row → row' = row)) T.rows rows := by
    refine (forall2_congr_mem fun row hm row' => ?_).1 ((each_forall2 _ _ _).1 hrs)
    by_cases hM : Spec.Matches eq T.cols C row
    · rw [if_pos ((matches_iff eq hnd C row).2 hM), assigned_iff hnd hSn (hrows row hm)]
      exact ⟨fun h => ⟨fun _ => h, fun h' => absurd hM h'⟩, fun h => h.1 hM⟩
    · rw [if_neg (fun h' => hM ((matches_iff eq hnd C row).1 h')), Option.some.injEq]
      exact ⟨fun h => ⟨fun h' => absurd h' hM, fun _ => h.symm⟩, fun h => (h.2 hM).symm⟩
  have hlen : ∀ row ∈ Spec.changed eq T C rows, row.length = T.cols.length := by
    intro row' hm
    obtain ⟨⟨row, row''⟩, hp, rfl⟩ := List.mem_map.1 hm
    obtain ⟨hz, hM⟩ := List.mem_filter.1 hp
    have hM := of_decide_eq_true hM
    rw [((List.forall₂_iff_zip.1 hF).2 hz).1 hM |>.1]
    exact hrows row (List.of_mem_zip hz).1
  obtain ⟨out0, hout0⟩ := each_some (fun row => each (selected drv T.cols row) ret) (Spec.changed eq T C rows) (by
    intro row hm
    obtain ⟨r, e⟩ := each_some (selected drv T.cols row) ret (by
      intro n hn
      obtain ⟨c, hc, rfl⟩ := hknown n hn
      obtain ⟨j, hj⟩ := List.getElem?_of_mem hc
      have hlt := (List.getElem?_eq_some_iff.1 hj).1
      have hl := hlen row hm
      unfold selected
      rw [find_at hnd hj (List.getElem?_eq_getElem (by omega))]; rfl)
    rw [e]; rfl)
  obtain ⟨T', out, o1, o2⟩ := hdb (build dia nl st (takeCalls T.name l ret)).args _ (by rw [hargs, each_append, sent_args hS, sent_args hC]; rfl)
    ⟨_, out0, (hexact _ out0).2 ⟨hs, hSk, hSn, rows, hF, rfl, _, List.Perm.refl _, (shown_iff drv T hnd _ _ _).1 hout0⟩⟩
  obtain ⟨-, -, -, rows', b1, b2, W, b3, b4⟩ := (hexact T' out).1 o1
  refine ⟨rows', W, out, by rw [o2]; exact b2, b1, b3, b4, ?_⟩
  rw [Query.execList_eq (fun p => (db p).1) _ _ _ (by rw [o2]) rfl rfl]
  simp only [Sql.Rows.fresh, Query.convertAll_clean, Query.liftErr]

end

/-! ### Claiming once -/

/-- A row that has been assigned `v` to column `n` no longer meets `n = u`. -/
def Spec.Ends (eq : Equal) (T : Table) (n : Bytes) (u v : Given) : Prop :=
  ∀ c ∈ T.cols, c.col.name = n → ∀ x, (store c.kind c.col.nullable v).bind c.storage.apply = some x → x = .null ∨ ∀ y, store c.kind true u = some y → eq c x y = false

/-- A history of claims, each by a statement of its own that has the condition `n = u` (and any others), assigns something to `n` that ends it (and may assign other columns, but not the key), and asks for columns of its own. -/
inductive Spec.Claimed (drv : Driver) (eq : Equal) (n : Bytes) (u : Given) (key : Bytes) : Table → List (List Bytes × List (List Given)) → Table → Prop
  | none (T : Table) : Spec.Claimed drv eq n u key T [] T
  | one {T T' T'' : Table} {out : List (List Given)} {rest : List (List Bytes × List (List Given))} (dia : Dia) (nl : Bool) (st : Nat) (l : List (Step Given)) (ret : List Bytes)
      (hl : Spec.IsUpdate l) (hok : ∀ x ∈ l, x.OK) (hw : Spec.Words l) (hr : Spec.Asked ret) (hc : (n, u) ∈ condsOf l) (hv : ∃ v, (n, v) ∈ setsOf l ∧ Spec.Ends eq T n u v) (hk : ∀ v, (key, v) ∉ setsOf l)
      (h : T.MayClaim drv eq (build dia nl st (takeCalls T.name l ret)).render (build dia nl st (takeCalls T.name l ret)).args T' out) (hrest : Spec.Claimed drv eq n u key T' rest T'') :
      Spec.Claimed drv eq n u key T ((ret, out) :: rest) T''

open Classical in
theorem claimed_free (drv : Driver) (eq : Equal) (n : Bytes) (u : Given) (key : Bytes) {T : Table} {steps : List (List Bytes × List (List Given))} {T' : Table} (h : Spec.Claimed drv eq n u key T steps T')
    (hnd : (T.cols.map (·.col.name)).Nodup) (htn : Plain T.name) (htw : IsWord T.name) (htz : ∃ z, T.name.getLast? = some z ∧ isCut z = false) (hrows : ∀ row ∈ T.rows, row.length = T.cols.length)
    (j : Nat) (c : TCol) (hj : T.cols[j]? = some c) (hkey : c.col.name = key) (huniq : (T.rows.map fun row => row[j]?).Nodup) :
    ∃ Ss : List (List (List Cell)), List.Forall₂ (fun step S => Spec.Shown drv T step.1 S step.2) steps Ss ∧ (Ss.flatten.map fun row => row[j]?).Nodup
      ∧ ∀ w ∈ Ss.flatten, ∃ row ∈ T.rows, Spec.Matches eq T.cols [(n, u)] row ∧ row[j]? = w[j]? := by
  induction h with
  | none T => exact ⟨[], .nil, List.nodup_nil, by simp⟩
  | @one T T' T'' out rest dia nl st l ret hl hok hw hr hc hv hk h _ ih =>
    obtain ⟨v, hv, hend⟩ := hv
    have hs0 : setsOf l ≠ [] := fun e => by rw [e] at hv; cases hv
    have hargs := (claim_text dia nl st T.name htw.1 htn l hl hok hs0 ret hr.1 (fun c hc => (hr.2 c hc).1) (last_of_join ret hr.1 fun c hc => (hr.2 c hc).2.2)).2
    rw [hargs] at h
    obtain ⟨-, -, -, rows, hF, b1, W, b2, b3⟩ := (C122_claimed drv eq T hnd htn htw htz hrows ret hr dia nl st hl hok hw hs0 (setsOf l) (condsOf l) rfl rfl T' out).1 h
    obtain ⟨hlen, hz⟩ := List.forall₂_iff_zip.1 hF
    have hcols : T'.cols = T.cols := by rw [b1]
    have hn : T'.name = T.name := by rw [b1]
    have hrw : T'.rows = rows := by rw [b1]
    have hkeyeq : ∀ p ∈ T.rows.zip rows, p.2[j]? = p.1[j]? := by
      rintro ⟨a, b⟩ hp
      by_cases hM : Spec.Matches eq T.cols (condsOf l) a
      · exact (((hz hp).1 hM).2 j c hj).2 (by rw [hkey]; exact hk)
      · rw [(hz hp).2 hM]
    have hfst : (T.rows.zip rows).map (·.1) = T.rows := List.map_fst_zip (by omega)
    have hsnd : (T.rows.zip rows).map (·.2) = rows := List.map_snd_zip (by omega)
    have hkeys : (rows.map fun row => row[j]?) = T.rows.map fun row => row[j]? := by
      conv_lhs => rw [← hsnd]
      conv_rhs => rw [← hfst]
      rw [List.map_map, List.map_map]
      exact List.map_congr_left fun p hp => hkeyeq p hp
    have huniq' : (rows.map fun row => row[j]?).Nodup := by rw [hkeys]; exact huniq
    have hlens : ∀ row ∈ rows, row.length = T.cols.length := by
      intro row hm
      rw [← hsnd] at hm
      obtain ⟨⟨a, b⟩, hp, rfl⟩ := List.mem_map.1 hm
      have ha := hrows a (List.of_mem_zip hp).1
      by_cases hM : Spec.Matches eq T.cols (condsOf l) a
      · rw [((hz hp).1 hM).1]; exact ha
      · rw [(hz hp).2 hM]; exact ha
    have hended : ∀ p ∈ T.rows.zip rows, Spec.Matches eq T.cols (condsOf l) p.1 → ¬ Spec.Matches eq T.cols [(n, u)] p.2 := by
      intro p hp hM hM'
      obtain ⟨i, d, x, y, e1, e2, e3, e4, e5, e6, e7⟩ := hM' (n, u) (by simp)
      have := (((hz hp).1 hM).2 i d e1).1 v (by rw [e2]; exact hv)
      rw [e3] at this
      rcases hend d (List.mem_of_getElem? e1) e2 x this.symm with hx | hx
      · exact e4 hx
      · rw [hx y e5] at e7; cases e7
    obtain ⟨Ss, i1, i2, i3⟩ := ih (by rw [hcols]; exact hnd) (by rw [hn]; exact htn) (by rw [hn]; exact htw) (by rw [hn]; exact htz) (by rw [hrw, hcols]; exact hlens) (by rw [hcols]; exact hj) (by rw [hrw]; exact huniq')
    have hsh : ∀ ns S out, Spec.Shown drv T' ns S out ↔ Spec.Shown drv T ns S out := fun ns S out => by unfold Spec.Shown; rw [hcols]
    rw [hrw, hcols] at i3
    have hW : ∀ w ∈ W, ∃ p ∈ T.rows.zip rows, Spec.Matches eq T.cols (condsOf l) p.1 ∧ p.2 = w := by
      intro w hw
      obtain ⟨p, hp, e⟩ := List.mem_map.1 (b2.mem_iff.1 hw)
      obtain ⟨h1, h2⟩ := List.mem_filter.1 hp
      exact ⟨p, h1, of_decide_eq_true h2, e⟩
    refine ⟨W :: Ss, .cons b3 (i1.imp fun _ _ h => (hsh _ _ _).1 h), ?_, ?_⟩
    · rw [List.flatten_cons, List.map_append, List.nodup_append]
      refine ⟨?_, i2, ?_⟩
      · refine ((b2.map _).nodup_iff).2 ?_
        have hu : ((T.rows.zip rows).map fun p => p.2[j]?).Nodup := by
          have := huniq'
          rw [← hsnd, List.map_map] at this
          exact this
        unfold Spec.changed
        rw [List.map_map]
        exact List.Nodup.sublist (List.filter_sublist.map _) hu
      · intro a ha b hb e
        obtain ⟨w, hw, rfl⟩ := List.mem_map.1 ha
        obtain ⟨w', hw', rfl⟩ := List.mem_map.1 hb
        obtain ⟨p, hp, hM, rfl⟩ := hW w hw
        obtain ⟨row, hrow, hfree, hke⟩ := i3 w' hw'
        have : p.2 = row := List.inj_on_of_nodup_map huniq' (List.of_mem_zip hp).2 hrow (by rw [e, hke])
        exact hended p hp hM (by rw [this]; exact hfree)
    · intro w hw
      rw [List.flatten_cons, List.mem_append] at hw
      rcases hw with hw | hw
      · obtain ⟨p, hp, hM, rfl⟩ := hW w hw
        exact ⟨p.1, (List.of_mem_zip hp).1, fun q hq => by rw [List.mem_singleton] at hq; subst hq; exact hM _ hc, (hkeyeq p hp).symm⟩
      · obtain ⟨row, hrow, hfree, hke⟩ := i3 w hw
        rw [← hsnd] at hrow
        obtain ⟨p, hp, rfl⟩ := List.mem_map.1 hrow
        have hM : ¬ Spec.Matches eq T.cols (condsOf l) p.1 := fun hM => hended p hp hM hfree
        have e := (hz hp).2 hM
        exact ⟨p.1, (List.of_mem_zip hp).1, by rw [← e]; exact hfree, by rw [← e]; exact hke⟩

/-- **C122**, histories: workers that claim rows by a condition their assignment ends never get the same row: in any history of such statements, with whatever further conditions, assignments and columns, in whatever order their
rows are answered, no key is given out twice, if no two rows had the same key at the start and no statement assigns the key; and each key given out is that of a row that was free at the start. -/
theorem C122_no_key_is_claimed_twice (drv : Driver) (eq : Equal) (n : Bytes) (u : Given) (key : Bytes) {T : Table} {steps : List (List Bytes × List (List Given))} {T' : Table}
    (h : Spec.Claimed drv eq n u key T steps T') (hnd : (T.cols.map (·.col.name)).Nodup) (htn : Plain T.name) (htw : IsWord T.name) (htz : ∃ z, T.name.getLast? = some z ∧ isCut z = false)
    (hrows : ∀ row ∈ T.rows, row.length = T.cols.length) (j : Nat) (c : TCol) (hj : T.cols[j]? = some c) (hkey : c.col.name = key) (huniq : (T.rows.map fun row => row[j]?).Nodup) :
    ∃ Ss : List (List (List Cell)), List.Forall₂ (fun step S => Spec.Shown drv T step.1 S step.2) steps Ss ∧ (Ss.flatten.map fun row => row[j]?).Nodup
      ∧ ∀ w ∈ Ss.flatten, ∃ row ∈ T.rows, Spec.Matches eq T.cols [(n, u)] row ∧ row[j]? = w[j]? :=
  claimed_free drv eq n u key h hnd htn htw htz hrows j c hj hkey huniq

/-! ### Concrete cases -/

/-- A worker takes Ann's row 8, another one all of Ann's. -/
def claimOne : List (Step Given) := [.cond b!"name" (.dv (.text b!"Ann")), .update, .set b!"name" (.dv (.text b!"w1")), .cond b!"id" (goInt 8)]
def claimRest : List (Step Given) := [.update, .set b!"name" (.dv (.text b!"w2")), .cond b!"name" (.dv (.text b!"Ann"))]

example : (build .postgres false 0 (takeCalls b!"users" claimOne [b!"id", b!"secret"])).render = b!"UPDATE users SET name=$1 WHERE name = $2 AND id = $3 RETURNING id, secret" := by decide +kernel
example : (build .sqlserver false 0 (takeCalls b!"users" claimRest [b!"id"])).render = b!"UPDATE users SET name=? WHERE name = ? RETURNING id" := by decide +kernel

instance claimDec : DecidableEq (Option (Bytes × List (Bytes × Bytes) × List (Bytes × Bytes) × List Bytes)) :=
  letI : DecidableEq (List (Bytes × Bytes) × List Bytes) := inferInstance
  letI : DecidableEq (List (Bytes × Bytes) × List (Bytes × Bytes) × List Bytes) := inferInstance
  letI : DecidableEq (Bytes × List (Bytes × Bytes) × List (Bytes × Bytes) × List Bytes) := inferInstance
  inferInstance

/-- One row is claimed, the other stays. -/
theorem claimOne_claimed : twins.MayClaim .pg plainEqual b!"UPDATE users SET name=$1 WHERE name = $2 AND id = $3 RETURNING id, secret" [.dv (.text b!"w1"), .dv (.text b!"Ann"), goInt 8]
    { twins with rows := [[.int 7, .text b!"x", .text b!"Ann"], [.int 8, .text b!"y", .text b!"w1"]] } [[.dv (.i64 8), .dv (.text b!"y")]] := by
  refine ⟨b!"users", [(b!"name", b!"$1")], [(b!"name", b!"$2"), (b!"id", b!"$3")], [b!"id", b!"secret"], [.dv (.text b!"w1"), .dv (.text b!"Ann"), goInt 8], by decide +kernel, rfl, by decide +kernel, by decide +kernel, rfl,
    by decide +kernel, by decide +kernel, [[.int 7, .text b!"x", .text b!"Ann"], [.int 8, .text b!"y", .text b!"w1"]], ?_, rfl, [[.int 8, .text b!"y", .text b!"w1"]], ?_, by decide +kernel⟩
  · rw [show twins.rows = [[.int 7, .text b!"x", .text b!"Ann"], [.int 8, .text b!"y", .text b!"Ann"]] from rfl, each_forall2]
    refine .cons ?_ (.cons ?_ .nil)
    · rw [if_neg (by decide +kernel)]
    · rw [if_pos (by decide +kernel)]; rfl
  · rw [show twins.rows = [[.int 7, .text b!"x", .text b!"Ann"], [.int 8, .text b!"y", .text b!"Ann"]] from rfl, List.zip_cons_cons, List.zip_cons_cons, List.zip_nil_right, List.filter_cons_of_neg (by decide +kernel),
      List.filter_cons_of_pos (by decide +kernel), List.filter_nil]
    exact List.Perm.refl _

theorem claimRest_claimed : ({ twins with rows := [[.int 7, .text b!"x", .text b!"Ann"], [.int 8, .text b!"y", .text b!"w1"]] } : Table).MayClaim .pg plainEqual b!"UPDATE users SET name=$1 WHERE name = $2 RETURNING id, secret"
    [.dv (.text b!"w2"), .dv (.text b!"Ann")] { twins with rows := [[.int 7, .text b!"x", .text b!"w2"], [.int 8, .text b!"y", .text b!"w1"]] } [[.dv (.i64 7), .dv (.text b!"x")]] := by
  refine ⟨b!"users", [(b!"name", b!"$1")], [(b!"name", b!"$2")], [b!"id", b!"secret"], [.dv (.text b!"w2"), .dv (.text b!"Ann")], by decide +kernel, rfl, by decide +kernel, by decide +kernel, rfl,
    by decide +kernel, by decide +kernel, [[.int 7, .text b!"x", .text b!"w2"], [.int 8, .text b!"y", .text b!"w1"]], ?_, rfl, [[.int 7, .text b!"x", .text b!"w2"]], ?_, by decide +kernel⟩
  · rw [each_forall2]
    refine .cons ?_ (.cons ?_ .nil)
    · rw [if_pos (by decide +kernel)]; rfl
    · rw [if_neg (by decide +kernel)]
  · rw [List.zip_cons_cons, List.zip_cons_cons, List.zip_nil_right, List.filter_cons_of_pos (by decide +kernel), List.filter_cons_of_neg (by decide +kernel), List.filter_nil]
    exact List.Perm.refl _

theorem ends_ann {rows : List (List Cell)} {w : Bytes} (hw : w ≠ b!"Ann") : Spec.Ends plainEqual { twins with rows := rows } b!"name" (.dv (.text b!"Ann")) (.dv (.text w)) := by
  intro c hc hn x hx
  have hc' : c ∈ shop.cols := hc
  simp only [shop, List.mem_cons, List.not_mem_nil, or_false] at hc'
  rcases hc' with rfl | rfl | rfl
  · exact absurd hn (by decide)
  · exact absurd hn (by decide)
  · right
    intro y hy
    have hx' : x = .text w := (Option.some.inj hx).symm
    have hy' : y = .text b!"Ann" := (Option.some.inj hy).symm
    rw [hx', hy']
    exact beq_false_of_ne hw

/-- A history as assumed, of two claims. -/
example : Spec.Claimed .pg plainEqual b!"name" (.dv (.text b!"Ann")) b!"id" twins [([b!"id", b!"secret"], [[.dv (.i64 8), .dv (.text b!"y")]]), ([b!"id", b!"secret"], [[.dv (.i64 7), .dv (.text b!"x")]])]
    { twins with rows := [[.int 7, .text b!"x", .text b!"w2"], [.int 8, .text b!"y", .text b!"w1"]] } := by
  refine .one .postgres false 0 claimOne [b!"id", b!"secret"] ⟨[.cond b!"name" (.dv (.text b!"Ann"))], [.set b!"name" (.dv (.text b!"w1")), .cond b!"id" (goInt 8)], rfl, ?_, ?_⟩ ?_ ⟨?_, ?_, ?_⟩ asked_id_secret ?_
    ⟨.dv (.text b!"w1"), ?_, ends_ann (by decide)⟩ ?_ (T' := { twins with rows := [[.int 7, .text b!"x", .text b!"Ann"], [.int 8, .text b!"y", .text b!"w1"]] }) ?_
    (.one .postgres false 0 claimRest [b!"id", b!"secret"] ⟨[], [.set b!"name" (.dv (.text b!"w2")), .cond b!"name" (.dv (.text b!"Ann"))], rfl, ?_, ?_⟩ ?_ ⟨?_, ?_, ?_⟩ asked_id_secret ?_
      ⟨.dv (.text b!"w2"), ?_, ends_ann (by decide)⟩ ?_ ?_ (.none _))
  · intro s hs; rw [List.mem_singleton] at hs; exact ⟨_, _, hs⟩
  · intro s hs
    simp only [List.mem_cons, List.not_mem_nil, or_false] at hs
    rcases hs with rfl | rfl
    · exact .inr ⟨_, _, rfl⟩
    · exact .inl ⟨_, _, rfl⟩
  · intro x hx
    simp only [claimOne, List.mem_cons, List.not_mem_nil, or_false] at hx
    rcases hx with rfl | rfl | rfl | rfl
    · exact ⟨by decide, by unfold Plain; decide⟩
    · trivial
    · exact ⟨by decide, by unfold Plain; decide⟩
    · exact ⟨by decide, by unfold Plain; decide⟩
  · intro n hn; simp [claimOne, colsOf] at hn
  · intro p hp
    simp only [claimOne, setsOf, List.filterMap_cons, List.filterMap_nil, List.mem_cons, List.not_mem_nil, or_false] at hp
    subst hp; exact ⟨⟨by decide, by decide⟩, by decide⟩
  · intro p hp
    simp only [claimOne, condsOf, List.filterMap_cons, List.filterMap_nil, List.mem_cons, List.not_mem_nil, or_false] at hp
    rcases hp with rfl | rfl <;> exact ⟨by decide, by decide⟩
  · exact List.mem_cons_self ..
  · exact List.mem_cons_self ..
  · intro v hv
    have : (b!"id", v) ∈ [(b!"name", (.dv (.text b!"w1") : Given))] := hv
    rw [List.mem_singleton] at this
    exact absurd (show b!"id" = b!"name" from congrArg Prod.fst this) (by decide)
  · rw [show (build .postgres false 0 (takeCalls twins.name claimOne [b!"id", b!"secret"])).render = b!"UPDATE users SET name=$1 WHERE name = $2 AND id = $3 RETURNING id, secret" by decide +kernel,
      show (build .postgres false 0 (takeCalls twins.name claimOne [b!"id", b!"secret"])).args = [.dv (.text b!"w1"), .dv (.text b!"Ann"), goInt 8] from rfl]
    exact claimOne_claimed
  · intro s hs; cases hs
  · intro s hs
    simp only [List.mem_cons, List.not_mem_nil, or_false] at hs
    rcases hs with rfl | rfl
    · exact .inr ⟨_, _, rfl⟩
    · exact .inl ⟨_, _, rfl⟩
  · intro x hx
    simp only [claimRest, List.mem_cons, List.not_mem_nil, or_false] at hx
    rcases hx with rfl | rfl | rfl
    · trivial
    · exact ⟨by decide, by unfold Plain; decide⟩
    · exact ⟨by decide, by unfold Plain; decide⟩
  · intro n hn; simp [claimRest, colsOf] at hn
  · intro p hp
    simp only [claimRest, setsOf, List.filterMap_cons, List.filterMap_nil, List.mem_cons, List.not_mem_nil, or_false] at hp
    subst hp; exact ⟨⟨by decide, by decide⟩, by decide⟩
  · intro p hp
    simp only [claimRest, condsOf, List.filterMap_cons, List.filterMap_nil, List.mem_cons, List.not_mem_nil, or_false] at hp
    subst hp; exact ⟨by decide, by decide⟩
  · exact List.mem_cons_self ..
  · exact List.mem_cons_self ..
  · intro v hv
    have : (b!"id", v) ∈ [(b!"name", (.dv (.text b!"w2") : Given))] := hv
    rw [List.mem_singleton] at this
    exact absurd (show b!"id" = b!"name" from congrArg Prod.fst this) (by decide)
  · rw [show (build .postgres false 0 (takeCalls ({ twins with rows := [[.int 7, .text b!"x", .text b!"Ann"], [.int 8, .text b!"y", .text b!"w1"]] } : Table).name claimRest [b!"id", b!"secret"])).render
        = b!"UPDATE users SET name=$1 WHERE name = $2 RETURNING id, secret" by decide +kernel,
      show (build .postgres false 0 (takeCalls ({ twins with rows := [[.int 7, .text b!"x", .text b!"Ann"], [.int 8, .text b!"y", .text b!"w1"]] } : Table).name claimRest [b!"id", b!"secret"])).args = [.dv (.text b!"w2"), .dv (.text b!"Ann")] from rfl]
    exact claimRest_claimed

/-- **C122**, finding: the answer holds the values after the change, so a column the statement assigns is never seen as it was; and a claim that does not end its condition can be repeated: here the same row is given out
by the same statement, and the table is as before, ready to give it out again. -/
theorem C122_a_claim_that_does_not_end_its_condition : ({ twins with rows := [[.int 7, .text b!"x", .text b!"Ann"]] } : Table).MayClaim .pg plainEqual b!"UPDATE users SET name=$1 WHERE name = $2 RETURNING id"
    [.dv (.text b!"Ann"), .dv (.text b!"Ann")] { twins with rows := [[.int 7, .text b!"x", .text b!"Ann"]] } [[.dv (.i64 7)]] := by
  refine ⟨b!"users", [(b!"name", b!"$1")], [(b!"name", b!"$2")], [b!"id"], [.dv (.text b!"Ann"), .dv (.text b!"Ann")], by decide +kernel, rfl, by decide +kernel, by decide +kernel, rfl,
    by decide +kernel, by decide +kernel, [[.int 7, .text b!"x", .text b!"Ann"]], ?_, rfl, [[.int 7, .text b!"x", .text b!"Ann"]], ?_, by decide +kernel⟩
  · rw [each_forall2]
    refine .cons ?_ .nil
    rw [if_pos (by decide +kernel)]; rfl
  · rw [List.zip_cons_cons, List.zip_nil_right, List.filter_cons_of_pos (by decide +kernel), List.filter_nil]
    exact List.Perm.refl _

open Classical in
/-- There always is a database as assumed. -/
theorem claims_exists {V : Type} (drv : Driver) (eq : Equal) (T : Table) (val : V → Option Given) (sql : Bytes) :
    ∃ db : List (Query.Arg V) → Sql.Answer (List Given) Unit × Table, Spec.Claims drv eq T val sql db := by
  refine ⟨fun passed => if h : ∃ p : List Given × Table × List (List Given), each (sentArg val) passed = some p.1 ∧ T.MayClaim drv eq sql p.1 p.2.1 p.2.2
    then (.ok (.fresh (h.choose.2.2.map fun r => ⟨r, none⟩) none none), h.choose.2.1) else (.error (), T), ?_⟩
  rintro passed args h ⟨T', out, ho⟩
  have hx : ∃ p : List Given × Table × List (List Given), each (sentArg val) passed = some p.1 ∧ T.MayClaim drv eq sql p.1 p.2.1 p.2.2 := ⟨(args, T', out), h, ho⟩
  have hs := hx.choose_spec
  have e : args = hx.choose.1 := Option.some.inj (h.symm.trans hs.1)
  exact ⟨hx.choose.2.1, hx.choose.2.2, by rw [e]; exact hs.2, dif_pos hx⟩

end Gen
