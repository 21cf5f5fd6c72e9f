import Verif.Gen.ModifyText
set_option linter.unusedVariables false
set_option linter.unusedSimpArgs false
set_option linter.unusedSectionVars false
/-!
`UPDATE`, `DELETE` and `SELECT` with conditions, built with calls in any order (xsql/stmt.go:552-707), run by a small database that reads the statements as text.  C111.
-/
namespace Gen
open Schema Types Xsql

/-! ### The database -/

/-- A name and a value, separated by the first equals sign. -/
def splitEq : Bytes → Option (Bytes × Bytes)
  | [] => none
  | c :: s => if c = c!"=" then some ([], s) else (splitEq s).map fun p => (c :: p.1, p.2)

/-- `a=x , b=y` and what follows. -/
def setList : List Bytes → Option (List Bytes × List Bytes)
  | [] => none
  | [w] => some ([w], [])
  | w :: x :: r => if x = b!"," then (setList r).map fun p => (w :: p.1, p.2) else some ([w], x :: r)

/-- `a = x AND b = y`. -/
def condList : List Bytes → Option (List (Bytes × Bytes))
  | [n, e, p] => if e = b!"=" then some [(n, p)] else none
  | n :: e :: p :: a :: r => if e = b!"=" ∧ a = b!"AND" then (condList r).map fun l => (n, p) :: l else none
  | _ => none

/-- Nothing, or `WHERE` and conditions. -/
def whereClause : List Bytes → Option (List (Bytes × Bytes))
  | [] => some []
  | w :: r => if w = b!"WHERE" then condList r else none

/-- `UPDATE t SET … WHERE …`: the table, the assignments, the conditions. -/
def parseUpdate (sql : Bytes) : Option (Bytes × List (Bytes × Bytes) × List (Bytes × Bytes)) :=
  match words [] sql with
  | u :: t :: s :: r =>
    if u = b!"UPDATE" ∧ s = b!"SET" then do
      let (ws, r) ← setList r
      let sets ← each splitEq ws
      let conds ← whereClause r
      return (t, sets, conds)
    else none
  | _ => none

/-- `DELETE FROM t WHERE …`: the table and the conditions. -/
def parseDelete (sql : Bytes) : Option (Bytes × List (Bytes × Bytes)) :=
  match words [] sql with
  | d :: f :: t :: r =>
    if d = b!"DELETE" ∧ f = b!"FROM" then do
      let conds ← whereClause r
      return (t, conds)
    else none
  | _ => none

/-- `SELECT a , b FROM t WHERE …`: the columns, the table, the conditions. -/
def parseQuery (sql : Bytes) : Option (List Bytes × Bytes × List (Bytes × Bytes)) :=
  match words [] sql with
  | s :: r =>
    if s = b!"SELECT" then do
      let (cs, r) ← names b!"FROM" r
      match r with
      | t :: r => do
        let conds ← whereClause r
        return (cs, t, conds)
      | [] => none
    else none
  | _ => none

/-- NULL or not. -/
def Cell.isNull : Cell → Bool
  | .null => true
  | _ => false

/-- How the database compares two values of a column (collations, for example). -/
abbrev Equal := TCol → Cell → Cell → Bool

/-- The database accepts the condition: the column exists and the argument can be converted to its type. -/
def accepts (cols : List TCol) (p : Bytes × Given) : Bool := (cols.find? fun c => c.col.name == p.1).any fun c => (store c.kind true p.2).isSome

/-- A condition on a row; NULL is equal to nothing. -/
def holds (eq : Equal) (cols : List TCol) (row : List Cell) (p : Bytes × Given) : Bool :=
  ((cols.zip row).find? fun q => q.1.col.name == p.1).any fun q =>
    (store q.1.kind true p.2).any fun y => !q.2.isNull && !y.isNull && eq q.1 q.2 y

/-- What a column keeps of a new value. -/
def TCol.put (c : TCol) (v : Given) : Option Cell := (store c.kind c.col.nullable v).bind c.storage.apply

/-- A row after the assignments. -/
def assignRow (cols : List TCol) (sets : List (Bytes × Given)) (row : List Cell) : Option (List Cell) :=
  each (fun q : TCol × Cell => match sets.lookup q.1.col.name with
    | some v => q.1.put v
    | none => some q.2) (cols.zip row)

/-- Running an `UPDATE`: all matching rows are changed, or (if a value is refused) none. -/
def Table.update (eq : Equal) (T : Table) (sql : Bytes) (args : List Given) : Option Table := do
  let (t, sets, conds) ← parseUpdate sql
  if t = T.name ∧ (∀ n ∈ sets.map (·.1), n ∈ T.cols.map (·.col.name)) ∧ (sets.map (·.1)).Nodup ∧ args.length = sets.length + conds.length then do
    let vs ← groupArgs args 0 (sets.map (·.2) ++ conds.map (·.2))
    let S := (sets.map (·.1)).zip (vs.take sets.length)
    let C := (conds.map (·.1)).zip (vs.drop sets.length)
    if C.all (accepts T.cols) then do
      let rows ← each (fun row => if C.all (holds eq T.cols row) then assignRow T.cols S row else some row) T.rows
      return { T with rows := rows }
    else none
  else none

/-- Running a `DELETE`. -/
def Table.delete (eq : Equal) (T : Table) (sql : Bytes) (args : List Given) : Option Table := do
  let (t, conds) ← parseDelete sql
  if t = T.name ∧ args.length = conds.length then do
    let vs ← groupArgs args 0 (conds.map (·.2))
    let C := (conds.map (·.1)).zip vs
    if C.all (accepts T.cols) then return { T with rows := T.rows.filter fun row => !C.all (holds eq T.cols row) }
    else none
  else none

/-- Running a `SELECT` with conditions. -/
def Table.query (drv : Driver) (eq : Equal) (T : Table) (sql : Bytes) (args : List Given) : Option (List (List Given)) := do
  let (ns, t, conds) ← parseQuery sql
  if t = T.name ∧ args.length = conds.length then do
    let vs ← groupArgs args 0 (conds.map (·.2))
    let C := (conds.map (·.1)).zip vs
    if C.all (accepts T.cols) then each (fun row => each (selected drv T.cols row) ns) (T.rows.filter fun row => C.all (holds eq T.cols row))
    else none
  else none

/-! ### Specification -/

/-- The row meets all conditions: every named column holds a value, not NULL, that the database finds equal to the argument. -/
def Spec.Matches (eq : Equal) (cols : List TCol) (conds : List (Bytes × Given)) (row : List Cell) : Prop :=
  ∀ p ∈ conds, ∃ (j : Nat) (c : TCol) (x y : Cell), cols[j]? = some c ∧ c.col.name = p.1 ∧ row[j]? = some x ∧ x ≠ .null ∧ store c.kind true p.2 = some y ∧ y ≠ .null ∧ eq c x y = true

/-- The conditions are on columns of the table and with arguments of their types. -/
def Spec.Sensible (cols : List TCol) (conds : List (Bytes × Given)) : Prop := ∀ p ∈ conds, ∃ c ∈ cols, c.col.name = p.1 ∧ (store c.kind true p.2).isSome

/-- The column names used in the calls are names a statement can be read back from: words without an equals sign. -/
def Spec.Words (l : List (Step α)) : Prop :=
  (∀ n ∈ colsOf l, IsWord n) ∧ (∀ p ∈ setsOf l, IsWord p.1 ∧ c!"=" ∉ p.1) ∧ (∀ p ∈ condsOf l, IsWord p.1)

/-- The calls' values as the driver sends them. -/
def Spec.Sent (val : α → Option Given) (l : List (Bytes × α)) (s : List (Bytes × Given)) : Prop := l.map (fun p => (p.1, val p.2)) = s.map (fun p => (p.1, some p.2))

/-! ### Reading the statements -/

/-- Names with their placeholders, the first being the `i`-th. -/
def phPairs (pg : Bool) : Nat → List (Bytes × α) → List (Bytes × Bytes)
  | _, [] => []
  | i, p :: l => (p.1, phText pg i) :: phPairs pg (i + 1) l

def condWords (pg : Bool) : Nat → List (Bytes × α) → List Bytes
  | _, [] => []
  | i, [p] => [p.1, b!"=", phText pg i]
  | i, p :: l => p.1 :: b!"=" :: phText pg i :: b!"AND" :: condWords pg (i + 1) l

def whereWords (pg : Bool) (i : Nat) (l : List (Bytes × α)) : List Bytes := if l = [] then [] else b!"WHERE" :: condWords pg i l

theorem isWord_ph (pg : Bool) (i : Nat) : IsWord (phText pg i) := by
  cases pg
  · show IsWord b!"?"
    exact ⟨by decide, by decide⟩
  · exact isWord_dollar i

theorem words_conds (pg : Bool) : ∀ (l : List (Bytes × α)) (i : Nat), (∀ p ∈ l, IsWord p.1) → words [] (joinBytes b!" AND " (itemTexts pg b!" = " i l)) = condWords pg i l := by
  intro l
  induction l with
  | nil => intro i _; rfl
  | cons p l ih =>
    intro i h
    have hp := h p (by simp)
    have heq : IsWord b!"=" := ⟨by decide, by decide⟩
    have hand : IsWord b!"AND" := ⟨by decide, by decide⟩
    cases l with
    | nil =>
      simp only [itemTexts, joinBytes, List.append_assoc]
      change words [] (p.1 ++ c!" " :: (b!"=" ++ c!" " :: phText pg i)) = _
      rw [words_space hp, words_space heq, words_end (isWord_ph pg i)]
      rfl
    | cons q l =>
      have := ih (i + 1) (fun x hx => h x (by simp [hx]))
      have e : joinBytes b!" AND " (itemTexts pg b!" = " i (p :: q :: l))
          = p.1 ++ c!" " :: (b!"=" ++ c!" " :: (phText pg i ++ c!" " :: (b!"AND" ++ c!" " :: (joinBytes b!" AND " (itemTexts pg b!" = " (i + 1) (q :: l)))))) := by
        rw [show itemTexts pg b!" = " i (p :: q :: l) = (p.1 ++ b!" = " ++ phText pg i) :: (q.1 ++ b!" = " ++ phText pg (i + 1)) :: itemTexts pg b!" = " (i + 1 + 1) l from rfl, join_two,
          show itemTexts pg b!" = " (i + 1) (q :: l) = (q.1 ++ b!" = " ++ phText pg (i + 1)) :: itemTexts pg b!" = " (i + 1 + 1) l from rfl]
        generalize joinBytes b!" AND " ((q.1 ++ b!" = " ++ phText pg (i + 1)) :: itemTexts pg b!" = " (i + 1 + 1) l) = z
        simp
      rw [e]
      rw [words_space hp, words_space heq, words_space (isWord_ph pg i), words_space hand, this]
      rfl

theorem condList_words (pg : Bool) : ∀ (l : List (Bytes × α)) (i : Nat), l ≠ [] → condList (condWords pg i l) = some (phPairs pg i l) := by
  intro l
  induction l with
  | nil => intro i h; exact absurd rfl h
  | cons p l ih =>
    intro i _
    cases l with
    | nil => simp [condWords, condList, phPairs]
    | cons q l =>
      have := ih (i + 1) (by simp)
      have e : condWords pg i (p :: q :: l) = p.1 :: b!"=" :: phText pg i :: b!"AND" :: condWords pg (i + 1) (q :: l) := rfl
      rw [e, condList, this]; simp [phPairs]

theorem whereClause_words (pg : Bool) (i : Nat) (l : List (Bytes × α)) : whereClause (whereWords pg i l) = some (phPairs pg i l) := by
  unfold whereWords
  by_cases h : l = []
  · subst h; rfl
  · rw [if_neg h, whereClause, if_pos rfl, condList_words pg l i h]

/-- A word before the conditions. -/
theorem words_where {w : Bytes} (hw : IsWord w) (pg nl : Bool) (i : Nat) (l : List (Bytes × α)) (h : ∀ p ∈ l, IsWord p.1) : words [] (w ++ whereText pg nl i l) = w :: whereWords pg i l := by
  unfold whereText whereWords
  by_cases h0 : l = []
  · rw [if_pos h0, if_pos h0, List.append_nil, words_end hw]
  · rw [if_neg h0, if_neg h0]
    have hwh : IsWord b!"WHERE" := ⟨by decide, by decide⟩
    have e : w ++ (b!" " ++ (if nl then b!"\n" else []) ++ b!"WHERE " ++ joinBytes b!" AND " (itemTexts pg b!" = " i l))
        = w ++ c!" " :: ((if nl then b!"\n" else []) ++ (b!"WHERE" ++ c!" " :: joinBytes b!" AND " (itemTexts pg b!" = " i l))) := by simp
    rw [e, words_space hw, words_break, words_space hwh, words_conds pg l i h]

theorem words_list_where (pg nl : Bool) (i : Nat) (l : List (Bytes × α)) (h : ∀ p ∈ l, IsWord p.1) : ∀ (ws : List Bytes), ws ≠ [] → (∀ w ∈ ws, IsWord w) →
    words [] (joinBytes b!", " ws ++ whereText pg nl i l) = commas ws ++ whereWords pg i l := by
  intro ws
  induction ws with
  | nil => intro h; exact absurd rfl h
  | cons a ws ih =>
    intro _ hw
    cases ws with
    | nil => rw [joinBytes, words_where (hw a (by simp)) pg nl i l h]; rfl
    | cons b ws =>
      rw [join_two, List.append_assoc, List.append_assoc]
      change words [] (a ++ c!"," :: (c!" " :: (joinBytes b!", " (b :: ws) ++ whereText pg nl i l))) = _
      rw [words_comma (hw a (by simp)), words_skip, ih (by simp) (fun w h => hw w (by simp [h]))]
      rfl

theorem setList_words (pg : Bool) (i : Nat) (l : List (Bytes × α)) : ∀ (ws : List Bytes), ws ≠ [] → setList (commas ws ++ whereWords pg i l) = some (ws, whereWords pg i l) := by
  intro ws
  induction ws with
  | nil => intro h; exact absurd rfl h
  | cons a ws ih =>
    intro _
    cases ws with
    | nil =>
      unfold whereWords
      by_cases h0 : l = []
      · simp [h0, commas, setList]
      · simp [h0, commas, setList]
    | cons b ws =>
      have := ih (by simp)
      rw [commas, List.cons_append, List.cons_append, setList, if_pos rfl, this]; rfl
      simp

theorem splitEq_name : ∀ (n s : Bytes), c!"=" ∉ n → splitEq (n ++ c!"=" :: s) = some (n, s) := by
  intro n
  induction n with
  | nil => intro s _; rfl
  | cons c n ih =>
    intro s h
    simp only [List.mem_cons, not_or] at h
    rw [List.cons_append, splitEq, if_neg (fun e => h.1 e.symm), ih s h.2]; rfl

theorem split_items (pg : Bool) : ∀ (l : List (Bytes × α)) (i : Nat), (∀ p ∈ l, c!"=" ∉ p.1) → each splitEq (itemTexts pg b!"=" i l) = some (phPairs pg i l) := by
  intro l
  induction l with
  | nil => intro i _; rfl
  | cons p l ih =>
    intro i h
    have e : splitEq (p.1 ++ b!"=" ++ phText pg i) = some (p.1, phText pg i) := by
      rw [List.append_assoc]; exact splitEq_name _ _ (h p (by simp))
    rw [itemTexts, each, e, ih (i + 1) (fun x hx => h x (by simp [hx]))]; rfl

theorem items_words (pg : Bool) : ∀ (l : List (Bytes × α)) (i : Nat), (∀ p ∈ l, IsWord p.1) → ∀ w ∈ itemTexts pg b!"=" i l, IsWord w := by
  intro l
  induction l with
  | nil => intro i _ w h; cases h
  | cons p l ih =>
    intro i h w hw
    rcases List.mem_cons.1 hw with rfl | hw
    · have h1 := h p (by simp)
      have h2 := isWord_ph pg i
      refine ⟨by simp [h1.1], ?_⟩
      intro c hc
      simp only [List.mem_append] at hc
      rcases hc with (hc | hc) | hc
      · exact h1.2 c hc
      · revert c; decide
      · exact h2.2 c hc
    · exact ih (i + 1) (fun x hx => h x (by simp [hx])) w hw

theorem update_read (pg nl : Bool) (t : Bytes) (ht : IsWord t) (S C : List (Bytes × α)) (hS0 : S ≠ []) (hS : ∀ p ∈ S, IsWord p.1 ∧ c!"=" ∉ p.1) (hC : ∀ p ∈ C, IsWord p.1) :
    parseUpdate (b!"UPDATE " ++ t ++ b!" " ++ (if nl then b!"\n" else []) ++ b!"SET " ++ joinBytes b!", " (itemTexts pg b!"=" 1 S) ++ whereText pg nl (1 + S.length) C)
      = some (t, phPairs pg 1 S, phPairs pg (1 + S.length) C) := by
  have hu : IsWord b!"UPDATE" := ⟨by decide, by decide⟩
  have hs : IsWord b!"SET" := ⟨by decide, by decide⟩
  have e : b!"UPDATE " ++ t ++ b!" " ++ (if nl then b!"\n" else []) ++ b!"SET " ++ joinBytes b!", " (itemTexts pg b!"=" 1 S) ++ whereText pg nl (1 + S.length) C
      = b!"UPDATE" ++ c!" " :: (t ++ c!" " :: ((if nl then b!"\n" else []) ++ (b!"SET" ++ c!" " :: (joinBytes b!", " (itemTexts pg b!"=" 1 S) ++ whereText pg nl (1 + S.length) C)))) := by simp
  have h0 : itemTexts pg b!"=" 1 S ≠ [] := by
    cases S with
    | nil => exact absurd rfl hS0
    | cons => simp [itemTexts]
  unfold parseUpdate
  rw [e, words_space hu, words_space ht, words_break, words_space hs, words_list_where pg nl _ C hC _ h0 (items_words pg S 1 fun p hp => (hS p hp).1)]
  simp only [and_self, if_true]
  rw [setList_words pg _ C _ h0]
  simp only [bind, Option.bind_some, split_items pg S 1 (fun p hp => (hS p hp).2), whereClause_words, pure]

theorem delete_read (pg nl : Bool) (t : Bytes) (ht : IsWord t) (C : List (Bytes × α)) (hC : ∀ p ∈ C, IsWord p.1) :
    parseDelete (b!"DELETE FROM " ++ t ++ whereText pg nl 1 C) = some (t, phPairs pg 1 C) := by
  have hd : IsWord b!"DELETE" := ⟨by decide, by decide⟩
  have hf : IsWord b!"FROM" := ⟨by decide, by decide⟩
  have e : b!"DELETE FROM " ++ t ++ whereText pg nl 1 C = b!"DELETE" ++ c!" " :: (b!"FROM" ++ c!" " :: (t ++ whereText pg nl 1 C)) := by simp
  unfold parseDelete
  rw [e, words_space hd, words_space hf, words_where ht pg nl 1 C hC]
  simp only [and_self, if_true, whereClause_words, bind, Option.bind_some, pure]

theorem query_read (pg nl : Bool) (t : Bytes) (ht : IsWord t) (ns : List Bytes) (hn0 : ns ≠ []) (hn : ∀ n ∈ ns, IsWord n) (C : List (Bytes × α)) (hC : ∀ p ∈ C, IsWord p.1) :
    parseQuery (b!"SELECT " ++ joinBytes b!", " ns ++ b!" " ++ (if nl then b!"\n" else []) ++ b!"FROM " ++ t ++ whereText pg nl 1 C) = some (ns, t, phPairs pg 1 C) := by
  have hs : IsWord b!"SELECT" := ⟨by decide, by decide⟩
  have hf : IsWord b!"FROM" := ⟨by decide, by decide⟩
  have e : b!"SELECT " ++ joinBytes b!", " ns ++ b!" " ++ (if nl then b!"\n" else []) ++ b!"FROM " ++ t ++ whereText pg nl 1 C
      = b!"SELECT" ++ c!" " :: (joinBytes b!", " ns ++ c!" " :: ((if nl then b!"\n" else []) ++ (b!"FROM" ++ c!" " :: (t ++ whereText pg nl 1 C)))) := by simp
  unfold parseQuery
  rw [e, words_space hs, words_join ns hn0 hn, words_break, words_space hf, words_where ht pg nl 1 C hC]
  simp only [if_true]
  rw [names_commas b!"FROM" (by decide) ns hn0]
  simp only [bind, Option.bind_some, whereClause_words, pure]

/-! ### Arguments -/

theorem phPairs_fst (pg : Bool) : ∀ (l : List (Bytes × α)) (i : Nat), (phPairs pg i l).map (·.1) = l.map (·.1) := by
  intro l
  induction l with
  | nil => intro i; rfl
  | cons p l ih => intro i; rw [phPairs, List.map_cons, ih]; rfl

theorem phPairs_length (pg : Bool) (l : List (Bytes × α)) (i : Nat) : (phPairs pg i l).length = l.length := by
  have := congrArg List.length (phPairs_fst pg l i)
  simpa using this

theorem phPairs_snd (pg : Bool) : ∀ (l : List (Bytes × α)) (i : Nat), (phPairs pg i l).map (·.2) = if pg then dollars i l.length else List.replicate l.length b!"?" := by
  intro l
  induction l with
  | nil => intro i; cases pg <;> rfl
  | cons p l ih =>
    intro i
    rw [phPairs, List.map_cons, ih]
    cases pg <;> rfl

theorem dollars_append : ∀ (a i b : Nat), dollars i a ++ dollars (i + a) b = dollars i (a + b) := by
  intro a
  induction a with
  | zero => intro i b; simp [dollars]
  | succ a ih =>
    intro i b
    have := ih (i + 1) b
    rw [show i + 1 + a = i + (a + 1) by omega] at this
    rw [show a + 1 + b = (a + b) + 1 by omega, dollars, dollars, List.cons_append, this]

theorem all_args (pg : Bool) (args : List Given) : groupArgs args 0 (if pg then dollars 1 args.length else List.replicate args.length b!"?") = some args := by
  have := group_args pg args args [] [] (by simp)
  rw [List.map_const'] at this
  exact this

theorem sent_fst {val : α → Option Given} {l : List (Bytes × α)} {s : List (Bytes × Given)} (h : Spec.Sent val l s) : l.map (·.1) = s.map (·.1) := by
  have := congrArg (List.map Prod.fst) h
  simpa [Spec.Sent, List.map_map, Function.comp_def] using this

theorem sent_len {val : α → Option Given} {l : List (Bytes × α)} {s : List (Bytes × Given)} (h : Spec.Sent val l s) : l.length = s.length := by
  have := congrArg List.length (sent_fst h); simpa using this

theorem sent_args {val : α → Option Given} : ∀ {l : List (Bytes × α)} {s : List (Bytes × Given)}, Spec.Sent val l s → each val (l.map (·.2)) = some (s.map (·.2)) := by
  intro l
  induction l with
  | nil =>
    intro s h
    cases s with
    | nil => rfl
    | cons => cases h
  | cons p l ih =>
    intro s h
    cases s with
    | nil => cases h
    | cons q s =>
      simp only [Spec.Sent, List.map_cons, List.cons.injEq, Prod.mk.injEq] at h
      rw [List.map_cons, each, h.1.2, ih h.2]; rfl

theorem zip_unzip (s : List (Bytes × Given)) : (s.map (·.1)).zip (s.map (·.2)) = s := by
  induction s with
  | nil => rfl
  | cons p s ih => rw [List.map_cons, List.map_cons, List.zip_cons_cons, ih]

/-! ### Rows -/

theorem find_at {cols : List TCol} (hnd : (cols.map (·.col.name)).Nodup) {row : List Cell} {j : Nat} {c : TCol} {x : Cell} (hc : cols[j]? = some c) (hx : row[j]? = some x) :
    (cols.zip row).find? (fun q => q.1.col.name == c.col.name) = some (c, x) := by
  induction cols generalizing row j with
  | nil => simp at hc
  | cons a cols ih =>
    rw [List.map_cons, List.nodup_cons] at hnd
    cases row with
    | nil => simp at hx
    | cons b row =>
      rw [List.zip_cons_cons]
      cases j with
      | zero =>
        simp only [List.getElem?_cons_zero, Option.some.injEq] at hc hx
        subst hc hx
        rw [List.find?_cons_of_pos (by simp)]
      | succ j =>
        simp only [List.getElem?_cons_succ] at hc hx
        have : a.col.name ≠ c.col.name := fun e => hnd.1 (by rw [e]; exact List.mem_map.2 ⟨c, List.mem_of_getElem? hc, rfl⟩)
        rw [List.find?_cons_of_neg (by simpa using this), ih hnd.2 hc hx]

theorem isNull_iff (x : Cell) : (!x.isNull) = true ↔ x ≠ .null := by cases x <;> simp [Cell.isNull]

theorem holds_iff (eq : Equal) {cols : List TCol} (hnd : (cols.map (·.col.name)).Nodup) (row : List Cell) (p : Bytes × Given) :
    holds eq cols row p = true ↔ ∃ (j : Nat) (c : TCol) (x y : Cell), cols[j]? = some c ∧ c.col.name = p.1 ∧ row[j]? = some x ∧ x ≠ .null ∧ store c.kind true p.2 = some y ∧ y ≠ .null ∧ eq c x y = true := by
  constructor
  · intro h
    unfold holds at h
    cases hf : (cols.zip row).find? fun q => q.1.col.name == p.1 with
    | none => rw [hf] at h; cases h
    | some q =>
      rw [hf] at h
      simp only [Option.any_some] at h
      cases hs : store q.1.kind true p.2 with
      | none => rw [hs] at h; cases h
      | some y =>
        rw [hs] at h
        simp only [Option.any_some, Bool.and_eq_true, isNull_iff] at h
        have hm := List.mem_of_find?_eq_some hf
        have hn := List.find?_some hf
        obtain ⟨j, hj⟩ := List.getElem?_of_mem hm
        rw [List.getElem?_zip_eq_some] at hj
        exact ⟨j, q.1, q.2, y, hj.1, by simpa using hn, hj.2, h.1.1, hs, h.1.2, h.2⟩
  · rintro ⟨j, c, x, y, h1, h2, h3, h4, h5, h6, h7⟩
    unfold holds
    rw [← h2, find_at hnd h1 h3]
    simp only [Option.any_some, h5, Bool.and_eq_true, isNull_iff]
    exact ⟨⟨h4, h6⟩, h7⟩

theorem matches_iff (eq : Equal) {cols : List TCol} (hnd : (cols.map (·.col.name)).Nodup) (C : List (Bytes × Given)) (row : List Cell) : C.all (holds eq cols row) = true ↔ Spec.Matches eq cols C row := by
  rw [List.all_eq_true]
  exact forall_congr' fun p => forall_congr' fun _ => holds_iff eq hnd row p

theorem find_col {cols : List TCol} (hnd : (cols.map (·.col.name)).Nodup) {c : TCol} (hc : c ∈ cols) : cols.find? (fun a => a.col.name == c.col.name) = some c := by
  induction cols with
  | nil => cases hc
  | cons a cols ih =>
    rw [List.map_cons, List.nodup_cons] at hnd
    rcases List.mem_cons.1 hc with rfl | hc
    · rw [List.find?_cons_of_pos (by simp)]
    · have : a.col.name ≠ c.col.name := fun e => hnd.1 (by rw [e]; exact List.mem_map.2 ⟨c, hc, rfl⟩)
      rw [List.find?_cons_of_neg (by simpa using this), ih hnd.2 hc]

theorem sensible_iff {cols : List TCol} (hnd : (cols.map (·.col.name)).Nodup) (C : List (Bytes × Given)) : C.all (accepts cols) = true ↔ Spec.Sensible cols C := by
  rw [List.all_eq_true]
  refine forall_congr' fun p => forall_congr' fun _ => ?_
  constructor
  · intro h
    unfold accepts at h
    cases hf : cols.find? fun c => c.col.name == p.1 with
    | none => rw [hf] at h; cases h
    | some c =>
      rw [hf] at h
      exact ⟨c, List.mem_of_find?_eq_some hf, by simpa using List.find?_some hf, h⟩
  · rintro ⟨c, hc, hn, hs⟩
    unfold accepts
    rw [← hn, find_col hnd hc]
    exact hs

theorem lookup_mem {S : List (Bytes × Given)} (hnd : (S.map (·.1)).Nodup) {n : Bytes} {v : Given} (h : (n, v) ∈ S) : S.lookup n = some v := by
  induction S with
  | nil => cases h
  | cons p S ih =>
    rw [List.map_cons, List.nodup_cons] at hnd
    obtain ⟨m, w⟩ := p
    rcases List.mem_cons.1 h with h | h
    · cases h; simp
    · have : n ≠ m := fun e => hnd.1 (List.mem_map.2 ⟨(n, v), h, e⟩)
      rw [List.lookup_cons, beq_false_of_ne this]
      exact ih hnd.2 h

theorem lookup_none {S : List (Bytes × Given)} {n : Bytes} (h : ∀ v, (n, v) ∉ S) : S.lookup n = none := by
  induction S with
  | nil => rfl
  | cons p S ih =>
    obtain ⟨m, w⟩ := p
    have : n ≠ m := by rintro rfl; exact h w (by simp)
    rw [List.lookup_cons, beq_false_of_ne this]
    exact ih fun v hv => h v (by simp [hv])

theorem lookup_some {S : List (Bytes × Given)} {n : Bytes} {v : Given} (h : S.lookup n = some v) : (n, v) ∈ S := by
  induction S with
  | nil => cases h
  | cons p S ih =>
    obtain ⟨m, w⟩ := p
    rw [List.lookup_cons] at h
    by_cases e : n = m
    · subst e; simp at h; subst h; simp
    · rw [beq_false_of_ne e] at h; exact List.mem_cons_of_mem _ (ih h)

theorem each_get (f : β → Option γ) : ∀ {l : List β} {r : List γ}, each f l = some r → r.length = l.length ∧ ∀ (i : Nat) (a : β), l[i]? = some a → r[i]? = f a := by
  intro l
  induction l with
  | nil => intro r h; cases h; exact ⟨rfl, by intro i a h; simp at h⟩
  | cons a l ih =>
    intro r h
    simp only [each, bind, Option.bind_eq_some_iff, pure, Option.some.injEq] at h
    obtain ⟨b, hb, r', hr, rfl⟩ := h
    obtain ⟨h1, h2⟩ := ih hr
    refine ⟨by simp [h1], ?_⟩
    intro i x hx
    cases i with
    | zero => simp only [List.getElem?_cons_zero, Option.some.injEq] at hx ⊢; subst hx; exact hb.symm
    | succ i => exact h2 i x (by simpa using hx)

theorem each_none (f : β → Option γ) {l : List β} {a : β} (ha : a ∈ l) (h : f a = none) : each f l = none := by
  induction l with
  | nil => cases ha
  | cons b l ih =>
    rw [each]
    rcases List.mem_cons.1 ha with rfl | ha
    · rw [h]; rfl
    · rw [ih ha]; cases f b <;> rfl

/-- A row with the assignments made. -/
theorem assign_ok {cols : List TCol} {S : List (Bytes × Given)} (hS : (S.map (·.1)).Nodup) {row : List Cell} (hl : row.length = cols.length)
    (h : ∀ c ∈ cols, ∀ v, (c.col.name, v) ∈ S → (c.put v).isSome) :
    ∃ row', assignRow cols S row = some row' ∧ row'.length = row.length ∧ ∀ (j : Nat) (c : TCol), cols[j]? = some c →
      (∀ v, (c.col.name, v) ∈ S → row'[j]? = c.put v) ∧ ((∀ v, (c.col.name, v) ∉ S) → row'[j]? = row[j]?) := by
  obtain ⟨row', hr⟩ := each_some (fun q : TCol × Cell => match S.lookup q.1.col.name with
    | some v => q.1.put v
    | none => some q.2) (cols.zip row) (by
      intro q hq
      cases hk : S.lookup q.1.col.name with
      | none => rfl
      | some v => exact h q.1 (List.of_mem_zip hq).1 v (lookup_some hk))
  obtain ⟨h1, h2⟩ := each_get _ hr
  refine ⟨row', hr, by rw [h1, List.length_zip]; omega, ?_⟩
  intro j c hc
  have hj := (List.getElem?_eq_some_iff.1 hc).1
  have hx : row[j]? = some (row[j]'(by omega)) := List.getElem?_eq_getElem (by omega)
  have := h2 j (c, row[j]'(by omega)) (List.getElem?_zip_eq_some.2 ⟨hc, hx⟩)
  constructor
  · intro v hv
    rw [lookup_mem hS hv] at this
    exact this
  · intro hv
    rw [lookup_none hv] at this
    rw [this, hx]

theorem assign_refused {cols : List TCol} {S : List (Bytes × Given)} (hS : (S.map (·.1)).Nodup) {row : List Cell} (hl : row.length = cols.length)
    {c : TCol} (hc : c ∈ cols) {v : Given} (hv : (c.col.name, v) ∈ S) (h : c.put v = none) : assignRow cols S row = none := by
  obtain ⟨j, hj⟩ := List.getElem?_of_mem hc
  have hlt := (List.getElem?_eq_some_iff.1 hj).1
  have hm : (c, row[j]'(by omega)) ∈ cols.zip row := List.mem_of_getElem? (List.getElem?_zip_eq_some.2 ⟨hj, List.getElem?_eq_getElem (by omega)⟩)
  refine each_none _ hm ?_
  simp only [lookup_mem hS hv, h]

/-! ### The theorems -/

section
variable (eq : Equal) (T : Table) (hnd : (T.cols.map (·.col.name)).Nodup) (hrows : ∀ row ∈ T.rows, row.length = T.cols.length)
  (htn : Plain T.name) (htw : IsWord T.name) (htz : ∃ z, T.name.getLast? = some z ∧ isCut z = false) (val : α → Option Given) (dia : Dia) (nl : Bool) (st : Nat)
  (l : List (Step α)) (hok : ∀ x ∈ l, x.OK) (hw : Spec.Words l)
include hnd htn htw hok hw

/-- What the database makes of an update. -/
theorem update_runs (h : Spec.IsUpdate l) (hs : setsOf l ≠ []) {S C : List (Bytes × Given)} (hS : Spec.Sent val (setsOf l) S) (hC : Spec.Sent val (condsOf l) C)
    (hknown : ∀ p ∈ S, ∃ c ∈ T.cols, c.col.name = p.1) (hSn : (S.map (·.1)).Nodup) (hCs : Spec.Sensible T.cols C) :
    each val (build dia nl st (l.map (Step.call T.name))).args = some (S.map (·.2) ++ C.map (·.2))
    ∧ T.update eq (build dia nl st (l.map (Step.call T.name))).render (S.map (·.2) ++ C.map (·.2))
      = (each (fun row => if C.all (holds eq T.cols row) then assignRow T.cols S row else some row) T.rows).map fun rows => { T with rows := rows } := by
  obtain ⟨e1, e2⟩ := update_text dia nl st T.name htw.1 htn l h hok hs
  refine ⟨by rw [e2, each_append, sent_args hS, sent_args hC]; rfl, ?_⟩
  rw [e1]
  generalize decide (dia = .postgres) = pg
  have hk : ∀ n ∈ (phPairs pg 1 (setsOf l)).map (·.1), n ∈ T.cols.map (·.col.name) := by
    intro n hn
    rw [phPairs_fst, sent_fst hS] at hn
    obtain ⟨p, hp, rfl⟩ := List.mem_map.1 hn
    obtain ⟨c, hc, e⟩ := hknown p hp
    rw [← e]; exact List.mem_map.2 ⟨c, hc, rfl⟩
  have hl1 := sent_len hS
  have hl2 := sent_len hC
  have hargs : groupArgs (S.map (·.2) ++ C.map (·.2)) 0 ((phPairs pg 1 (setsOf l)).map (·.2) ++ (phPairs pg (1 + (setsOf l).length) (condsOf l)).map (·.2)) = some (S.map (·.2) ++ C.map (·.2)) := by
    have := all_args pg (S.map (·.2) ++ C.map (·.2))
    rw [phPairs_snd, phPairs_snd]
    rw [show (if pg then dollars 1 (setsOf l).length else List.replicate (setsOf l).length b!"?") ++ (if pg then dollars (1 + (setsOf l).length) (condsOf l).length else List.replicate (condsOf l).length b!"?")
      = (if pg then dollars 1 (S.map (·.2) ++ C.map (·.2)).length else List.replicate (S.map (·.2) ++ C.map (·.2)).length b!"?") by
        cases pg
        · simp [hl1, hl2]
        · simp only [if_true, dollars_append]; simp [hl1, hl2]]
    exact this
  unfold Table.update
  rw [update_read pg nl T.name htw _ _ hs hw.2.1 hw.2.2]
  simp only [bind, Option.bind_some]
  rw [if_pos ⟨trivial, hk, by rw [phPairs_fst, sent_fst hS]; exact hSn, by simp [phPairs_length, hl1, hl2]⟩, hargs]
  simp only [Option.bind_some]
  have z1 : ((phPairs pg 1 (setsOf l)).map (·.1)).zip ((S.map (·.2) ++ C.map (·.2)).take (phPairs pg 1 (setsOf l)).length) = S := by
    rw [phPairs_fst, sent_fst hS, phPairs_length, hl1, List.take_left' (by simp), zip_unzip]
  have z2 : ((phPairs pg (1 + (setsOf l).length) (condsOf l)).map (·.1)).zip ((S.map (·.2) ++ C.map (·.2)).drop (phPairs pg 1 (setsOf l)).length) = C := by
    rw [phPairs_fst, sent_fst hC, phPairs_length, hl1, List.drop_left' (by simp), zip_unzip]
  rw [z1, z2, if_pos ((sensible_iff hnd C).2 hCs)]
  cases each (fun row => if C.all (holds eq T.cols row) = true then assignRow T.cols S row else some row) T.rows <;> rfl

include hrows in
/-- **C111**, updates: `Update(t)` with `Set` and `Where` calls in any order changes exactly the rows that meet all conditions, and in them exactly the columns that were set, to what the
column keeps of the value; on every dialect, with or without line breaks.  It succeeds unless a row is to be changed and a value is refused. -/
theorem C111_update (h : Spec.IsUpdate l) (hs : setsOf l ≠ []) {S C : List (Bytes × Given)} (hS : Spec.Sent val (setsOf l) S) (hC : Spec.Sent val (condsOf l) C)
    (hknown : ∀ p ∈ S, ∃ c ∈ T.cols, c.col.name = p.1) (hSn : (S.map (·.1)).Nodup) (hCs : Spec.Sensible T.cols C)
    (hput : ∀ c ∈ T.cols, ∀ v, (c.col.name, v) ∈ S → ∃ w, (store c.kind c.col.nullable v).bind c.storage.apply = some w) :
    ∃ args T', each val (build dia nl st (l.map (Step.call T.name))).args = some args ∧ T.update eq (build dia nl st (l.map (Step.call T.name))).render args = some T'
      ∧ T'.name = T.name ∧ T'.cols = T.cols ∧ T'.rows.length = T.rows.length
      ∧ ∀ (i : Nat) (row : List Cell), T.rows[i]? = some row → ∃ row', T'.rows[i]? = some row' ∧ row'.length = row.length
        ∧ (¬ Spec.Matches eq T.cols C row → row' = row)
        ∧ (Spec.Matches eq T.cols C row → ∀ (j : Nat) (c : TCol), T.cols[j]? = some c →
            (∀ v, (c.col.name, v) ∈ S → row'[j]? = (store c.kind c.col.nullable v).bind c.storage.apply) ∧ ((∀ v, (c.col.name, v) ∉ S) → row'[j]? = row[j]?)) := by
  obtain ⟨h1, h2⟩ := update_runs eq T hnd htn htw val dia nl st l hok hw h hs hS hC hknown hSn hCs
  have hput' : ∀ c ∈ T.cols, ∀ v, (c.col.name, v) ∈ S → (c.put v).isSome := by
    intro c hc v hv
    obtain ⟨w, e⟩ := hput c hc v hv
    rw [TCol.put, e]; rfl
  obtain ⟨rows, hr⟩ := each_some (fun row => if C.all (holds eq T.cols row) then assignRow T.cols S row else some row) T.rows (by
    intro row hrow
    split
    · obtain ⟨r', e, -⟩ := assign_ok hSn (hrows row hrow) hput'
      rw [e]; rfl
    · rfl)
  obtain ⟨g1, g2⟩ := each_get _ hr
  refine ⟨_, { T with rows := rows }, h1, by rw [h2, hr]; rfl, rfl, rfl, g1, ?_⟩
  intro i row hrow
  have hi := g2 i row hrow
  obtain ⟨r', e, a1, a2⟩ := assign_ok hSn (hrows row (List.mem_of_getElem? hrow)) hput'
  by_cases hm : C.all (holds eq T.cols row) = true
  · rw [if_pos hm, e] at hi
    exact ⟨r', hi, a1, fun hn => absurd ((matches_iff eq hnd C row).1 hm) hn, fun _ => a2⟩
  · rw [if_neg hm] at hi
    exact ⟨row, hi, rfl, fun _ => rfl, fun hn => absurd ((matches_iff eq hnd C row).2 hn) hm⟩

include hrows in
/-- **C111**, refused updates: if a row meets the conditions and a column refuses its new value, the update fails and nothing is changed. -/
theorem C111_update_refused (h : Spec.IsUpdate l) (hs : setsOf l ≠ []) {S C : List (Bytes × Given)} (hS : Spec.Sent val (setsOf l) S) (hC : Spec.Sent val (condsOf l) C)
    (hknown : ∀ p ∈ S, ∃ c ∈ T.cols, c.col.name = p.1) (hSn : (S.map (·.1)).Nodup) (hCs : Spec.Sensible T.cols C)
    (hmatch : ∃ row ∈ T.rows, Spec.Matches eq T.cols C row) (hput : ∃ c ∈ T.cols, ∃ v, (c.col.name, v) ∈ S ∧ (store c.kind c.col.nullable v).bind c.storage.apply = none) :
    ∃ args, each val (build dia nl st (l.map (Step.call T.name))).args = some args ∧ T.update eq (build dia nl st (l.map (Step.call T.name))).render args = none := by
  obtain ⟨h1, h2⟩ := update_runs eq T hnd htn htw val dia nl st l hok hw h hs hS hC hknown hSn hCs
  refine ⟨_, h1, ?_⟩
  obtain ⟨row, hr, hm⟩ := hmatch
  obtain ⟨c, hc, v, hv, e⟩ := hput
  rw [h2, each_none _ hr (by rw [if_pos ((matches_iff eq hnd C row).2 hm)]; exact assign_refused hSn (hrows row hr) hc hv e)]
  rfl

include htz

open Classical in
/-- **C111**, deletions: `DeleteFrom(t)` with `Where` calls in any order removes exactly the rows that meet all conditions. -/
theorem C111_delete (h : Spec.IsDelete l) {C : List (Bytes × Given)} (hC : Spec.Sent val (condsOf l) C) (hCs : Spec.Sensible T.cols C) :
    ∃ args, each val (build dia nl st (l.map (Step.call T.name))).args = some args
      ∧ T.delete eq (build dia nl st (l.map (Step.call T.name))).render args = some { T with rows := T.rows.filter fun row => decide (¬ Spec.Matches eq T.cols C row) } := by
  obtain ⟨e1, e2⟩ := delete_text dia nl st T.name htw.1 htn htz l h hok
  refine ⟨C.map (·.2), by rw [e2, sent_args hC], ?_⟩
  rw [e1]
  generalize decide (dia = .postgres) = pg
  have hl2 := sent_len hC
  unfold Table.delete
  rw [delete_read pg nl T.name htw _ hw.2.2]
  simp only [bind, Option.bind_some]
  rw [if_pos ⟨trivial, by simp [phPairs_length, hl2]⟩, phPairs_snd, phPairs_fst]
  have := all_args pg (C.map (·.2))
  rw [List.length_map, ← hl2] at this
  rw [this]
  simp only [Option.bind_some]
  rw [sent_fst hC, zip_unzip, if_pos ((sensible_iff hnd C).2 hCs)]
  simp only [pure, Option.some.injEq]
  congr 1
  refine List.filter_congr fun row _ => ?_
  rw [Bool.eq_iff_iff, Bool.not_eq_true', ← Bool.not_eq_true, matches_iff eq hnd C row, decide_eq_true_iff]

open Classical in
theorem query_runs (drv : Driver) (h : Spec.IsSelect l) (hcols : colsOf l ≠ []) {C : List (Bytes × Given)} (hC : Spec.Sent val (condsOf l) C) (hCs : Spec.Sensible T.cols C) :
    ∃ args, each val (build dia nl st (l.map (Step.call T.name))).args = some args
      ∧ T.query drv eq (build dia nl st (l.map (Step.call T.name))).render args
        = each (fun row => each (selected drv T.cols row) (colsOf l)) (T.rows.filter fun row => decide (Spec.Matches eq T.cols C row)) := by
  obtain ⟨e1, e2⟩ := select_text dia nl st T.name htw.1 htn htz l h hok hcols
  refine ⟨C.map (·.2), by rw [e2, sent_args hC], ?_⟩
  rw [e1]
  generalize decide (dia = .postgres) = pg
  have hl2 := sent_len hC
  unfold Table.query
  rw [query_read pg nl T.name htw _ hcols hw.1 _ hw.2.2]
  simp only [bind, Option.bind_some]
  rw [if_pos ⟨trivial, by simp [phPairs_length, hl2]⟩, phPairs_snd, phPairs_fst]
  have := all_args pg (C.map (·.2))
  rw [List.length_map, ← hl2] at this
  rw [this]
  simp only [Option.bind_some]
  rw [sent_fst hC, zip_unzip, if_pos ((sensible_iff hnd C).2 hCs)]
  congr 1
  refine List.filter_congr fun row _ => ?_
  rw [Bool.eq_iff_iff, matches_iff eq hnd C row, decide_eq_true_iff]

include hrows in
open Classical in
/-- **C111**, queries: `From(t)`, `Select` and `Where` calls in any order return, of exactly the rows that meet all conditions and in their order, the columns asked for in the order they were asked for. -/
theorem C111_select (drv : Driver) (h : Spec.IsSelect l) (hcols : colsOf l ≠ []) (hknown : ∀ n ∈ colsOf l, ∃ c ∈ T.cols, c.col.name = n)
    {C : List (Bytes × Given)} (hC : Spec.Sent val (condsOf l) C) (hCs : Spec.Sensible T.cols C) :
    ∃ args out, each val (build dia nl st (l.map (Step.call T.name))).args = some args ∧ T.query drv eq (build dia nl st (l.map (Step.call T.name))).render args = some out
      ∧ out.length = (T.rows.filter fun row => decide (Spec.Matches eq T.cols C row)).length
      ∧ ∀ (i : Nat) (row : List Cell), (T.rows.filter fun row => decide (Spec.Matches eq T.cols C row))[i]? = some row → ∃ r, out[i]? = some r ∧ r.length = (colsOf l).length
        ∧ ∀ (k j : Nat) (c : TCol) (x : Cell), (colsOf l)[k]? = some c.col.name → T.cols[j]? = some c → row[j]? = some x → r[k]? = some (given drv c.kind x) := by
  obtain ⟨args, e1, e2⟩ := query_runs eq T hnd htn htw htz val dia nl st l hok hw drv h hcols hC hCs
  have hsel : ∀ row ∈ T.rows, ∃ r, each (selected drv T.cols row) (colsOf l) = some r := by
    intro row hr
    refine each_some _ _ ?_
    intro n hn
    obtain ⟨c, hc, rfl⟩ := hknown n hn
    obtain ⟨j, hj⟩ := List.getElem?_of_mem hc
    have hlt := (List.getElem?_eq_some_iff.1 hj).1
    have hl := hrows row hr
    unfold selected
    rw [find_at hnd hj (List.getElem?_eq_getElem (by omega))]; rfl
  obtain ⟨out, ho⟩ := each_some (fun row => each (selected drv T.cols row) (colsOf l)) (T.rows.filter fun row => decide (Spec.Matches eq T.cols C row)) (by
    intro row hr
    obtain ⟨r, e⟩ := hsel row (List.mem_filter.1 hr).1
    rw [e]; rfl)
  obtain ⟨g1, g2⟩ := each_get _ ho
  refine ⟨args, out, e1, by rw [e2, ho], g1, ?_⟩
  intro i row hrow
  obtain ⟨r, e⟩ := hsel row (List.mem_filter.1 (List.mem_of_getElem? hrow)).1
  obtain ⟨k1, k2⟩ := each_get _ e
  refine ⟨r, by rw [g2 i row hrow, e], k1, ?_⟩
  intro k j c x hk hj hx
  rw [k2 k _ hk, selected, find_at hnd hj hx]; rfl
end

end Gen
