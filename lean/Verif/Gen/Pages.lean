import Verif.Gen.PagesText
import Verif.Gen.ModifyModel
set_option linter.unusedVariables false
set_option linter.unusedSimpArgs false
set_option linter.unusedSectionVars false
/-!
Queries read page by page (`OrderBy` and `Paginate`, xsql/stmt.go:766-808), run by a small database that reads the statements as text and may order rows with equal keys as it likes.  C114.
-/
namespace Gen
open Schema Types Xsql

/-! ### The database -/

/-- `a = x AND b = y` and what follows. -/
def condsThen : List Bytes → Option (List (Bytes × Bytes) × List Bytes)
  | n :: e :: p :: a :: r =>
    if e = b!"=" then (if a = b!"AND" then (condsThen r).map fun q => ((n, p) :: q.1, q.2) else some ([(n, p)], a :: r)) else none
  | _ => none

/-- Nothing, or `WHERE` and conditions; and what follows. -/
def whereThen : List Bytes → Option (List (Bytes × Bytes) × List Bytes)
  | [] => some ([], [])
  | w :: r => if w = b!"WHERE" then condsThen r else some ([], w :: r)

/-- `a DESC , b` and what follows. -/
def orderList : List Bytes → Option (List (Bytes × Bool) × List Bytes)
  | n :: x :: y :: r =>
    if x = b!"DESC" then (if y = b!"," then (orderList r).map fun q => ((n, true) :: q.1, q.2) else some ([(n, true)], y :: r))
    else if x = b!"," then (orderList (y :: r)).map fun q => ((n, false) :: q.1, q.2)
    else some ([(n, false)], x :: y :: r)
  | _ => none

/-- Nothing, or `ORDER BY` and columns; and what follows. -/
def orderThen : List Bytes → Option (List (Bytes × Bool) × List Bytes)
  | o :: b :: r => if o = b!"ORDER" ∧ b = b!"BY" then orderList r else some ([], o :: b :: r)
  | r => some ([], r)

/-- `LIMIT x`, or `LIMIT x OFFSET y`. -/
def limitClause : List Bytes → Option (List Bytes)
  | [l, x] => if l = b!"LIMIT" then some [x] else none
  | [l, x, o, y] => if l = b!"LIMIT" ∧ o = b!"OFFSET" then some [x, y] else none
  | _ => none

/-- A query for a page, as read by the database. -/
structure PageQuery where
  cols : List Bytes
  table : Bytes
  conds : List (Bytes × Bytes)
  orders : List (Bytes × Bool)
  limits : List Bytes
  deriving DecidableEq

/-- `SELECT a , b FROM t WHERE … ORDER BY … LIMIT … OFFSET …`. -/
def parsePage (sql : Bytes) : Option PageQuery :=
  match words [] sql with
  | s :: r =>
    if s = b!"SELECT" then do
      let (cs, r) ← names b!"FROM" r
      match r with
      | t :: r => do
        let (conds, r) ← whereThen r
        let (orders, r) ← orderThen r
        let limits ← limitClause r
        return ⟨cs, t, conds, orders, limits⟩
      | [] => none
    else none
  | _ => none

/-- How the database orders the values of a column, NULL included. -/
abbrev Order := TCol → Cell → Cell → Bool

/-- The value of the column in the row. -/
def cellAt (cols : List TCol) (row : List Cell) (n : Bytes) : Cell := ((cols.zip row).find? fun q => q.1.col.name == n).elim .null (·.2)

/-- Row `a` may come before row `b`: at the first key where they differ, `a` comes first (or second, for a descending order). -/
def rowLe (le : Order) (cols : List TCol) (a b : List Cell) : List (Bytes × Bool) → Bool
  | [] => true
  | (n, desc) :: os =>
    match cols.find? fun c => c.col.name == n with
    | some c =>
      let (x, y) := if desc then (cellAt cols b n, cellAt cols a n) else (cellAt cols a n, cellAt cols b n)
      le c x y && (!le c y x || rowLe le cols a b os)
    | none => rowLe le cols a b os

/-- A number of rows, which cannot be negative. -/
def rowCount : Given → Option Nat
  | .dv (.i64 n) => if 0 ≤ n.toInt then some n.toInt.toNat else none
  | _ => none

/-- What the database may answer: it takes the matching rows, puts them in some order that agrees with the keys, leaves out as many as `OFFSET` says and returns at most as many as `LIMIT` says. -/
def Table.MayAnswer (drv : Driver) (eq : Equal) (le : Order) (T : Table) (sql : Bytes) (args : List Given) (out : List (List Given)) : Prop :=
  ∃ q vs cs limits, parsePage sql = some q ∧ q.table = T.name ∧ args.length = q.conds.length + q.limits.length
    ∧ groupArgs args 0 (q.conds.map (·.2) ++ q.limits) = some vs
    ∧ cs = (q.conds.map (·.1)).zip (vs.take q.conds.length) ∧ cs.all (accepts T.cols) = true
    ∧ (∀ o ∈ q.orders, o.1 ∈ T.cols.map (·.col.name))
    ∧ each rowCount (vs.drop q.conds.length) = some limits
    ∧ ∃ S : List (List Cell), S.Perm (T.rows.filter fun row => cs.all (holds eq T.cols row)) ∧ S.Pairwise (fun a b => rowLe le T.cols a b q.orders = true)
      ∧ each (fun row => each (selected drv T.cols row) q.cols) ((S.drop (limits.getD 1 0)).take (limits.getD 0 0)) = some out

/-! ### Specification -/

open Classical in
/-- An order of exactly the rows that meet the conditions, agreeing with the keys. -/
def Spec.Ordering (eq : Equal) (le : Order) (T : Table) (C : List (Bytes × Given)) (os : List (Bytes × Bool)) (S : List (List Cell)) : Prop :=
  S.Perm (T.rows.filter fun row => decide (Spec.Matches eq T.cols C row)) ∧ S.Pairwise fun a b => rowLe le T.cols a b os = true

/-- The columns asked for, of the rows, in their order. -/
def Spec.Shown (drv : Driver) (T : Table) (ns : List Bytes) (S : List (List Cell)) (out : List (List Given)) : Prop :=
  List.Forall₂ (fun row r => List.Forall₂ (fun n v => ∃ (j : Nat) (c : TCol) (x : Cell), T.cols[j]? = some c ∧ c.col.name = n ∧ row[j]? = some x ∧ v = given drv c.kind x) ns r) S out

/-- The column names used in the calls are words. -/
def Spec.PageWords (l : List (PStep α)) : Prop := (∀ n ∈ colsOf (baseOf l), IsWord n) ∧ (∀ p ∈ condsOf (baseOf l), IsWord p.1) ∧ (∀ o ∈ ordersOf l, IsWord o.1)

/-- Go's `int`s are sent to the database as 64-bit integers. -/
def Spec.IntsSent (ofInt : Int → α) (val : α → Option Given) : Prop := ∀ i : Int, -2 ^ 63 ≤ i → i < 2 ^ 63 → ∃ x : Int64, val (ofInt i) = some (.dv (.i64 x)) ∧ x.toInt = i

/-! ### Reading the statement -/

def orderItems : List (Bytes × Bool) → List Bytes
  | [] => []
  | [o] => o.1 :: if o.2 then [b!"DESC"] else []
  | o :: os => o.1 :: (if o.2 then [b!"DESC"] else []) ++ b!"," :: orderItems os

def orderWords (os : List (Bytes × Bool)) : List Bytes := if os = [] then [] else b!"ORDER" :: b!"BY" :: orderItems os

def limitWords (pg : Bool) (i : Nat) (p : Int) : List Bytes := b!"LIMIT" :: phText pg i :: if 1 < p then [b!"OFFSET", phText pg (i + 1)] else []

theorem words_conds_then (pg : Bool) (s : Bytes) : ∀ (l : List (Bytes × α)) (i : Nat), l ≠ [] → (∀ p ∈ l, IsWord p.1) →
    words [] (joinBytes b!" AND " (itemTexts pg b!" = " i l) ++ c!" " :: s) = condWords pg i l ++ words [] s := by
  intro l
  induction l with
  | nil => intro i h; exact absurd rfl h
  | cons p l ih =>
    intro i _ h
    have hp := h p (by simp)
    have heq : IsWord b!"=" := ⟨by decide, by decide⟩
    have hand : IsWord b!"AND" := ⟨by decide, by decide⟩
    cases l with
    | nil =>
      simp only [itemTexts, joinBytes, List.append_assoc]
      change words [] (p.1 ++ c!" " :: (b!"=" ++ c!" " :: (phText pg i ++ c!" " :: s))) = _
      rw [words_space hp, words_space heq, words_space (isWord_ph pg i)]
      rfl
    | cons q l =>
      have := ih (i + 1) (by simp) (fun x hx => h x (by simp [hx]))
      have e : joinBytes b!" AND " (itemTexts pg b!" = " i (p :: q :: l)) ++ c!" " :: s
          = p.1 ++ c!" " :: (b!"=" ++ c!" " :: (phText pg i ++ c!" " :: (b!"AND" ++ c!" " :: (joinBytes b!" AND " (itemTexts pg b!" = " (i + 1) (q :: l)) ++ c!" " :: s)))) := by
        rw [show itemTexts pg b!" = " i (p :: q :: l) = (p.1 ++ b!" = " ++ phText pg i) :: (q.1 ++ b!" = " ++ phText pg (i + 1)) :: itemTexts pg b!" = " (i + 1 + 1) l from rfl, join_two,
          show itemTexts pg b!" = " (i + 1) (q :: l) = (q.1 ++ b!" = " ++ phText pg (i + 1)) :: itemTexts pg b!" = " (i + 1 + 1) l from rfl]
        generalize joinBytes b!" AND " ((q.1 ++ b!" = " ++ phText pg (i + 1)) :: itemTexts pg b!" = " (i + 1 + 1) l) = z
        simp
      rw [e]
      rw [words_space hp, words_space heq, words_space (isWord_ph pg i), words_space hand, this]
      rfl

theorem words_where_then {w : Bytes} (hw : IsWord w) (pg nl : Bool) (i : Nat) (l : List (Bytes × α)) (h : ∀ p ∈ l, IsWord p.1) (s : Bytes) :
    words [] (w ++ whereText pg nl i l ++ c!" " :: s) = w :: (whereWords pg i l ++ words [] s) := by
  unfold whereText whereWords
  by_cases h0 : l = []
  · rw [if_pos h0, if_pos h0, List.append_nil, words_space hw]; rfl
  · rw [if_neg h0, if_neg h0]
    have hwh : IsWord b!"WHERE" := ⟨by decide, by decide⟩
    have e : w ++ (b!" " ++ (if nl then b!"\n" else []) ++ b!"WHERE " ++ joinBytes b!" AND " (itemTexts pg b!" = " i l)) ++ c!" " :: s
        = w ++ c!" " :: ((if nl then b!"\n" else []) ++ (b!"WHERE" ++ c!" " :: (joinBytes b!" AND " (itemTexts pg b!" = " i l) ++ c!" " :: s))) := by simp
    rw [e, words_space hw, words_break, words_space hwh, words_conds_then pg s l i h0 h]; rfl

theorem words_items (s : Bytes) : ∀ (os : List (Bytes × Bool)), os ≠ [] → (∀ o ∈ os, IsWord o.1) →
    words [] (joinBytes b!", " (os.map orderItem) ++ c!" " :: s) = orderItems os ++ words [] s := by
  have hd : IsWord b!"DESC" := ⟨by decide, by decide⟩
  intro os
  induction os with
  | nil => intro h; exact absurd rfl h
  | cons o os ih =>
    intro _ h
    have ho := h o (by simp)
    obtain ⟨n, d⟩ := o
    cases os with
    | nil =>
      cases d
      · show words [] (n ++ [] ++ c!" " :: s) = _
        rw [List.append_nil, words_space ho]; rfl
      · show words [] (n ++ (c!" " :: b!"DESC") ++ c!" " :: s) = _
        rw [List.append_assoc]
        show words [] (n ++ c!" " :: (b!"DESC" ++ c!" " :: s)) = _
        rw [words_space ho, words_space hd]; rfl
    | cons q os =>
      have := ih (by simp) (fun x hx => h x (by simp [hx]))
      rw [List.map_cons, List.map_cons, join_two, ← List.map_cons]
      generalize joinBytes b!", " ((q :: os).map orderItem) = z at this ⊢
      cases d
      · have e : orderItem (n, false) ++ (b!", " ++ z) ++ c!" " :: s = n ++ c!"," :: (c!" " :: (z ++ c!" " :: s)) := by simp [orderItem]
        rw [e, words_comma ho, words_skip, this]; rfl
      · have e : orderItem (n, true) ++ (b!", " ++ z) ++ c!" " :: s = n ++ c!" " :: (b!"DESC" ++ c!"," :: (c!" " :: (z ++ c!" " :: s))) := by simp [orderItem]
        rw [e, words_space ho, words_comma hd, words_skip, this]; rfl

theorem words_order (nl : Bool) (os : List (Bytes × Bool)) (h : ∀ o ∈ os, IsWord o.1) (s : Bytes) : ∃ s', orderText nl os ++ c!" " :: s = c!" " :: s' ∧ words [] s' = orderWords os ++ words [] s := by
  unfold orderText orderWords
  by_cases h0 : os = []
  · exact ⟨s, by simp [h0], by simp [h0]⟩
  · have h1 : IsWord b!"ORDER" := ⟨by decide, by decide⟩
    have h2 : IsWord b!"BY" := ⟨by decide, by decide⟩
    refine ⟨(if nl then b!"\n" else []) ++ (b!"ORDER" ++ c!" " :: (b!"BY" ++ c!" " :: (joinBytes b!", " (os.map orderItem) ++ c!" " :: s))), by simp [h0], ?_⟩
    rw [words_break, words_space h1, words_space h2, words_items s os h0 h, if_neg h0]; rfl

theorem words_limit (pg nl : Bool) (i : Nat) (p : Int) : ∃ s', pageText pg nl i p = c!" " :: s' ∧ words [] s' = limitWords pg i p := by
  have h1 : IsWord b!"LIMIT" := ⟨by decide, by decide⟩
  have h2 : IsWord b!"OFFSET" := ⟨by decide, by decide⟩
  unfold pageText limitWords
  by_cases hp : 1 < p
  · refine ⟨(if nl then b!"\n" else []) ++ (b!"LIMIT" ++ c!" " :: (phText pg i ++ c!" " :: ((if nl then b!"\n" else []) ++ (b!"OFFSET" ++ c!" " :: phText pg (i + 1))))), by simp [hp], ?_⟩
    rw [words_break, words_space h1, words_space (isWord_ph pg i), words_break, words_space h2, words_end (isWord_ph pg _), if_pos hp]
  · refine ⟨(if nl then b!"\n" else []) ++ (b!"LIMIT" ++ c!" " :: phText pg i), by simp [hp], ?_⟩
    rw [words_break, words_space h1, words_end (isWord_ph pg _), if_neg hp]

theorem condsThen_words (pg : Bool) (x : Bytes) (hx : x ≠ b!"AND") (R : List Bytes) : ∀ (l : List (Bytes × α)) (i : Nat), l ≠ [] → condsThen (condWords pg i l ++ x :: R) = some (phPairs pg i l, x :: R) := by
  intro l
  induction l with
  | nil => intro i h; exact absurd rfl h
  | cons p l ih =>
    intro i _
    cases l with
    | nil => simp [condWords, condsThen, phPairs, hx]
    | cons q l =>
      have := ih (i + 1) (by simp)
      have e : condWords pg i (p :: q :: l) = p.1 :: b!"=" :: phText pg i :: b!"AND" :: condWords pg (i + 1) (q :: l) := rfl
      rw [e, List.cons_append, List.cons_append, List.cons_append, List.cons_append, condsThen, this]; simp [phPairs]

theorem whereThen_words (pg : Bool) (i : Nat) (l : List (Bytes × α)) (x : Bytes) (hx : x ≠ b!"AND" ∧ x ≠ b!"WHERE") (R : List Bytes) :
    whereThen (whereWords pg i l ++ x :: R) = some (phPairs pg i l, x :: R) := by
  unfold whereWords
  by_cases h : l = []
  · subst h
    rw [if_pos rfl, List.nil_append, whereThen, if_neg hx.2]; rfl
  · rw [if_neg h, List.cons_append, whereThen, if_pos rfl, condsThen_words pg x hx.1 R l i h]

theorem orderList_words (y : Bytes) (R : List Bytes) : ∀ (os : List (Bytes × Bool)), os ≠ [] → orderList (orderItems os ++ b!"LIMIT" :: y :: R) = some (os, b!"LIMIT" :: y :: R) := by
  intro os
  induction os with
  | nil => intro h; exact absurd rfl h
  | cons o os ih =>
    intro _
    obtain ⟨n, d⟩ := o
    cases os with
    | nil => cases d <;> simp [orderItems, orderList]
    | cons q os =>
      have := ih (by simp)
      have hne : ∃ a r, orderItems (q :: os) ++ b!"LIMIT" :: y :: R = a :: r := by
        cases os <;> exact ⟨q.1, _, rfl⟩
      obtain ⟨a, r, e⟩ := hne
      cases d
      · have e1 : orderItems ((n, false) :: q :: os) ++ b!"LIMIT" :: y :: R = n :: b!"," :: (orderItems (q :: os) ++ b!"LIMIT" :: y :: R) := rfl
        rw [e1, e, orderList, if_neg (by decide), if_pos rfl, ← e, this]; rfl
      · have e1 : orderItems ((n, true) :: q :: os) ++ b!"LIMIT" :: y :: R = n :: b!"DESC" :: b!"," :: (orderItems (q :: os) ++ b!"LIMIT" :: y :: R) := rfl
        rw [e1, orderList, if_pos rfl, if_pos rfl, this]; rfl

theorem orderThen_words (y : Bytes) (R : List Bytes) (os : List (Bytes × Bool)) : orderThen (orderWords os ++ b!"LIMIT" :: y :: R) = some (os, b!"LIMIT" :: y :: R) := by
  unfold orderWords
  by_cases h : os = []
  · subst h; rfl
  · rw [if_neg h, List.cons_append, List.cons_append, orderThen, if_pos ⟨rfl, rfl⟩, orderList_words y R os h]

/-- The placeholders of the page. -/
def limitPhs (pg : Bool) (i : Nat) (p : Int) : List Bytes := phText pg i :: if 1 < p then [phText pg (i + 1)] else []

theorem limit_words (pg : Bool) (i : Nat) (p : Int) : limitClause (limitWords pg i p) = some (limitPhs pg i p) := by
  unfold limitWords limitPhs
  by_cases h : 1 < p <;> simp [h, limitClause]

theorem page_read (pg nl : Bool) (t : Bytes) (ht : IsWord t) (ns : List Bytes) (hn0 : ns ≠ []) (hn : ∀ n ∈ ns, IsWord n) (C : List (Bytes × α)) (hC : ∀ p ∈ C, IsWord p.1)
    (os : List (Bytes × Bool)) (hos : ∀ o ∈ os, IsWord o.1) (p : Int) :
    parsePage (b!"SELECT " ++ joinBytes b!", " ns ++ b!" " ++ (if nl then b!"\n" else []) ++ b!"FROM " ++ t ++ whereText pg nl 1 C ++ orderText nl os ++ pageText pg nl (1 + C.length) p)
      = some ⟨ns, t, phPairs pg 1 C, os, limitPhs pg (1 + C.length) p⟩ := by
  have hs : IsWord b!"SELECT" := ⟨by decide, by decide⟩
  have hf : IsWord b!"FROM" := ⟨by decide, by decide⟩
  obtain ⟨s1, e1, w1⟩ := words_limit pg nl (1 + C.length) p
  obtain ⟨s2, e2, w2⟩ := words_order nl os hos s1
  have e : b!"SELECT " ++ joinBytes b!", " ns ++ b!" " ++ (if nl then b!"\n" else []) ++ b!"FROM " ++ t ++ whereText pg nl 1 C ++ orderText nl os ++ pageText pg nl (1 + C.length) p
      = b!"SELECT" ++ c!" " :: (joinBytes b!", " ns ++ c!" " :: ((if nl then b!"\n" else []) ++ (b!"FROM" ++ c!" " :: (t ++ whereText pg nl 1 C ++ c!" " :: s2)))) := by
    rw [e1, List.append_assoc _ (orderText nl os), e2]
    simp
  have hR : ∃ x R, orderWords os ++ limitWords pg (1 + C.length) p = x :: R ∧ x ≠ b!"AND" ∧ x ≠ b!"WHERE" := by
    unfold orderWords limitWords
    by_cases h : os = []
    · exact ⟨b!"LIMIT", _, by rw [if_pos h]; rfl, by decide, by decide⟩
    · exact ⟨b!"ORDER", _, by rw [if_neg h]; rfl, by decide, by decide⟩
  obtain ⟨x, R, hx, h1, h2⟩ := hR
  unfold parsePage
  rw [e, words_space hs, words_join ns hn0 hn, words_break, words_space hf, words_where_then ht pg nl 1 C hC, w2, w1]
  simp only [if_true]
  rw [names_commas b!"FROM" (by decide) ns hn0]
  simp only [bind, Option.bind_some]
  rw [hx, whereThen_words pg 1 C x ⟨h1, h2⟩, ← hx]
  simp only [Option.bind_some]
  rw [show limitWords pg (1 + C.length) p = b!"LIMIT" :: phText pg (1 + C.length) :: (if 1 < p then [b!"OFFSET", phText pg (1 + C.length + 1)] else []) from rfl, orderThen_words]
  simp only [Option.bind_some]
  rw [show b!"LIMIT" :: phText pg (1 + C.length) :: (if 1 < p then [b!"OFFSET", phText pg (1 + C.length + 1)] else []) = limitWords pg (1 + C.length) p from rfl, limit_words]
  rfl

/-! ### What is answered -/

theorem each_forall2 (f : β → Option γ) : ∀ (l : List β) (r : List γ), each f l = some r ↔ List.Forall₂ (fun a b => f a = some b) l r := by
  intro l
  induction l with
  | nil => intro r; cases r <;> simp [each]
  | cons a l ih =>
    intro r
    simp only [each, bind, Option.bind_eq_some_iff, pure, Option.some.injEq]
    constructor
    · rintro ⟨b, hb, r', hr, rfl⟩
      exact .cons hb ((ih r').1 hr)
    · intro h
      cases h with
      | cons h1 h2 => exact ⟨_, h1, _, (ih _).2 h2, rfl⟩

theorem selected_iff (drv : Driver) {cols : List TCol} (hnd : (cols.map (·.col.name)).Nodup) (row : List Cell) (n : Bytes) (v : Given) :
    selected drv cols row n = some v ↔ ∃ (j : Nat) (c : TCol) (x : Cell), cols[j]? = some c ∧ c.col.name = n ∧ row[j]? = some x ∧ v = given drv c.kind x := by
  unfold selected
  constructor
  · intro h
    cases hf : (cols.zip row).find? fun q => q.1.col.name == n with
    | none => rw [hf] at h; cases h
    | some q =>
      rw [hf] at h
      have hm := List.mem_of_find?_eq_some hf
      have hn := List.find?_some hf
      obtain ⟨j, hj⟩ := List.getElem?_of_mem hm
      rw [List.getElem?_zip_eq_some] at hj
      exact ⟨j, q.1, q.2, hj.1, by simpa using hn, hj.2, by simpa using h.symm⟩
  · rintro ⟨j, c, x, h1, rfl, h3, rfl⟩
    rw [find_at hnd h1 h3]; rfl

theorem forall2_iff {R R' : β → γ → Prop} (h : ∀ a b, R a b ↔ R' a b) (l : List β) (r : List γ) : List.Forall₂ R l r ↔ List.Forall₂ R' l r := by
  have : R = R' := by funext a b; exact propext (h a b)
  rw [this]

theorem shown_iff (drv : Driver) (T : Table) (hnd : (T.cols.map (·.col.name)).Nodup) (ns : List Bytes) (S : List (List Cell)) (out : List (List Given)) :
    each (fun row => each (selected drv T.cols row) ns) S = some out ↔ Spec.Shown drv T ns S out := by
  rw [each_forall2]
  exact forall2_iff (fun row r => (each_forall2 _ _ _).trans (forall2_iff (fun n v => selected_iff drv hnd row n v) _ _)) _ _

theorem skip_range (p s : Int) : -2 ^ 63 ≤ skipOf p s ∧ skipOf p s < 2 ^ 63 := by
  unfold skipOf wrap64
  generalize (max p 1 - 1) * max s 1 = i
  have h1 := Int.le_bmod (x := i) (m := 2 ^ 64) (by decide)
  have h2 := Int.bmod_lt (x := i) (m := 2 ^ 64) (by decide)
  constructor
  · refine le_trans ?_ h1; decide
  · refine lt_of_lt_of_le h2 ?_; decide

/-- The product fits a Go `int`: the rows before the page. -/
theorem skip_fits {p s : Int} (h : (max p 1 - 1) * max s 1 < 2 ^ 63) : skipOf p s = (max p 1 - 1) * max s 1 := by
  have h0 : 0 ≤ (max p 1 - 1) * max s 1 := mul_nonneg (by omega) (by omega)
  unfold skipOf wrap64
  generalize (max p 1 - 1) * max s 1 = i at h h0
  rw [Int.bmod_eq_emod_of_lt]
  · exact Int.emod_eq_of_lt h0 (by omega)
  · rw [Int.emod_eq_of_lt h0 (by omega)]; omega

theorem rowCount_int {x : Int64} {i : Int} (h : x.toInt = i) : rowCount (.dv (.i64 x)) = if 0 ≤ i then some i.toNat else none := by
  rw [rowCount, h]

section
variable (drv : Driver) (eq : Equal) (le : Order) (T : Table) (hnd : (T.cols.map (·.col.name)).Nodup)
  (htn : Plain T.name) (htw : IsWord T.name) (val : α → Option Given) (ofInt : Int → α) (hints : Spec.IntsSent ofInt val) (dia : Dia) (nl : Bool) (st : Nat)
include hnd htn htw hints

open Classical in
/-- **C114**, one page exactly: what the database may answer to a query for a page. -/
theorem C114_page_exact {p s : Int} (hs : s < 2 ^ 63) (l : List (PStep α)) (hpage : Spec.IsPage p s l) (hok : ∀ x ∈ l, x.OK) (hw : Spec.PageWords l) (hcols : colsOf (baseOf l) ≠ [])
    (horders : ∀ o ∈ ordersOf l, ∃ c ∈ T.cols, c.col.name = o.1) {C : List (Bytes × Given)} (hC : Spec.Sent val (condsOf (baseOf l)) C) (hCs : Spec.Sensible T.cols C) :
    ∃ args, each val (pbuild ofInt dia nl st (l.map (PStep.call T.name))).args = some args
      ∧ ∀ out, T.MayAnswer drv eq le (pbuild ofInt dia nl st (l.map (PStep.call T.name))).render args out
        ↔ (1 < p → 0 ≤ skipOf p s) ∧ ∃ S, Spec.Ordering eq le T C (ordersOf l) S
            ∧ Spec.Shown drv T (colsOf (baseOf l)) ((S.drop (if 1 < p then (skipOf p s).toNat else 0)).take (max s 1).toNat) out := by
  obtain ⟨e1, e2⟩ := page_text ofInt dia nl st T.name htw.1 htn p s l hpage hok hcols
  obtain ⟨x1, hx1, hx1'⟩ := hints (max s 1) (by omega) (by omega)
  obtain ⟨x2, hx2, hx2'⟩ := hints (skipOf p s) (skip_range p s).1 (skip_range p s).2
  let V : List Given := .dv (.i64 x1) :: if 1 < p then [.dv (.i64 x2)] else []
  have hV : each val (pageArgs ofInt p s) = some V := by
    unfold pageArgs
    by_cases hp : 1 < p <;> simp [each, hp, hx1, hx2, V, bind]
  refine ⟨C.map (·.2) ++ V, by rw [e2, each_append, sent_args hC, hV]; rfl, ?_⟩
  intro out
  rw [e1]
  generalize decide (dia = .postgres) = pg
  have hl2 := sent_len hC
  have hread := page_read pg nl T.name htw (colsOf (baseOf l)) hcols hw.1 (condsOf (baseOf l)) hw.2.1 (ordersOf l) hw.2.2 p
  have hVl : V.length = (limitPhs pg (1 + (condsOf (baseOf l)).length) p).length := by
    simp only [V, limitPhs]
    by_cases hp : 1 < p <;> simp [hp]
  have hph : (phPairs pg 1 (condsOf (baseOf l))).map (·.2) ++ limitPhs pg (1 + (condsOf (baseOf l)).length) p
      = if pg then dollars 1 (C.map (·.2) ++ V).length else List.replicate (C.map (·.2) ++ V).length b!"?" := by
    have : limitPhs pg (1 + (condsOf (baseOf l)).length) p = if pg then dollars (1 + (condsOf (baseOf l)).length) V.length else List.replicate V.length b!"?" := by
      simp only [V, limitPhs]
      by_cases hp : 1 < p <;> cases pg <;> simp [hp, dollars, phText, List.replicate]
    rw [phPairs_snd, this]
    cases pg
    · simp [hl2]
    · simp only [if_true, dollars_append]; simp [hl2]
  have hga := all_args pg (C.map (·.2) ++ V)
  rw [← hph] at hga
  have hlen : (phPairs pg 1 (condsOf (baseOf l))).length = C.length := by rw [phPairs_length, hl2]
  have hzip : ((phPairs pg 1 (condsOf (baseOf l))).map (·.1)).zip ((C.map (·.2) ++ V).take (phPairs pg 1 (condsOf (baseOf l))).length) = C := by
    rw [phPairs_fst, sent_fst hC, hlen, List.take_left' (by simp), zip_unzip]
  have hdrop : (C.map (·.2) ++ V).drop (phPairs pg 1 (condsOf (baseOf l))).length = V := by
    rw [hlen, List.drop_left' (by simp)]
  have hfilter : (T.rows.filter fun row => C.all (holds eq T.cols row)) = T.rows.filter fun row => decide (Spec.Matches eq T.cols C row) := by
    refine List.filter_congr fun row _ => ?_
    rw [Bool.eq_iff_iff, matches_iff eq hnd C row, decide_eq_true_iff]
  have hcount : ∀ limits, each rowCount V = some limits ↔ (1 < p → 0 ≤ skipOf p s) ∧ limits = (max s 1).toNat :: if 1 < p then [(skipOf p s).toNat] else [] := by
    intro limits
    have h1 := rowCount_int hx1'
    rw [if_pos (by omega)] at h1
    have h2 := rowCount_int hx2'
    by_cases hp : 1 < p
    · by_cases h0 : 0 ≤ skipOf p s
      · rw [if_pos h0] at h2
        simp [V, hp, each, h1, h2, bind, h0, eq_comm]
      · rw [if_neg h0] at h2
        simp [V, hp, each, h1, h2, bind, h0]
    · simp [V, hp, each, h1, bind, eq_comm]
  constructor
  · rintro ⟨q, vs, cs, limits, h1, h2, h3, h4, h5, h6, h7, h8, S, h9, h10, h11⟩
    rw [hread, Option.some.injEq] at h1
    subst h1
    rw [hga, Option.some.injEq] at h4
    subst h4
    rw [hzip] at h5
    subst h5
    rw [hdrop] at h8
    obtain ⟨g1, rfl⟩ := (hcount limits).1 h8
    refine ⟨g1, S, ⟨by rw [← hfilter]; exact h9, h10⟩, ?_⟩
    rw [shown_iff drv T hnd] at h11
    by_cases hp : 1 < p
    · simpa [hp] using h11
    · simpa [hp] using h11
  · rintro ⟨g1, S, ⟨h9, h10⟩, h11⟩
    refine ⟨_, _, C, _, hread, rfl, ?_, hga, hzip.symm, (sensible_iff hnd C).2 hCs, ?_, by rw [hdrop]; exact (hcount _).2 ⟨g1, rfl⟩, S, by rw [hfilter]; exact h9, h10, ?_⟩
    · simp only [List.length_append, List.length_map, hlen, hVl]
    · intro o ho
      obtain ⟨c, hc, e⟩ := horders o ho
      exact List.mem_map.2 ⟨c, hc, e⟩
    · rw [shown_iff drv T hnd]
      by_cases hp : 1 < p
      · simpa [hp] using h11
      · simpa [hp] using h11

/-- **C114**, pages too far: if the number of rows before the page does not fit a Go `int` but is less than twice that, the database refuses the query. -/
theorem C114_far_pages_refused {p s : Int} (hs : s < 2 ^ 63) (hfar : 2 ^ 63 ≤ (p - 1) * max s 1) (hfar' : (p - 1) * max s 1 < 2 ^ 64) (l : List (PStep α)) (hpage : Spec.IsPage p s l) (hok : ∀ x ∈ l, x.OK)
    (hw : Spec.PageWords l) (hcols : colsOf (baseOf l) ≠ []) (horders : ∀ o ∈ ordersOf l, ∃ c ∈ T.cols, c.col.name = o.1) {C : List (Bytes × Given)} (hC : Spec.Sent val (condsOf (baseOf l)) C)
    (hCs : Spec.Sensible T.cols C) :
    ∃ args, each val (pbuild ofInt dia nl st (l.map (PStep.call T.name))).args = some args
      ∧ ∀ out, ¬ T.MayAnswer drv eq le (pbuild ofInt dia nl st (l.map (PStep.call T.name))).render args out := by
  obtain ⟨args, h1, h2⟩ := C114_page_exact drv eq le T hnd htn htw val ofInt hints dia nl st hs l hpage hok hw hcols horders hC hCs
  refine ⟨args, h1, fun out ho => ?_⟩
  have hp : 1 < p := by
    by_contra hp
    have : (p - 1) * max s 1 ≤ 0 := mul_nonpos_of_nonpos_of_nonneg (by omega) (by omega)
    omega
  have h0 := ((h2 out).1 ho).1 hp
  unfold skipOf wrap64 at h0
  rw [show max p 1 - 1 = p - 1 by omega] at h0
  generalize (p - 1) * max s 1 = i at *
  have : i.bmod (2 ^ 64) = i - 2 ^ 64 := by
    rw [Int.bmod_def, Int.emod_eq_of_lt (by omega) (by omega), if_neg (by omega)]
    rfl
  omega

include val in
/-- **C114**, wrapped pages: page 2³² + 1 of pages of 2³² rows is answered with the first page. -/
theorem C114_wrapped_page (l l' : List (PStep α)) (hpage : Spec.IsPage (2 ^ 32 + 1) (2 ^ 32) l) (hpage' : Spec.IsPage 1 (2 ^ 32) l') (hsame : baseOf l = baseOf l' ∧ ordersOf l = ordersOf l')
    (hok : ∀ x ∈ l, x.OK) (hok' : ∀ x ∈ l', x.OK) (hw : Spec.PageWords l) (hcols : colsOf (baseOf l) ≠ [])
    (horders : ∀ o ∈ ordersOf l, ∃ c ∈ T.cols, c.col.name = o.1) {C : List (Bytes × Given)} (hC : Spec.Sent val (condsOf (baseOf l)) C) (hCs : Spec.Sensible T.cols C) :
    ∃ args args', each val (pbuild ofInt dia nl st (l.map (PStep.call T.name))).args = some args ∧ each val (pbuild ofInt dia nl st (l'.map (PStep.call T.name))).args = some args'
      ∧ ∀ out, T.MayAnswer drv eq le (pbuild ofInt dia nl st (l.map (PStep.call T.name))).render args out
        ↔ T.MayAnswer drv eq le (pbuild ofInt dia nl st (l'.map (PStep.call T.name))).render args' out := by
  obtain ⟨args, h1, h2⟩ := C114_page_exact drv eq le T hnd htn htw val ofInt hints dia nl st (by decide) l hpage hok hw hcols horders hC hCs
  have hw' : Spec.PageWords l' := by unfold Spec.PageWords at hw ⊢; rw [← hsame.1, ← hsame.2]; exact hw
  obtain ⟨args', h1', h2'⟩ := C114_page_exact drv eq le T hnd htn htw val ofInt hints dia nl st (by decide) l' hpage' hok' hw' (by rw [← hsame.1]; exact hcols) (by rw [← hsame.2]; exact horders)
    (by rw [← hsame.1]; exact hC) hCs
  refine ⟨args, args', h1, h1', fun out => ?_⟩
  rw [h2, h2', hsame.1, hsame.2]
  have e : skipOf (2 ^ 32 + 1) (2 ^ 32) = 0 := by decide
  rw [e]
  simp

/-- **C114**: the pages 1, …, n of a query whose order distinguishes the matching rows are, one after the other, the beginning of one and the same sequence of all of them: no matching row is
shown twice, none is left out, whatever order the database chooses for each page. -/
theorem C114_pages_partition {s n : Nat} (hs0 : 0 < s) (hs : s < 2 ^ 63) (hn0 : 0 < n) (hn : (n - 1) * s < 2 ^ 63) (pre post : List (PStep α)) (hsel : Spec.IsSelect (baseOf (pre ++ post)))
    (hno : pagesOf (pre ++ post) = []) (hok : ∀ x ∈ pre ++ post, x.OK) (hw : Spec.PageWords (pre ++ post)) (hcols : colsOf (baseOf (pre ++ post)) ≠ [])
    (horders : ∀ o ∈ ordersOf (pre ++ post), ∃ c ∈ T.cols, c.col.name = o.1) {C : List (Bytes × Given)} (hC : Spec.Sent val (condsOf (baseOf (pre ++ post))) C) (hCs : Spec.Sensible T.cols C)
    (hdist : ∀ a ∈ T.rows, ∀ b ∈ T.rows, Spec.Matches eq T.cols C a → Spec.Matches eq T.cols C b → rowLe le T.cols a b (ordersOf (pre ++ post)) = true →
      rowLe le T.cols b a (ordersOf (pre ++ post)) = true → a = b)
    (outs : Nat → List (List Given))
    (hans : ∀ k < n, ∃ args, each val (pbuild ofInt dia nl st ((pre ++ .page (k + 1) s :: post).map (PStep.call T.name))).args = some args
      ∧ T.MayAnswer drv eq le (pbuild ofInt dia nl st ((pre ++ .page (k + 1) s :: post).map (PStep.call T.name))).render args (outs k)) :
    ∃ S, Spec.Ordering eq le T C (ordersOf (pre ++ post)) S ∧ (∀ k < n, Spec.Shown drv T (colsOf (baseOf (pre ++ post))) ((S.drop (k * s)).take s) (outs k))
      ∧ Spec.Shown drv T (colsOf (baseOf (pre ++ post))) (S.take (n * s)) ((List.range n).flatMap outs)
      ∧ (S.length ≤ n * s → Spec.Shown drv T (colsOf (baseOf (pre ++ post))) S ((List.range n).flatMap outs)) := by
  have hb : ∀ p q, baseOf (pre ++ PStep.page p q :: post) = baseOf (pre ++ post) := by intro p q; simp [baseOf, List.filterMap_append]
  have ho : ∀ p q, ordersOf (pre ++ PStep.page p q :: post) = ordersOf (pre ++ post) := by intro p q; simp [ordersOf, List.filterMap_append]
  have hp : ∀ p q, pagesOf (pre ++ PStep.page p q :: post) = [(p, q)] := by
    intro p q
    simp only [pagesOf, List.filterMap_append, List.append_eq_nil_iff] at hno ⊢
    rw [List.filterMap_cons, hno.1, hno.2]; rfl
  have hone : ∀ k < n, ∃ S, Spec.Ordering eq le T C (ordersOf (pre ++ post)) S ∧ Spec.Shown drv T (colsOf (baseOf (pre ++ post))) ((S.drop (k * s)).take s) (outs k) := by
    intro k hk
    obtain ⟨args, a1, a2⟩ := hans k hk
    obtain ⟨args', b1, b2⟩ := C114_page_exact drv eq le T hnd htn htw val ofInt hints dia nl st (p := (k : Int) + 1) (s := (s : Int)) (by omega) (pre ++ .page ((k : Int) + 1) (s : Int) :: post)
      ⟨by rw [hb]; exact hsel, hp _ _⟩ (by
        intro x hx
        rcases List.mem_append.1 hx with hx | hx
        · exact hok x (by simp [hx])
        · rcases List.mem_cons.1 hx with rfl | hx
          · trivial
          · exact hok x (by simp [hx]))
      (by unfold Spec.PageWords at hw ⊢; rw [hb, ho]; exact hw) (by rw [hb]; exact hcols) (by rw [ho]; exact horders) (by rw [hb]; exact hC) hCs
    rw [a1, Option.some.injEq] at b1
    subst b1
    obtain ⟨c1, S, c2, c3⟩ := (b2 _).1 a2
    rw [ho] at c2
    rw [hb] at c3
    refine ⟨S, c2, ?_⟩
    have hks : k * s ≤ (n - 1) * s := Nat.mul_le_mul_right _ (by omega)
    have e1 : (max ((k : Int) + 1) 1 - 1) * max (s : Int) 1 = ((k * s : Nat) : Int) := by
      rw [show max ((k : Int) + 1) 1 = k + 1 by omega, show max (s : Int) 1 = s by omega]; push_cast; ring
    have e2 : skipOf ((k : Int) + 1) s = ((k * s : Nat) : Int) := by rw [skip_fits (by rw [e1]; omega), e1]
    have e3 : (if 1 < (k : Int) + 1 then (skipOf ((k : Int) + 1) s).toNat else 0) = k * s := by
      by_cases h0 : k = 0
      · subst h0; simp
      · rw [if_pos (by omega), e2]; rfl
    have e4 : (max (s : Int) 1).toNat = s := by omega
    rw [e3, e4] at c3
    exact c3
  obtain ⟨S, hS, -⟩ := hone 0 hn0
  have huniq : ∀ S', Spec.Ordering eq le T C (ordersOf (pre ++ post)) S' → S' = S := by
    intro S' hS'
    have hmem : ∀ a, a ∈ S → a ∈ T.rows ∧ Spec.Matches eq T.cols C a := by
      intro a ha
      have := hS.1.mem_iff.1 ha
      rw [List.mem_filter] at this
      simpa using this
    have hmem' : ∀ a, a ∈ S' → a ∈ T.rows ∧ Spec.Matches eq T.cols C a := by
      intro a ha
      have := hS'.1.mem_iff.1 ha
      rw [List.mem_filter] at this
      simpa using this
    exact List.Perm.eq_of_pairwise (fun a b ha hb hab hba => hdist a (hmem' a ha).1 b (hmem b hb).1 (hmem' a ha).2 (hmem b hb).2 hab hba) hS'.2 hS.2 (hS'.1.trans hS.1.symm)
  have hall : ∀ k < n, Spec.Shown drv T (colsOf (baseOf (pre ++ post))) ((S.drop (k * s)).take s) (outs k) := by
    intro k hk
    obtain ⟨S', h1, h2⟩ := hone k hk
    rw [huniq S' h1] at h2
    exact h2
  have hcat : ∀ m ≤ n, Spec.Shown drv T (colsOf (baseOf (pre ++ post))) (S.take (m * s)) ((List.range m).flatMap outs) := by
    intro m
    induction m with
    | zero => intro _; simp [Spec.Shown]
    | succ m ih =>
      intro hm
      have h1 := ih (by omega)
      have h2 := hall m (by omega)
      rw [List.range_succ, List.flatMap_append, List.flatMap_singleton, show (m + 1) * s = m * s + s by ring, List.take_add]
      exact List.rel_append h1 h2
  refine ⟨S, hS, hall, hcat n (Nat.le_refl n), ?_⟩
  intro hlen
  have := hcat n (Nat.le_refl n)
  rwa [List.take_of_length_le hlen] at this
end

/-! ### There is an answer -/

/-- The database orders the values of each column. -/
def Spec.IsTotalOrder (le : Order) : Prop := (∀ c x y, le c x y = true ∨ le c y x = true) ∧ ∀ c x y z, le c x y = true → le c y z = true → le c x z = true

theorem lex_trans : ∀ (ab be ae ea eb ba r1 r2 r3 : Bool), (ab = true → be = true → ae = true) → (eb = true → ba = true → ea = true) → (be = true → ea = true → ba = true) → (ea = true → ab = true → eb = true) →
    (ba = true → ae = true → be = true) → (ae = true → eb = true → ab = true) → (r1 = true → r2 = true → r3 = true) →
    (ab && (!ba || r1)) = true → (be && (!eb || r2)) = true → (ae && (!ea || r3)) = true := by decide +kernel

theorem rowLe_order (le : Order) (h : Spec.IsTotalOrder le) (cols : List TCol) : ∀ (os : List (Bytes × Bool)),
    (∀ a b, rowLe le cols a b os = true ∨ rowLe le cols b a os = true) ∧ (∀ a b c, rowLe le cols a b os = true → rowLe le cols b c os = true → rowLe le cols a c os = true) := by
  intro os
  induction os with
  | nil => exact ⟨fun _ _ => Or.inl rfl, fun _ _ _ _ _ => rfl⟩
  | cons o os ih =>
    obtain ⟨n, d⟩ := o
    obtain ⟨i1, i2⟩ := ih
    obtain ⟨t1, t2⟩ := h
    cases hf : cols.find? fun c => c.col.name == n with
    | none =>
      simp only [rowLe, hf]
      exact ⟨i1, i2⟩
    | some c =>
      simp only [rowLe, hf]
      constructor
      · intro a b
        have q1 := t1 c (cellAt cols a n) (cellAt cols b n)
        have q2 := i1 a b
        cases d <;> simp only [if_true, Bool.false_eq_true, if_false, Bool.and_eq_true, Bool.or_eq_true, Bool.not_eq_true'] <;>
          cases hx : le c (cellAt cols a n) (cellAt cols b n) <;> cases hy : le c (cellAt cols b n) (cellAt cols a n) <;> simp_all
      · intro a b e
        have q1 := t2 c (cellAt cols a n) (cellAt cols b n) (cellAt cols e n)
        have q2 := t2 c (cellAt cols e n) (cellAt cols b n) (cellAt cols a n)
        have q3 := t2 c (cellAt cols b n) (cellAt cols e n) (cellAt cols a n)
        have q4 := t2 c (cellAt cols e n) (cellAt cols a n) (cellAt cols b n)
        have q5 := t2 c (cellAt cols b n) (cellAt cols a n) (cellAt cols e n)
        have q6 := t2 c (cellAt cols a n) (cellAt cols e n) (cellAt cols b n)
        have q7 := i2 a b e
        cases d
        · exact lex_trans _ _ _ _ _ _ _ _ _ q1 q2 q3 q4 q5 q6 q7
        · exact lex_trans _ _ _ _ _ _ _ _ _ (fun x y => q2 y x) (fun x y => q1 y x) (fun x y => q6 y x) (fun x y => q5 y x) (fun x y => q4 y x) (fun x y => q3 y x) q7

theorem ordering_exists (eq : Equal) (le : Order) (h : Spec.IsTotalOrder le) (T : Table) (C : List (Bytes × Given)) (os : List (Bytes × Bool)) : ∃ S, Spec.Ordering eq le T C os S := by
  classical
  obtain ⟨h1, h2⟩ := rowLe_order le h T.cols os
  refine ⟨(T.rows.filter fun row => decide (Spec.Matches eq T.cols C row)).mergeSort fun a b => rowLe le T.cols a b os, List.mergeSort_perm _ _, ?_⟩
  exact List.pairwise_mergeSort (fun a b c => h2 a b c) (fun a b => by simpa using h1 a b) _

section
variable (drv : Driver) (eq : Equal) (le : Order) (T : Table) (hnd : (T.cols.map (·.col.name)).Nodup) (hrows : ∀ row ∈ T.rows, row.length = T.cols.length)
  (htn : Plain T.name) (htw : IsWord T.name) (val : α → Option Given) (ofInt : Int → α) (hints : Spec.IntsSent ofInt val) (dia : Dia) (nl : Bool) (st : Nat)
include hnd hrows htn htw hints

/-- **C114**, there is an answer: a database that orders the values of every column answers the query for any page whose number of rows before it fits a Go `int`; the answer has as many rows
as the page has: all of them on a full page, the rest on the last one, none after it. -/
theorem C114_page_answered (hle : Spec.IsTotalOrder le) {p s : Int} (hs : s < 2 ^ 63) (hfit : (max p 1 - 1) * max s 1 < 2 ^ 63) (l : List (PStep α)) (hpage : Spec.IsPage p s l) (hok : ∀ x ∈ l, x.OK)
    (hw : Spec.PageWords l) (hcols : colsOf (baseOf l) ≠ []) (hknown : ∀ n ∈ colsOf (baseOf l), ∃ c ∈ T.cols, c.col.name = n) (horders : ∀ o ∈ ordersOf l, ∃ c ∈ T.cols, c.col.name = o.1)
    {C : List (Bytes × Given)} (hC : Spec.Sent val (condsOf (baseOf l)) C) (hCs : Spec.Sensible T.cols C) {M : List (List Cell)} (hM : Spec.Ordering eq le T C [] M) :
    ∃ args out, each val (pbuild ofInt dia nl st (l.map (PStep.call T.name))).args = some args
      ∧ T.MayAnswer drv eq le (pbuild ofInt dia nl st (l.map (PStep.call T.name))).render args out
      ∧ ∀ out', T.MayAnswer drv eq le (pbuild ofInt dia nl st (l.map (PStep.call T.name))).render args out' →
        (out'.length : Int) = min (max s 1) (max 0 (M.length - (max p 1 - 1) * max s 1)) := by
  obtain ⟨args, h1, h2⟩ := C114_page_exact drv eq le T hnd htn htw val ofInt hints dia nl st hs l hpage hok hw hcols horders hC hCs
  obtain ⟨S, hS⟩ := ordering_exists eq le hle T C (ordersOf l)
  have hsk := skip_fits hfit
  have h0 : 0 ≤ (max p 1 - 1) * max s 1 := mul_nonneg (by omega) (by omega)
  have hz : ¬ 1 < p → (max p 1 - 1) * max s 1 = 0 := by
    intro hp
    rw [show max p 1 - 1 = 0 by omega, zero_mul]
  obtain ⟨out, hout⟩ := each_some (fun row => each (selected drv T.cols row) (colsOf (baseOf l))) ((S.drop (if 1 < p then (skipOf p s).toNat else 0)).take (max s 1).toNat) (by
    intro row hr
    have hr' := hS.1.mem_iff.1 (List.mem_of_mem_drop (List.mem_of_mem_take hr))
    have hr' := (List.mem_filter.1 hr').1
    obtain ⟨r, e⟩ := each_some (selected drv T.cols row) (colsOf (baseOf l)) (by
      intro n hn
      obtain ⟨c, hc, rfl⟩ := hknown n hn
      obtain ⟨j, hj⟩ := List.getElem?_of_mem hc
      have hlt := (List.getElem?_eq_some_iff.1 hj).1
      have hl := hrows row hr'
      unfold selected
      rw [find_at hnd hj (List.getElem?_eq_getElem (by omega))]; rfl)
    rw [e]; rfl)
  refine ⟨args, out, h1, (h2 out).2 ⟨fun _ => by rw [hsk]; exact h0, S, hS, (shown_iff drv T hnd _ _ _).1 hout⟩, ?_⟩
  intro out' ho
  obtain ⟨-, S', hS', hsh⟩ := (h2 out').1 ho
  have hlen := List.Forall₂.length_eq hsh
  have hSM : S'.length = M.length := (hS'.1.trans hM.1.symm).length_eq
  rw [List.length_take, List.length_drop, hSM] at hlen
  rw [← hlen]
  by_cases hp : 1 < p
  · rw [if_pos hp, hsk]
    generalize (max p 1 - 1) * max s 1 = i at *
    omega
  · rw [if_neg hp, hz hp]
    omega
end

/-! ### Ties, and concrete cases -/

/-- Rows with the same name. -/
def twins : Table := { shop with rows := [[.int 7, .text b!"x", .text b!"Ann"], [.int 8, .text b!"y", .text b!"Ann"]] }

/-- Integers by size, texts byte by byte, NULL last, as PostgreSQL does. -/
def plainOrder : Order := fun _ x y => match x, y with
  | _, .null => true
  | .null, _ => false
  | .int a, .int b => decide (a ≤ b)
  | .text a, .text b => leBytesD a b
  | _, _ => true
where
  /-- Byte by byte. -/
  leBytesD : Bytes → Bytes → Bool
    | [], _ => true
    | _ :: _, [] => false
    | a :: s, b :: t => decide (a < b) || (decide (a = b) && leBytesD s t)

/-- The users by name, one on a page. -/
def byName (k : Int) : List (PStep Given) := [.base .from_, .base (.col b!"id"), .order b!"name" false, .page k 1]

/-- A Go `int` as an argument. -/
def goInt (i : Int) : Given := .dv (.i64 (Int64.ofInt i))

theorem find_zip {cols : List TCol} : ∀ (row : List Cell) (j : Nat) (c : TCol) (x : Cell), (cols.map (·.col.name)).Nodup → cols[j]? = some c → row[j]? = some x →
    (cols.zip row).find? (fun q => q.1.col.name == c.col.name) = some (c, x) := by
  induction cols with
  | nil => intro row j c x _ h; simp at h
  | cons c0 cols ih =>
    intro row j c x hn hc hx
    rw [List.map_cons, List.nodup_cons] at hn
    cases row with
    | nil => simp at hx
    | cons x0 row =>
      cases j with
      | zero =>
        simp only [List.getElem?_cons_zero, Option.some.injEq] at hc hx
        subst hc; subst hx
        simp
      | succ j =>
        simp only [List.getElem?_cons_succ] at hc hx
        have hne : c0.col.name ≠ c.col.name := fun h => hn.1 (h ▸ List.mem_map.2 ⟨c, List.mem_of_getElem? hc, rfl⟩)
        rw [List.zip_cons_cons, List.find?_cons_of_neg (by simpa using hne)]
        exact ih row j c x hn.2 hc hx

theorem find_col_at {cols : List TCol} : ∀ (j : Nat) (c : TCol), (cols.map (·.col.name)).Nodup → cols[j]? = some c → cols.find? (fun q => q.col.name == c.col.name) = some c := by
  induction cols with
  | nil => intro j c _ h; simp at h
  | cons c0 cols ih =>
    intro j c hn hc
    rw [List.map_cons, List.nodup_cons] at hn
    cases j with
    | zero =>
      simp only [List.getElem?_cons_zero, Option.some.injEq] at hc
      subst hc
      simp
    | succ j =>
      simp only [List.getElem?_cons_succ] at hc
      have hne : c0.col.name ≠ c.col.name := fun h => hn.1 (h ▸ List.mem_map.2 ⟨c, List.mem_of_getElem? hc, rfl⟩)
      rw [List.find?_cons_of_neg (by simpa using hne)]
      exact ih j c hn.2 hc

/-- The order of the rows is the order of the key's column; rows with equivalent values are ordered by the keys that follow. -/
theorem C114_order_is_by_the_column (le : Order) (cols : List TCol) (hn : (cols.map (·.col.name)).Nodup) (j : Nat) (c : TCol) (hc : cols[j]? = some c) (a b : List Cell) (x y : Cell)
    (hx : a[j]? = some x) (hy : b[j]? = some y) (os : List (Bytes × Bool)) :
    (rowLe le cols a b ((c.col.name, false) :: os) = true ↔ le c x y = true ∧ (le c y x = true → rowLe le cols a b os = true))
      ∧ (rowLe le cols a b ((c.col.name, true) :: os) = true ↔ le c y x = true ∧ (le c x y = true → rowLe le cols a b os = true)) := by
  have ea : cellAt cols a c.col.name = x := by rw [cellAt, find_zip a j c x hn hc hx]; rfl
  have eb : cellAt cols b c.col.name = y := by rw [cellAt, find_zip b j c y hn hc hy]; rfl
  constructor
  · rw [rowLe, find_col_at j c hn hc]
    simp only [ea, eb, Bool.false_eq_true, if_false, Bool.and_eq_true, Bool.or_eq_true, Bool.not_eq_true']
    cases le c y x <;> simp
  · rw [rowLe, find_col_at j c hn hc]
    simp only [ea, eb, if_true, Bool.and_eq_true, Bool.or_eq_true, Bool.not_eq_true']
    cases le c x y <;> simp

theorem goInt_sent : Spec.IntsSent goInt some := fun i h1 h2 => ⟨Int64.ofInt i, rfl, Int64.toInt_ofInt_of_le h1 h2⟩

/-- **C114**, ties: if the order does not distinguish the rows, the database may show the same row on both pages, and never the other. -/
theorem C114_ties_can_repeat :
    (pbuild goInt .postgres false 0 ((byName 1).map (PStep.call b!"users"))).render = b!"SELECT id FROM users ORDER BY name LIMIT $1"
    ∧ (pbuild goInt .postgres false 0 ((byName 2).map (PStep.call b!"users"))).render = b!"SELECT id FROM users ORDER BY name LIMIT $1 OFFSET $2"
    ∧ twins.MayAnswer .pg plainEqual plainOrder b!"SELECT id FROM users ORDER BY name LIMIT $1" [goInt 1] [[.dv (.i64 7)]]
    ∧ twins.MayAnswer .pg plainEqual plainOrder b!"SELECT id FROM users ORDER BY name LIMIT $1 OFFSET $2" [goInt 1, goInt 1] [[.dv (.i64 7)]]
    ∧ twins.rows.length = 2 := by
  refine ⟨by decide +kernel, by decide +kernel, ?_, ?_, rfl⟩
  · refine ⟨⟨[b!"id"], b!"users", [], [(b!"name", false)], [b!"$1"]⟩, _, [], [1], by decide +kernel, rfl, rfl, rfl, rfl, rfl, by decide +kernel, by decide +kernel,
      [[.int 7, .text b!"x", .text b!"Ann"], [.int 8, .text b!"y", .text b!"Ann"]], List.Perm.refl _, ?_, by decide +kernel⟩
    rw [List.pairwise_pair]; decide +kernel
  · refine ⟨⟨[b!"id"], b!"users", [], [(b!"name", false)], [b!"$1", b!"$2"]⟩, _, [], [1, 1], by decide +kernel, rfl, rfl, rfl, rfl, rfl, by decide +kernel, by decide +kernel,
      [[.int 8, .text b!"y", .text b!"Ann"], [.int 7, .text b!"x", .text b!"Ann"]], List.Perm.swap _ _ _, ?_, by decide +kernel⟩
    rw [List.pairwise_pair]; decide +kernel

/-- The hypotheses of `C114_pages_partition` can be met: the same users, by their keys, newest first. -/
def byKey (k : Int) : List (PStep Given) := [.order b!"id" true, .base .from_] ++ .page k 1 :: [.base (.cond b!"name" (.dv (.text b!"Ann"))), .base (.col b!"id")]

example : (pbuild goInt .postgres true 0 ((byKey 2).map (PStep.call b!"users"))).render
    = b!"SELECT id \nFROM users \nWHERE name = $1 \nORDER BY id DESC \nLIMIT $2 \nOFFSET $3" := by decide +kernel

example : Spec.IsPage 2 1 (byKey 2) ∧ (∀ x ∈ byKey 2, x.OK) ∧ Spec.PageWords (byKey 2)
    ∧ Spec.Sent some (condsOf (baseOf (byKey 2))) [(b!"name", .dv (.text b!"Ann"))] ∧ Spec.Sensible twins.cols [(b!"name", .dv (.text b!"Ann"))]
    ∧ (∀ row ∈ twins.rows, Spec.Matches plainEqual twins.cols [(b!"name", .dv (.text b!"Ann"))] row)
    ∧ (∀ a ∈ twins.rows, ∀ b ∈ twins.rows, rowLe plainOrder twins.cols a b [(b!"id", true)] = true → rowLe plainOrder twins.cols b a [(b!"id", true)] = true → a = b) := by
  refine ⟨⟨⟨[], [_, _], rfl, by simp⟩, rfl⟩, ?_, ⟨?_, ?_, ?_⟩, rfl, ?_, ?_, ?_⟩
  · intro x hx
    simp only [byKey, List.cons_append, List.nil_append, List.mem_cons, List.not_mem_nil, or_false] at hx
    rcases hx with rfl | rfl | rfl | rfl | rfl
    · exact ⟨by decide, by unfold Plain; decide⟩
    · trivial
    · trivial
    · exact ⟨by decide, by unfold Plain; decide⟩
    · exact ⟨by decide, by unfold Plain; decide⟩
  · intro n hn
    have : n = b!"id" := by simpa [byKey, baseOf, colsOf] using hn
    subst this; exact ⟨by decide, by decide⟩
  · intro p hp
    have : p = (b!"name", .dv (.text b!"Ann")) := by simpa [byKey, baseOf, condsOf] using hp
    subst this; exact ⟨by decide, by decide⟩
  · intro o ho
    have : o = (b!"id", true) := by simpa [byKey, ordersOf] using ho
    subst this; exact ⟨by decide, by decide⟩
  · intro p hp
    rw [List.mem_singleton] at hp
    subst hp
    exact ⟨_, List.mem_cons_of_mem _ (List.mem_cons_of_mem _ (List.mem_cons_self ..)), rfl, rfl⟩
  · intro row hr p hp
    rw [List.mem_singleton] at hp
    subst hp
    simp only [twins, List.mem_cons, List.not_mem_nil, or_false] at hr
    rcases hr with rfl | rfl
    · exact ⟨2, _, _, _, rfl, rfl, rfl, by simp, rfl, by simp, by decide⟩
    · exact ⟨2, _, _, _, rfl, rfl, rfl, by simp, rfl, by simp, by decide⟩
  · intro a ha b hb h1 h2
    simp only [twins, List.mem_cons, List.not_mem_nil, or_false] at ha hb
    rcases ha with rfl | rfl <;> rcases hb with rfl | rfl
    · rfl
    · exact absurd h1 (by decide +kernel)
    · exact absurd h2 (by decide +kernel)
    · rfl

/-- And so can the total order of `C114_page_answered`. -/
example : Spec.IsTotalOrder fun _ _ _ => true := ⟨fun _ _ _ => Or.inl rfl, fun _ _ _ _ _ _ => rfl⟩

end Gen
