import Verif.Schema.Model
import Verif.Xsql.Props3
set_option linter.unusedVariables false
set_option linter.unusedSimpArgs false
/-!
`schema.TableInfo` (schema/schema.go:17-103): what its methods put into a statement.  C55, C72.
-/
namespace Schema
open Xsql

/-- schema.go:18-32 `TableInfo`; `allColumns` is the cache. -/
structure TableInfo where
  schema : Bytes
  name : Bytes
  primaryKey : Bytes
  columns : List Bytes
  indexes : List Bytes
  dialect : Dia
  schemaName : Bytes
  allColumns : Bytes
  deriving DecidableEq, Repr

/-- schema.go:77-82 `AllColumns`: the list and the receiver afterwards. -/
def TableInfo.allColumnsCall (t : TableInfo) : Bytes × TableInfo :=
  if t.allColumns = [] then (joinBytes b!", " t.columns, { t with allColumns := joinBytes b!", " t.columns })
  else (t.allColumns, t)

/-- schema.go:91-101: the loop of `AliasedColumns`, filling `prefixed` from index `i`. -/
def aliasLoop (pre : Bytes) (nulls : Bytes → Bool) : Nat → List Bytes → List Bytes → List Bytes
  | _, [], out => out
  | i, c :: cs, out => aliasLoop pre nulls (i + 1) cs (out.set i (if nulls c then b!"NULL" else if pre = [] then c else pre ++ b!"." ++ c))

/-- schema.go:89-103 `AliasedColumns`; `nulls` is the map `nullColumns`. -/
def TableInfo.aliasedColumns (t : TableInfo) (pre : Bytes) (nulls : Bytes → Bool) : Bytes :=
  joinBytes b!", " (aliasLoop pre nulls 0 t.columns (List.replicate t.columns.length []))

/-- schema.go:55-63 `Select`: the calls made on the new statement, and the receiver afterwards. -/
def TableInfo.selectCalls {α : Type} (t : TableInfo) (cols : List Bytes) : List (Call α) × TableInfo :=
  if cols.length > 0 then ([.from_ t.schemaName [], .select (joinBytes b!"," cols) []], t)
  else ([.from_ t.schemaName [], .select t.allColumnsCall.1 []], t.allColumnsCall.2)

/-- schema.go:69-75 `SelectAliased`. -/
def TableInfo.selectAliasedCalls {α : Type} (t : TableInfo) (pre : Bytes) (nulls : Bytes → Bool) : List (Call α) :=
  [.from_ (if pre ≠ [] then t.schemaName ++ b!" " ++ pre else t.schemaName) [], .select (t.aliasedColumns pre nulls) []]

/-- schema.go:35-52 `From`, `DeleteFrom`, `InsertInto`, `Update`. -/
def TableInfo.fromCalls {α : Type} (t : TableInfo) : List (Call α) := [.from_ t.schemaName []]
def TableInfo.deleteCalls {α : Type} (t : TableInfo) : List (Call α) := [.deleteFrom t.schemaName]
def TableInfo.insertCalls {α : Type} (t : TableInfo) : List (Call α) := [.insertInto t.schemaName]
def TableInfo.updateCalls {α : Type} (t : TableInfo) : List (Call α) := [.update t.schemaName]

/-- The methods of `TableInfo` that a program can call. -/
inductive InfoCall where
  | allColumns
  | aliased (pre : Bytes) (nulls : List Bytes)
  | select (cols : List Bytes)
  | selectAliased (pre : Bytes) (nulls : List Bytes)
  | from_ | delete | insert | update

/-- The receiver after a call. -/
def TableInfo.after (t : TableInfo) : InfoCall → TableInfo
  | .allColumns => t.allColumnsCall.2
  | .select cols => (t.selectCalls (α := Unit) cols).2
  | _ => t

/-- A table info as written in generated code (template.go:177-186): no cache yet. -/
def TableInfo.fresh (schema name pk : Bytes) (columns indexes : List Bytes) (d : Dia) (sn : Bytes) : TableInfo :=
  ⟨schema, name, pk, columns, indexes, d, sn, []⟩

/-! ### Specification -/

/-- How one column is listed. -/
def Spec.item (pre : Bytes) (nulls : Bytes → Bool) (c : Bytes) : Bytes :=
  if nulls c then b!"NULL" else if pre = [] then c else pre ++ b!"." ++ c

/-! ### The lists -/

theorem aliasLoop_eq (pre : Bytes) (nulls : Bytes → Bool) : ∀ (cs done : List Bytes),
    aliasLoop pre nulls done.length cs (done ++ List.replicate cs.length []) = done ++ cs.map (Spec.item pre nulls) := by
  intro cs
  induction cs with
  | nil => intro done; simp [aliasLoop]
  | cons c cs ih =>
    intro done
    have := ih (done ++ [Spec.item pre nulls c])
    simp only [List.length_append, List.length_singleton, List.append_assoc, List.singleton_append] at this
    simp only [aliasLoop, List.length_cons, List.replicate_succ, List.map_cons]
    rw [← this]
    congr 1
    simp [Spec.item]

/-- **C55**: `AliasedColumns` lists every column once, in declaration order, NULL for the requested ones and otherwise with the prefix. -/
theorem C55_aliased_columns (t : TableInfo) (pre : Bytes) (nulls : Bytes → Bool) :
    t.aliasedColumns pre nulls = joinBytes b!", " (t.columns.map (Spec.item pre nulls)) := by
  have := aliasLoop_eq pre nulls t.columns []
  simp only [List.length_nil, List.nil_append] at this
  rw [TableInfo.aliasedColumns, this]

/-- The cache is empty or right. -/
def TableInfo.Good (t : TableInfo) : Prop := t.allColumns = [] ∨ t.allColumns = joinBytes b!", " t.columns

theorem after_good (t : TableInfo) (h : t.Good) (c : InfoCall) : (t.after c).Good ∧ { t.after c with allColumns := [] } = { t with allColumns := [] } := by
  have key : t.allColumnsCall.2.Good ∧ { t.allColumnsCall.2 with allColumns := [] } = { t with allColumns := [] } := by
    unfold TableInfo.allColumnsCall
    split
    · exact ⟨.inr rfl, rfl⟩
    · exact ⟨h, rfl⟩
  cases c <;> try exact ⟨h, rfl⟩
  · exact key
  · rename_i cols
    simp only [TableInfo.after, TableInfo.selectCalls]
    split
    · exact ⟨h, rfl⟩
    · exact key

theorem afters_good (t : TableInfo) (h : t.Good) (cs : List InfoCall) :
    (cs.foldl TableInfo.after t).Good ∧ { cs.foldl TableInfo.after t with allColumns := [] } = { t with allColumns := [] } := by
  induction cs generalizing t with
  | nil => exact ⟨h, rfl⟩
  | cons c cs ih =>
    obtain ⟨h1, h2⟩ := after_good t h c
    obtain ⟨h3, h4⟩ := ih _ h1
    exact ⟨h3, h4.trans h2⟩

/-- **C55**: after any calls at all, `AllColumns` is the list of all columns, and `Select` and `SelectAliased` make the same statement as on a
new table info; the other fields never change. -/
theorem C55_calls_do_not_interfere {α : Type} (s n pk sn : Bytes) (cols idx : List Bytes) (d : Dia) (cs : List InfoCall) :
    let t0 := TableInfo.fresh s n pk cols idx d sn
    let t := cs.foldl TableInfo.after t0
    t.allColumnsCall.1 = joinBytes b!", " cols
      ∧ (∀ l, (t.selectCalls (α := α) l).1 = (t0.selectCalls l).1)
      ∧ (∀ pre nulls, t.selectAliasedCalls (α := α) pre nulls = t0.selectAliasedCalls pre nulls ∧ t.aliasedColumns pre nulls = t0.aliasedColumns pre nulls)
      ∧ t.columns = cols ∧ t.schemaName = sn ∧ t.dialect = d ∧ t.schema = s ∧ t.name = n ∧ t.primaryKey = pk ∧ t.indexes = idx := by
  intro t0 t
  obtain ⟨h1, h2⟩ := afters_good t0 (.inl rfl) cs
  have e : ∀ u : TableInfo, u.Good → { u with allColumns := [] } = t0 → u.allColumnsCall.1 = joinBytes b!", " cols := by
    intro u hu he
    have hc : u.columns = cols := congrArg TableInfo.columns he
    unfold TableInfo.allColumnsCall
    split
    · rw [hc]
    · rename_i hn
      rcases hu with hu | hu
      · exact absurd hu hn
      · simpa [hc] using hu
  have h3 := e t h1 h2
  have h0 := e t0 (.inl rfl) rfl
  have hf := h2
  have hcol : t.columns = cols := congrArg TableInfo.columns h2
  have hsn : t.schemaName = sn := congrArg TableInfo.schemaName h2
  have hal : ∀ pre nulls, t.aliasedColumns pre nulls = t0.aliasedColumns pre nulls := by
    intro pre nulls
    rw [C55_aliased_columns, C55_aliased_columns, hcol]; rfl
  refine ⟨h3, ?_, ?_, hcol, hsn, congrArg TableInfo.dialect h2, congrArg TableInfo.schema h2, congrArg TableInfo.name h2,
    congrArg TableInfo.primaryKey h2, congrArg TableInfo.indexes h2⟩
  · intro l
    unfold TableInfo.selectCalls
    split
    · simp only [hsn]; rfl
    · simp only [hsn, h3, h0]; rfl
  · intro pre nulls
    refine ⟨?_, hal pre nulls⟩
    simp only [TableInfo.selectAliasedCalls, hal, hsn]; rfl

/-! ### The SQL -/

/-- Text that is passed through: no placeholder and no backslash at the end. -/
def Plain (s : Bytes) : Prop := (63 : UInt8) ∉ s ∧ s.getLast? ≠ some 92

theorem tokenize_plain : ∀ (s : Bytes), (63 : UInt8) ∉ s → tokenize s = lits s := by
  intro s
  induction s with
  | nil => intro _; rfl
  | cons a s ih =>
    intro h
    have ha : a ≠ 63 := fun e => h (by simp [e])
    have hs := ih (fun hm => h (List.mem_cons_of_mem _ hm))
    cases s with
    | nil => simp [tokenize, ha, lits]
    | cons c s =>
      have hc : c ≠ 63 := fun e => h (by simp [e])
      simp [tokenize, ha, hc, hs, lits]

theorem assign_lits {α : Type} (s : Bytes) : assign (lits s) ([] : List α) = some (lits s) := by
  induction s with
  | nil => rfl
  | cons a s ih => simpa [lits, assign] using ih

theorem fragOK_plain {α : Type} {s : Bytes} (h : Plain s) : FragOK (α := α) s [] := by
  refine ⟨?_, h.2, fun _ => ?_⟩
  · rw [bindArgs, tokenize_plain s h.1, assign_lits]; rfl
  · rw [tokenize_plain s h.1]; simp [lits]

theorem numbered_plain {α : Type} : ∀ (ts : List (Tok α)) (n : Nat), (63 : UInt8) ∉ raw ts → numbered n ts = raw ts := by
  intro ts
  induction ts with
  | nil => intros; rfl
  | cons t ts ih =>
    intro n h
    have hr : raw (t :: ts) = t.raw ++ raw ts := by simp [raw]
    rw [hr] at h ⊢
    rw [List.mem_append, not_or] at h
    cases t with
    | lit a => simp [numbered, Tok.raw, ih _ h.2]
    | esc => simp [Tok.raw] at h
    | ph a => simp [Tok.raw] at h

/-- Without question marks every dialect renders the same text. -/
theorem render_no_placeholders {α : Type} (d : Dia) {nl : Bool} {st : Nat} {cs : List (Call α)} (h : CallsOK (SpecState.fresh nl st) cs)
    (hq : (63 : UInt8) ∉ (build .default nl st cs).render) : (build d nl st cs).render = (build .default nl st cs).render := by
  obtain ⟨ts, h1, h2, h3, -⟩ := C24_postgres_numbering h
  cases d with
  | postgres => rw [h1, h2]; exact numbered_plain ts 1 (by rw [← h2]; exact hq)
  | default => rfl
  | sqlserver => rw [h3, h2]

theorem trim_solid {w s : Bytes} (hw : ∀ x ∈ w, isCut x = true) (a z : UInt8) (ha : s.head? = some a) (hna : isCut a = false)
    (hz : s.getLast? = some z) (hnz : isCut z = false) : trim (w ++ s) = s := by
  have hd : (w ++ s).dropWhile isCut = s := by
    induction w with
    | nil =>
      cases s with
      | nil => simp at ha
      | cons b s => simp only [List.head?_cons, Option.some.injEq] at ha; subst ha; simp [List.dropWhile_cons, hna]
    | cons b w ih =>
      simp only [List.cons_append, List.dropWhile_cons, hw b (by simp), if_true]
      exact ih (fun x hx => hw x (List.mem_cons_of_mem _ hx))
  unfold trim
  rw [hd]
  have : s.reverse.dropWhile isCut = s.reverse := by
    rw [← List.head?_reverse] at hz
    cases hr : s.reverse with
    | nil => rfl
    | cons b r =>
      rw [hr] at hz
      simp only [List.head?_cons, Option.some.injEq] at hz
      subst hz
      simp [List.dropWhile_cons, hnz]
  rw [this, List.reverse_reverse]

/-- The two calls every `Select` of a table makes. -/
theorem select_from_text {α : Type} (d : Dia) (nl : Bool) (st : Nat) {tn e : Bytes} (ht : Plain tn) (ht0 : ∃ z, tn.getLast? = some z ∧ isCut z = false)
    (he : Plain e) (he0 : e ≠ []) :
    (build (α := α) d nl st [.from_ tn [], .select e []]).render = b!"SELECT " ++ e ++ b!" " ++ (if nl then b!"\n" else []) ++ b!"FROM " ++ tn
    ∧ (build (α := α) d nl st [.from_ tn [], .select e []]).args = [] := by
  have hne : tn ≠ [] := by rintro rfl; simp at ht0
  have hok : CallsOK (SpecState.fresh (α := α) nl st) [.from_ tn [], .select e []] := ⟨fragOK_plain ht, fragOK_plain he, trivial⟩
  obtain ⟨h1, h2⟩ := C22_canonical_order (α := α) .default (by decide) (by intro c hc; simp at hc; rcases hc with rfl | rfl <;> rfl) hok
  have hpart : ∀ p, partsAt (α := α) p [.from_ tn [], .select e []]
      = (if p = posFrom then [⟨posFrom, b!"FROM", tn, [], b!", "⟩] else []) ++ (if p = posSelect then [⟨posSelect, b!"SELECT", e, [], b!", "⟩] else []) := by
    intro p
    simp only [partsAt, List.flatMap_cons, List.flatMap_nil, Call.parts, SpecState.frags, List.append_nil, List.cons_append, List.nil_append,
      List.filter_cons, List.filter_nil, decide_eq_true_eq]
    by_cases h : p = posFrom
    · subst h; rfl
    · by_cases h' : p = posSelect
      · subst h'; rfl
      · simp [h, h', Ne.symm h, Ne.symm h']
  have hclauses : (canonical.filter fun p => partsAt (α := α) p [.from_ tn [], .select e []] ≠ []) = [posSelect, posFrom] := by
    simp only [hpart, canonical, posFrom, posSelect, List.filter_cons, List.filter_nil]
    rfl
  have ha : canonical.flatMap (fun p => clauseArgs (partsAt (α := α) p [.from_ tn [], .select e []])) = [] := by
    simp only [hpart, canonical, posFrom, posSelect, List.flatMap_cons, List.flatMap_nil]
    rfl
  rw [hclauses] at h1
  rw [ha] at h2
  have htext : (build (α := α) .default nl st [.from_ tn [], .select e []]).render = b!"SELECT " ++ e ++ b!" " ++ (if nl then b!"\n" else []) ++ b!"FROM " ++ tn := by
    rw [h1]
    simp only [List.map_cons, List.map_nil, hpart, joinBytes]
    simp only [posFrom, posSelect, clauseText, moreText, if_true, if_false, List.nil_append, List.append_nil, he0, hne, List.append_assoc, Nat.reduceEqDiff,
      List.cons_ne_nil, reduceCtorEq, List.singleton_append, List.cons_append]
    obtain ⟨z, hz, hnz⟩ := ht0
    refine (trim_solid (w := if nl then b!"\n" else []) (by cases nl <;> simp [isCut]) 83 z ?_ (by decide) ?_ hnz)
    · simp
    · rw [show (83 :: 69 :: 76 :: 69 :: 67 :: 84 :: 32 :: (e ++ 32 :: ((if nl = true then [10] else []) ++ 70 :: 82 :: 79 :: 77 :: 32 :: tn)) : Bytes)
          = (b!"SELECT " ++ e ++ b!" " ++ (if nl then b!"\n" else []) ++ b!"FROM ") ++ tn by simp, List.getLast?_append, hz]
      rfl
  have hargs : ∀ d, (build (α := α) d nl st [.from_ tn [], .select e []]).args = [] := by
    intro d
    obtain ⟨ts, -, -, -, h4, h5⟩ := C24_postgres_numbering hok
    cases d with
    | postgres => rw [h4, ← h5, h2]
    | default => exact h2
    | sqlserver => exact (C22_canonical_order (α := α) .sqlserver (by decide) (by intro c hc; simp at hc; rcases hc with rfl | rfl <;> rfl) hok).2.trans ha
  refine ⟨?_, hargs d⟩
  rw [render_no_placeholders d hok, htext]
  rw [htext]
  cases nl <;> simp [ht.1, he.1]

end Schema
