import Verif.Xsql.Props2
set_option linter.unusedSimpArgs false
/-
C30: INSERT, bulk INSERT and UPDATE ... SET.
-/
namespace Xsql
variable {α : Type}

/-- The fragments at a position. -/
def fragsAt (p : Nat) (fs : List (Frag α)) : List (Frag α) := fs.filter fun f => f.pos = p

theorem closed_render (d : Dia) (hd : d ≠ .postgres) {nl : Bool} {st : Nat} {cs : List (Call α)} (h : CallsOK (SpecState.fresh nl st) cs)
    {fs : List (Frag α)} (hfs : fragsOf (SpecState.fresh nl st) cs = fs) (hloc : ∀ f ∈ fs, FragLocal f ∧ f.pos ∈ canonical) :
    (build d nl st cs).render =
      trim (joinBytes b!" " (((canonical.filter fun p => !(fragsAt p fs).isEmpty).map fun p => clauseText nl (fragsAt p fs)))) ∧
    (build d nl st cs).args = canonical.flatMap fun p => clauseArgs (fragsAt p fs) := by
  have hdoc : (spec nl st cs).doc = docOf nl canonical fs := by
    have e : (spec nl st cs).doc = (fragsOf (SpecState.fresh nl st) cs).foldl (addFrag nl) [] := doc_foldl _ cs
    rw [e, hfs]
    exact foldl_addFrag_closed nl canonical canonical_sorted _ fun f hf => (hloc f hf).2
  obtain ⟨h1, h2, -⟩ := C22_sql_is_document d hd h
  have key : ∀ P : List Nat,
      (docOf nl P fs).map (fun c => raw c.toks) = (P.filter fun p => !(fragsAt p fs).isEmpty).map (fun p => clauseText nl (fragsAt p fs)) ∧
      (docOf nl P fs).flatMap (fun c => vals c.toks) = P.flatMap fun p => clauseArgs (fragsAt p fs) := by
    intro P
    induction P with
    | nil => simp [docOf]
    | cons p P ih =>
      unfold docOf at ih ⊢
      simp only [List.filterMap_cons]
      cases hc : clauseOf nl (fragsAt p fs) with
      | none =>
        have hn : fragsAt p fs = [] := by
          cases hh : fragsAt p fs with
          | nil => rfl
          | cons f fs => rw [hh] at hc; simp [clauseOf] at hc
        unfold fragsAt at hc
        rw [hc]
        simp [hn, clauseArgs, ih]
      | some c =>
        have hn : fragsAt p fs ≠ [] := by intro hh; rw [hh] at hc; simp [clauseOf] at hc
        have ht := clauseOf_text hc (p := p) (by intro f hf; simpa using (List.mem_filter.1 hf).2)
          (fun f hf => (hloc f (List.mem_filter.1 hf).1).1)
        unfold fragsAt at hc
        rw [hc]
        simp [hn, ih, ht.1, ht.2]
  rw [h1, h2, hdoc, (key canonical).1, (key canonical).2]
  exact ⟨rfl, rfl⟩

/-! ### The programs -/

/-- A column set in a row: name, value expression, arguments. -/
structure Col (α : Type) where
  field : Bytes
  expr : Bytes
  args : List α
  deriving DecidableEq

/-- A column set to a plain value, `Set(field, v)`. -/
def Col.val (f : Bytes) (v : α) : Col α := ⟨f, b!"?", [v]⟩

/-- `row := q.NewRow(); row = row.SetExpr(...); ...` (stmt.go:1159-1247), the handle threaded through. -/
def Stmt.insertRow (q : Stmt α) (row : List (Col α)) : Stmt α :=
  (row.foldl (fun (p : Stmt α × RowH) c => p.1.rowSetExpr p.2 c.field c.expr c.args) q.newRow).1

/-- The documented bulk insert loop: `q := InsertInto(t); for each row { q.NewRow().Set(...).Set(...) }`. -/
def bulkInsert (d : Dia) (nl : Bool) (st : Nat) (t : Bytes) (rows : List (List (Col α))) : Stmt α :=
  rows.foldl Stmt.insertRow ((newStmt d nl st).insertInto t)

/-- A column name and expression the builder can handle: not empty, as many placeholders as arguments. -/
def ColOK (c : Col α) : Prop := FragOK (α := α) c.field [] ∧ c.field ≠ [] ∧ FragOK c.expr c.args ∧ c.expr ≠ []

/-! ### As call sequences -/

/-- The `SetExpr` calls of one row. -/
def setCalls (first : Bool) : Bool → List (Col α) → List (Call α)
  | _, [] => []
  | ne, c :: cs => .rowSetExpr ⟨first, ne⟩ c.field c.expr c.args :: setCalls first true cs

theorem insertRow_calls (q : Stmt α) (row : List (Col α)) :
    q.insertRow row = (.newRow :: setCalls (rowFirst q.chunks) false row).foldl Stmt.call q := by
  have key : ∀ (row : List (Col α)) (q : Stmt α) (r : RowH),
      (row.foldl (fun (p : Stmt α × RowH) c => p.1.rowSetExpr p.2 c.field c.expr c.args) (q, r)).1 =
        (setCalls r.first r.notEmpty row).foldl Stmt.call q := by
    intro row
    induction row with
    | nil => intro q r; rfl
    | cons c row ih =>
      intro q r
      rw [List.foldl_cons, setCalls, List.foldl_cons]
      exact ih _ _
  rw [List.foldl_cons]
  exact key row q.newRow.1 q.newRow.2

theorem setCalls_ok {first ne : Bool} {row : List (Col α)} (h : ∀ c ∈ row, ColOK c) (s : SpecState α) : CallsOK s (setCalls first ne row) := by
  induction row generalizing s ne with
  | nil => trivial
  | cons c row ih =>
    have hc := h c (by simp)
    exact ⟨⟨hc.1, hc.2.2.1⟩, ih (fun x hx => h x (by simp [hx])) _⟩

/-- The fragments of one row's cells in the VALUES clause. -/
def cellFrags (first ne : Bool) : List (Col α) → List (Frag α)
  | [] => []
  | c :: cs => ⟨posValues, [], c.expr, c.args, if first || ne then b!", " else []⟩ :: cellFrags first true cs

/-- The fragments of one row's columns. -/
def fieldFrags (row : List (Col α)) : List (Frag α) := row.map fun c => ⟨posInsertFields, [], c.field, [], b!", "⟩

/-- Column and value fragments of the cells of a first row (or of `Set` calls). -/
def pairFrags (row : List (Col α)) : List (Frag α) :=
  row.flatMap fun c => [⟨posInsertFields, [], c.field, [], b!", "⟩, ⟨posValues, [], c.expr, c.args, b!", "⟩]

theorem setCalls_frags_true (ne : Bool) (row : List (Col α)) (s : SpecState α) : fragsOf s (setCalls true ne row) = pairFrags row := by
  induction row generalizing s ne with
  | nil => rfl
  | cons c row ih => rw [setCalls, fragsOf, ih, pairFrags, pairFrags, List.flatMap_cons]; simp [SpecState.frags]

theorem pairFrags_at (row : List (Col α)) :
    fragsAt posValues (pairFrags row) = cellFrags true true row ∧ fragsAt posInsertFields (pairFrags row) = fieldFrags row := by
  induction row with
  | nil => exact ⟨rfl, rfl⟩
  | cons c row ih =>
    unfold pairFrags fragsAt fieldFrags at *
    rw [List.flatMap_cons, List.filter_append, List.filter_append, ih.1, ih.2]
    simp [cellFrags, posValues, posInsertFields]

/-- All calls of the bulk insert program. -/
def bulkCalls (t : Bytes) (r1 : List (Col α)) (rows : List (List (Col α))) : List (Call α) :=
  .insertInto t :: (.newRow :: setCalls true false r1) ++ rows.flatMap fun r => .newRow :: setCalls false false r

theorem has_addFrag (nl : Bool) (d : List (Clause α)) (f : Frag α) (p : Nat) :
    (addFrag nl d f).any (fun c => decide (c.pos = p)) = (decide (f.pos = p) || d.any fun c => decide (c.pos = p)) := by
  have h := addFrag_find nl d f p
  have conv : ∀ l : List (Clause α), l.any (fun c => decide (c.pos = p)) = (l.find? fun c => decide (c.pos = p)).isSome := by
    intro l; rw [Bool.eq_iff_iff, List.find?_isSome, List.any_eq_true]
  rw [conv, conv, h]
  by_cases hp : f.pos = p <;> simp [hp]

theorem has_frags (s : SpecState α) (c : Call α) (p : Nat) :
    (s.call c).has p = ((s.frags c).any (fun f => decide (f.pos = p)) || s.has p) := by
  unfold SpecState.has SpecState.call
  simp only
  generalize s.frags c = fs
  generalize s.doc = d
  induction fs generalizing d with
  | nil => simp
  | cons f fs ih => rw [List.foldl_cons, ih, has_addFrag]; simp [Bool.or_left_comm, Bool.or_assoc]

theorem has_calls (s : SpecState α) (cs : List (Call α)) (p : Nat) :
    (cs.foldl SpecState.call s).has p = ((fragsOf s cs).any (fun f => decide (f.pos = p)) || s.has p) := by
  induction cs generalizing s with
  | nil => simp [fragsOf]
  | cons c cs ih => rw [List.foldl_cons, ih, has_frags, fragsOf, List.any_append, Bool.or_left_comm, Bool.or_assoc]

/-- The fragments of the rows after the first. -/
def restFrags (rows : List (List (Col α))) : List (Frag α) :=
  rows.flatMap fun r => ⟨posValues, [], b!" ", [], b!" ), ("⟩ :: cellFrags false false r

theorem fragsOf_append (s : SpecState α) (a b : List (Call α)) : fragsOf s (a ++ b) = fragsOf s a ++ fragsOf (a.foldl SpecState.call s) b := by
  induction a generalizing s with
  | nil => rfl
  | cons c a ih => simp only [List.cons_append, fragsOf, ih, List.foldl_cons, List.append_assoc]

theorem cellFrags_pos (first ne : Bool) (row : List (Col α)) : ∀ f ∈ cellFrags first ne row, f.pos = posValues := by
  induction row generalizing ne with
  | nil => simp [cellFrags]
  | cons c row ih =>
    intro f hf
    rcases List.mem_cons.1 hf with rfl | hf
    · rfl
    · exact ih _ f hf

theorem setCalls_frags_false (ne : Bool) (row : List (Col α)) (s : SpecState α) :
    fragsOf s (setCalls false ne row) = cellFrags false ne row := by
  induction row generalizing s ne with
  | nil => rfl
  | cons c row ih => rw [setCalls, fragsOf, ih, cellFrags]; simp [SpecState.frags]

theorem rest_frags (rows : List (List (Col α))) (s : SpecState α) (hs : s.has posValues = true) :
    fragsOf s (rows.flatMap fun r => .newRow :: setCalls false false r) = restFrags rows := by
  induction rows generalizing s with
  | nil => rfl
  | cons r rows ih =>
    rw [List.flatMap_cons, fragsOf_append, ih _ (by rw [has_calls, hs, Bool.or_true])]
    rw [fragsOf, setCalls_frags_false, restFrags, restFrags, List.flatMap_cons]
    simp [SpecState.frags, hs]

/-- Refinement of the loop by calls. -/
theorem bulkInsert_calls (d : Dia) {nl : Bool} {st : Nat} {t : Bytes} (ht : FragOK (α := α) t []) {r1 : List (Col α)} {rows : List (List (Col α))}
    (h1 : r1 ≠ []) (hok : ∀ r ∈ r1 :: rows, ∀ c ∈ r, ColOK c) :
    bulkInsert d nl st t (r1 :: rows) = build d nl st (bulkCalls t r1 rows) ∧ CallsOK (SpecState.fresh nl st) (bulkCalls t r1 rows) := by
  have hA : CallsOK (SpecState.fresh nl st) [Call.insertInto (α := α) t] := ⟨ht, trivial⟩
  have hrA : Ref (build d nl st [Call.insertInto (α := α) t]) (spec nl st [.insertInto t]) := build_ref d hA
  have hfirst : rowFirst (build d nl st [Call.insertInto (α := α) t]).chunks = true := by
    rw [newRow_first hrA.sorted, ← Bool.not_eq_false, decide_eq_false_iff_not, not_not, ← has_iff hrA]
    unfold spec
    rw [has_calls]
    simp [fragsOf, SpecState.frags, SpecState.fresh, SpecState.has, posInsert, posValues]
  have hB : CallsOK (SpecState.fresh nl st) (.insertInto t :: (.newRow :: setCalls true false r1)) :=
    ⟨ht, trivial, setCalls_ok (hok r1 (by simp)) _⟩
  have hhas : (spec nl st (.insertInto t :: (.newRow :: setCalls true false r1))).has posValues = true := by
    unfold spec
    rw [has_calls]
    obtain ⟨c, r, rfl⟩ := List.exists_cons_of_ne_nil h1
    simp [fragsOf, SpecState.frags, setCalls]
  have loop : ∀ (rows : List (List (Col α))) (q : Stmt α) (s : SpecState α), Ref q s → s.has posValues = true → (∀ r ∈ rows, ∀ c ∈ r, ColOK c) →
      rows.foldl Stmt.insertRow q = (rows.flatMap fun r => .newRow :: setCalls false false r).foldl Stmt.call q ∧
      CallsOK s (rows.flatMap fun r => .newRow :: setCalls false false r) := by
    intro rows
    induction rows with
    | nil => intro q s _ _ _; exact ⟨rfl, trivial⟩
    | cons r rows ih =>
      intro q s hr hs hok
      have hfl : rowFirst q.chunks = false := by
        rw [newRow_first hr.sorted, decide_eq_false_iff_not, not_not, ← has_iff hr]; exact hs
      have hc : CallsOK s (.newRow :: setCalls false false r) := ⟨trivial, setCalls_ok (hok r (by simp)) _⟩
      obtain ⟨e, k⟩ := ih _ _ (ref_calls _ hr hc) (by rw [has_calls, hs, Bool.or_true]) (fun x hx => hok x (by simp [hx]))
      rw [List.foldl_cons, List.flatMap_cons, List.foldl_append, insertRow_calls, hfl]
      exact ⟨e, callsOK_append' hc k⟩
  obtain ⟨e, k⟩ := loop rows _ _ (build_ref d hB) hhas (fun r hr => hok r (by simp [hr]))
  refine ⟨?_, ?_⟩
  · have e0 : bulkInsert d nl st t (r1 :: rows) = rows.foldl Stmt.insertRow ((build d nl st [.insertInto t]).insertRow r1) := by
      unfold bulkInsert build; rw [List.foldl_cons, List.foldl_cons, List.foldl_nil]; congr 1
    rw [e0, insertRow_calls, hfirst]
    have e1 : (.newRow :: setCalls true false r1).foldl Stmt.call (build d nl st [.insertInto t]) =
        build d nl st (.insertInto t :: (.newRow :: setCalls true false r1)) := (build_append d nl st [.insertInto t] _).symm
    rw [e1, e, ← build_append]; unfold bulkCalls; rfl
  · have := callsOK_append' hB k
    exact this

/-! ### Text of the two clauses -/

theorem moreText_append (fs gs : List (Frag α)) : moreText true (fs ++ gs) = moreText true fs ++ moreText true gs := by
  induction fs with
  | nil => rfl
  | cons f fs ih => simp only [List.cons_append, moreText]; split <;> simp [ih]

theorem joinBytes_cons (sep p : Bytes) (ps : List Bytes) : joinBytes sep (p :: ps) = p ++ ps.flatMap (sep ++ ·) := by
  induction ps generalizing p with
  | nil => simp [joinBytes]
  | cons q ps ih => simp only [joinBytes, ih]; simp

theorem moreText_sep (sep : Bytes) (fs : List (Frag α)) (h : ∀ f ∈ fs, f.expr ≠ [] ∧ f.sep = sep) :
    moreText true fs = (fs.map Frag.expr).flatMap (sep ++ ·) := by
  induction fs with
  | nil => rfl
  | cons f fs ih =>
    have hf := h f (by simp)
    simp [moreText, hf.1, hf.2, ih (fun g hg => h g (by simp [hg]))]

theorem cellFrags_more (row : List (Col α)) (h : ∀ c ∈ row, c.expr ≠ []) :
    moreText true (cellFrags false true row) = (row.map Col.expr).flatMap (b!", " ++ ·) ∧
    moreText true (cellFrags true true row) = (row.map Col.expr).flatMap (b!", " ++ ·) ∧
    moreText true (cellFrags false false row) = joinBytes b!", " (row.map Col.expr) := by
  have key : ∀ first, moreText true (cellFrags first true row) = (row.map Col.expr).flatMap (b!", " ++ ·) := by
    intro first
    induction row with
    | nil => rfl
    | cons c row ih =>
      simp only [cellFrags, Bool.or_true, if_true, moreText, h c (by simp), if_false]
      rw [ih (fun x hx => h x (by simp [hx]))]
      simp
  refine ⟨key false, key true, ?_⟩
  cases row with
  | nil => rfl
  | cons c row =>
    have hk : moreText true (cellFrags false true row) = (row.map Col.expr).flatMap (b!", " ++ ·) := by
      have := key false
      simp only [cellFrags, Bool.or_true, if_true, moreText, h c (by simp), if_false, List.map_cons, List.flatMap_cons] at this
      simpa using this
    simp only [cellFrags, Bool.or_self, Bool.false_eq_true, if_false, if_true, moreText, h c (by simp), hk, List.map_cons, joinBytes_cons]
    simp

theorem cellFrags_args (first ne : Bool) (row : List (Col α)) : (cellFrags first ne row).flatMap Frag.args = row.flatMap Col.args := by
  induction row generalizing ne with
  | nil => rfl
  | cons c row ih => simp [cellFrags, ih]

/-- The groups of values, as SQL text: `e, e ), ( e, e ), ( e, e`. -/
def valuesText (rows : List (List (Col α))) : Bytes := joinBytes b!" ), ( " (rows.map fun r => joinBytes b!", " (r.map Col.expr))

/-- The column list: `f, f, f`. -/
def fieldsText (r1 : List (Col α)) : Bytes := joinBytes b!", " (r1.map Col.field)

/-- The INSERT statement as documented (stmt.go:1159-1173), with the line breaks of the multi-line mode. -/
def insertSQL (nl : Bool) (t : Bytes) (fields values : Bytes) : Bytes :=
  let br := if nl then b!"\n" else []
  b!"INSERT INTO " ++ t ++ b!" " ++ br ++ b!"( " ++ fields ++ b!" " ++ br ++ b!") VALUES ( " ++ values ++ b!" " ++ br ++ b!")"

theorem restFrags_more (rows : List (List (Col α))) (h : ∀ r ∈ rows, ∀ c ∈ r, c.expr ≠ []) :
    moreText true (restFrags rows) = (rows.map fun r => joinBytes b!", " (r.map Col.expr)).flatMap (b!" ), ( " ++ ·) := by
  induction rows with
  | nil => rfl
  | cons r rows ih =>
    rw [restFrags, List.flatMap_cons, moreText_append]
    rw [restFrags] at ih
    rw [ih (fun x hx => h x (by simp [hx]))]
    simp only [moreText, (cellFrags_more r (h r (by simp))).2.2]
    simp

theorem restFrags_args (rows : List (List (Col α))) : (restFrags rows).flatMap Frag.args = rows.flatMap fun r => r.flatMap Col.args := by
  induction rows with
  | nil => rfl
  | cons r rows ih =>
    rw [restFrags, List.flatMap_cons, List.flatMap_append] at *
    rw [ih]; simp [cellFrags_args]

/-- The fragments of `InsertInto(t)`. -/
def insertFrags (t : Bytes) : List (Frag α) :=
  [⟨posInsert, b!"INSERT INTO", t, [], b!", "⟩, ⟨399, b!"(", [], [], []⟩, ⟨499, b!") VALUES (", [], [], []⟩, ⟨501, b!")", [], [], []⟩]

theorem trim_id {s : Bytes} {a b : UInt8} {m : Bytes} (h : s = a :: m ++ [b]) (ha : isCut a = false) (hb : isCut b = false) : trim s = s := by
  subst h
  simp [trim, ha, hb]

theorem trim_nl (s : Bytes) : trim (b!"\n" ++ s) = trim s := rfl

/-- Rendering of an INSERT whose column and value fragments are known. -/
theorem insert_render (d : Dia) (hd : d ≠ .postgres) {nl : Bool} {st : Nat} {cs : List (Call α)} (h : CallsOK (SpecState.fresh nl st) cs)
    {t : Bytes} (ht : FragOK (α := α) t []) (ht0 : t ≠ []) {fs : List (Frag α)} {f0 : Frag α} {F : List (Frag α)} {v0 : Frag α} {V : List (Frag α)}
    (hfs : fragsOf (SpecState.fresh nl st) cs = insertFrags t ++ fs)
    (hpos : ∀ f ∈ fs, f.pos = posValues ∨ f.pos = posInsertFields)
    (hF : fragsAt posInsertFields fs = f0 :: F) (hV : fragsAt posValues fs = v0 :: V)
    (hkw : ∀ f ∈ fs, f.kw = []) (hloc : ∀ f ∈ fs, FragLocal f) (hf0 : f0.expr ≠ []) (hv0 : v0.expr ≠ []) :
    (build d nl st cs).render = insertSQL nl t (f0.expr ++ moreText true F) (v0.expr ++ moreText true V) ∧
    (build d nl st cs).args = (f0 :: F).flatMap Frag.args ++ (v0 :: V).flatMap Frag.args := by
  have hE : FragOK (α := α) [] [] := FragOK.const (by simp) (by simp)
  have hl : ∀ f ∈ insertFrags t ++ fs, FragLocal f ∧ f.pos ∈ canonical := by
    intro f hf
    rcases List.mem_append.1 hf with hf | hf
    · simp only [insertFrags, List.mem_cons, List.not_mem_nil, or_false] at hf
      rcases hf with rfl | rfl | rfl | rfl
      · exact ⟨FragLocal.mk' ht (by decide) (by decide) (by decide) sepOK_comma, by simp [canonical, posInsert]⟩
      · exact ⟨FragLocal.mk' hE (by decide) (by decide) (by decide) sepOK_nil, by simp [canonical]⟩
      · exact ⟨FragLocal.mk' hE (by decide) (by decide) (by decide) sepOK_nil, by simp [canonical]⟩
      · exact ⟨FragLocal.mk' hE (by decide) (by decide) (by decide) sepOK_nil, by simp [canonical]⟩
    · refine ⟨hloc f hf, ?_⟩
      rcases hpos f hf with h | h <;> rw [h] <;> simp [canonical, posValues, posInsertFields]
  obtain ⟨e1, e2⟩ := closed_render d hd h hfs hl
  have hat : ∀ p, fragsAt p (insertFrags t ++ fs) = fragsAt p (insertFrags t) ++ fragsAt p fs := fun p => List.filter_append ..
  have hnone : ∀ p, p ≠ posValues → p ≠ posInsertFields → fragsAt p fs = [] := by
    intro p h1 h2
    rw [fragsAt, List.filter_eq_nil_iff]
    intro f hf
    rcases hpos f hf with h | h <;> simp [h, Ne.symm h1, Ne.symm h2]
  have hmemF : f0 ∈ fs := by
    have : f0 ∈ fragsAt posInsertFields fs := by rw [hF]; simp
    exact (List.mem_filter.1 this).1
  have hmemV : v0 ∈ fs := by
    have : v0 ∈ fragsAt posValues fs := by rw [hV]; simp
    exact (List.mem_filter.1 this).1
  have a300 : fragsAt 300 (insertFrags t ++ fs) = [⟨posInsert, b!"INSERT INTO", t, [], b!", "⟩] := by
    rw [hat, hnone 300 (by decide) (by decide)]; simp [fragsAt, insertFrags, posInsert]
  have a399 : fragsAt 399 (insertFrags t ++ fs) = [⟨399, b!"(", [], [], []⟩] := by
    rw [hat, hnone 399 (by decide) (by decide)]; simp [fragsAt, insertFrags, posInsert]
  have a400 : fragsAt 400 (insertFrags t ++ fs) = f0 :: F := by
    rw [hat, ← hF]; simp [fragsAt, insertFrags, posInsert, posInsertFields]; rfl
  have a499 : fragsAt 499 (insertFrags t ++ fs) = [⟨499, b!") VALUES (", [], [], []⟩] := by
    rw [hat, hnone 499 (by decide) (by decide)]; simp [fragsAt, insertFrags, posInsert]
  have a500 : fragsAt 500 (insertFrags t ++ fs) = v0 :: V := by
    rw [hat, ← hV]; simp [fragsAt, insertFrags, posInsert, posValues]; rfl
  have a501 : fragsAt 501 (insertFrags t ++ fs) = [⟨501, b!")", [], [], []⟩] := by
    rw [hat, hnone 501 (by decide) (by decide)]; simp [fragsAt, insertFrags, posInsert]
  have aelse : ∀ p, p ∉ [300, 399, 400, 499, 500, 501] → fragsAt p (insertFrags t ++ fs) = [] := by
    intro p hp
    simp only [List.mem_cons, List.not_mem_nil, or_false, not_or] at hp
    rw [hat, hnone p (by simp [posValues]; omega) (by simp [posInsertFields]; omega)]
    simp only [fragsAt, insertFrags, posInsert, List.append_nil, List.filter_eq_nil_iff]
    intro f hf
    simp only [List.mem_cons, List.not_mem_nil, or_false] at hf
    rcases hf with rfl | rfl | rfl | rfl <;> simp <;> omega
  have hfil : canonical.filter (fun p => !(fragsAt p (insertFrags t ++ fs)).isEmpty) = [300, 399, 400, 499, 500, 501] := by
    simp only [canonical, List.filter_cons, List.filter_nil, a300, a399, a400, a499, a500, a501,
      aelse 200 (by decide), aelse 600 (by decide), aelse 700 (by decide), aelse 800 (by decide), aelse 900 (by decide), aelse 1100 (by decide),
      aelse 1200 (by decide), aelse 1300 (by decide), aelse 1400 (by decide), aelse 1600 (by decide), aelse 1700 (by decide),
      aelse 1800 (by decide), aelse 1900 (by decide)]
    simp
  constructor
  · rw [e1, hfil]
    simp only [List.map_cons, List.map_nil, a300, a399, a400, a499, a500, a501, clauseText, moreText, hkw f0 hmemF, hkw v0 hmemV, if_true, if_false,
      List.nil_append, List.append_nil, joinBytes, decide_true, hf0, hv0, ne_eq, not_false_eq_true, ht0, reduceCtorEq]
    cases nl
    · simp only [Bool.false_eq_true, if_false, insertSQL, List.nil_append]
      refine (trim_id (a := 73) (b := 41)
        (m := b!"NSERT INTO " ++ t ++ b!" ( " ++ (f0.expr ++ moreText true F) ++ b!" ) VALUES ( " ++ (v0.expr ++ moreText true V) ++ b!" ") ?_ rfl rfl).trans ?_
      · simp
      · simp
    · simp only [if_true, insertSQL]
      rw [List.append_assoc, List.append_assoc, List.append_assoc, List.append_assoc, trim_nl]
      refine (trim_id (a := 73) (b := 41)
        (m := b!"NSERT INTO " ++ t ++ b!" \n( " ++ (f0.expr ++ moreText true F) ++ b!" \n) VALUES ( " ++ (v0.expr ++ moreText true V) ++ b!" \n") ?_ rfl rfl).trans ?_
      · simp
      · simp
  · rw [e2]
    have ca : ∀ p l, ¬ single p → (∀ f ∈ l, f.pos = p) → clauseArgs (α := α) l = l.flatMap Frag.args := by
      intro p l hs hl
      unfold clauseArgs
      cases hg : l.getLast? with
      | none => rw [List.getLast?_eq_none_iff] at hg; simp [hg]
      | some f => simp [hl f (List.mem_of_getLast? hg), hs]
    have hcF : clauseArgs (f0 :: F) = (f0 :: F).flatMap Frag.args := ca 400 _ (by decide) (by
      intro f hf; rw [← hF] at hf; exact of_decide_eq_true (List.mem_filter.1 hf).2)
    have hcV : clauseArgs (v0 :: V) = (v0 :: V).flatMap Frag.args := ca 500 _ (by decide) (by
      intro f hf; rw [← hV] at hf; exact of_decide_eq_true (List.mem_filter.1 hf).2)
    have hnil : clauseArgs ([] : List (Frag α)) = [] := rfl
    simp only [canonical, List.flatMap_cons, List.flatMap_nil, a300, a399, a400, a499, a500, a501,
      aelse 200 (by decide), aelse 600 (by decide), aelse 700 (by decide), aelse 800 (by decide), aelse 900 (by decide), aelse 1100 (by decide),
      aelse 1200 (by decide), aelse 1300 (by decide), aelse 1400 (by decide), aelse 1600 (by decide), aelse 1700 (by decide),
      aelse 1800 (by decide), aelse 1900 (by decide), hnil, hcF, hcV]
    simp [clauseArgs]

theorem pairFrags_local {row : List (Col α)} (h : ∀ c ∈ row, ColOK c) :
    ∀ f ∈ pairFrags row, FragLocal f ∧ f.kw = [] ∧ (f.pos = posValues ∨ f.pos = posInsertFields) := by
  intro f hf
  obtain ⟨c, hc, hf⟩ := List.mem_flatMap.1 hf
  have hok := h c hc
  simp only [List.mem_cons, List.not_mem_nil, or_false] at hf
  rcases hf with rfl | rfl
  · exact ⟨FragLocal.mk' hok.1 (by simp) (by simp) (by decide) sepOK_comma, rfl, .inr rfl⟩
  · exact ⟨FragLocal.mk' hok.2.2.1 (by simp) (by simp) (show ¬ single posValues by decide) sepOK_comma, rfl, .inl rfl⟩

theorem cellFrags_local {row : List (Col α)} (h : ∀ c ∈ row, ColOK c) (ne : Bool) :
    ∀ f ∈ cellFrags false ne row, FragLocal f ∧ f.kw = [] ∧ f.pos = posValues := by
  induction row generalizing ne with
  | nil => simp [cellFrags]
  | cons c row ih =>
    intro f hf
    rcases List.mem_cons.1 hf with rfl | hf
    · refine ⟨FragLocal.mk' (h c (by simp)).2.2.1 (by simp) (by simp) (show ¬ single posValues by decide) ?_, rfl, rfl⟩
      split
      · exact sepOK_comma
      · exact sepOK_nil
    · exact ih (fun x hx => h x (by simp [hx])) _ f hf

theorem restFrags_local {rows : List (List (Col α))} (h : ∀ r ∈ rows, ∀ c ∈ r, ColOK c) :
    ∀ f ∈ restFrags rows, FragLocal f ∧ f.kw = [] ∧ f.pos = posValues := by
  intro f hf
  obtain ⟨r, hr, hf⟩ := List.mem_flatMap.1 hf
  rcases List.mem_cons.1 hf with rfl | hf
  · exact ⟨FragLocal.mk' (FragOK.const (by decide) (by decide)) (by simp) (by simp) (by decide) (by decide), rfl, rfl⟩
  · exact cellFrags_local (h r hr) false f hf

theorem insert_of_frags (d : Dia) (hd : d ≠ .postgres) {nl : Bool} {st : Nat} {cs : List (Call α)} (h : CallsOK (SpecState.fresh nl st) cs)
    {t : Bytes} (ht : FragOK (α := α) t []) (ht0 : t ≠ []) {r1 : List (Col α)} {rows : List (List (Col α))} (h1 : r1 ≠ [])
    (hok : ∀ r ∈ r1 :: rows, ∀ c ∈ r, ColOK c)
    (hfs : fragsOf (SpecState.fresh nl st) cs = insertFrags t ++ (pairFrags r1 ++ restFrags rows)) :
    (build d nl st cs).render = insertSQL nl t (fieldsText r1) (valuesText (r1 :: rows)) ∧
    (build d nl st cs).args = (r1 :: rows).flatMap fun r => r.flatMap Col.args := by
  obtain ⟨c, r, rfl⟩ := List.exists_cons_of_ne_nil h1
  have hl1 := pairFrags_local (hok (c :: r) (by simp))
  have hl2 := restFrags_local (rows := rows) (fun r hr => hok r (by simp [hr]))
  have hc := hok (c :: r) (by simp) c (by simp)
  have hrv : fragsAt posValues (restFrags rows) = restFrags rows := List.filter_eq_self.2 fun f hf => by simp [(hl2 f hf).2.2]
  have hrf : fragsAt posInsertFields (restFrags rows) = [] := List.filter_eq_nil_iff.2 fun f hf => by
    simp [(hl2 f hf).2.2, posValues, posInsertFields]
  have hat : ∀ p, fragsAt p (pairFrags (c :: r) ++ restFrags rows) = fragsAt p (pairFrags (c :: r)) ++ fragsAt p (restFrags rows) :=
    fun p => List.filter_append ..
  have hres := insert_render d hd h ht ht0 (f0 := ⟨posInsertFields, [], c.field, [], b!", "⟩) (F := fieldFrags r)
    (v0 := ⟨posValues, [], c.expr, c.args, b!", "⟩) (V := cellFrags true true r ++ restFrags rows) hfs ?_ ?_ ?_ ?_ ?_ hc.2.1 hc.2.2.2
  · have hexprs : ∀ x ∈ r, x.expr ≠ [] := fun x hx => (hok (c :: r) (by simp) x (by simp [hx])).2.2.2
    have hm1 : moreText true (fieldFrags r) = (r.map Col.field).flatMap (b!", " ++ ·) := by
      rw [moreText_sep b!", "]
      · simp [fieldFrags, List.flatMap_map]
      · intro f hf
        obtain ⟨x, hx, rfl⟩ := List.mem_map.1 hf
        exact ⟨(hok (c :: r) (by simp) x (by simp [hx])).2.1, rfl⟩
    have hm2 : moreText true (cellFrags true true r ++ restFrags rows) =
        (r.map Col.expr).flatMap (b!", " ++ ·) ++ (rows.map fun r => joinBytes b!", " (r.map Col.expr)).flatMap (b!" ), ( " ++ ·) := by
      rw [moreText_append, (cellFrags_more r hexprs).2.1, restFrags_more rows fun x hx y hy => (hok x (by simp [hx]) y hy).2.2.2]
    rw [hm1, hm2] at hres
    refine ⟨?_, ?_⟩
    · rw [hres.1]
      unfold fieldsText valuesText
      rw [List.map_cons, List.map_cons, joinBytes_cons, joinBytes_cons, List.map_cons, joinBytes_cons]
      simp
    · rw [hres.2]
      simp only [List.flatMap_cons, List.flatMap_append, cellFrags_args, restFrags_args, fieldFrags]
      simp [List.flatMap_map]
  · intro f hf
    rcases List.mem_append.1 hf with hf | hf
    · exact (hl1 f hf).2.2
    · exact .inl (hl2 f hf).2.2
  · rw [hat, (pairFrags_at _).2, hrf]; simp [fieldFrags]
  · rw [hat, (pairFrags_at _).1, hrv]; simp [cellFrags]
  · intro f hf
    rcases List.mem_append.1 hf with hf | hf
    · exact (hl1 f hf).2.1
    · exact (hl2 f hf).2.1
  · intro f hf
    rcases List.mem_append.1 hf with hf | hf
    · exact (hl1 f hf).1
    · exact (hl2 f hf).1

/-! ### C30 -/

/-- **C30 (bulk insert).** For any table and any rows (the first not empty), the documented `NewRow().Set(...)` loop renders
`INSERT INTO t ( columns of the first row ) VALUES ( row ), ( row ), ...`: one group per row, holding the row's
expressions in order; `Args()` are the arguments row by row. -/
theorem C30_bulk_insert (d : Dia) (hd : d ≠ .postgres) (nl : Bool) (st : Nat) {t : Bytes} (ht : FragOK (α := α) t []) (ht0 : t ≠ [])
    {r1 : List (Col α)} {rows : List (List (Col α))} (h1 : r1 ≠ []) (hok : ∀ r ∈ r1 :: rows, ∀ c ∈ r, ColOK c) :
    (bulkInsert d nl st t (r1 :: rows)).render =
      insertSQL nl t (joinBytes b!", " (r1.map Col.field))
        (joinBytes b!" ), ( " ((r1 :: rows).map fun r => joinBytes b!", " (r.map Col.expr))) ∧
    (bulkInsert d nl st t (r1 :: rows)).args = (r1 :: rows).flatMap fun r => r.flatMap Col.args := by
  obtain ⟨e, hcs⟩ := bulkInsert_calls d (nl := nl) (st := st) ht h1 hok
  rw [e]
  refine insert_of_frags d hd hcs ht ht0 h1 hok ?_
  unfold bulkCalls
  rw [fragsOf_append, rest_frags]
  · have hno : ((SpecState.fresh nl st).call (.insertInto (α := α) t)).has posValues = false := by
      rw [has_frags]; simp [SpecState.frags, SpecState.fresh, SpecState.has, posInsert, posValues]
    have hn : SpecState.frags ((SpecState.fresh nl st).call (.insertInto (α := α) t)) Call.newRow = [] := by simp [SpecState.frags, hno]
    rw [fragsOf, fragsOf, setCalls_frags_true, hn]
    simp only [List.nil_append, List.append_assoc]
    rfl
  · rw [has_calls]
    obtain ⟨c, r, rfl⟩ := List.exists_cons_of_ne_nil h1
    simp [fragsOf, SpecState.frags, setCalls]

/-- **C30 (bulk insert, all dialects).** The tokens behind the statement are the same for Postgres, where the placeholders
are numbered row by row: `( $1, $2 ), ( $3, $4 )`. -/
theorem C30_bulk_insert_postgres (nl : Bool) (st : Nat) {t : Bytes} (ht : FragOK (α := α) t []) (ht0 : t ≠ [])
    {r1 : List (Col α)} {rows : List (List (Col α))} (h1 : r1 ≠ []) (hok : ∀ r ∈ r1 :: rows, ∀ c ∈ r, ColOK c) :
    (bulkInsert .postgres nl st t (r1 :: rows)).render =
      numbered 1 (bound (insertSQL nl t (joinBytes b!", " (r1.map Col.field))
        (joinBytes b!" ), ( " ((r1 :: rows).map fun r => joinBytes b!", " (r.map Col.expr)))) ((r1 :: rows).flatMap fun r => r.flatMap Col.args)) ∧
    (bulkInsert .postgres nl st t (r1 :: rows)).args = (r1 :: rows).flatMap fun r => r.flatMap Col.args := by
  obtain ⟨e, hcs⟩ := bulkInsert_calls .postgres (nl := nl) (st := st) ht h1 hok
  have hdef := C30_bulk_insert .default (by simp) nl st ht ht0 h1 hok
  rw [(bulkInsert_calls .default (nl := nl) (st := st) ht h1 hok).1] at hdef
  have hb := (C21_sql_consumes_args .default (by simp) hcs).1
  rw [hdef.1, hdef.2] at hb
  have r1' := render_eq (build_ref .postgres hcs)
  rw [(build_fields .postgres nl st _).1, trim_written] at r1'
  have r2' := render_eq (build_ref .default hcs)
  rw [e, r1'.1, r1'.2, ← r2'.2, hdef.2, bound_of hb]
  exact ⟨by simp [written], rfl⟩

/-- **C30.** If every row sets the columns of the first row, every group has as many values as there are columns, and the
j-th value of the i-th row is the one the row supplied for the j-th column. -/
theorem C30_columns_match {r1 : List (Col α)} {rows : List (List (Col α))} (h : ∀ r ∈ rows, r.map Col.field = r1.map Col.field) :
    ∀ r ∈ r1 :: rows, (r.map Col.expr).length = (r1.map Col.field).length ∧
      ∀ j (hj : j < r.length), (r1.map Col.field)[j]? = some (r[j].field) := by
  intro r hr
  have hm : r.map Col.field = r1.map Col.field := by
    rcases List.mem_cons.1 hr with rfl | hr
    · rfl
    · exact h r hr
  refine ⟨by rw [← hm]; simp, ?_⟩
  intro j hj
  rw [← hm]; simp [hj]

/-- `InsertInto(t).SetExpr(...).SetExpr(...)` as calls. -/
def insertSetCalls (t : Bytes) (row : List (Col α)) : List (Call α) := .insertInto t :: row.map fun c => .setExpr c.field c.expr c.args

/-- **C30 (Set).** The single-row form `InsertInto(t).Set(...).Set(...)` renders the same statement as a bulk insert of one row. -/
theorem C30_insert_set (d : Dia) (hd : d ≠ .postgres) (nl : Bool) (st : Nat) {t : Bytes} (ht : FragOK (α := α) t []) (ht0 : t ≠ [])
    {row : List (Col α)} (h1 : row ≠ []) (hok : ∀ c ∈ row, ColOK c) :
    (build d nl st (insertSetCalls t row)).render =
      insertSQL nl t (joinBytes b!", " (row.map Col.field)) (joinBytes b!", " (row.map Col.expr)) ∧
    (build d nl st (insertSetCalls t row)).args = row.flatMap Col.args := by
  have key : ∀ (l : List (Col α)) (s : SpecState α), s.has posInsert = true → (∀ c ∈ l, ColOK c) →
      CallsOK s (l.map fun c => .setExpr c.field c.expr c.args) ∧ fragsOf s (l.map fun c => .setExpr c.field c.expr c.args) = pairFrags l := by
    intro l
    induction l with
    | nil => intro s _ _; exact ⟨trivial, rfl⟩
    | cons c l ih =>
      intro s hs hl
      have hc := hl c (by simp)
      obtain ⟨i1, i2⟩ := ih (s.call (.setExpr c.field c.expr c.args)) (by rw [has_frags, hs, Bool.or_true]) (fun x hx => hl x (by simp [hx]))
      refine ⟨⟨⟨hc.1, hc.2.2.1⟩, i1⟩, ?_⟩
      rw [List.map_cons, fragsOf, i2, pairFrags, pairFrags, List.flatMap_cons]
      simp [SpecState.frags, hs]
  have hhas : ((SpecState.fresh nl st).call (.insertInto (α := α) t)).has posInsert = true := by
    rw [has_frags]; simp [SpecState.frags]
  obtain ⟨k1, k2⟩ := key row _ hhas hok
  have hfs : fragsOf (SpecState.fresh nl st) (insertSetCalls t row) = insertFrags t ++ (pairFrags row ++ restFrags []) := by
    rw [insertSetCalls, fragsOf, k2]; simp [restFrags]; rfl
  have hcs : CallsOK (SpecState.fresh nl st) (insertSetCalls t row) := ⟨ht, k1⟩
  have hall : ∀ r ∈ row :: ([] : List (List (Col α))), ∀ c ∈ r, ColOK c := by
    intro r hr; simp at hr; subst hr; exact hok
  have := insert_of_frags d hd hcs ht ht0 (rows := []) h1 hall hfs
  simpa [valuesText, fieldsText, joinBytes] using this

/-- Two rows of two columns. -/
def sampleRows : List (List (Col Nat)) := [[.val b!"key" 1, ⟨b!"value", b!"lower(?)", [2]⟩], [.val b!"key" 3, ⟨b!"value", b!"lower(?)", [4]⟩]]
example : ∀ r ∈ sampleRows, ∀ c ∈ r, ColOK c := by
  intro r hr c hc
  simp only [sampleRows, Col.val, List.mem_cons, List.not_mem_nil, or_false] at hr
  rcases hr with rfl | rfl <;> (simp only [List.mem_cons, List.not_mem_nil, or_false] at hc; rcases hc with rfl | rfl) <;>
    (simp only [ColOK, FragOK]; decide +kernel)
example : (bulkInsert .postgres false 0 b!"table" sampleRows).render =
    b!"INSERT INTO table ( key, value ) VALUES ( $1, lower($2) ), ( $3, lower($4) )" := by decide +kernel
example : (bulkInsert .default true 3 b!"table" sampleRows).args = [1, 2, 3, 4] := by decide +kernel

/-- **C30, a misuse the types allow:** using the row handle without chaining writes the values of a row after the first
without separator. -/
theorem C30_unchained_handle_loses_comma :
    let q := (bulkInsert .default false 0 b!"t" [[Col.val b!"a" 1, Col.val b!"b" 2]]).newRow
    let q1 := (q.1.rowSetExpr q.2 b!"a" b!"?" [3]).1
    (q1.rowSetExpr q.2 b!"b" b!"?" [4]).1.render = b!"INSERT INTO t ( a, b ) VALUES ( ?, ? ), ( ?? )" := by decide +kernel

/-! ### UPDATE ... SET -/

/-- `Update(t).SetExpr(...).SetExpr(...)` as calls. -/
def updateSetCalls (t : Bytes) (row : List (Col α)) : List (Call α) := .update t :: row.map fun c => .setExpr c.field c.expr c.args

/-- **C30 (Update).** `Update(t).Set(...).Set(...)` renders `UPDATE t SET f=e, f=e, ...` with the arguments in call order. -/
theorem C30_update_set (d : Dia) (hd : d ≠ .postgres) (nl : Bool) (st : Nat) {t : Bytes} (ht : FragOK (α := α) t []) (ht0 : t ≠ [])
    {row : List (Col α)} (h1 : row ≠ []) (hok : ∀ c ∈ row, ColOK c) :
    (build d nl st (updateSetCalls t row)).render =
      trim (b!"UPDATE " ++ t ++ b!" " ++ (if nl then b!"\n" else []) ++ b!"SET " ++ joinBytes b!", " (row.map fun c => c.field ++ b!"=" ++ c.expr)) ∧
    (build d nl st (updateSetCalls t row)).args = row.flatMap Col.args := by
  let setF : List (Col α) → List (Frag α) := fun l => l.map fun c => ⟨posSet, b!"SET", c.field ++ b!"=" ++ c.expr, c.args, b!", "⟩
  have fe : ∀ c ∈ row, FragOK (c.field ++ b!"=" ++ c.expr) c.args := by
    intro c hc
    have he : FragOK (α := α) b!"=" [] := FragOK.const (by decide) (by decide)
    have := ((hok c hc).1.append he).append (hok c hc).2.2.1
    simpa using this
  have key : ∀ (l : List (Col α)) (s : SpecState α), s.has posInsert = false → s.has posUpdate = true → (∀ c ∈ l, ColOK c) →
      CallsOK s (l.map fun c => .setExpr c.field c.expr c.args) ∧ fragsOf s (l.map fun c => .setExpr c.field c.expr c.args) = setF l := by
    intro l
    induction l with
    | nil => intro s _ _ _; exact ⟨trivial, rfl⟩
    | cons c l ih =>
      intro s hs hu hl
      have hc := hl c (by simp)
      have hfr : s.frags (.setExpr c.field c.expr c.args) = [⟨posSet, b!"SET", c.field ++ b!"=" ++ c.expr, c.args, b!", "⟩] := by
        simp [SpecState.frags, hs, hu]
      obtain ⟨i1, i2⟩ := ih (s.call (.setExpr c.field c.expr c.args))
        (by rw [has_frags, hs, hfr]; simp [posSet, posInsert]) (by rw [has_frags, hu, Bool.or_true]) (fun x hx => hl x (by simp [hx]))
      refine ⟨⟨⟨hc.1, hc.2.2.1⟩, i1⟩, ?_⟩
      rw [List.map_cons, fragsOf, i2, hfr]; rfl
  obtain ⟨k1, k2⟩ := key row ((SpecState.fresh nl st).call (.update (α := α) t))
    (by rw [has_frags]; simp [SpecState.frags, posUpdate, posInsert, SpecState.has, SpecState.fresh])
    (by rw [has_frags]; simp [SpecState.frags]) hok
  have hcs : CallsOK (SpecState.fresh nl st) (updateSetCalls t row) := ⟨ht, k1⟩
  have hfs : fragsOf (SpecState.fresh nl st) (updateSetCalls t row) = ⟨posUpdate, b!"UPDATE", t, [], b!", "⟩ :: setF row := by
    rw [updateSetCalls, fragsOf, k2]; rfl
  have hloc : ∀ f ∈ (⟨posUpdate, b!"UPDATE", t, [], b!", "⟩ : Frag α) :: setF row, FragLocal f ∧ f.pos ∈ canonical := by
    intro f hf
    rcases List.mem_cons.1 hf with rfl | hf
    · exact ⟨FragLocal.mk' ht (by decide) (by decide) (by decide) sepOK_comma, by simp [canonical, posUpdate]⟩
    · obtain ⟨c, hc, rfl⟩ := List.mem_map.1 hf
      exact ⟨FragLocal.mk' (fe c hc) (by decide) (by decide) (show ¬ single posSet by decide) sepOK_comma, by simp [canonical, posSet]⟩
  obtain ⟨e1, e2⟩ := closed_render d hd hcs hfs hloc
  have a700 : fragsAt 700 (⟨posUpdate, b!"UPDATE", t, [], b!", "⟩ :: setF row) = [⟨posUpdate, b!"UPDATE", t, [], b!", "⟩] := by
    have : (setF row).filter (fun f => decide (f.pos = 700)) = [] := by
      rw [List.filter_eq_nil_iff]; intro f hf; obtain ⟨c, hc, rfl⟩ := List.mem_map.1 hf; simp [posSet]
    simp [fragsAt, posUpdate, this]
  have a800 : fragsAt 800 (⟨posUpdate, b!"UPDATE", t, [], b!", "⟩ :: setF row) = setF row := by
    have : (setF row).filter (fun f => decide (f.pos = 800)) = setF row := by
      rw [List.filter_eq_self]; intro f hf; obtain ⟨c, hc, rfl⟩ := List.mem_map.1 hf; simp [posSet]
    simp [fragsAt, posUpdate, this]
  have aelse : ∀ p, p ∉ [700, 800] → fragsAt p (⟨posUpdate, b!"UPDATE", t, [], b!", "⟩ :: setF row) = [] := by
    intro p hp
    simp only [List.mem_cons, List.not_mem_nil, or_false, not_or] at hp
    rw [fragsAt, List.filter_eq_nil_iff]
    intro f hf
    rcases List.mem_cons.1 hf with rfl | hf
    · simp [posUpdate, Ne.symm hp.1]
    · obtain ⟨c, hc, rfl⟩ := List.mem_map.1 hf; simp [posSet, Ne.symm hp.2]
  have hne : setF row ≠ [] := by simpa [setF] using h1
  have hfil : canonical.filter (fun p => !(fragsAt p (⟨posUpdate, b!"UPDATE", t, [], b!", "⟩ :: setF row)).isEmpty) = [700, 800] := by
    simp only [canonical, List.filter_cons, List.filter_nil, a700, a800, aelse 200 (by decide), aelse 300 (by decide), aelse 399 (by decide),
      aelse 400 (by decide), aelse 499 (by decide), aelse 500 (by decide), aelse 501 (by decide), aelse 600 (by decide), aelse 900 (by decide),
      aelse 1100 (by decide), aelse 1200 (by decide), aelse 1300 (by decide), aelse 1400 (by decide), aelse 1600 (by decide),
      aelse 1700 (by decide), aelse 1800 (by decide), aelse 1900 (by decide)]
    simp [hne]
  obtain ⟨c, r, rfl⟩ := List.exists_cons_of_ne_nil h1
  have hset : clauseText nl (setF (c :: r)) = (if nl then b!"\n" else []) ++ b!"SET " ++ joinBytes b!", " ((c :: r).map fun c => c.field ++ b!"=" ++ c.expr) := by
    have hm : moreText true (setF r) = (r.map fun c => c.field ++ b!"=" ++ c.expr).flatMap (b!", " ++ ·) := by
      rw [moreText_sep b!", "]
      · simp [setF, List.flatMap_map]
      · intro f hf
        obtain ⟨x, hx, rfl⟩ := List.mem_map.1 hf
        exact ⟨by simp, rfl⟩
    rw [List.map_cons, joinBytes_cons, ← hm]
    simp [setF, clauseText]
  constructor
  · rw [e1, hfil]
    simp only [List.map_cons, List.map_nil, a700, a800, hset, joinBytes]
    simp only [clauseText, moreText, ht0, if_false, List.append_nil, reduceCtorEq]
    cases nl
    · simp
    · simp only [if_true, List.append_assoc]
      rw [trim_nl]; simp
  · rw [e2]
    have ca : clauseArgs (setF (c :: r)) = (setF (c :: r)).flatMap Frag.args := by
      unfold clauseArgs
      cases hg : (setF (c :: r)).getLast? with
      | none => rw [List.getLast?_eq_none_iff] at hg; simp [hg]
      | some f =>
        obtain ⟨x, hx, rfl⟩ := List.mem_map.1 (List.mem_of_getLast? hg)
        simp only [if_neg (show ¬ single posSet by decide)]
    have hnil : clauseArgs ([] : List (Frag α)) = [] := rfl
    simp only [canonical, List.flatMap_cons, List.flatMap_nil, a700, a800, ca, hnil, aelse 200 (by decide), aelse 300 (by decide), aelse 399 (by decide),
      aelse 400 (by decide), aelse 499 (by decide), aelse 500 (by decide), aelse 501 (by decide), aelse 600 (by decide), aelse 900 (by decide),
      aelse 1100 (by decide), aelse 1200 (by decide), aelse 1300 (by decide), aelse 1400 (by decide), aelse 1600 (by decide),
      aelse 1700 (by decide), aelse 1800 (by decide), aelse 1900 (by decide)]
    simp [clauseArgs, setF, List.flatMap_map]

example : (build .default false 0 (updateSetCalls b!"t" [Col.val b!"a" 1, ⟨b!"n", b!"n + ?", [2]⟩])).render = b!"UPDATE t SET a=?, n=n + ?" := by
  decide +kernel

end Xsql
