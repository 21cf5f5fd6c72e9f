import Verif.Schema.Info
set_option linter.unusedVariables false
set_option linter.unusedSimpArgs false
/-! C55: the SQL of `Select` and `SelectAliased`; C72: concurrent use. -/
namespace Schema
open Xsql

theorem join_last (sep : Bytes) : ∀ (l : List Bytes), (∀ x ∈ l, x ≠ []) → (joinBytes sep l).getLast? = (l.getLast?.bind List.getLast?) := by
  intro l
  induction l with
  | nil => intro _; rfl
  | cons a l ih =>
    intro h
    cases l with
    | nil => simp [joinBytes]
    | cons b l =>
      have ih := ih (fun x hx => h x (List.mem_cons_of_mem _ hx))
      rw [joinBytes, List.getLast?_append, ih]
      · rw [List.getLast?_cons_cons]
        have hl : (b :: l).getLast (by simp) ≠ [] := h _ (List.mem_cons_of_mem _ (List.getLast_mem _))
        rw [List.getLast?_eq_some_getLast (by simp : b :: l ≠ [])]
        simp only [Option.bind_some]
        cases hg : ((b :: l).getLast (by simp)).getLast? with
        | none => exact absurd (List.getLast?_eq_none_iff.1 hg) hl
        | some z => rfl
      · simp

theorem join_mem (sep : Bytes) (x : UInt8) : ∀ (l : List Bytes), x ∈ joinBytes sep l → x ∈ sep ∨ ∃ y ∈ l, x ∈ y := by
  intro l
  induction l with
  | nil => intro h; simp [joinBytes] at h
  | cons a l ih =>
    cases l with
    | nil => intro h; exact .inr ⟨a, by simp, h⟩
    | cons b l =>
      intro h
      rw [joinBytes, List.mem_append, List.mem_append] at h
      · rcases h with (h | h) | h
        · exact .inr ⟨a, by simp, h⟩
        · exact .inl h
        · rcases ih h with h | ⟨y, hy, h⟩
          · exact .inl h
          · exact .inr ⟨y, List.mem_cons_of_mem _ hy, h⟩
      · simp

/-- A name as it appears in SQL: not empty, no question mark, no backslash at the end. -/
def NameOK (s : Bytes) : Prop := s ≠ [] ∧ Plain s

theorem join_plain {sep : Bytes} (hs : (63 : UInt8) ∉ sep) {l : List Bytes} (h : ∀ x ∈ l, NameOK x) (hne : l ≠ []) :
    Plain (joinBytes sep l) ∧ joinBytes sep l ≠ [] := by
  have hl := join_last sep l (fun x hx => (h x hx).1)
  rw [List.getLast?_eq_some_getLast hne, Option.bind_some] at hl
  have hg := h _ (List.getLast_mem hne)
  refine ⟨⟨?_, by rw [hl]; exact hg.2.2⟩, ?_⟩
  · intro hm
    rcases join_mem sep 63 l hm with h' | ⟨y, hy, h'⟩
    · exact hs h'
    · exact (h y hy).2.1 h'
  · intro e
    rw [e] at hl
    exact hg.1 (List.getLast?_eq_none_iff.1 hl.symm)

/-- **C55**: what the statements say.  For a table info whose names are ordinary (no `?`, no trailing `\`), after any earlier calls, on every dialect:
`Select()` reads all columns in declaration order, `Select(cols...)` reads exactly those, `SelectAliased` the aliased list with the prefix as table alias. -/
theorem C55_select_sql {α : Type} (s n pk sn : Bytes) (cols idx : List Bytes) (d : Dia) (cs : List InfoCall) (nl : Bool) (st : Nat)
    (hcols : ∀ c ∈ cols, NameOK c) (hne : cols ≠ []) (hsn : Plain sn) (hsn0 : ∃ z, sn.getLast? = some z ∧ isCut z = false) :
    let t := cs.foldl TableInfo.after (TableInfo.fresh s n pk cols idx d sn)
    let eol : Bytes := if nl then b!"\n" else []
    (build (α := α) d nl st (t.selectCalls []).1).render = b!"SELECT " ++ joinBytes b!", " cols ++ b!" " ++ eol ++ b!"FROM " ++ sn
    ∧ (∀ l : List Bytes, l ≠ [] → (∀ c ∈ l, NameOK c) →
        (build (α := α) d nl st (t.selectCalls l).1).render = b!"SELECT " ++ joinBytes b!"," l ++ b!" " ++ eol ++ b!"FROM " ++ sn)
    ∧ (∀ (nulls : Bytes → Bool), (build (α := α) d nl st (t.selectAliasedCalls [] nulls)).render
          = b!"SELECT " ++ joinBytes b!", " (cols.map (Spec.item [] nulls)) ++ b!" " ++ eol ++ b!"FROM " ++ sn)
    ∧ (∀ (pre : Bytes) (nulls : Bytes → Bool), Plain pre → (∃ z, pre.getLast? = some z ∧ isCut z = false) →
        (build (α := α) d nl st (t.selectAliasedCalls pre nulls)).render
          = b!"SELECT " ++ joinBytes b!", " (cols.map (Spec.item pre nulls)) ++ b!" " ++ eol ++ b!"FROM " ++ sn ++ b!" " ++ pre) := by
  intro t eol
  obtain ⟨h1, h2, h3, -, h4, -⟩ := C55_calls_do_not_interfere (α := α) s n pk sn cols idx d cs
  have hj := join_plain (sep := b!", ") (by decide) hcols hne
  have item_ok : ∀ (pre : Bytes) (nulls : Bytes → Bool), (63 : UInt8) ∉ pre → ∀ x ∈ cols.map (Spec.item pre nulls), NameOK x := by
    intro pre nulls hp x hx
    obtain ⟨c, hc, rfl⟩ := List.mem_map.1 hx
    unfold Spec.item
    have hcc := hcols c hc
    split
    · exact ⟨by decide, by unfold Plain; decide⟩
    · split
      · exact hcc
      · refine ⟨by simp, ?_, ?_⟩
        · simp [hp, hcc.2.1]
        · rw [List.getLast?_append]
          cases hg : c.getLast? with
          | none => exact absurd (List.getLast?_eq_none_iff.1 hg) hcc.1
          | some z => have := hcc.2.2; rw [hg] at this; simpa using this
  refine ⟨?_, ?_, ?_, ?_⟩
  · rw [h2]
    exact (select_from_text d nl st hsn hsn0 hj.1 hj.2).1
  · intro l hl hok
    rw [h2]
    have : 0 < l.length := List.length_pos_of_ne_nil hl
    simp only [TableInfo.selectCalls, this, if_true]
    have hj := join_plain (sep := b!",") (by decide) hok hl
    exact (select_from_text d nl st hsn hsn0 hj.1 hj.2).1
  · intro nulls
    rw [(h3 [] nulls).1]
    simp only [TableInfo.selectAliasedCalls, C55_aliased_columns]
    have hj := join_plain (sep := b!", ") (by decide) (item_ok [] nulls (by simp)) (by simpa using hne)
    exact (select_from_text d nl st hsn hsn0 hj.1 hj.2).1
  · intro pre nulls hp hp0
    rw [(h3 pre nulls).1]
    have hpe : pre ≠ [] := by rintro rfl; simp at hp0
    simp only [TableInfo.selectAliasedCalls, C55_aliased_columns]
    rw [if_pos hpe]
    have hj := join_plain (sep := b!", ") (by decide) (item_ok pre nulls hp.1) (by simpa using hne)
    obtain ⟨z, hz, hnz⟩ := hp0
    have hlast : (sn ++ b!" " ++ pre).getLast? = some z := by rw [List.getLast?_append, hz]; rfl
    have := (select_from_text (α := α) d nl st (tn := sn ++ b!" " ++ pre) ⟨by simp [hsn.1, hp.1], by rw [hlast, ← hz]; exact hp.2⟩ ⟨z, hlast, hnz⟩ hj.1 hj.2).1
    simpa [TableInfo.fresh, List.append_assoc] using this

/-- The text of a statement with a single clause. -/
theorem one_clause_text {α : Type} (d : Dia) (nl : Bool) (st : Nat) (c : Call α) (p : Nat) (kw tn : Bytes) (ht : Plain tn)
    (ht0 : ∃ z, tn.getLast? = some z ∧ isCut z = false) (hc : c.plain = true) (hok : CallsOK (SpecState.fresh nl st) [c])
    (hparts : c.parts = [⟨p, kw, tn, [], b!", "⟩]) (hp : p = posDelete ∨ p = posUpdate ∨ p = posFrom)
    (a : UInt8) (hkw : kw.head? = some a) (ha : isCut a = false) (hq : (63 : UInt8) ∉ kw) :
    (build d nl st [c]).render = kw ++ b!" " ++ tn ∧ (build d nl st [c]).args = [] := by
  have hne : tn ≠ [] := by rintro rfl; simp at ht0
  have hkne : kw ≠ [] := by rintro rfl; simp at hkw
  obtain ⟨h1, h2⟩ := C22_canonical_order (α := α) .default (by decide) (by intro c' hc'; simp at hc'; rw [hc']; exact hc) hok
  have hpart : ∀ q, partsAt q [c] = if q = p then [⟨p, kw, tn, [], b!", "⟩] else [] := by
    intro q
    simp only [partsAt, List.flatMap_cons, List.flatMap_nil, hparts, List.append_nil, List.filter_cons, List.filter_nil, decide_eq_true_eq]
    by_cases h : q = p
    · subst h; simp
    · simp [h, Ne.symm h]
  have hcl : (canonical.filter fun q => partsAt q [c] ≠ []) = [p] := by
    simp only [hpart]
    rcases hp with rfl | rfl | rfl <;>
      simp [canonical, posFrom, posDelete, posUpdate, List.filter_cons]
  have hargs : canonical.flatMap (fun q => clauseArgs (partsAt q [c])) = [] := by
    simp only [hpart]
    rcases hp with rfl | rfl | rfl <;>
      simp [canonical, posFrom, posDelete, posUpdate, clauseArgs, single]
  rw [hcl] at h1
  rw [hargs] at h2
  obtain ⟨z, hz, hnz⟩ := ht0
  have htext : (build .default nl st [c]).render = kw ++ b!" " ++ tn := by
    rw [h1]
    simp only [List.map_cons, List.map_nil, hpart, joinBytes, if_true, clauseText, moreText, hkne, hne, if_false, List.append_nil]
    have e : (if nl then b!"\n" else []) ++ kw ++ b!" " ++ tn = (if nl then b!"\n" else []) ++ (kw ++ b!" " ++ tn) := by simp
    rw [e]
    refine trim_solid (by cases nl <;> simp [isCut]) a z ?_ ha ?_ hnz
    · rw [List.append_assoc, List.head?_append, hkw]; rfl
    · rw [List.getLast?_append, hz]; rfl
  constructor
  · rw [render_no_placeholders d hok, htext]
    rw [htext]; simp [hq, ht.1]
  · obtain ⟨ts, -, -, -, h4, h5⟩ := C24_postgres_numbering hok
    cases d with
    | postgres => rw [h4, ← h5, h2]
    | default => exact h2
    | sqlserver => exact (C22_canonical_order (α := α) .sqlserver (by decide) (by intro c' hc'; simp at hc'; rw [hc']; exact hc) hok).2.trans hargs

/-- **C55**: `From`, `DeleteFrom` and `Update` start a statement on this very table (its qualified name), whatever was called before. -/
theorem C55_modify_sql {α : Type} (s n pk sn : Bytes) (cols idx : List Bytes) (d : Dia) (cs : List InfoCall) (nl : Bool) (st : Nat)
    (hsn : Plain sn) (hsn0 : ∃ z, sn.getLast? = some z ∧ isCut z = false) :
    let t := cs.foldl TableInfo.after (TableInfo.fresh s n pk cols idx d sn)
    (build (α := α) d nl st t.fromCalls).render = b!"FROM " ++ sn
    ∧ (build (α := α) d nl st t.deleteCalls).render = b!"DELETE FROM " ++ sn
    ∧ (build (α := α) d nl st t.updateCalls).render = b!"UPDATE " ++ sn := by
  intro t
  have hs : t.schemaName = sn := (C55_calls_do_not_interfere (α := α) s n pk sn cols idx d cs).2.2.2.2.1
  simp only [TableInfo.fromCalls, TableInfo.deleteCalls, TableInfo.updateCalls, hs]
  refine ⟨?_, ?_, ?_⟩
  · have := (one_clause_text (α := α) d nl st (.from_ sn []) posFrom b!"FROM" sn hsn hsn0 rfl ⟨fragOK_plain hsn, trivial⟩ rfl (by simp) 70 rfl (by decide) (by decide)).1
    simpa using this
  · have := (one_clause_text (α := α) d nl st (.deleteFrom sn) posDelete b!"DELETE FROM" sn hsn hsn0 rfl ⟨fragOK_plain hsn, trivial⟩ rfl (by simp) 68 rfl (by decide) (by decide)).1
    simpa using this
  · have := (one_clause_text (α := α) d nl st (.update sn) posUpdate b!"UPDATE" sn hsn hsn0 rfl ⟨fragOK_plain hsn, trivial⟩ rfl (by simp) 85 rfl (by decide) (by decide)).1
    simpa using this

/-- **C55**: `InsertInto` followed by `Set` calls inserts into this very table. -/
theorem C55_insert_sql {α : Type} (s n pk sn : Bytes) (cols idx : List Bytes) (d : Dia) (hd : d ≠ .postgres) (cs : List InfoCall) (nl : Bool) (st : Nat)
    (hsn : Plain sn) (hsn0 : sn ≠ []) {row : List (Col α)} (h1 : row ≠ []) (hok : ∀ c ∈ row, ColOK c) :
    let t := cs.foldl TableInfo.after (TableInfo.fresh s n pk cols idx d sn)
    (build (α := α) d nl st (t.insertCalls ++ row.map fun c => .setExpr c.field c.expr c.args)).render
      = insertSQL nl sn (joinBytes b!", " (row.map Col.field)) (joinBytes b!", " (row.map Col.expr))
    ∧ (build (α := α) d nl st (t.insertCalls ++ row.map fun c => .setExpr c.field c.expr c.args)).args = row.flatMap Col.args := by
  intro t
  have hs : t.schemaName = sn := (C55_calls_do_not_interfere (α := α) s n pk sn cols idx d cs).2.2.2.2.1
  simp only [TableInfo.insertCalls, hs]
  exact C30_insert_set d hd nl st (fragOK_plain hsn) hsn0 h1 hok

/-- A table info with three columns, after some calls. -/
def usersInfo : TableInfo := TableInfo.fresh b!"public" b!"user" b!"id" [b!"id", b!"email", b!"name"] [] .postgres b!"public.user"

example : ∀ c ∈ usersInfo.columns, NameOK c := by
  intro c hc
  simp only [usersInfo, TableInfo.fresh, List.mem_cons, List.not_mem_nil, or_false] at hc
  rcases hc with rfl | rfl | rfl <;> exact ⟨by decide, by unfold Plain; decide⟩
example : Plain usersInfo.schemaName := by unfold Plain; decide
example : (build (α := Nat) .postgres true 3 ((usersInfo.after .allColumns).selectAliasedCalls b!"u" (fun c => c == b!"email"))).render
    = b!"SELECT u.id, NULL, u.name \nFROM public.user u" := by decide +kernel

/-- **C55, a limit**: the list is cached, so a program that changes `Columns` after the first use still gets the old list from `AllColumns` and `Select`,
while `AliasedColumns` uses the new one. -/
theorem C55_changed_columns_are_not_seen :
    let t := { usersInfo.after .allColumns with columns := [b!"id"] }
    t.allColumnsCall.1 = b!"id, email, name" ∧ t.aliasedColumns [] (fun _ => false) = b!"id" := by decide +kernel

/-! ### Concurrent use (C72)

`AllColumns` reads and writes the field `allColumns` without synchronisation, and generated table infos are package variables
(template.go:177).  A Go string is two words, pointer and length, and the two words of a write may be seen separately
(Go memory model, "Implementation Restrictions for Programs Containing Data Races").  Here memory is sequentially consistent, each thread executes
`AllColumns` (schema.go:77-82), and a writer stores its two words in an order it chooses. -/

/-- The two words: whether the pointer is set (to a buffer with the right bytes), and whether the length is set. -/
structure Words where
  ptr : Bool
  len : Bool
  deriving DecidableEq, Repr

/-- Program counter of a thread in `AllColumns`. -/
inductive PC where
  /-- about to test `t.allColumns == ""` (reads the length) -/
  | test
  /-- about to store the two words; `lenFirst` chosen -/
  | write
  /-- one word stored: the other one is next -/
  | wroteLen | wrotePtr
  /-- about to load the length for the return value -/
  | loadLen
  /-- about to load the pointer, having loaded the length -/
  | loadPtr (len : Bool)
  /-- returned the string with these words -/
  | done (ptr len : Bool)
  deriving DecidableEq, Repr

/-- One step of one thread. -/
inductive PCStep : PC → Words → PC → Words → Prop where
  | hit {w} : w.len = true → PCStep .test w .loadLen w
  | miss {w} : w.len = false → PCStep .test w .write w
  | lenFirst {w} : PCStep .write w .wroteLen { w with len := true }
  | ptrFirst {w} : PCStep .write w .wrotePtr { w with ptr := true }
  | thenPtr {w} : PCStep .wroteLen w .loadLen { w with ptr := true }
  | thenLen {w} : PCStep .wrotePtr w .loadLen { w with len := true }
  | loadLen {w} : PCStep .loadLen w (.loadPtr w.len) w
  | loadPtr {w l} : PCStep (.loadPtr l) w (.done w.ptr l) w

/-- A run of any number of threads: any interleaving. -/
inductive Runs : List PC → Words → List PC → Words → Prop where
  | refl {ts w} : Runs ts w ts w
  | step {ts w ts' w' a b pc pc'} : ts' = a ++ pc :: b → Runs ts w ts' w' → ∀ {w''}, PCStep pc w' pc' w'' → Runs ts w (a ++ pc' :: b) w''

/-- **C72 fails**: two goroutines calling `AllColumns` (or `Select()`) on a fresh table info: one can get a string with a length and no pointer;
using it crashes the program. -/
theorem C72_torn_string : ∃ w, Runs [.test, .test] ⟨false, false⟩ [.wroteLen, .done false true] w := by
  refine ⟨⟨false, true⟩, ?_⟩
  have h1 : Runs [.test, .test] ⟨false, false⟩ [.write, .test] ⟨false, false⟩ := Runs.step (a := []) (b := [.test]) rfl (pc := .test) .refl (.miss rfl)
  have h2 : Runs [.test, .test] ⟨false, false⟩ [.wroteLen, .test] ⟨false, true⟩ := Runs.step (a := []) (b := [.test]) rfl (pc := .write) h1 .lenFirst
  have h3 : Runs [.test, .test] ⟨false, false⟩ [.wroteLen, .loadLen] ⟨false, true⟩ := Runs.step (a := [.wroteLen]) (b := []) rfl (pc := .test) h2 (.hit rfl)
  have h4 : Runs [.test, .test] ⟨false, false⟩ [.wroteLen, .loadPtr true] ⟨false, true⟩ := Runs.step (a := [.wroteLen]) (b := []) rfl (pc := .loadLen) h3 .loadLen
  exact Runs.step (a := [.wroteLen]) (b := []) rfl (pc := .loadPtr true) h4 .loadPtr

/-- **C72**, what holds: if `AllColumns` has been called once before the table info is shared, then every call in every schedule of any number of
goroutines returns the whole list.  Missing: the first calls themselves (`C72_torn_string`). -/
theorem C72_initialised_before_sharing_partial (k : Nat) (ts : List PC) (w : Words) (h : Runs (List.replicate k .test) ⟨true, true⟩ ts w) :
    w = ⟨true, true⟩ ∧ ∀ p l, PC.done p l ∈ ts → p = true ∧ l = true := by
  have key : ∀ {ts0 w0 ts w}, Runs ts0 w0 ts w → ts0 = List.replicate k .test → w0 = ⟨true, true⟩ →
      w = ⟨true, true⟩ ∧ ∀ pc ∈ ts, pc = .test ∨ pc = .loadLen ∨ pc = .loadPtr true ∨ pc = .done true true := by
    intro ts0 w0 ts w h
    induction h with
    | refl =>
      rintro rfl rfl
      exact ⟨rfl, fun pc hpc => .inl (List.eq_of_mem_replicate hpc)⟩
    | step hts hr hs ih =>
      rename_i ts0 w0 ts1 w1 a b pc pc' w2
      intro e1 e2
      obtain ⟨hw, hall⟩ := ih e1 e2
      subst hw hts
      have hpc := hall pc (by simp)
      have hrest : ∀ x, x ∈ a ∨ x ∈ b → x = .test ∨ x = .loadLen ∨ x = .loadPtr true ∨ x = .done true true := by
        intro x hx; exact hall x (by rcases hx with hx | hx <;> simp [hx])
      have : w2 = ⟨true, true⟩ ∧ (pc' = .test ∨ pc' = .loadLen ∨ pc' = .loadPtr true ∨ pc' = .done true true) := by
        rcases hpc with rfl | rfl | rfl | rfl
        · cases hs with
          | hit => exact ⟨rfl, by simp⟩
          | miss h => simp at h
        · cases hs; exact ⟨rfl, by simp⟩
        · cases hs; exact ⟨rfl, by simp⟩
        · cases hs
      refine ⟨this.1, ?_⟩
      intro x hx
      simp only [List.mem_append, List.mem_cons] at hx
      rcases hx with hx | rfl | hx
      · exact hrest x (.inl hx)
      · exact this.2
      · exact hrest x (.inr hx)
  obtain ⟨h1, h2⟩ := key h rfl rfl
  refine ⟨h1, ?_⟩
  intro p l hm
  have := h2 _ hm
  simpa using this

/-- Two goroutines can both finish. -/
example : Runs (List.replicate 2 .test) ⟨true, true⟩ [.done true true, .test] ⟨true, true⟩ :=
  Runs.step (a := []) (b := [.test]) rfl (Runs.step (a := []) (b := [.test]) rfl (Runs.step (a := []) (b := [.test]) rfl .refl (.hit rfl)) .loadLen) .loadPtr

end Schema
