import Verif.Gen.Props
import Verif.Schema.InfoProps
set_option linter.unusedVariables false
set_option linter.unusedSimpArgs false
/-!
Generated models with `Bind` (xsql/stmt.go:1020-1038): the struct a generated file declares, seen through reflection, and the statement `Bind` makes of it.  C78.
-/
namespace Gen
open Schema Xsql

/-- The fields of the struct as the compiled program sees them: the tag is the value of the raw string literal, and `Bind` reads its `db` key
(stmt.go:1030).  The address of the `i`-th field is `i`. -/
def structFields (esc : Bytes → Option Bytes) : Nat → List Gen.Field → Option (List Xsql.Field)
  | _, [] => some []
  | i, f :: fs => do
    let t ← rawString f.tag
    let r ← structFields esc (i + 1) fs
    return .plain (getTag esc b!"db" t) i :: r

/-- template.go:93-107: the struct of a model; with a cache it has one more field, whose tag has no `db` key. -/
def structOf (esc : Bytes → Option Bytes) (d : ModelDecl) : Option (List Xsql.Field) := do
  let fs ← structFields esc 0 d.fields
  return fs ++ (if d.withCache then [.plain (getTag esc b!"db" b!"json:\"-\"") d.fields.length] else [])

/-! ### Lemmas -/

theorem clauseText_selects (nl : Bool) {α : Type} : ∀ (l : List Bytes), l ≠ [] → (∀ x ∈ l, x ≠ []) →
    clauseText (α := α) nl (l.map fun c => ⟨posSelect, b!"SELECT", c, [], b!", "⟩) = (if nl then b!"\n" else []) ++ b!"SELECT " ++ joinBytes b!", " l := by
  have more : ∀ l : List Bytes, (∀ x ∈ l, x ≠ []) → moreText (α := α) true (l.map fun c => ⟨posSelect, b!"SELECT", c, [], b!", "⟩) = l.flatMap (fun x => b!", " ++ x) := by
    intro l
    induction l with
    | nil => intro _; rfl
    | cons a l ih =>
      intro h
      simp only [List.map_cons, moreText, h a (by simp), if_false, if_true, List.flatMap_cons]
      rw [ih (fun x hx => h x (by simp [hx]))]
  have jn : ∀ (a : Bytes) (l : List Bytes), joinBytes b!", " (a :: l) = a ++ l.flatMap (fun x => b!", " ++ x) := by
    intro a l
    induction l generalizing a with
    | nil => simp [joinBytes]
    | cons b l ih => rw [joinBytes, ih b] <;> simp
  intro l hne h
  cases l with
  | nil => exact absurd rfl hne
  | cons a l =>
    have ha := h a (by simp)
    simp only [List.map_cons, clauseText, ha, if_false, decide_true, ne_eq, not_false_eq_true, reduceCtorEq]
    rw [more l (fun x hx => h x (by simp [hx])), jn]
    simp [List.append_assoc]

/-- `From(tn)` followed by `Bind`: the text and the destinations. -/
theorem from_bind_text {α : Type} (d : Dia) (nl : Bool) (st : Nat) {tn : Bytes} (ht : Plain tn) (ht0 : ∃ z, tn.getLast? = some z ∧ isCut z = false)
    (cols : List (Bytes × Nat)) (hne : cols ≠ []) (hc : ∀ c ∈ cols, NameOK c.1) :
    (build (α := α) d nl st (.from_ tn [] :: bindCalls cols)).render
      = b!"SELECT " ++ joinBytes b!", " (cols.map Prod.fst) ++ b!" " ++ (if nl then b!"\n" else []) ++ b!"FROM " ++ tn := by
  have hne' : tn ≠ [] := by rintro rfl; simp at ht0
  have hok : CallsOK (SpecState.fresh (α := α) nl st) (.from_ tn [] :: bindCalls cols) := by
    have : ∀ (l : List (Bytes × Nat)) (s : SpecState α), (∀ c ∈ l, NameOK c.1) → CallsOK s (bindCalls l) := by
      intro l
      induction l with
      | nil => intro s _; exact trivial
      | cons c l ih => intro s h; exact ⟨fragOK_plain (h c (by simp)).2, trivial, ih _ (fun x hx => h x (by simp [hx]))⟩
    exact ⟨fragOK_plain ht, this _ _ hc⟩
  have hplain : ∀ c ∈ (.from_ tn [] :: bindCalls cols : List (Call α)), c.plain = true := by
    intro c h
    rcases List.mem_cons.1 h with rfl | h
    · rfl
    · obtain ⟨x, hx, h⟩ := List.mem_flatMap.1 h
      simp at h; rcases h with rfl | rfl <;> rfl
  obtain ⟨h1, -⟩ := C22_canonical_order (α := α) .default (by decide) hplain hok
  have hb : (bindCalls (α := α) cols).flatMap Call.parts = (cols.map Prod.fst).map fun c => ⟨posSelect, b!"SELECT", c, [], b!", "⟩ := by
    clear hok hplain h1 hne hc
    induction cols with
    | nil => rfl
    | cons c l ih =>
      rw [bindCalls, List.flatMap_cons, List.flatMap_append, List.map_cons, List.map_cons]
      rw [bindCalls] at ih
      rw [ih]; simp [Call.parts, SpecState.frags]
  have hpart : ∀ p, partsAt (α := α) p (.from_ tn [] :: bindCalls cols)
      = (if p = posFrom then [⟨posFrom, b!"FROM", tn, [], b!", "⟩] else [])
        ++ (if p = posSelect then (cols.map Prod.fst).map fun c => ⟨posSelect, b!"SELECT", c, [], b!", "⟩ else []) := by
    intro p
    simp only [partsAt, List.flatMap_cons, hb, List.filter_append]
    have e1 : List.filter (fun f : Frag α => decide (f.pos = p)) (Call.parts (.from_ tn [])) = if p = posFrom then [⟨posFrom, b!"FROM", tn, [], b!", "⟩] else [] := by
      simp only [Call.parts, SpecState.frags, List.filter_cons, List.filter_nil, decide_eq_true_eq]
      by_cases h : p = posFrom
      · subst h; rfl
      · simp [h, Ne.symm h]
    have e2 : List.filter (fun f : Frag α => decide (f.pos = p)) ((cols.map Prod.fst).map fun c => ⟨posSelect, b!"SELECT", c, [], b!", "⟩)
        = if p = posSelect then (cols.map Prod.fst).map fun c => ⟨posSelect, b!"SELECT", c, [], b!", "⟩ else [] := by
      by_cases h : p = posSelect
      · rw [if_pos h, List.filter_eq_self]
        intro f hf
        obtain ⟨c, -, rfl⟩ := List.mem_map.1 hf
        simp [h]
      · rw [if_neg h, List.filter_eq_nil_iff]
        intro f hf
        obtain ⟨c, -, rfl⟩ := List.mem_map.1 hf
        simp [Ne.symm h]
    rw [e1, e2]
  have hclauses : (canonical.filter fun p => partsAt (α := α) p (.from_ tn [] :: bindCalls cols) ≠ []) = [posSelect, posFrom] := by
    cases cols with
    | nil => exact absurd rfl hne
    | cons c l =>
      simp only [hpart, canonical, posFrom, posSelect, List.filter_cons, List.filter_nil, List.map_cons]
      rfl
  rw [hclauses] at h1
  have ej := clauseText_selects (α := α) nl (cols.map Prod.fst) (by simpa using hne) (by
    intro x hx; obtain ⟨c, h, rfl⟩ := List.mem_map.1 hx; exact (hc c h).1)
  have hj := join_plain (sep := b!", ") (by decide) (l := cols.map Prod.fst) (by
    intro x hx; obtain ⟨c, h, rfl⟩ := List.mem_map.1 hx; exact hc c h) (by simpa using hne)
  have htext : (build (α := α) .default nl st (.from_ tn [] :: bindCalls cols)).render
      = b!"SELECT " ++ joinBytes b!", " (cols.map Prod.fst) ++ b!" " ++ (if nl then b!"\n" else []) ++ b!"FROM " ++ tn := by
    rw [h1]
    have p1 : partsAt (α := α) posSelect (.from_ tn [] :: bindCalls cols) = (cols.map Prod.fst).map fun c => ⟨posSelect, b!"SELECT", c, [], b!", "⟩ := by
      rw [hpart]; simp [posSelect, posFrom]
    have p2 : partsAt (α := α) posFrom (.from_ tn [] :: bindCalls cols) = [⟨posFrom, b!"FROM", tn, [], b!", "⟩] := by
      rw [hpart]; simp [posSelect, posFrom]
    simp only [List.map_cons, List.map_nil, p1, p2, joinBytes, ej]
    simp only [clauseText, moreText, if_true, if_false, List.nil_append, List.append_nil, hne', reduceCtorEq]
    obtain ⟨z, hz, hnz⟩ := ht0
    have e : (if nl then b!"\n" else []) ++ b!"SELECT " ++ joinBytes b!", " (cols.map Prod.fst) ++ b!" " ++ ((if nl then b!"\n" else []) ++ b!"FROM" ++ b!" " ++ tn)
        = (if nl then b!"\n" else []) ++ (b!"SELECT " ++ joinBytes b!", " (cols.map Prod.fst) ++ b!" " ++ (if nl then b!"\n" else []) ++ b!"FROM " ++ tn) := by simp
    rw [e]
    refine (trim_solid (w := if nl then b!"\n" else []) (by cases nl <;> simp [isCut]) 83 z ?_ (by decide) ?_ hnz)
    · simp
    · rw [List.getLast?_append, hz]; rfl
  rw [render_no_placeholders d hok, htext]
  rw [htext]
  cases nl <;> simp [ht.1, hj.1.1]

theorem beforeComma_append : ∀ (a b : Bytes), 44 ∉ a → (b = [] ∨ b.head? = some 44) → beforeComma (a ++ b) = a
  | [], b, _, h => by
    cases b with
    | nil => rfl
    | cons c b => simp at h; subst h; rfl
  | c :: a, b, ha, h => by
    simp only [List.mem_cons, not_or] at ha
    simp only [List.cons_append, beforeComma]
    rw [if_neg (fun e => ha.1 e.symm), beforeComma_append a b ha.2 h]

/-- The columns `Bind` finds in the fields of a generated struct. -/
theorem structFields_columns (esc : Bytes → Option Bytes) (L : Lib) (cfg : Cfg) : ∀ (cs : List Column) (fs : List Gen.Field) (i : Nat),
    List.Forall₂ (Spec.FieldFor L cfg) cs fs → (∀ c ∈ cs, Schema.Spec.TagOK c) →
    ∃ l, structFields esc i fs = some l ∧ fieldsColumns l = (cs.map (·.name)).zip (List.range' i cs.length) := by
  intro cs
  induction cs with
  | nil => intro fs i h _; cases h; exact ⟨[], rfl, rfl⟩
  | cons c cs ih =>
    intro fs i h hok
    cases h with
    | @cons _ f _ fs h hs =>
      obtain ⟨l, h1, h2⟩ := ih fs (i + 1) hs (fun x hx => hok x (by simp [hx]))
      obtain ⟨t1, t2, -⟩ := C78_tag_is_read_back esc c (hok c (by simp))
      rw [← h.2.2.2] at t1 t2
      refine ⟨.plain (getTag esc b!"db" f.tag) i :: l, by simp [structFields, t1, h1], ?_⟩
      have hcol : beforeComma (getTag esc b!"db" f.tag) = c.name := by
        rw [t2, intercalate_cons]
        exact beforeComma_append _ _ (hok c (by simp)).comma (by simp [Schema.Spec.options])
      have hne : getTag esc b!"db" f.tag ≠ [] := by
        rw [t2, intercalate_cons]; simp [Schema.Spec.options]
      simp only [fieldsColumns, Xsql.Field.columns, if_neg hne, hcol, h2, List.map_cons, List.length_cons, List.range'_succ, List.zip_cons_cons, List.singleton_append]

theorem fieldsColumns_append (a b : List Xsql.Field) : fieldsColumns (a ++ b) = fieldsColumns a ++ fieldsColumns b := by
  induction a with
  | nil => simp [fieldsColumns]
  | cons f a ih => simp [fieldsColumns, ih]

theorem forall2_types {L : Lib} {cfg : Cfg} {cs : List Column} {fs : List Gen.Field} (h : List.Forall₂ (Spec.FieldFor L cfg) cs fs) :
    cs.map (fun c => toGoType L.eqFold cfg.types c) = fs.map (fun f => some f.type) := by
  induction h with
  | nil => rfl
  | cons h _ ih => rw [List.map_cons, List.map_cons, ih, h.2.1]

theorem forall2_names {L : Lib} {cfg : Cfg} {cs : List Column} {fs : List Gen.Field} (h : List.Forall₂ (Spec.FieldFor L cfg) cs fs) :
    fs.map (·.column) = cs.map (·.name) := by
  induction h with
  | nil => rfl
  | cons h _ ih => rw [List.map_cons, List.map_cons, ih, h.2.2.1]

/-- **C78**: generated models and `Bind` fit together.  After every successful generation, for every table there is a struct in a model file such that passing it to `Bind`
(in a program where its names can be quoted as they are) selects exactly the table's kept columns, in order, each into its own field: on every dialect
`From(t).Bind(&m)` reads `SELECT c1, c2, ... FROM t`, the destinations are the fields in declaration order, and they are the same fields, in the same order, that the
generated `ScanRow` fills; the type of each field is the one chosen for its column. -/
theorem C78_bind_selects_the_columns {α : Type} (esc : Bytes → Option Bytes) (L : Lib) (cfg : Cfg) (fmtOK : File → Bool) (res : List GTable) (order : List Bytes)
    (hord : IsOrder res order) (evs : List Event) (h : generate L cfg fmtOK res order = (evs, .ok)) (t : GTable) (ht : t ∈ res)
    (hkeep : ∃ c ∈ t.columns, cfg.drop c.name = false)
    (hok : ∀ c ∈ t.columns, cfg.drop c.name = false → Schema.Spec.TagOK c ∧ NameOK c.name)
    (dia : Dia) (nl : Bool) (st : Nat) (tn : Bytes) (htn : Plain tn) (htn0 : ∃ z, tn.getLast? = some z ∧ isCut z = false) :
    let kept := t.columns.filter (fun c => !cfg.drop c.name)
    ∃ mt dv decls, Event.write mt (.model dv decls) ∈ evs ∧ ∃ d ∈ decls, d.table = t.name ∧ d.schema = t.schema
      ∧ d.scan = d.fields.map (·.name) ∧ d.fields.length = kept.length
      ∧ kept.map (fun c => toGoType L.eqFold cfg.types c) = d.fields.map (fun f => some f.type) ∧ d.fields.map (·.column) = kept.map (·.name)
      ∧ ∃ fs, structOf esc d = some fs
        ∧ ((build (α := α) dia nl st [.from_ tn []]).bind fs).render
            = b!"SELECT " ++ joinBytes b!", " (kept.map (·.name)) ++ b!" " ++ (if nl then b!"\n" else []) ++ b!"FROM " ++ tn
        ∧ ((build (α := α) dia nl st [.from_ tn []]).bind fs).dest = List.range kept.length := by
  intro kept
  obtain ⟨rounds, h1, h2, h3⟩ := generate_rounds h
  obtain ⟨k, hk⟩ := List.mem_iff_getElem?.1 ((hord.2 t.schema).2 ⟨t, ht, rfl⟩)
  have hr : ∃ r, rounds[k]? = some r ∧ r.1 = t.schema := by
    rw [← h1, List.getElem?_map] at hk
    cases hg : rounds[k]? with
    | none => rw [hg] at hk; cases hk
    | some r => rw [hg] at hk; exact ⟨r, rfl, by simpa using hk⟩
  obtain ⟨r, hrk, hrs⟩ := hr
  obtain ⟨⟨dv, ds, e1, hd⟩, -⟩ := h3 k r hrk
  have hmem : r ∈ rounds := List.mem_of_getElem? hrk
  obtain ⟨d, hdm, hdd⟩ := forall2_right hd t (by rw [hrs]; simp [ht])
  have hkk : Spec.kept cfg t = kept := rfl
  have hfields := hdd.fields
  rw [hkk] at hfields
  have hlen : kept.length = d.fields.length := hfields.length_eq
  have hall : ∀ c ∈ kept, Schema.Spec.TagOK c ∧ NameOK c.name := by
    intro c hc
    have := List.mem_filter.1 hc
    exact hok c this.1 (by simpa using this.2)
  obtain ⟨l, hl, hcols⟩ := structFields_columns esc L cfg kept d.fields 0 hfields (fun c hc => (hall c hc).1)
  have hcache : getTag esc b!"db" b!"json:\"-\"" = [] := by
    have := scanQuoted_verbatim b!"-" [] (by decide)
    simp only [List.singleton_append] at this
    simp [getTag, lookupTag, List.dropWhile_cons, List.takeWhile_cons, isKeyByte, this]
  refine ⟨target cfg.outModel (decide (1 < order.length)) r.1 b!"model", dv, ds, ?_, d, hdm, hdd.table, hdd.schema, hdd.scan, hlen.symm, forall2_types hfields, forall2_names hfields, _, by
    simp only [structOf, hl, Option.bind_eq_bind, Option.bind_some, Option.pure_def]; rfl, ?_⟩
  · rw [h2]
    exact List.mem_flatMap.2 ⟨r, hmem, by simp [Spec.round, e1]⟩
  · have hfc : fieldsColumns (l ++ (if d.withCache then [.plain (getTag esc b!"db" b!"json:\"-\"") d.fields.length] else []))
        = (kept.map (·.name)).zip (List.range' 0 kept.length) := by
      rw [fieldsColumns_append, hcols, hcache]
      cases d.withCache <;> simp [fieldsColumns, Xsql.Field.columns]
    obtain ⟨b1, b2, -⟩ := C34_bind (α := α) dia nl st [.from_ tn []] (l ++ (if d.withCache then [.plain (getTag esc b!"db" b!"json:\"-\"") d.fields.length] else []))
    have hz1 : ((kept.map (·.name)).zip (List.range' 0 kept.length)).map Prod.fst = kept.map (·.name) := List.map_fst_zip (by simp)
    have hz2 : ((kept.map (·.name)).zip (List.range' 0 kept.length)).map Prod.snd = List.range' 0 kept.length := List.map_snd_zip (by simp)
    constructor
    · rw [b1, hfc, List.singleton_append, from_bind_text dia nl st htn htn0, hz1]
      · obtain ⟨c, hc, hc'⟩ := hkeep
        have : c ∈ kept := List.mem_filter.2 ⟨hc, by simp [hc']⟩
        have hlen0 := List.length_pos_of_mem this
        intro e
        have e' := congrArg List.length e
        rw [List.length_zip, List.length_map, List.length_range', Nat.min_self, List.length_nil] at e'
        omega
      · intro c hc
        have := List.of_mem_zip hc
        obtain ⟨x, hx, e⟩ := List.mem_map.1 this.1
        rw [← e]; exact (hall x hx).2
    · rw [b2, hfc, hz2, List.range_eq_range']; rfl

/-- **C78, a limit**: a column name with a comma is cut at the comma when the struct is bound (the name before it is selected instead). -/
theorem C78_comma_cuts_the_name (esc : Bytes → Option Bytes) (c : Column) (a b : Bytes) (hn : c.name = a ++ b!"," ++ b) (ha : 44 ∉ a)
    (hv : Schema.Spec.Verbatim (c.name ++ c.tagOps)) (i : Nat) :
    fieldsColumns [.plain (getTag esc b!"db" c.tag) i] = [(a, i)] := by
  have et : c.tag = b!"db:\"" ++ (c.name ++ c.tagOps) ++ b!"\"" ++ b!" json:\",omitempty\"" := by simp [Column.tag, List.append_assoc]
  have hg : getTag esc b!"db" c.tag = a ++ (b!"," ++ (b ++ c.tagOps)) := by
    unfold getTag
    rw [et, lookup_db esc _ _ _ hv, hn]; simp
  simp only [fieldsColumns, Xsql.Field.columns, hg]
  rw [if_neg (by simp), beforeComma_append _ _ ha (by simp)]
  rfl

/-! ### Concrete runs -/

/-- The hypotheses of `C78_bind_selects_the_columns` hold for the toy tables. -/
example : ∀ t ∈ toyRes, (∃ c ∈ t.columns, toyCfg.drop c.name = false) ∧ ∀ c ∈ t.columns, toyCfg.drop c.name = false → Schema.Spec.TagOK c ∧ NameOK c.name := by
  have hc : ∀ c ∈ [toyCol b!"id" b!"int8", toyCol b!"secret" b!"text", toyCol b!"name" b!"text"], Schema.Spec.TagOK c ∧ NameOK c.name := by
    intro c hc
    simp only [List.mem_cons, List.not_mem_nil, or_false] at hc
    rcases hc with rfl | rfl | rfl <;>
      exact ⟨⟨verbatim_ascii (by decide), by decide, verbatim_ascii (by decide), verbatim_ascii (by decide), by intro fk h; cases h⟩, by decide, by unfold Plain; decide⟩
  intro t ht
  simp only [toyRes, List.mem_cons, List.not_mem_nil, or_false] at ht
  rcases ht with rfl | rfl | rfl <;> exact ⟨⟨toyCol b!"id" b!"int8", by decide, by decide⟩, fun c h _ => hc c h⟩

end Gen
