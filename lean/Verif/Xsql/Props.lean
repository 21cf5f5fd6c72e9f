import Verif.Xsql.ClosedLemmas
set_option linter.unusedSimpArgs false
/-
Properties of one statement: C21-C25, C29-C31, C34, C35.
The vocabulary (tokens, documents, calls) is in Spec.lean.
-/
namespace Xsql
variable {α : Type}

theorem build_ref {nl : Bool} {st : Nat} {cs : List (Call α)} (d : Dia) (h : CallsOK (SpecState.fresh nl st) cs) :
    Ref (build d nl st cs) (spec nl st cs) := by
  refine ref_calls cs ?_ h
  have := ref_fresh (newStmt (α := α) d nl st) rfl rfl rfl
  simpa [newStmt] using this

theorem call_fields (q : Stmt α) (c : Call α) :
    (q.call c).dialect = q.dialect ∧ (q.call c).name = q.name ∧ (q.call c).useNewLines = q.useNewLines := by
  have A := fun (q : Stmt α) p kw e as sep => addChunk_fields q p kw e as sep
  cases c with
  | toDest ds => simp only [Stmt.call, Stmt.to]; split <;> simp
  | insertInto t => simp [Stmt.call, Stmt.insertInto, Stmt.add, A]
  | setExpr f e as => simp only [Stmt.call, Stmt.setExpr]; split <;> [simp [Stmt.add, A]; (split <;> simp [Stmt.add, A])]
  | subQuery pre suf s as => simp [Stmt.call, Stmt.subQuery, Stmt.write, A]
  | with_ n s as => simp [Stmt.call, Stmt.with_, Stmt.subQuery, Stmt.write, Stmt.add, A]
  | union all s as => simp [Stmt.call, Stmt.union, Stmt.write, A]
  | newRow => simp only [Stmt.call, Stmt.newRow]; split <;> simp [Stmt.add, A]
  | rowSetExpr r f e as => simp only [Stmt.call, Stmt.rowSetExpr]; split <;> simp [Stmt.add, A]
  | _ => exact ⟨(A _ _ _ _ _ _).1, (A _ _ _ _ _ _).2.1, (A _ _ _ _ _ _).2.2.1⟩

theorem build_fields (d : Dia) (nl : Bool) (st : Nat) (cs : List (Call α)) :
    (build d nl st cs).dialect = d ∧ (build d nl st cs).name = [] ∧ (build d nl st cs).useNewLines = nl := by
  unfold build
  have : ∀ q : Stmt α, (cs.foldl Stmt.call q).dialect = q.dialect ∧ (cs.foldl Stmt.call q).name = q.name ∧
      (cs.foldl Stmt.call q).useNewLines = q.useNewLines := by
    induction cs with
    | nil => intro q; exact ⟨rfl, rfl, rfl⟩
    | cons c cs ih => intro q; rw [List.foldl_cons, (ih _).1, (ih _).2.1, (ih _).2.2]; exact call_fields q c
  exact this _

/-! ### C21 Placeholders and arguments stay aligned -/

/-- **C21.** Whatever calls are made in whatever order, there is one token sequence behind the
statement: its text is the SQL (with `?`, or numbered on Postgres), its placeholders carry exactly
`Args()` in order, and every fragment that came with arguments appears in it as one contiguous piece
whose placeholders carry the arguments supplied with that fragment. -/
theorem C21_args_follow_placeholders (d : Dia) {nl : Bool} {st : Nat} {cs : List (Call α)} (h : CallsOK (SpecState.fresh nl st) cs) :
    ∃ ts : List (Tok α),
      (d ≠ .postgres → (build d nl st cs).render = trim (raw ts)) ∧
      (d = .postgres → (build d nl st cs).render = trim (numbered 1 ts)) ∧
      (build d nl st cs).args = vals ts ∧
      ∀ f ∈ fragsOf (SpecState.fresh nl st) cs, f.args ≠ [] → ¬ single f.pos → bound f.text f.args <:+: ts := by
  have hr := build_ref d h
  have hre := render_eq hr
  refine ⟨docToks (spec nl st cs).doc, ?_, ?_, hre.2, ?_⟩
  · intro hd
    rw [hre.1, (build_fields d nl st cs).1]; simp [hd, written]
  · rintro rfl
    rw [hre.1, (build_fields .postgres nl st cs).1]; simp [written]
  · intro f hf ha hs
    have hin := fragsOf_in (build_ref d (cs := []) (nl := nl) (st := st) trivial) h
    obtain ⟨c, hc, hi⟩ := (frags_persist (d := []) (fs := fragsOf (SpecState.fresh nl st) cs) List.Pairwise.nil hin).2 f hf ha hs
    have hd : (spec nl st cs).doc = (fragsOf (SpecState.fresh nl st) cs).foldl (addFrag nl) [] := doc_foldl _ cs
    rw [hd]
    exact hi.trans (docToks_infix hc)

/-- **C21.** Lexing the SQL text of a non-Postgres statement and handing out `Args()` from left to
right succeeds - there are as many placeholders as arguments - and gives the specified tokens. -/
theorem C21_sql_consumes_args (d : Dia) (hd : d ≠ .postgres) {nl : Bool} {st : Nat} {cs : List (Call α)}
    (h : CallsOK (SpecState.fresh nl st) cs) :
    bindArgs (build d nl st cs).render (build d nl st cs).args = some (trimToks (docToks (spec nl st cs).doc)) ∧
    (vals (tokenize (build d nl st cs).render)).length = (build d nl st cs).args.length := by
  have hr := build_ref d h
  have hre := render_eq hr
  have e1 : (build d nl st cs).render = raw (trimToks (docToks (spec nl st cs).doc)) := by
    rw [hre.1, (build_fields d nl st cs).1, trim_written]; simp [hd, written]
  have hcl := (doc_clean hr).1.infix (trimToks_infix _)
  rw [e1, hre.2, ← vals_trimToks]
  refine ⟨hcl, ?_⟩
  rw [hcl.toks_eq, vals_forget_length]

/-- The calls of a realistic statement, with clauses out of order and arguments in most of them. -/
def sampleCalls : List (Call Nat) :=
  [.where_ b!"a = ?" [1], .from_ b!"t" [], .limit 9, .select b!"x, f(?)" [2], .where_ b!"b = ? OR b = ?" [3, 4],
   .join .left b!"u" b!"u.id = t.id", .select b!"y" [], .orderBy [b!"x", b!"y"], .limit 10, .expr b!"" []]

/-- The same without the last call (on LIMIT nothing may be appended). -/
def sampleOK : List (Call Nat) := sampleCalls.dropLast

theorem sampleOK_ok : CallsOK (SpecState.fresh true 7) sampleOK := by
  refine ⟨?_, ?_, ?_, ?_, ?_, ?_, ?_, ?_, ?_, trivial⟩ <;>
    simp only [CallOK, FragOK] <;> decide +kernel

example : (build .default true 7 sampleOK).render =
    b!"SELECT x, f(?), y \nFROM t LEFT JOIN u ON (u.id = t.id) \nWHERE a = ? AND b = ? OR b = ? \nORDER BY x, y \nLIMIT ?" := by decide +kernel
example : (build .postgres true 7 sampleOK).render =
    b!"SELECT x, f($1), y \nFROM t LEFT JOIN u ON (u.id = t.id) \nWHERE a = $2 AND b = $3 OR b = $4 \nORDER BY x, y \nLIMIT $5" := by decide +kernel
example : (build .postgres true 7 sampleOK).args = [2, 1, 3, 4, 10] := by decide +kernel

/-! ### C22 The SQL text is the clauses in canonical order -/

theorem mem_takeWhile_imp {β : Type} {p : β → Bool} {x : β} : ∀ {l : List β}, x ∈ l.takeWhile p → p x = true
  | [], h => by simp at h
  | y :: l, h => by
    rw [List.takeWhile_cons] at h
    split at h
    · rcases List.mem_cons.1 h with rfl | h
      · assumption
      · exact mem_takeWhile_imp h
    · simp at h

/-- **C22 (trimming).** `trim`, used in the statements below, removes exactly the line breaks, tabs and spaces at both ends. -/
theorem C22_trim_meaning (s : Bytes) :
    ∃ a b, s = a ++ trim s ++ b ∧ (∀ x ∈ a ++ b, x ∈ b!"\n\r\t ") ∧
      (∀ x, (trim s).head? = some x ∨ (trim s).getLast? = some x → x ∉ b!"\n\r\t ") := by
  have hm : ∀ x : UInt8, isCut x = true ↔ x ∈ b!"\n\r\t " := by
    intro x
    simp only [isCut, Bool.or_eq_true, beq_iff_eq, List.mem_cons, List.not_mem_nil, or_false, or_assoc]
  have key : ∀ t : Bytes, ∃ a, t = a ++ t.dropWhile isCut ∧ (∀ x ∈ a, x ∈ b!"\n\r\t ") ∧
      (∀ x, (t.dropWhile isCut).head? = some x → x ∉ b!"\n\r\t ") := by
    intro t
    refine ⟨t.takeWhile isCut, by rw [List.takeWhile_append_dropWhile], fun x hx => (hm x).1 (mem_takeWhile_imp hx), fun x hx hc => ?_⟩
    have := List.head?_dropWhile_not isCut t
    rw [hx] at this
    simp only [(hm x).2 hc] at this
    exact absurd this (by decide)
  obtain ⟨a, ha, ha1, ha2⟩ := key s
  obtain ⟨b, hb, hb1, hb2⟩ := key (s.dropWhile isCut).reverse
  have e : s.dropWhile isCut = trim s ++ b.reverse := by
    have := congrArg List.reverse hb
    rw [List.reverse_append, List.reverse_reverse] at this
    exact this
  refine ⟨a, b.reverse, by rw [List.append_assoc, ← e]; exact ha, ?_, ?_⟩
  · intro x hx
    rcases List.mem_append.1 hx with h | h
    · exact ha1 x h
    · exact hb1 x (List.mem_reverse.1 h)
  · rintro x (h | h)
    · refine ha2 x ?_
      rw [e, List.head?_append, h]; rfl
    · refine hb2 x ?_
      rw [← h]; unfold trim; rw [List.getLast?_reverse]

example : trim b!" \t a b\n" = b!"a b" := by decide +kernel

/-- **C22 (all calls).** The SQL is the specified document - one clause per position, in ascending
position order, separated by a space - and `Args()` are the arguments in text order. -/
theorem C22_sql_is_document (d : Dia) (hd : d ≠ .postgres) {nl : Bool} {st : Nat} {cs : List (Call α)}
    (h : CallsOK (SpecState.fresh nl st) cs) :
    (build d nl st cs).render = trim (joinBytes b!" " ((spec nl st cs).doc.map fun c => raw c.toks)) ∧
    (build d nl st cs).args = (spec nl st cs).doc.flatMap (fun c => vals c.toks) ∧
    (spec nl st cs).doc.Pairwise (fun a b => a.pos < b.pos) := by
  have hre := render_eq (build_ref d h)
  refine ⟨?_, ?_, ?_⟩
  · rw [hre.1, (build_fields d nl st cs).1, ← raw_docToks]; simp [hd, written]
  · rw [hre.2, vals_docToks]
  · have : (spec nl st cs).doc = (fragsOf (SpecState.fresh nl st) cs).foldl (addFrag nl) [] := doc_foldl _ cs
    rw [this]
    have key : ∀ (fs : List (Frag α)) (d : List (Clause α)), Ascending d → Ascending (fs.foldl (addFrag nl) d) := by
      intro fs
      induction fs with
      | nil => intro d h; exact h
      | cons f fs ih => intro d h; exact ih _ (h.addFrag nl f)
    exact key _ _ List.Pairwise.nil

theorem plain_frags {c : Call α} (h : c.plain = true) (s : SpecState α) : s.frags c = c.parts := by
  cases c <;> first | rfl | simp [Call.plain] at h

theorem fragsOf_plain {cs : List (Call α)} (h : ∀ c ∈ cs, c.plain = true) (s : SpecState α) : fragsOf s cs = cs.flatMap Call.parts := by
  induction cs generalizing s with
  | nil => rfl
  | cons c cs ih =>
    rw [fragsOf, plain_frags (h c (by simp)), ih (fun c hc => h c (by simp [hc])), List.flatMap_cons]

theorem FragLocal.mk' {p : Nat} {kw e sep : Bytes} {as : List α} (he : FragOK e as)
    (hk : (63 : UInt8) ∉ kw) (hk2 : kw.getLast? ≠ some 92) (hp : ¬ single p) (hs : (63 : UInt8) ∉ sep ∧ (92 : UInt8) ∉ sep) :
    FragLocal (⟨p, kw, e, as, sep⟩ : Frag α) := by
  have := FragIn.mk' (d := []) he hk hk2 hp hs
  refine ⟨this.e, this.k, ?_, this.s, this.sep⟩
  intro h ha
  simp only at h; subst h; exact absurd he.nil_args ha

theorem FragLocal.single' {p : Nat} {kw : Bytes} {a : α} (hk : FragOK kw [a]) (hp : single p) :
    FragLocal (⟨p, kw, [], [a], []⟩ : Frag α) := ⟨fun h => absurd rfl h, fun _ => hk, fun _ _ => hp, fun _ => ⟨rfl, rfl⟩, by simp⟩

theorem plain_local {c : Call α} (h : c.plain = true) {s : SpecState α} (hok : CallOK s c) :
    ∀ f ∈ c.parts, FragLocal f ∧ f.pos ∈ canonical := by
  have hE : FragOK (α := α) [] [] := FragOK.const (by simp) (by simp)
  have one : ∀ {f : Frag α}, FragLocal f → f.pos ∈ canonical → ∀ g ∈ [f], FragLocal g ∧ g.pos ∈ canonical := by
    intro f h1 h2 g hg; simp at hg; subst hg; exact ⟨h1, h2⟩
  cases c with
  | select e as => exact one (FragLocal.mk' hok (by decide) (by decide) (by decide) sepOK_comma) (by simp [canonical, posSelect, posFrom, posReturning, posUpdate, posDelete, posWhere, posHaving, posGroupBy, posOrderBy, posLimit, posOffset])
  | returning e => exact one (FragLocal.mk' hok (by decide) (by decide) (by decide) sepOK_comma) (by simp [canonical, posSelect, posFrom, posReturning, posUpdate, posDelete, posWhere, posHaving, posGroupBy, posOrderBy, posLimit, posOffset])
  | update e => exact one (FragLocal.mk' hok (by decide) (by decide) (by decide) sepOK_comma) (by simp [canonical, posSelect, posFrom, posReturning, posUpdate, posDelete, posWhere, posHaving, posGroupBy, posOrderBy, posLimit, posOffset])
  | deleteFrom e => exact one (FragLocal.mk' hok (by decide) (by decide) (by decide) sepOK_comma) (by simp [canonical, posSelect, posFrom, posReturning, posUpdate, posDelete, posWhere, posHaving, posGroupBy, posOrderBy, posLimit, posOffset])
  | from_ e as => exact one (FragLocal.mk' hok (by decide) (by decide) (by decide) sepOK_comma) (by simp [canonical, posSelect, posFrom, posReturning, posUpdate, posDelete, posWhere, posHaving, posGroupBy, posOrderBy, posLimit, posOffset])
  | where_ e as => exact one (FragLocal.mk' hok (by decide) (by decide) (by decide) sepOK_and) (by simp [canonical, posSelect, posFrom, posReturning, posUpdate, posDelete, posWhere, posHaving, posGroupBy, posOrderBy, posLimit, posOffset])
  | having e as => exact one (FragLocal.mk' hok (by decide) (by decide) (by decide) sepOK_and) (by simp [canonical, posSelect, posFrom, posReturning, posUpdate, posDelete, posWhere, posHaving, posGroupBy, posOrderBy, posLimit, posOffset])
  | groupBy e => exact one (FragLocal.mk' hok (by decide) (by decide) (by decide) sepOK_comma) (by simp [canonical, posSelect, posFrom, posReturning, posUpdate, posDelete, posWhere, posHaving, posGroupBy, posOrderBy, posLimit, posOffset])
  | orderBy es => exact one (FragLocal.mk' (joinBytes_ok hok) (by decide) (by decide) (by decide) sepOK_comma) (by simp [canonical, posSelect, posFrom, posReturning, posUpdate, posDelete, posWhere, posHaving, posGroupBy, posOrderBy, posLimit, posOffset])
  | in_ as => exact one (FragLocal.mk' (inText_ok as) (by decide) (by decide) (by decide) sepOK_space) (by simp [canonical, posSelect, posFrom, posReturning, posUpdate, posDelete, posWhere, posHaving, posGroupBy, posOrderBy, posLimit, posOffset])
  | join k t o => exact one (FragLocal.mk' (joinText_ok hok.1 hok.2) (by decide) (by decide) (by decide) sepOK_space) (by simp [canonical, posSelect, posFrom, posReturning, posUpdate, posDelete, posWhere, posHaving, posGroupBy, posOrderBy, posLimit, posOffset])
  | limit x => exact one (FragLocal.single' ⟨rfl, by decide, by simp⟩ (.inl rfl)) (by simp [canonical, posSelect, posFrom, posReturning, posUpdate, posDelete, posWhere, posHaving, posGroupBy, posOrderBy, posLimit, posOffset])
  | offset x => exact one (FragLocal.single' ⟨rfl, by decide, by simp⟩ (.inr rfl)) (by simp [canonical, posSelect, posFrom, posReturning, posUpdate, posDelete, posWhere, posHaving, posGroupBy, posOrderBy, posLimit, posOffset])
  | toDest ds => intro f hf; exact absurd hf (List.not_mem_nil)
  | insertInto t =>
    intro f hf
    simp only [Call.parts, SpecState.frags, List.mem_cons, List.not_mem_nil, or_false] at hf
    rcases hf with rfl | rfl | rfl | rfl
    · exact ⟨FragLocal.mk' hok (by decide) (by decide) (by decide) sepOK_comma, by simp [canonical, posInsert, posWith, posInsertFields, posValues]⟩
    · exact ⟨FragLocal.mk' hE (by decide) (by decide) (by decide) sepOK_nil, by simp [canonical]⟩
    · exact ⟨FragLocal.mk' hE (by decide) (by decide) (by decide) sepOK_nil, by simp [canonical]⟩
    · exact ⟨FragLocal.mk' hE (by decide) (by decide) (by decide) sepOK_nil, by simp [canonical]⟩
  | with_ n sub as =>
    intro f hf
    simp only [Call.parts, SpecState.frags, List.mem_cons, List.not_mem_nil, or_false] at hf
    rcases hf with rfl | rfl
    · exact ⟨FragLocal.mk' hE (by decide) (by decide) (by decide) sepOK_nil, by simp [canonical, posInsert, posWith, posInsertFields, posValues]⟩
    · exact ⟨FragLocal.mk' hok (by decide) (by decide) (by decide) sepOK_comma, by simp [canonical, posInsert, posWith, posInsertFields, posValues]⟩
  | rowSetExpr r f e as =>
    intro g hg
    simp only [Call.parts, SpecState.frags] at hg
    split at hg
    · simp only [List.mem_cons, List.not_mem_nil, or_false] at hg
      rcases hg with rfl | rfl
      · exact ⟨FragLocal.mk' hok.1 (by decide) (by decide) (by decide) sepOK_comma, by simp [canonical, posInsert, posWith, posInsertFields, posValues]⟩
      · exact ⟨FragLocal.mk' hok.2 (by decide) (by decide) (by decide) sepOK_comma, by simp [canonical, posInsert, posWith, posInsertFields, posValues]⟩
    · simp only [List.mem_cons, List.not_mem_nil, or_false] at hg
      subst hg
      refine ⟨FragLocal.mk' hok.2 (by decide) (by decide) (by decide) ?_, by simp [canonical, posInsert, posWith, posInsertFields, posValues]⟩
      split
      · exact sepOK_comma
      · exact sepOK_nil
  | _ => simp [Call.plain] at h

theorem callsOK_mem {cs : List (Call α)} {s : SpecState α} (h : CallsOK s cs) : ∀ c ∈ cs, ∃ s', CallOK s' c := by
  induction cs generalizing s with
  | nil => simp
  | cons c cs ih =>
    intro x hx
    rcases List.mem_cons.1 hx with rfl | hx
    · exact ⟨s, h.1⟩
    · exact ih h.2 x hx

theorem canonical_sorted : canonical.Pairwise (· < ·) := by decide

theorem spec_closed {nl : Bool} {st : Nat} {cs : List (Call α)} (hp : ∀ c ∈ cs, c.plain = true) (h : CallsOK (SpecState.fresh nl st) cs) :
    (spec nl st cs).doc = docOf nl canonical (cs.flatMap Call.parts) ∧ ∀ f ∈ cs.flatMap Call.parts, FragLocal f := by
  have hloc : ∀ f ∈ cs.flatMap Call.parts, FragLocal f ∧ f.pos ∈ canonical := by
    intro f hf
    obtain ⟨c, hc, hfc⟩ := List.mem_flatMap.1 hf
    obtain ⟨s', hs'⟩ := callsOK_mem h c hc
    exact plain_local (hp c hc) hs' f hfc
  refine ⟨?_, fun f hf => (hloc f hf).1⟩
  have e : (spec nl st cs).doc = (fragsOf (SpecState.fresh nl st) cs).foldl (addFrag nl) [] := doc_foldl _ cs
  rw [e, fragsOf_plain hp]
  exact foldl_addFrag_closed nl canonical canonical_sorted _ fun f hf => (hloc f hf).2

/-- The fragments of all calls that belong to the clause at position `p`, in call order. -/
def partsAt (p : Nat) (cs : List (Call α)) : List (Frag α) := (cs.flatMap Call.parts).filter fun f => f.pos = p

/-- **C22 (named clauses).** For every sequence of calls of the clause methods, the SQL is: the clauses
that were used, in canonical order, separated by a space; each clause is the keyword of its first call
followed by the expressions of its calls in call order, joined by their separators; and `Args()` are
the arguments clause by clause, in call order within a clause (for LIMIT and OFFSET: of the last call). -/
theorem C22_canonical_order (d : Dia) (hd : d ≠ .postgres) {nl : Bool} {st : Nat} {cs : List (Call α)}
    (hp : ∀ c ∈ cs, c.plain = true) (h : CallsOK (SpecState.fresh nl st) cs) :
    (build d nl st cs).render =
      trim (joinBytes b!" " (((canonical.filter fun p => partsAt p cs ≠ []).map fun p => clauseText nl (partsAt p cs)))) ∧
    (build d nl st cs).args = canonical.flatMap fun p => clauseArgs (partsAt p cs) := by
  obtain ⟨hdoc, hloc⟩ := spec_closed hp h
  obtain ⟨h1, h2, -⟩ := C22_sql_is_document d hd h
  have key : ∀ P : List Nat,
      (docOf nl P (cs.flatMap Call.parts)).map (fun c => raw c.toks) = (P.filter fun p => partsAt p cs ≠ []).map (fun p => clauseText nl (partsAt p cs)) ∧
      (docOf nl P (cs.flatMap Call.parts)).flatMap (fun c => vals c.toks) = P.flatMap fun p => clauseArgs (partsAt p cs) := by
    intro P
    induction P with
    | nil => simp [docOf]
    | cons p P ih =>
      unfold docOf at ih ⊢
      simp only [List.filterMap_cons]
      cases hc : clauseOf nl (partsAt p cs) with
      | none =>
        have hn : partsAt p cs = [] := by
          cases hh : partsAt p cs with
          | nil => rfl
          | cons f fs => rw [hh] at hc; simp [clauseOf] at hc
        unfold partsAt at hc
        rw [hc]
        simp [hn, clauseArgs, ih]
      | some c =>
        have hn : partsAt p cs ≠ [] := by intro hh; rw [hh] at hc; simp [clauseOf] at hc
        have ht := clauseOf_text hc (p := p) (by intro f hf; simpa using (List.mem_filter.1 hf).2)
          (fun f hf => hloc f (List.mem_filter.1 hf).1)
        unfold partsAt at hc
        rw [hc]
        simp [hn, ih, ht.1, ht.2]
  rw [h1, h2, hdoc, (key canonical).1, (key canonical).2]
  exact ⟨rfl, rfl⟩

example : ∀ c ∈ sampleOK, c.plain = true := by decide
example : clauseText true (partsAt posWhere sampleOK) = b!"\nWHERE a = ? AND b = ? OR b = ?" := by decide +kernel
example : clauseText true (partsAt posFrom sampleOK) = b!"\nFROM t LEFT JOIN u ON (u.id = t.id)" := by decide +kernel
example : clauseArgs (partsAt posLimit sampleOK) = [10] := by decide +kernel

/-- **C22, false at this point (test on the model).** A `Join` (or `In`) before the first `From` (`Where`) loses
the keyword: `Select("x").Join("u", "c").From("t")` renders no `FROM`. -/
theorem C22_join_before_from_loses_keyword :
    (build .default true 0 [.select b!"x" ([] : List Nat), .join .inner b!"u" b!"c", .from_ b!"t" []]).render =
      b!"SELECT x JOIN u ON (c), t" := by decide +kernel

/-! ### C23 Order of calls on different clauses does not matter -/

/-- **C23.** Two sequences of clause calls that make the same calls on each clause in the same order
give the same SQL text and the same arguments, in every dialect. -/
theorem C23_only_order_within_clause_matters (d : Dia) {nl : Bool} {st st' : Nat} {cs ds : List (Call α)}
    (hp : ∀ c ∈ cs, c.plain = true) (hp' : ∀ c ∈ ds, c.plain = true)
    (h : CallsOK (SpecState.fresh nl st) cs) (h' : CallsOK (SpecState.fresh nl st') ds)
    (same : ∀ p, partsAt p cs = partsAt p ds) :
    (build d nl st cs).render = (build d nl st' ds).render ∧ (build d nl st cs).args = (build d nl st' ds).args := by
  have e : (spec nl st cs).doc = (spec nl st' ds).doc := by
    rw [(spec_closed hp h).1, (spec_closed hp' h').1]
    unfold docOf
    refine List.filterMap_congr ?_
    intro p _
    exact congrArg (clauseOf nl) (same p)
  have r1 := render_eq (build_ref d h)
  have r2 := render_eq (build_ref d h')
  rw [r1.1, r2.1, r1.2, r2.2, e, (build_fields d nl st cs).1, (build_fields d nl st' ds).1]
  exact ⟨rfl, rfl⟩

/-- **C23.** In particular two neighbouring calls on different clauses can be exchanged, anywhere in
a sequence. -/
theorem C23_swap (d : Dia) {nl : Bool} {st : Nat} {pre post : List (Call α)} {a b : Call α}
    (hp : ∀ c ∈ pre ++ a :: b :: post, c.plain = true)
    (h : CallsOK (SpecState.fresh nl st) (pre ++ a :: b :: post)) (h' : CallsOK (SpecState.fresh nl st) (pre ++ b :: a :: post))
    (hdis : ∀ f ∈ a.parts, ∀ g ∈ b.parts, f.pos ≠ g.pos) :
    (build d nl st (pre ++ a :: b :: post)).render = (build d nl st (pre ++ b :: a :: post)).render ∧
    (build d nl st (pre ++ a :: b :: post)).args = (build d nl st (pre ++ b :: a :: post)).args := by
  refine C23_only_order_within_clause_matters d hp ?_ h h' ?_
  · intro c hc
    apply hp
    simp only [List.mem_append, List.mem_cons] at hc ⊢
    tauto
  · intro p
    unfold partsAt
    simp only [List.flatMap_append, List.flatMap_cons, List.filter_append]
    congr 1
    rw [← List.append_assoc, ← List.append_assoc]
    congr 1
    by_cases ha : ∃ f ∈ a.parts, f.pos = p
    · obtain ⟨f, hf, hfp⟩ := ha
      have : b.parts.filter (fun g => decide (g.pos = p)) = [] := by
        rw [List.filter_eq_nil_iff]; intro g hg; have := hdis f hf g hg; simp; omega
      simp [this]
    · have : a.parts.filter (fun g => decide (g.pos = p)) = [] := by
        rw [List.filter_eq_nil_iff]; intro g hg hh; exact ha ⟨g, hg, by simpa using hh⟩
      simp [this]

example : (build .postgres true 7 [.from_ b!"t" [], .where_ b!"a = ?" [1], .select b!"f(?)" [2]]).render =
    (build .postgres true 7 [.select b!"f(?)" [2], .from_ b!"t" [], .where_ b!"a = ?" [1]]).render := by decide +kernel
example : (∀ f ∈ (Call.select b!"x" ([] : List Nat)).parts, ∀ g ∈ (Call.where_ b!"a = ?" [1]).parts, f.pos ≠ g.pos) := by decide

/-! ### C24 Postgres placeholders are numbered $1..$n without gaps -/

/-- **C24.** On Postgres the SQL is the text of the same tokens, the placeholders numbered from 1 in
text order, and there are exactly `len(Args())` of them; the other dialects keep `?`. -/
theorem C24_postgres_numbering {nl : Bool} {st : Nat} {cs : List (Call α)} (h : CallsOK (SpecState.fresh nl st) cs) :
    ∃ ts : List (Tok α),
      (build .postgres nl st cs).render = numbered 1 ts ∧
      (build .default nl st cs).render = raw ts ∧ (build .sqlserver nl st cs).render = raw ts ∧
      (build .postgres nl st cs).args = vals ts ∧ (build .default nl st cs).args = vals ts := by
  have r1 := render_eq (build_ref .postgres h)
  have r2 := render_eq (build_ref .default h)
  have r3 := render_eq (build_ref .sqlserver h)
  refine ⟨trimToks (docToks (spec nl st cs).doc), ?_, ?_, ?_, ?_, ?_⟩
  · rw [r1.1, (build_fields .postgres nl st cs).1, trim_written]; simp [written]
  · rw [r2.1, (build_fields .default nl st cs).1, trim_written]; simp [written]
  · rw [r3.1, (build_fields .sqlserver nl st cs).1, trim_written]; simp [written]
  · rw [r1.2, vals_trimToks]
  · rw [r2.2, vals_trimToks]

/-- What `numbered` means: splitting the tokens at the placeholders, the pieces between them are
unchanged text and the `i`-th placeholder is written `$i` - so it refers to the `i`-th argument. -/
theorem C24_ith_placeholder (a b : List (Tok α)) (x : α) :
    numbered 1 (a ++ .ph x :: b) = numbered 1 a ++ b!"$" ++ Num.dec ((vals a).length + 1) ++ numbered ((vals a).length + 2) b ∧
    (vals (a ++ .ph x :: b))[(vals a).length]? = some x := by
  constructor
  · rw [numbered_append]
    simp only [numbered, List.append_assoc]
    rw [show 1 + (vals a).length = (vals a).length + 1 by omega]
  · simp

/-- Different placeholders get different numbers: decimal notation is injective. -/
theorem C24_numbers_distinct {i j : Nat} (h : Num.dec i = Num.dec j) : i = j := Num.fmtNat_inj 10 (by omega) (by omega) h

/-! ### C25 Placeholder rewriting changes nothing else -/

/-- **C25.** The Postgres rewriter lexes its input into ordinary bytes, escaped question marks and
placeholders, and writes them back with the placeholders numbered from `argNo`; the returned counter
has advanced by the number of placeholders. -/
theorem C25_rewriter (argNo : Nat) (s : Bytes) :
    (writePg argNo s).2 = numbered argNo (tokenize s) ∧
    (writePg argNo s).1 = argNo + (vals (tokenize s)).length ∧
    raw (tokenize s) = s := by
  rw [writePg_eq]; exact ⟨rfl, rfl, raw_tokenize s⟩

/-- **C25.** Text without `?` is copied unchanged. -/
theorem C25_plain_text_unchanged (argNo : Nat) (s : Bytes) (h : (63 : UInt8) ∉ s) : writePg argNo s = (argNo, s) := by
  rw [writePg_eq, tokenize_of_no_q s h]; simp

/-- **C25.** The lexer: a `?` is a placeholder unless the byte before it is a backslash that is not
itself consumed; `\?` is an escape; every other byte stands for itself. -/
theorem C25_lexer (s : Bytes) :
    tokenize (63 :: s) = .ph () :: tokenize s ∧ tokenize (92 :: 63 :: s) = .esc :: tokenize s ∧
    (∀ b, b ≠ 63 → (b = 92 → s.head? ≠ some 63) → tokenize (b :: s) = .lit b :: tokenize s) := by
  refine ⟨by cases s <;> simp [tokenize], by simp [tokenize], ?_⟩
  intro b hb h
  cases s with
  | nil => simp [tokenize, hb]
  | cons c s =>
    have : ¬ (b = 92 ∧ c = 63) := by rintro ⟨h1, h2⟩; exact h h1 (by simp [h2])
    simp [tokenize, hb, this]

example : writePg 3 b!"a \\? b = ? and c=?" = (5, b!"a ? b = $3 and c=$4") := by decide +kernel

/-- **C25, limit of the code.** The escape is honoured only in pieces of a statement that have
arguments: `Where("a \? b")` keeps its backslash on Postgres, and loses it when a second `Where` with
an argument is merged into the same piece. -/
theorem C25_escape_depends_on_neighbours :
    (build .postgres true 0 [.where_ b!"a \\? b" ([] : List Nat)]).render = b!"WHERE a \\? b" ∧
    (build .postgres true 0 [.where_ b!"a \\? b" ([] : List Nat), .where_ b!"c = ?" [1]]).render = b!"WHERE a ? b AND c = $1" := by
  decide +kernel

end Xsql
