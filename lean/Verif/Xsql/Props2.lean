import Verif.Xsql.Props
set_option linter.unusedSimpArgs false
/-
Properties of one statement, continued: C29, C31, C34, C35.
-/
namespace Xsql
variable {α : Type}

/-! ### Helpers: a call in the middle of a sequence -/

theorem callsOK_append {s : SpecState α} {a b : List (Call α)} (h : CallsOK s (a ++ b)) :
    CallsOK s a ∧ CallsOK (a.foldl SpecState.call s) b := by
  induction a generalizing s with
  | nil => exact ⟨trivial, h⟩
  | cons c a ih => have := ih h.2; exact ⟨⟨h.1, this.1⟩, this.2⟩

theorem callsOK_append' {s : SpecState α} {a b : List (Call α)} (h : CallsOK s a) (k : CallsOK (a.foldl SpecState.call s) b) : CallsOK s (a ++ b) := by
  induction a generalizing s with
  | nil => exact k
  | cons c a ih => exact ⟨h.1, ih h.2 k⟩

theorem spec_append (nl : Bool) (st : Nat) (a b : List (Call α)) : spec nl st (a ++ b) = b.foldl SpecState.call (spec nl st a) := by
  simp [spec, List.foldl_append]

theorem build_append (d : Dia) (nl : Bool) (st : Nat) (a b : List (Call α)) : build d nl st (a ++ b) = b.foldl Stmt.call (build d nl st a) := by
  simp [build, List.foldl_append]

theorem spec_nl (nl : Bool) (st : Nat) (cs : List (Call α)) : (spec nl st cs).nl = nl := by
  unfold spec
  have : ∀ s : SpecState α, (cs.foldl SpecState.call s).nl = s.nl := by
    induction cs with
    | nil => intro s; rfl
    | cons c cs ih => intro s; rw [List.foldl_cons, ih, nl_call]
  exact this _

theorem doc_ascending (nl : Bool) (st : Nat) (cs : List (Call α)) : Ascending (spec nl st cs).doc := by
  have e : (spec nl st cs).doc = (fragsOf (SpecState.fresh nl st) cs).foldl (addFrag nl) [] := doc_foldl _ cs
  rw [e]
  have key : ∀ (fs : List (Frag α)) (d : List (Clause α)), Ascending d → Ascending (fs.foldl (addFrag nl) d) := by
    intro fs
    induction fs with
    | nil => intro d h; exact h
    | cons f fs ih => intro d h; exact ih _ (h.addFrag nl f)
  exact key _ _ List.Pairwise.nil

/-- A fragment that does not just replace arguments is a contiguous piece of the document it is added to. -/
theorem addFrag_infix' {nl : Bool} {d : List (Clause α)} {f : Frag α} (hf : FragIn d f) (hs : ¬ single f.pos)
    (h : f.args ≠ [] ∨ f.expr ≠ [] ∨ ∀ c ∈ d, c.pos ≠ f.pos) :
    ∃ c ∈ addFrag nl d f, c.pos = f.pos ∧ bound f.text f.args <:+: c.toks := by
  by_cases ha : f.args = []
  swap
  · exact addFrag_infix hf ha hs
  cases hfind : d.find? (fun c => decide (c.pos = f.pos)) with
  | some c =>
    have hp := List.find?_some hfind
    have hm := List.mem_of_find?_eq_some hfind
    simp at hp
    have he : f.expr ≠ [] := by
      rcases h with h | h | h
      · exact absurd ha h
      · exact h
      · exact absurd hp (h c hm)
    refine ⟨c.extend f, ?_, ?_⟩
    · unfold addFrag; rw [hfind]; exact List.mem_append_right _ List.mem_cons_self
    · unfold Clause.extend Frag.text
      simp only [he, if_false]
      exact ⟨hp, (List.suffix_append _ _).isInfix⟩
  | none =>
    refine ⟨⟨f.pos, f.start nl, decide (f.expr ≠ [])⟩, ?_, rfl, ?_⟩
    · unfold addFrag; rw [hfind]; exact List.mem_append_right _ List.mem_cons_self
    · simp only [Frag.start, Frag.text]
      have hnl : FragOK (α := α) (if nl then b!"\n" else []) [] := by
        cases nl
        · exact FragOK.const (by simp) (by simp)
        · exact FragOK.const (by decide) (by decide)
      by_cases he : f.expr = []
      · have hk := hf.k he
        by_cases hkw : f.kw = []
        · rw [ha] at hk ⊢
          simp only [he, hkw, if_true, List.append_nil]
          exact List.infix_refl _
        · have := bound_append hnl hk
          simp only [List.nil_append] at this
          simp only [he, if_true, if_neg hkw, List.append_nil]
          rw [this]
          exact (List.suffix_append _ _).isInfix
      · obtain ⟨h1, h2⟩ := hf.e he
        simp only [he, if_false]
        by_cases hkw : f.kw = []
        · simp [hkw]
        · simp only [hkw, if_false]
          have hks : FragOK (α := α) (f.kw ++ b!" ") [] := FragOK.const (by simp [h2]) (by simp)
          have := bound_append (hnl.append hks) h1
          simp only [List.nil_append, List.append_assoc] at this ⊢
          rw [this]
          exact (List.suffix_append _ _).isInfix

/-- The last fragment of a call stays in the document whatever is called afterwards. -/
theorem call_persists {nl : Bool} {st : Nat} {pre post : List (Call α)} {c : Call α} {fs : List (Frag α)} {f : Frag α}
    (h : CallsOK (SpecState.fresh nl st) (pre ++ c :: post)) (hf : (spec nl st pre).frags c = fs ++ [f]) (hs : ¬ single f.pos)
    (hx : f.args ≠ [] ∨ f.expr ≠ [] ∨ ∀ x ∈ fs.foldl (addFrag nl) (spec nl st pre).doc, x.pos ≠ f.pos) :
    bound f.text f.args <:+: docToks (spec nl st (pre ++ c :: post)).doc := by
  obtain ⟨h1, h2⟩ := callsOK_append h
  have hr := build_ref .default h1
  have hnl := spec_nl nl st pre
  have hin := frags_in hr h2.1
  have hin2 := fragsOf_in (ref_call hr h2.1) h2.2
  rw [hf, hnl] at hin
  rw [nl_call, hnl] at hin2
  have hlast : ∀ (gs : List (Frag α)) (d : List (Clause α)), FragsIn nl d (gs ++ [f]) → FragIn (gs.foldl (addFrag nl) d) f := by
    intro gs
    induction gs with
    | nil => intro d h; exact h.1
    | cons g gs ih => intro d h; exact ih _ h.2
  obtain ⟨x, hxm, hxp, hxi⟩ := addFrag_infix' (nl := nl) (hlast fs _ hin) hs hx
  have hdoc : ((spec nl st pre).call c).doc = addFrag nl (fs.foldl (addFrag nl) (spec nl st pre).doc) f := by
    simp only [SpecState.call, hf, hnl, List.foldl_append, List.foldl_cons, List.foldl_nil]
  have hasc : Ascending ((spec nl st pre).call c).doc := by
    have := doc_ascending nl st (pre ++ [c])
    rwa [spec_append] at this
  obtain ⟨y, hym, hyp⟩ := (frags_persist hasc hin2).1 x (by rw [hdoc]; exact hxm) (by rw [hxp]; exact hs)
  have hfin : (spec nl st (pre ++ c :: post)).doc = (fragsOf ((spec nl st pre).call c) post).foldl (addFrag nl) ((spec nl st pre).call c).doc := by
    rw [spec_append, List.foldl_cons, doc_foldl, nl_call, hnl]
  rw [hfin]
  exact (hxi.trans hyp.isInfix).trans (docToks_infix hym)

theorem tokenize_append_noq (s t : Bytes) (h : (63 : UInt8) ∉ t) : tokenize (s ++ t) = tokenize s ++ lits t := by
  induction s using tokenize.induct with
  | case1 => simp [tokenize, tokenize_of_no_q t h]
  | case2 =>
    cases t with
    | nil => simp [tokenize]
    | cons c t => simp only [List.cons_append, List.nil_append, tokenize, if_true]; rw [tokenize_of_no_q _ h]
  | case3 b hb =>
    cases t with
    | nil => simp [tokenize]
    | cons c t =>
      have hc : c ≠ 63 := by intro e; apply h; simp [e]
      simp only [List.cons_append, List.nil_append, tokenize, if_neg hb, hc, and_false, if_false]
      rw [tokenize_of_no_q _ h]
  | case4 b s ih => simp only [List.cons_append] at ih ⊢; simp only [tokenize, if_true]; rw [ih]; rfl
  | case5 b c s hb hbc ih => simp only [List.cons_append, tokenize, if_neg hb, hbc, and_self, if_true]; rw [ih]; rfl
  | case6 b c s hb hbc ih => simp only [List.cons_append] at ih ⊢; simp only [tokenize, if_neg hb, if_neg hbc]; rw [ih]; rfl

/-- Binding arguments to a text wrapped in placeholder-free text. -/
theorem bound_wrap {ti : List (Tok α)} (hc : Clean ti) {p s : Bytes} (hp : (63 : UInt8) ∉ p) (hp2 : p.getLast? ≠ some 92)
    (hs : (63 : UInt8) ∉ s) : bound (p ++ raw ti ++ s) (vals ti) = lits p ++ ti ++ lits s := by
  apply bound_of
  unfold bindArgs
  rw [tokenize_append_noq _ _ hs, tokenize_append _ _ hp2, tokenize_of_no_q p hp]
  have e1 : assign (lits p : List (Tok Unit)) ([] : List α) = some (lits p) := by
    have := bindArgs_no_q (α := α) p hp; unfold bindArgs at this; rwa [tokenize_of_no_q p hp] at this
  have e2 : assign (lits s : List (Tok Unit)) ([] : List α) = some (lits s) := by
    have := bindArgs_no_q (α := α) s hs; unfold bindArgs at this; rwa [tokenize_of_no_q s hs] at this
  have := assign_append (assign_append e1 hc) e2
  simpa using this

/-! ### C29 SubQuery, With and Union embed the other statement with its arguments in place -/

/-- An embedded statement: `sql` and `args` are the text and arguments of a statement built by some
sequence of calls, under the dialect without placeholders of its own (`SubQuery` and `Union` set it). -/
structure Embedded (sql : Bytes) (args : List α) (ti : List (Tok α)) : Prop where
  text : sql = raw ti
  vals : args = Xsql.vals ti
  clean : Clean ti

theorem embedded_of_calls {nl : Bool} {st : Nat} {inner : List (Call α)} (hi : CallsOK (SpecState.fresh nl st) inner) :
    Embedded (build .default nl st inner).render (build .default nl st inner).args (trimToks (docToks (spec nl st inner).doc)) := by
  have hr := build_ref .default hi
  have hre := render_eq hr
  refine ⟨?_, by rw [hre.2, vals_trimToks], (doc_clean hr).1.infix (trimToks_infix _)⟩
  rw [hre.1, (build_fields .default nl st inner).1, trim_written]; simp [written]

/-- What it means that `ti` sits in the statement `q` of dialect `d` between `p` and `s`: the statement's
tokens are `a`, `p`, `ti`, `s`, `b`; its SQL and arguments are those of that sequence, and on Postgres the
placeholders of `ti` continue the numbering of `a` (and `b` that of `ti`). -/
def Sits (d : Dia) (q : Stmt α) (p : Bytes) (ti : List (Tok α)) (s : Bytes) : Prop :=
  ∃ a b : List (Tok α),
    (d ≠ .postgres → q.render = trim (raw a ++ p ++ raw ti ++ s ++ raw b)) ∧
    (d = .postgres → q.render = trim (numbered 1 a ++ p ++ numbered ((vals a).length + 1) ti ++ s ++
      numbered ((vals a).length + (vals ti).length + 1) b)) ∧
    q.args = vals a ++ vals ti ++ vals b

theorem sits_of_infix (d : Dia) {nl : Bool} {st : Nat} {cs : List (Call α)} (h : CallsOK (SpecState.fresh nl st) cs)
    {p s : Bytes} {ti : List (Tok α)} (hi : lits p ++ ti ++ lits s <:+: docToks (spec nl st cs).doc) :
    Sits d (build d nl st cs) p ti s := by
  obtain ⟨a, b, hab⟩ := hi
  have hre := render_eq (build_ref d h)
  rw [(build_fields d nl st cs).1, ← hab] at hre
  refine ⟨a, b, ?_, ?_, ?_⟩
  · intro hd; rw [hre.1]; simp [hd, written]
  · rintro rfl
    rw [hre.1]
    simp only [written, decide_true, if_true, numbered_append, numbered_lits, vals_lits, vals_append, List.length_append, List.length_nil,
      List.append_assoc]
    simp only [show 1 + (vals a).length + 0 = (vals a).length + 1 by omega, Nat.add_zero, Nat.zero_add]
    simp only [show ∀ x : Nat, 1 + ((vals a).length + x) = (vals a).length + x + 1 by intro x; omega,
      show (vals a).length + 1 + (vals ti).length = (vals a).length + (vals ti).length + 1 by omega,
      show 1 + (vals a).length = (vals a).length + 1 by omega]
  · rw [hre.2]; simp

/-- **C29 (SubQuery).** Wherever in a sequence of calls a statement is embedded with `SubQuery(pre, suf, inner)`,
the outer SQL contains `pre`, the inner SQL, `suf` contiguously, and the inner arguments sit at the matching
place of `Args()`. -/
theorem C29_subquery (d : Dia) {nl nl' : Bool} {st st' : Nat} {inner before after : List (Call α)} {pre suf : Bytes}
    (hi : CallsOK (SpecState.fresh nl' st') inner)
    (hp : (63 : UInt8) ∉ pre) (hp2 : pre.getLast? ≠ some 92) (hs : (63 : UInt8) ∉ suf)
    (h : CallsOK (SpecState.fresh nl st)
      (before ++ .subQuery pre suf (build .default nl' st' inner).render (build .default nl' st' inner).args :: after)) :
    ∃ ti, Embedded (build .default nl' st' inner).render (build .default nl' st' inner).args ti ∧
      Sits d (build d nl st (before ++ .subQuery pre suf (build .default nl' st' inner).render (build .default nl' st' inner).args :: after)) pre ti suf := by
  have he := embedded_of_calls hi
  refine ⟨_, he, sits_of_infix d h ?_⟩
  have hok := (callsOK_append h).2.1
  rw [← bound_wrap he.clean hp hp2 hs, ← he.text, ← he.vals]
  have hne : pre ++ (build .default nl' st' inner).render ++ suf ≠ [] := by simp [hok.1]
  have := call_persists (fs := []) h rfl hok.2.2 (.inr (.inl hne))
  simpa [Frag.text, hok.1] using this

/-- **C29 (With).** -/
theorem C29_with (d : Dia) {nl nl' : Bool} {st st' : Nat} {inner before after : List (Call α)} {name : Bytes}
    (hi : CallsOK (SpecState.fresh nl' st') inner) (hn : (63 : UInt8) ∉ name)
    (h : CallsOK (SpecState.fresh nl st)
      (before ++ .with_ name (build .default nl' st' inner).render (build .default nl' st' inner).args :: after)) :
    ∃ ti, Embedded (build .default nl' st' inner).render (build .default nl' st' inner).args ti ∧
      Sits d (build d nl st (before ++ .with_ name (build .default nl' st' inner).render (build .default nl' st' inner).args :: after))
        (name ++ b!" AS (") ti b!")" := by
  have he := embedded_of_calls hi
  refine ⟨_, he, sits_of_infix d h ?_⟩
  rw [← bound_wrap he.clean (by simp [hn]) (by simp) (by decide), ← he.text, ← he.vals]
  have := call_persists (fs := [⟨posWith, b!"WITH", [], [], []⟩]) h rfl (show ¬ single posWith by decide) (.inr (.inl (by simp)))
  simpa [Frag.text] using this

/-- **C29 (Union).** -/
theorem C29_union (d : Dia) {nl nl' : Bool} {st st' : Nat} {inner before after : List (Call α)} (all : Bool)
    (hi : CallsOK (SpecState.fresh nl' st') inner)
    (h : CallsOK (SpecState.fresh nl st)
      (before ++ .union all (build .default nl' st' inner).render (build .default nl' st' inner).args :: after)) :
    ∃ ti, Embedded (build .default nl' st' inner).render (build .default nl' st' inner).args ti ∧
      Sits d (build d nl st (before ++ .union all (build .default nl' st' inner).render (build .default nl' st' inner).args :: after))
        (if all then b!"UNION ALL " else b!"UNION ") ti [] := by
  have he := embedded_of_calls hi
  refine ⟨_, he, sits_of_infix d h ?_⟩
  have hok := (callsOK_append h).2.1
  have hr := build_ref .default (callsOK_append h).1
  rw [← bound_wrap he.clean (by cases all <;> decide) (by cases all <;> decide) (by decide), ← he.text, ← he.vals]
  have hfresh : ∀ c ∈ (spec nl st before).doc, c.pos ≠ (spec nl st before).unionPos := by
    have hu := union_eq hr.sorted all (build .default nl' st' inner).render (build .default nl' st' inner).args
    rw [← unionPos_eq hr]
    exact not_has (has_false_of hr fun c hc => Nat.ne_of_lt (hu.2 c hc))
  have := call_persists (fs := []) h rfl hok.2 (.inr (.inr hfresh))
  simpa [Frag.text] using this

/-- An inner statement with an argument. -/
def innerCalls : List (Call Nat) := [.select b!"id" [], .from_ b!"u" [], .where_ b!"k = ?" [5]]
/-- An outer statement that embeds it after a condition of its own. -/
def outerCalls : List (Call Nat) :=
  [.select b!"x" [], .from_ b!"t" [], .where_ b!"a = ?" [1],
   .subQuery b!"id IN (" b!")" (build .default false 0 innerCalls).render (build .default false 0 innerCalls).args, .limit 3]

example : CallsOK (SpecState.fresh false 0) innerCalls := by
  refine ⟨?_, ?_, ?_, trivial⟩ <;> simp only [CallOK, FragOK] <;> decide +kernel
example : CallsOK (SpecState.fresh false 0) outerCalls := by
  refine ⟨?_, ?_, ?_, ?_, ?_, trivial⟩ <;> simp only [CallOK, FragOK] <;> decide +kernel
example : (build .postgres false 0 outerCalls).render =
    b!"SELECT x FROM t WHERE a = $1 AND id IN (SELECT id FROM u WHERE k = $2) LIMIT $3" ∧
    (build .postgres false 0 outerCalls).args = [1, 5, 3] := by decide +kernel
example : (build .postgres false 0 [.select b!"f(?)" [1], .with_ b!"w" (build .default false 0 innerCalls).render
    (build .default false 0 innerCalls).args, .union true b!"SELECT ?" [8], .limit 2]).render =
    b!"WITH w AS (SELECT id FROM u WHERE k = $1) SELECT f($2) UNION ALL SELECT $3 LIMIT $4" := by decide +kernel

/-- **C29, the case excluded.** `SubQuery` with an empty prefix: the text is written over the end of an
existing piece and the arguments replace those of the clause. -/
theorem C29_empty_prefix_corrupts :
    (build .postgres false 0 [.select b!"x" [], .from_ b!"t" [], .where_ b!"a = ?" [1],
      .subQuery [] [] b!"SELECT ?" [5]]).args = [5] := by decide +kernel

/-! ### C31 LIMIT, OFFSET and Paginate -/

theorem addFrag_find (nl : Bool) (d : List (Clause α)) (f : Frag α) (p : Nat) :
    (addFrag nl d f).find? (fun c => decide (c.pos = p)) =
      if f.pos = p then some (match d.find? (fun c => decide (c.pos = p)) with
        | some c => c.extend f
        | none => ⟨f.pos, f.start nl, decide (f.expr ≠ [])⟩)
      else d.find? (fun c => decide (c.pos = p)) := by
  have hfl : ∀ (q : Clause α → Bool), (d.filter q).find? (fun c => decide (c.pos = p)) = d.find? (fun c => q c && decide (c.pos = p)) := by
    intro q; rw [List.find?_filter]
    congr 1
    funext c
    cases q c <;> simp
  unfold addFrag
  rw [List.find?_append, List.find?_cons, hfl, hfl]
  by_cases hp : f.pos = p
  · subst hp
    have e1 : d.find? (fun c => decide (c.pos < f.pos) && decide (c.pos = f.pos)) = none := by
      rw [List.find?_eq_none]; intro c _; simp; omega
    rw [e1]
    simp only [Option.none_or, if_true]
    cases hx : d.find? (fun c => decide (c.pos = f.pos)) with
    | none => simp
    | some x => have := List.find?_some hx; simp at this; simp [extend_pos, this]
  · simp only [hp, if_false]
    have e2 : ∀ (m : Clause α), m.pos = f.pos → decide (m.pos = p) = false := by intro m hm; simp [hm, hp]
    suffices hsuf : (d.find? fun c => decide (c.pos < f.pos) && decide (c.pos = p)).or (d.find? fun c => decide (f.pos < c.pos) && decide (c.pos = p)) =
        d.find? fun c => decide (c.pos = p) by
      cases hx : d.find? (fun c => decide (c.pos = f.pos)) with
      | none => simp only [hp, decide_false]; exact hsuf
      | some x =>
        have := List.find?_some hx
        simp only; rw [e2 _ (by simpa [extend_pos] using this)]; exact hsuf
    by_cases hlt : p < f.pos
    · have e3 : (fun c : Clause α => decide (c.pos < f.pos) && decide (c.pos = p)) = fun c => decide (c.pos = p) := by
        funext c; by_cases h : c.pos = p <;> simp [h, hlt]
      have e4 : d.find? (fun c => decide (f.pos < c.pos) && decide (c.pos = p)) = none := by
        rw [List.find?_eq_none]; intro c _; simp; omega
      rw [e3, e4]; simp
    · have e3 : (fun c : Clause α => decide (f.pos < c.pos) && decide (c.pos = p)) = fun c => decide (c.pos = p) := by
        funext c; by_cases h : c.pos = p <;> simp [h]; omega
      have e4 : d.find? (fun c => decide (c.pos < f.pos) && decide (c.pos = p)) = none := by
        rw [List.find?_eq_none]; intro c _; simp; omega
      rw [e3, e4]; simp

/-- The argument of the last `Limit` call, if there is one. -/
def lastLimit (cs : List (Call α)) : Option α := (cs.filterMap fun | .limit x => some x | _ => none).getLast?
/-- The argument of the last `Offset` call, if there is one. -/
def lastOffset (cs : List (Call α)) : Option α := (cs.filterMap fun | .offset x => some x | _ => none).getLast?

/-- The LIMIT clause with its argument. -/
def limitClause (nl : Bool) (x : α) : Clause α := ⟨posLimit, lits ((if nl then b!"\n" else []) ++ b!"LIMIT ") ++ [.ph x], false⟩
/-- The OFFSET clause with its argument. -/
def offsetClause (nl : Bool) (x : α) : Clause α := ⟨posOffset, lits ((if nl then b!"\n" else []) ++ b!"OFFSET ") ++ [.ph x], false⟩

/-- Only the `Limit` method touches the LIMIT clause, only `Offset` the OFFSET clause. -/
theorem frags_single {s : SpecState α} {c : Call α} (h : CallOK s c) :
    (s.frags c).filter (fun f => decide (f.pos = posLimit)) = (match c with | .limit x => [⟨posLimit, b!"LIMIT ?", [], [x], []⟩] | _ => []) ∧
    (s.frags c).filter (fun f => decide (f.pos = posOffset)) = (match c with | .offset x => [⟨posOffset, b!"OFFSET ?", [], [x], []⟩] | _ => []) := by
  cases c <;>
    simp [SpecState.frags, CallOK, single, posSelect, posLimit, posOffset, posReturning, posUpdate, posInsert, posDelete, posInsertFields, posValues,
      posSet, posFrom, posWhere, posOrderBy, posGroupBy, posHaving, posWith] at h ⊢
  case setExpr f e as => split <;> [simp; (split <;> simp)]
  case expr e as => simp [h.2.1, h.2.2]
  case clause e as => simp [h.2.1, h.2.2]
  case subQuery pre suf q as => simp [h.2.2.1, h.2.2.2]
  case union all q as => simp [h.2.1, h.2.2]
  case newRow => by_cases hh : s.has 500 = true <;> simp [hh]
  case rowSetExpr r f e as => split <;> simp

theorem limit_start (nl : Bool) (x : α) : (⟨posLimit, b!"LIMIT ?", [], [x], []⟩ : Frag α).start nl = (limitClause nl x).toks := by
  cases nl <;> rfl
theorem offset_start (nl : Bool) (x : α) : (⟨posOffset, b!"OFFSET ?", [], [x], []⟩ : Frag α).start nl = (offsetClause nl x).toks := by
  cases nl <;> rfl
theorem limit_extend (nl : Bool) (x y : α) : (limitClause nl x).extend ⟨posLimit, b!"LIMIT ?", [], [y], []⟩ = limitClause nl y := by
  cases nl <;> rfl
theorem offset_extend (nl : Bool) (x y : α) : (offsetClause nl x).extend ⟨posOffset, b!"OFFSET ?", [], [y], []⟩ = offsetClause nl y := by
  cases nl <;> rfl

theorem foldl_addFrag_find (nl : Bool) (p : Nat) (fs : List (Frag α)) (d : List (Clause α)) (hd : Ascending d) :
    Ascending (fs.foldl (addFrag nl) d) ∧
    (fs.foldl (addFrag nl) d).find? (fun c => decide (c.pos = p)) =
      (fs.filter fun f => decide (f.pos = p)).foldl (fun o f => some (match o with
        | some c => c.extend f
        | none => ⟨f.pos, f.start nl, decide (f.expr ≠ [])⟩)) (d.find? fun c => decide (c.pos = p)) := by
  induction fs generalizing d with
  | nil => exact ⟨hd, rfl⟩
  | cons f fs ih =>
    have := ih _ (hd.addFrag nl f)
    rw [List.foldl_cons]
    refine ⟨this.1, ?_⟩
    rw [this.2, addFrag_find nl d f p, List.filter_cons]
    by_cases hp : f.pos = p <;> simp [hp]

/-- **C31.** After any admissible sequence of calls there is a LIMIT clause exactly if `Limit` was called, it is
`LIMIT ?` with the argument of the last call; the same for OFFSET.  (One clause per position: C22.) -/
theorem C31_last_call_wins {nl : Bool} {st : Nat} {cs : List (Call α)} (h : CallsOK (SpecState.fresh nl st) cs) :
    (spec nl st cs).doc.find? (fun c => decide (c.pos = posLimit)) = (lastLimit cs).map (limitClause nl) ∧
    (spec nl st cs).doc.find? (fun c => decide (c.pos = posOffset)) = (lastOffset cs).map (offsetClause nl) := by
  induction cs using List.reverseRecOn with
  | nil => simp [spec, SpecState.fresh, lastLimit, lastOffset]
  | append_singleton cs c ih =>
    obtain ⟨h1, h2⟩ := callsOK_append h
    obtain ⟨ihl, iho⟩ := ih h1
    have hok : CallOK (spec nl st cs) c := h2.1
    have hf := frags_single hok
    have hdoc : (spec nl st (cs ++ [c])).doc = ((spec nl st cs).frags c).foldl (addFrag nl) (spec nl st cs).doc := by
      rw [spec_append]; simp only [List.foldl_cons, List.foldl_nil, SpecState.call, spec_nl]
    rw [hdoc, (foldl_addFrag_find nl posLimit _ _ (doc_ascending nl st cs)).2, (foldl_addFrag_find nl posOffset _ _ (doc_ascending nl st cs)).2,
      hf.1, hf.2, ihl, iho]
    simp only [lastLimit, lastOffset, List.filterMap_append, List.filterMap_cons, List.filterMap_nil]
    constructor
    · cases c <;> simp only [List.append_nil, List.foldl_nil, List.foldl_cons]
      case limit x =>
        rw [List.getLast?_append]
        simp only [List.getLast?_singleton, Option.some_or, Option.map_some]
        cases (cs.filterMap fun | .limit x => some x | _ => none).getLast? with
        | none => simp only [Option.map_none, limit_start]; rfl
        | some y => simp only [Option.map_some, limit_extend]
    · cases c <;> simp only [List.append_nil, List.foldl_nil, List.foldl_cons]
      case offset x =>
        rw [List.getLast?_append]
        simp only [List.getLast?_singleton, Option.some_or, Option.map_some]
        cases (cs.filterMap fun | .offset x => some x | _ => none).getLast? with
        | none => simp only [Option.map_none, offset_start]; rfl
        | some y => simp only [Option.map_some, offset_extend]

/-- **C31, in terms of the SQL.** If the last `Limit` call had argument `x`, the SQL contains `LIMIT` followed by a
placeholder whose argument is `x`. -/
theorem C31_limit_in_sql (d : Dia) {nl : Bool} {st : Nat} {cs : List (Call α)} (h : CallsOK (SpecState.fresh nl st) cs) {x : α}
    (hx : lastLimit cs = some x) : Sits d (build d nl st cs) ((if nl then b!"\n" else []) ++ b!"LIMIT ") [.ph x] [] := by
  have := (C31_last_call_wins h).1
  rw [hx, Option.map_some] at this
  have hm := docToks_infix (List.mem_of_find?_eq_some this)
  exact sits_of_infix d h (by simpa [limitClause] using hm)

theorem C31_offset_in_sql (d : Dia) {nl : Bool} {st : Nat} {cs : List (Call α)} (h : CallsOK (SpecState.fresh nl st) cs) {x : α}
    (hx : lastOffset cs = some x) : Sits d (build d nl st cs) ((if nl then b!"\n" else []) ++ b!"OFFSET ") [.ph x] [] := by
  have := (C31_last_call_wins h).2
  rw [hx, Option.map_some] at this
  have hm := docToks_infix (List.mem_of_find?_eq_some this)
  exact sits_of_infix d h (by simpa [offsetClause] using hm)

/-- `Paginate` in terms of `Offset` and `Limit`. -/
def paginateCalls (ofInt : Int → α) (page size : Int) : List (Call α) :=
  (if max page 1 > 1 then [.offset (ofInt (wrap64 ((max page 1 - 1) * max size 1)))] else []) ++ [.limit (ofInt (max size 1))]

theorem paginate_calls (ofInt : Int → α) (q : Stmt α) (page size : Int) :
    q.paginate ofInt page size = (paginateCalls ofInt page size).foldl Stmt.call q := by
  have h1 : (if page < 1 then (1 : Int) else page) = max page 1 := by split <;> omega
  have h2 : (if size < 1 then (1 : Int) else size) = max size 1 := by split <;> omega
  unfold Stmt.paginate paginateCalls
  simp only [h1, h2]
  split <;> rfl

/-- **C31 (Paginate).** After any admissible calls, `Paginate(page, size)` leaves the statement with `LIMIT` the clamped
size, and, on a page after the first, `OFFSET` `(page-1)*size`: rows `(page-1)*size` to `page*size - 1`.  On the first
page a statement without an earlier offset has none (but see `C31_paginate_keeps_old_offset`). -/
theorem C31_paginate_partial (ofInt : Int → α) {nl : Bool} {st : Nat} {cs : List (Call α)} (h : CallsOK (SpecState.fresh nl st) cs) (page size : Int)
    (hr : (max page 1 - 1) * max size 1 < 2 ^ 63) (d : Dia) :
    (build d nl st cs).paginate ofInt page size = build d nl st (cs ++ paginateCalls ofInt page size) ∧
    CallsOK (SpecState.fresh nl st) (cs ++ paginateCalls ofInt page size) ∧
    lastLimit (cs ++ paginateCalls ofInt page size) = some (ofInt (max size 1)) ∧
    lastOffset (cs ++ paginateCalls ofInt page size) =
      (if 1 < page then some (ofInt ((page - 1) * max size 1)) else lastOffset cs) := by
  refine ⟨?_, ?_, ?_, ?_⟩
  · rw [paginate_calls, build_append]
  · refine callsOK_append' h ?_
    unfold paginateCalls
    split
    · exact ⟨trivial, trivial, trivial⟩
    · exact ⟨trivial, trivial⟩
  · unfold paginateCalls lastLimit
    split <;> simp [List.filterMap_append]
  · unfold paginateCalls
    by_cases hp : 1 < page
    · have hm : max page 1 = page := by omega
      rw [hm] at hr ⊢
      have hnn : 0 ≤ (page - 1) * max size 1 := Int.mul_nonneg (by omega) (by omega)
      have hw : wrap64 ((page - 1) * max size 1) = (page - 1) * max size 1 := by
        unfold wrap64
        apply Int.bmod_eq_of_le <;> omega
      simp [lastOffset, hp, hw, List.filterMap_append]
    · have hm : max page 1 = 1 := by omega
      simp [lastOffset, hp, hm, List.filterMap_append]

example : (Stmt.paginate (fun i => i) (build .postgres false 0 [.select b!"x" ([] : List Int), .from_ b!"t" [], .limit 7]) 3 20).render =
    b!"SELECT x FROM t LIMIT $1 OFFSET $2" := by decide +kernel
example : (Stmt.paginate (fun i => i) (build .postgres false 0 [.select b!"x" ([] : List Int), .from_ b!"t" [], .limit 7]) 3 20).args = [20, 40] := by
  decide +kernel

/-- **C31 is false as stated:** going back to the first page keeps the offset of the previous `Paginate`. -/
theorem C31_paginate_keeps_old_offset :
    let q := Stmt.paginate (fun i => i) (Stmt.paginate (fun i => i) (build .postgres false 0 [.select b!"x" ([] : List Int)]) 3 20) 1 20
    q.render = b!"SELECT x LIMIT $1 OFFSET $2" ∧ q.args = [20, 40] := by decide +kernel

/-- **C31, why nothing may be appended to LIMIT:** `Limit(5).Offset(6).Limit(1).Expr("+ ?", 2)` splits the clause in two
pieces, and a later `Limit(9)` overwrites the argument of the wrong one. -/
theorem C31_limit_after_expr :
    (build .postgres false 0 [.limit 5, .offset 6, .limit 1, .expr b!"+ ?" [2], .limit 9]).render = b!"LIMIT $1 + $2 OFFSET $3" ∧
    (build .postgres false 0 [.limit 5, .offset 6, .limit 1, .expr b!"+ ?" [2], .limit 9]).args = [1, 9, 6] := by decide +kernel

/-! ### C34 Destinations -/

/-- The destinations of a call: those of `To`, nothing for every other method. -/
def Call.dests : Call α → List Nat
  | .toDest ds => ds
  | _ => []

theorem insertAt_end {β} (a b : List β) : insertAt a b a.length = a ++ b := by
  have := insertAt_eq a [] b; simpa using this

theorem dest_call (q : Stmt α) (c : Call α) : (q.call c).dest = q.dest ++ c.dests := by
  have A := fun (q : Stmt α) p kw e as sep => (addChunk_fields q p kw e as sep).2.2.2
  cases c with
  | toDest ds =>
    simp only [Stmt.call, Stmt.to, Call.dests]
    split
    · simp [insertAt_end]
    · rename_i h; simp at h; simp [h]
  | insertInto t => simp [Stmt.call, Stmt.insertInto, Stmt.add, A, Call.dests]
  | setExpr f e as => simp only [Stmt.call, Stmt.setExpr]; split <;> [simp [Stmt.add, A, Call.dests]; (split <;> simp [Stmt.add, A, Call.dests])]
  | subQuery pre suf s as => simp [Stmt.call, Stmt.subQuery, Stmt.write, A, Call.dests]
  | with_ n s as => simp [Stmt.call, Stmt.with_, Stmt.subQuery, Stmt.write, Stmt.add, A, Call.dests]
  | union all s as => simp [Stmt.call, Stmt.union, Stmt.write, A, Call.dests]
  | newRow => simp only [Stmt.call, Stmt.newRow]; split <;> simp [Stmt.add, A, Call.dests]
  | rowSetExpr r f e as => simp only [Stmt.call, Stmt.rowSetExpr]; split <;> simp [Stmt.add, A, Call.dests]
  | _ => simp [Stmt.call, Stmt.verb, Stmt.select, Stmt.returning, Stmt.update, Stmt.deleteFrom, Stmt.from_, Stmt.where_, Stmt.in_, Stmt.join,
      Stmt.orderBy, Stmt.groupBy, Stmt.having, Stmt.limit, Stmt.offset, Stmt.expr, Stmt.clause, Stmt.add, A, Call.dests]

/-- **C34.** For every sequence of calls (admissible or not), `Dest()` is the concatenation of the `To` arguments in
call order. -/
theorem C34_dest_in_call_order (d : Dia) (nl : Bool) (st : Nat) (cs : List (Call α)) :
    (build d nl st cs).dest = cs.flatMap Call.dests := by
  unfold build
  have : ∀ q : Stmt α, (cs.foldl Stmt.call q).dest = q.dest ++ cs.flatMap Call.dests := by
    induction cs with
    | nil => simp
    | cons c cs ih => intro q; rw [List.foldl_cons, ih, dest_call]; simp
  rw [this]; rfl

/-- A tag up to its first comma. -/
def beforeComma : Bytes → Bytes
  | [] => []
  | b :: s => if b = c!"," then [] else b :: beforeComma s

theorem tagName_eq (s : Bytes) : tagName s = beforeComma s := by
  induction s with
  | nil => rfl
  | cons b s ih =>
    unfold tagName at ih ⊢
    rw [List.takeWhile_cons, beforeComma, ih]
    by_cases h : b = 44
    · subst h; rfl
    · have : ¬ b = c!"," := h
      simp [h, this]

mutual
/-- The tagged fields of a struct, embedded structs flattened in place: column name and address. -/
def Field.columns : Field → List (Bytes × Nat)
  | .embedded fs => fieldsColumns fs
  | .plain tag addr => if tag = [] then [] else [(beforeComma tag, addr)]
/-- The same for a list of fields. -/
def fieldsColumns : List Field → List (Bytes × Nat)
  | [] => []
  | f :: fs => f.columns ++ fieldsColumns fs
end

/-- The calls `Bind` stands for: for each tagged field one column selected into one destination. -/
def bindCalls (cols : List (Bytes × Nat)) : List (Call α) := cols.flatMap fun c => [.select c.1 [], .toDest [c.2]]

mutual
theorem bindField_calls (q : Stmt α) (f : Field) : q.bindField f = (bindCalls f.columns).foldl Stmt.call q := by
  cases f with
  | embedded fs => simp only [Stmt.bindField, Field.columns]; exact bind_calls q fs
  | plain tag addr =>
    simp only [Stmt.bindField, Field.columns]
    by_cases h : tag = [] <;> simp [h, bindCalls, Stmt.call, tagName_eq]
/-- **C34 (Bind).** -/
theorem bind_calls (q : Stmt α) (fs : List Field) : q.bind fs = (bindCalls (fieldsColumns fs)).foldl Stmt.call q := by
  cases fs with
  | nil => simp [Stmt.bind, fieldsColumns, bindCalls]
  | cons f fs =>
    simp only [Stmt.bind, fieldsColumns]
    rw [bind_calls, bindField_calls, bindCalls, bindCalls, bindCalls, List.flatMap_append, List.foldl_append]
end

/-- **C34 (Bind).** `Bind` adds exactly one selected column per tagged field (embedded structs included, in declaration
order) and one destination for it, in the same order, so the n-th new destination is the field of the n-th new column. -/
theorem C34_bind (d : Dia) (nl : Bool) (st : Nat) (cs : List (Call α)) (fs : List Field) :
    (build d nl st cs).bind fs = build d nl st (cs ++ bindCalls (fieldsColumns fs)) ∧
    ((build d nl st cs).bind fs).dest = cs.flatMap Call.dests ++ (fieldsColumns fs).map Prod.snd ∧
    (bindCalls (α := α) (fieldsColumns fs)).flatMap Call.parts = (fieldsColumns fs).map fun c => ⟨posSelect, b!"SELECT", c.1, [], b!", "⟩ := by
  have e : (build d nl st cs).bind fs = build d nl st (cs ++ bindCalls (fieldsColumns fs)) := by rw [bind_calls, build_append]
  refine ⟨e, ?_, ?_⟩
  · rw [e, C34_dest_in_call_order, List.flatMap_append]
    congr 1
    generalize fieldsColumns fs = l
    induction l with
    | nil => rfl
    | cons c l ih =>
      rw [bindCalls, List.flatMap_cons, List.flatMap_append, List.map_cons]
      rw [bindCalls] at ih
      rw [ih]; simp [Call.dests]
  · generalize fieldsColumns fs = l
    induction l with
    | nil => rfl
    | cons c l ih =>
      rw [bindCalls, List.flatMap_cons, List.flatMap_append, List.map_cons]
      rw [bindCalls] at ih
      rw [ih]; simp [Call.parts, SpecState.frags]

/-- A struct with an embedded struct and an untagged field. -/
def sampleFields : List Field := [.plain b!"id,primary" 1, .embedded [.plain b!"name" 2, .plain [] 3], .plain b!"ts" 4]
example : ((build .default false 0 ([.from_ b!"t" []] : List (Call Nat))).bind sampleFields).dest = [1, 2, 4] := by decide +kernel
example : ((build .default false 0 ([.from_ b!"t" []] : List (Call Nat))).bind sampleFields).render = b!"SELECT id, name, ts FROM t" := by decide +kernel

/-! ### C35 Clause and Union append -/

theorem addFrag_above (nl : Bool) (d : List (Clause α)) (f : Frag α) (h : ∀ c ∈ d, c.pos < f.pos) :
    addFrag nl d f = d ++ [⟨f.pos, f.start nl, decide (f.expr ≠ [])⟩] := by
  have h1 : d.filter (fun c => decide (c.pos < f.pos)) = d := List.filter_eq_self.2 (by simpa using h)
  have h2 : d.filter (fun c => decide (f.pos < c.pos)) = [] := List.filter_eq_nil_iff.2 (by intro c hc; have := h c hc; simp; omega)
  have h3 : d.find? (fun c => decide (c.pos = f.pos)) = none := by
    rw [List.find?_eq_none]; intro c hc; have := h c hc; simp; omega
  unfold addFrag
  rw [h1, h2, h3]

theorem docToks_snoc (d : List (Clause α)) (c : Clause α) : docToks (d ++ [c]) = docToks d ++ (if d = [] then [] else [.lit 32]) ++ c.toks := by
  induction d with
  | nil => simp [docToks]
  | cons x xs ih =>
    cases xs with
    | nil => simp [docToks]
    | cons y ys => simp only [List.cons_append, docToks] at ih ⊢; rw [ih]; simp

/-- Text appended to the statement: whatever the statement was, its tokens are unchanged and followed by one space
(if there was anything), a line break in multi-line mode, and the new text with its own arguments. -/
def AppendsText (d : Dia) (nl : Bool) (q q' : Stmt α) (s : Bytes) (as : List α) : Prop :=
  ∃ ts : List (Tok α), ∃ sp : Bytes, (sp = [] ∧ ts = [] ∨ sp = b!" ") ∧
    q.args = vals ts ∧ q'.args = vals ts ++ as ∧
    (d ≠ .postgres → q.render = trim (raw ts) ∧ q'.render = trim (raw ts ++ sp ++ (if nl then b!"\n" else []) ++ s)) ∧
    (d = .postgres → q.render = trim (numbered 1 ts) ∧
      q'.render = trim (numbered 1 ts ++ sp ++ (if nl then b!"\n" else []) ++ numbered ((vals ts).length + 1) (bound s as)))

theorem appends_of (d : Dia) {nl : Bool} {st : Nat} {cs : List (Call α)} {c : Call α} {f : Frag α}
    (h : CallsOK (SpecState.fresh nl st) (cs ++ [c])) (hf : (spec nl st cs).frags c = [f]) (he : f.expr = []) (hk : f.kw ≠ [])
    (hok : FragOK f.kw f.args) (hab : ∀ x ∈ (spec nl st cs).doc, x.pos < f.pos) :
    AppendsText d nl (build d nl st cs) (build d nl st (cs ++ [c])) f.kw f.args := by
  have h1 := (callsOK_append h).1
  have r1 := render_eq (build_ref d h1)
  have r2 := render_eq (build_ref d h)
  rw [(build_fields d nl st cs).1] at r1
  rw [(build_fields d nl st _).1] at r2
  have hdoc : (spec nl st (cs ++ [c])).doc = (spec nl st cs).doc ++ [⟨f.pos, f.start nl, decide (f.expr ≠ [])⟩] := by
    rw [spec_append]
    simp only [List.foldl_cons, List.foldl_nil, SpecState.call, spec_nl, hf]
    exact addFrag_above nl _ f hab
  have hnl : FragOK (α := α) (if nl then b!"\n" else []) [] := by
    cases nl
    · exact FragOK.const (by simp) (by simp)
    · exact FragOK.const (by decide) (by decide)
  have hnl2 : bound (α := α) (if nl then b!"\n" else []) [] = lits (if nl then b!"\n" else []) := (hnl.info.noargs rfl).1
  have hst : f.start nl = lits (if nl then b!"\n" else []) ++ bound f.kw f.args := by
    have := bound_append hnl hok
    simp only [List.nil_append] at this
    simp only [Frag.start, he, if_neg hk, if_true, List.append_nil]
    rw [this, hnl2]
  rw [hdoc, docToks_snoc] at r2
  simp only [hst] at r2
  refine ⟨docToks (spec nl st cs).doc, if (spec nl st cs).doc = [] then [] else b!" ", ?_, r1.2, ?_, ?_, ?_⟩
  · by_cases hd : (spec nl st cs).doc = []
    · left; simp [hd, docToks]
    · right; simp [hd]
  · rw [r2.2]; simp [hok.info.vals]; split <;> simp
  · intro hd
    refine ⟨by rw [r1.1]; simp [hd, written], ?_⟩
    rw [r2.1]
    simp only [hd, written, decide_false, raw_append, raw_lits, hok.info.raw, Bool.false_eq_true, if_false]
    congr 1
    by_cases hdd : (spec nl st cs).doc = [] <;> simp [hdd, Tok.raw]
  · rintro rfl
    refine ⟨by rw [r1.1]; simp [written], ?_⟩
    rw [r2.1]
    simp only [written, decide_true, if_true]
    congr 1
    by_cases hdd : (spec nl st cs).doc = []
    · simp [hdd, docToks, numbered, numbered_append]
    · simp only [hdd, if_false, numbered_append, numbered_lits, numbered, vals_append, vals_lits, vals_lit, vals_nil, List.append_nil,
        List.length_nil, Nat.add_zero, List.append_assoc, List.cons_append, List.nil_append]
      rw [Nat.add_comm 1]

/-- **C35 (Clause).** `Clause(e, args)` leaves everything already in the statement in place and appends `e` at the
end, with its arguments at the end of `Args()`. -/
theorem C35_clause_appends (d : Dia) {nl : Bool} {st : Nat} {cs : List (Call α)} {e : Bytes} {as : List α}
    (h : CallsOK (SpecState.fresh nl st) (cs ++ [.clause e as])) (he : e ≠ []) :
    AppendsText d nl (build d nl st cs) (build d nl st (cs ++ [.clause e as])) e as := by
  have hr := build_ref .default (callsOK_append h).1
  have hok := (callsOK_append h).2.1
  refine appends_of (f := ⟨(spec nl st cs).clausePos, e, [], as, b!", "⟩) d h rfl rfl he hok.1 ?_
  intro x hx
  obtain ⟨c, hc, hcp⟩ := (has_iff hr x.pos).1 (by simp only [SpecState.has, List.any_eq_true]; exact ⟨x, hx, by simp⟩)
  rw [← hcp]
  have := clausePos_gt hr.sorted c hc
  rw [clausePos_eq hr] at this
  exact this

/-- **C35 (Union).** The same for `Union`. -/
theorem C35_union_appends (d : Dia) {nl : Bool} {st : Nat} {cs : List (Call α)} {sql : Bytes} {as : List α} (all : Bool)
    (h : CallsOK (SpecState.fresh nl st) (cs ++ [.union all sql as])) :
    AppendsText d nl (build d nl st cs) (build d nl st (cs ++ [.union all sql as])) ((if all then b!"UNION ALL " else b!"UNION ") ++ sql) as := by
  have hr := build_ref .default (callsOK_append h).1
  have hok := (callsOK_append h).2.1
  have hin := (frags_in hr hok).1.k rfl
  refine appends_of (f := ⟨(spec nl st cs).unionPos, (if all then b!"UNION ALL " else b!"UNION ") ++ sql, [], as, []⟩) d h rfl rfl
    (by cases all <;> simp) hin ?_
  intro x hx
  obtain ⟨c, hc, hcp⟩ := (has_iff hr x.pos).1 (by simp only [SpecState.has, List.any_eq_true]; exact ⟨x, hx, by simp⟩)
  rw [← hcp]
  have := (union_eq hr.sorted all sql as).2 c hc
  rw [unionPos_eq hr] at this
  exact this

example : CallsOK (SpecState.fresh true 0) ([.insertInto b!"t", .setExpr b!"a" b!"?" [1], .clause b!"ON CONFLICT DO UPDATE SET a = ?" [2]] : List (Call Nat)) := by
  refine ⟨?_, ?_, ?_, trivial⟩ <;> simp only [CallOK, FragOK] <;> decide +kernel

/-- **C35, limit of the code.** Positions of custom clauses advance by 10 while named clauses are 100 apart: the tenth
`Clause` after `From` takes the place of WHERE, so a following `Where` adds to it without the keyword. -/
theorem C35_tenth_clause_collides :
    (build .default false 0 ((.from_ b!"t" [] :: List.replicate 10 (.clause b!"c" [])) ++ [.where_ b!"a = ?" [1]])).render =
      b!"FROM t c c c c c c c c c c a = ?" ∧
    (build .default false 0 ((.from_ b!"t" [] :: List.replicate 9 (.clause b!"c" [])) ++ [.where_ b!"a = ?" [1]])).render =
      b!"FROM t c c c c c c c c c WHERE a = ?" := by decide +kernel

end Xsql
