import Verif.Xsql.Props2
set_option linter.unusedSimpArgs false
set_option linter.unusedVariables false
/-!
C31 and C35 exactly: what any mixture of `Limit`, `Offset` and `Paginate` calls leaves, and which later named clause loses its keyword to a `Clause`.
-/
namespace Xsql
variable {α : Type}

/-- A builder call, `Paginate` included. -/
inductive PCall (α : Type) where
  | call (c : Call α)
  | paginate (page size : Int)

/-- One call (stmt.go:796-808 for `Paginate`). -/
def Stmt.pcall (ofInt : Int → α) (q : Stmt α) : PCall α → Stmt α
  | .call c => q.call c
  | .paginate page size => q.paginate ofInt page size

/-- The statement built by a sequence of calls. -/
def pbuild (ofInt : Int → α) (d : Dia) (nl : Bool) (st : Nat) (ps : List (PCall α)) : Stmt α := ps.foldl (Stmt.pcall ofInt) (newStmt d nl st)

/-- The same sequence with `Paginate` written out. -/
def PCall.expand (ofInt : Int → α) : PCall α → List (Call α)
  | .call c => [c]
  | .paginate page size => paginateCalls ofInt page size

namespace Spec

/-- The paging of a statement: the arguments of LIMIT and OFFSET. -/
structure Paging (α : Type) where
  limit : Option α
  offset : Option α

/-- What the code does with a call: `Paginate` sets the limit, and the offset on a page after the first. -/
def paged (ofInt : Int → α) (p : Paging α) : PCall α → Paging α
  | .call (.limit x) => { p with limit := some x }
  | .call (.offset x) => { p with offset := some x }
  | .paginate page size => ⟨some (ofInt (max size 1)), if 1 < page then some (ofInt ((page - 1) * max size 1)) else p.offset⟩
  | _ => p

/-- What the property asks: `Paginate` selects the rows of its page; the first page has no offset. -/
def asked (ofInt : Int → α) (p : Paging α) : PCall α → Paging α
  | .call (.limit x) => { p with limit := some x }
  | .call (.offset x) => { p with offset := some x }
  | .paginate page size => ⟨some (ofInt (max size 1)), if 1 < page then some (ofInt ((page - 1) * max size 1)) else none⟩
  | _ => p

/-- The call gives an offset. -/
def givesOffset : PCall α → Prop
  | .call (.offset _) => True
  | .paginate page _ => 1 < page
  | _ => False

/-- The product of a `Paginate` call fits a Go `int`. -/
def Fits : PCall α → Prop
  | .paginate page size => (max page 1 - 1) * max size 1 < 2 ^ 63
  | _ => True

end Spec

theorem pbuild_eq (ofInt : Int → α) (d : Dia) (nl : Bool) (st : Nat) (ps : List (PCall α)) :
    pbuild ofInt d nl st ps = build d nl st (ps.flatMap (PCall.expand ofInt)) := by
  unfold pbuild build
  generalize newStmt d nl st = q
  induction ps generalizing q with
  | nil => rfl
  | cons p ps ih =>
    rw [List.foldl_cons, List.flatMap_cons, List.foldl_append, ih]
    cases p with
    | call c => rfl
    | paginate page size => simp only [Stmt.pcall, PCall.expand, paginate_calls]

theorem paged_eq (ofInt : Int → α) (ps : List (PCall α)) (hf : ∀ p ∈ ps, Spec.Fits p) :
    ps.foldl (Spec.paged ofInt) ⟨none, none⟩ = ⟨lastLimit (ps.flatMap (PCall.expand ofInt)), lastOffset (ps.flatMap (PCall.expand ofInt))⟩ := by
  induction ps using List.reverseRecOn with
  | nil => rfl
  | append_singleton ps p ih =>
    rw [List.foldl_append, ih (fun x hx => hf x (List.mem_append_left _ hx)), List.flatMap_append]
    simp only [List.foldl_cons, List.foldl_nil, List.flatMap_cons, List.flatMap_nil, List.append_nil]
    have hfp := hf p (by simp)
    cases p with
    | call c =>
      cases c <;> simp [Spec.paged, PCall.expand, lastLimit, lastOffset, List.filterMap_append]
    | paginate page size =>
      simp only [Spec.Fits] at hfp
      unfold PCall.expand paginateCalls lastLimit lastOffset
      by_cases hp : 1 < page
      · have hm : max page 1 = page := by omega
        rw [hm] at hfp
        have hnn : 0 ≤ (page - 1) * max size 1 := Int.mul_nonneg (by omega) (by omega)
        have hw : wrap64 ((page - 1) * max size 1) = (page - 1) * max size 1 := by
          unfold wrap64
          apply Int.bmod_eq_of_le <;> omega
        simp [Spec.paged, hp, hm, hw, List.filterMap_append]
      · have hm : max page 1 = 1 := by omega
        simp [Spec.paged, hp, hm, List.filterMap_append]

/-- **C31 exactly**: after any sequence of calls, `Paginate` included, the statement has a LIMIT (an OFFSET) clause if and only if one was given, with the argument of the last call that gave one;
`Paginate` gives a limit always and an offset on a page after the first. -/
theorem C31_paging_of_any_sequence (ofInt : Int → α) (d : Dia) {nl : Bool} {st : Nat} (ps : List (PCall α)) (hf : ∀ p ∈ ps, Spec.Fits p)
    (h : CallsOK (SpecState.fresh nl st) (ps.flatMap (PCall.expand ofInt))) :
    let r := ps.foldl (Spec.paged ofInt) ⟨none, none⟩
    (spec nl st (ps.flatMap (PCall.expand ofInt))).doc.find? (fun c => decide (c.pos = posLimit)) = r.limit.map (limitClause nl)
    ∧ (spec nl st (ps.flatMap (PCall.expand ofInt))).doc.find? (fun c => decide (c.pos = posOffset)) = r.offset.map (offsetClause nl)
    ∧ (∀ x, r.limit = some x → Sits d (pbuild ofInt d nl st ps) ((if nl then b!"\n" else []) ++ b!"LIMIT ") [.ph x] [])
    ∧ (∀ x, r.offset = some x → Sits d (pbuild ofInt d nl st ps) ((if nl then b!"\n" else []) ++ b!"OFFSET ") [.ph x] []) := by
  intro r
  have hr : r = _ := paged_eq ofInt ps hf
  rw [hr, pbuild_eq]
  obtain ⟨h1, h2⟩ := C31_last_call_wins h
  exact ⟨h1, h2, fun x hx => C31_limit_in_sql d h hx, fun x hx => C31_offset_in_sql d h hx⟩

theorem paged_keeps (ofInt : Int → α) (ps : List (PCall α)) (r : Spec.Paging α) (h : r.offset ≠ none) : (ps.foldl (Spec.paged ofInt) r).offset ≠ none := by
  induction ps generalizing r with
  | nil => exact h
  | cons p ps ih =>
    refine ih _ ?_
    cases p with
    | call c => cases c <;> simp [Spec.paged, h]
    | paginate page size =>
      simp only [Spec.paged]
      split
      · simp
      · exact h

/-- **C31 exactly**: the LIMIT is always the one asked for; the OFFSET is not if and only if a `Paginate` of the first page (or below) came after an offset was given and nothing gave another one
afterwards. -/
theorem C31_offset_as_asked_iff (ofInt : Int → α) (ps : List (PCall α)) :
    (ps.foldl (Spec.paged ofInt) ⟨none, none⟩).limit = (ps.foldl (Spec.asked ofInt) ⟨none, none⟩).limit
    ∧ ((ps.foldl (Spec.paged ofInt) ⟨none, none⟩).offset = (ps.foldl (Spec.asked ofInt) ⟨none, none⟩).offset
      ↔ ¬ ∃ pre page size post, ps = pre ++ .paginate page size :: post ∧ page ≤ 1 ∧ (∀ p ∈ post, ¬ Spec.givesOffset p)
          ∧ ∃ p ∈ pre, Spec.givesOffset p) := by
  have hgive : ∀ pre : List (PCall α), (∃ p ∈ pre, Spec.givesOffset p) ↔ (pre.foldl (Spec.paged ofInt) ⟨none, none⟩).offset ≠ none := by
    intro pre
    induction pre using List.reverseRecOn with
    | nil => simp
    | append_singleton pre p ih =>
      rw [List.foldl_append]
      simp only [List.foldl_cons, List.foldl_nil, List.mem_append, List.mem_singleton, or_and_right, exists_or, exists_eq_left, ih]
      cases p with
      | call c => cases c <;> simp [Spec.paged, Spec.givesOffset]
      | paginate page size => by_cases hp : 1 < page <;> simp [Spec.paged, Spec.givesOffset, hp]
  induction ps using List.reverseRecOn with
  | nil => simp
  | append_singleton ps o ih =>
    obtain ⟨ihl, iho⟩ := ih
    simp only [List.foldl_append, List.foldl_cons, List.foldl_nil]
    -- a decomposition of the longer sequence
    have split : ∀ (pre : List (PCall α)) page size post, ps ++ [o] = pre ++ .paginate page size :: post →
        (post = [] ∧ ps = pre ∧ o = .paginate page size) ∨ ∃ post', post = post' ++ [o] ∧ ps = pre ++ .paginate page size :: post' := by
      intro pre page size post he
      rcases List.eq_nil_or_concat post with rfl | ⟨post', x, rfl⟩
      · left
        have := List.append_inj' he rfl
        exact ⟨rfl, this.1, by simpa using this.2⟩
      · right
        rw [List.concat_eq_append, ← List.cons_append, ← List.append_assoc] at he
        have := List.append_inj' he rfl
        have hx : o = x := by simpa using this.2
        subst hx
        exact ⟨post', by simp, this.1⟩
    have keep : ¬ Spec.givesOffset o → (∀ page size, o ≠ .paginate page size) →
        ((∃ pre page size post, ps ++ [o] = pre ++ .paginate page size :: post ∧ page ≤ 1 ∧ (∀ p ∈ post, ¬ Spec.givesOffset p) ∧ ∃ p ∈ pre, Spec.givesOffset p)
          ↔ ∃ pre page size post, ps = pre ++ .paginate page size :: post ∧ page ≤ 1 ∧ (∀ p ∈ post, ¬ Spec.givesOffset p) ∧ ∃ p ∈ pre, Spec.givesOffset p) := by
      intro hg hno
      constructor
      · rintro ⟨pre, page, size, post, he, h1, h2, h3⟩
        rcases split pre page size post he with ⟨-, -, ho⟩ | ⟨post', rfl, rfl⟩
        · exact absurd ho (hno _ _)
        · exact ⟨pre, page, size, post', rfl, h1, fun p hp => h2 p (by simp [hp]), h3⟩
      · rintro ⟨pre, page, size, post, rfl, h1, h2, h3⟩
        refine ⟨pre, page, size, post ++ [o], by simp, h1, ?_, h3⟩
        intro p hp
        rcases List.mem_append.1 hp with hp | hp
        · exact h2 p hp
        · rw [List.mem_singleton] at hp; rw [hp]; exact hg
    have gives : Spec.givesOffset o → ¬ ∃ pre page size post, ps ++ [o] = pre ++ .paginate page size :: post ∧ page ≤ 1 ∧ (∀ p ∈ post, ¬ Spec.givesOffset p)
        ∧ ∃ p ∈ pre, Spec.givesOffset p := by
      rintro hg ⟨pre, page, size, post, he, h1, h2, -⟩
      rcases split pre page size post he with ⟨-, -, ho⟩ | ⟨post', rfl, -⟩
      · rw [ho] at hg
        simp only [Spec.givesOffset] at hg
        omega
      · exact h2 o (by simp) hg
    cases o with
    | call c =>
      cases c with
      | limit x => exact ⟨rfl, iho.trans (not_congr (keep (by simp [Spec.givesOffset]) (by simp)).symm)⟩
      | offset x => exact ⟨ihl, by simpa [Spec.paged, Spec.asked] using gives trivial⟩
      | _ => exact ⟨ihl, iho.trans (not_congr (keep (by simp [Spec.givesOffset]) (by simp)).symm)⟩
    | paginate page size =>
      refine ⟨rfl, ?_⟩
      by_cases hp : 1 < page
      · simp only [Spec.paged, Spec.asked, hp, if_true, true_iff]
        exact gives hp
      · simp only [Spec.paged, Spec.asked, hp, if_false]
        constructor
        · rintro hnone ⟨pre, pg, sz, post, he, h1, h2, h3⟩
          rcases split pre pg sz post he with ⟨-, rfl, -⟩ | ⟨post', rfl, rfl⟩
          · exact (hgive _).1 h3 hnone
          · rw [List.foldl_append] at hnone
            exact paged_keeps ofInt _ _ ((hgive _).1 h3) hnone
        · intro hno
          refine Classical.byContradiction fun hne => hno ⟨ps, page, size, [], by simp, by omega, by simp, (hgive ps).2 hne⟩

/-- Going back to the first page. -/
example : ∃ pre page size post, ([.paginate 3 20, .paginate 1 20] : List (PCall Int)) = pre ++ .paginate page size :: post ∧ page ≤ 1 ∧ (∀ p ∈ post, ¬ Spec.givesOffset p)
    ∧ ∃ p ∈ pre, Spec.givesOffset p :=
  ⟨[.paginate 3 20], 1, 20, [], rfl, by decide, by simp, .paginate 3 20, by simp, by simp [Spec.givesOffset]⟩

/-- The hypotheses of `C31_paging_of_any_sequence` are met by a real query. -/
example : CallsOK (SpecState.fresh true 0) (([.call (.select b!"x" []), .call (.from_ b!"t" []), .paginate 3 20, .call (.limit 5)] : List (PCall Int)).flatMap (PCall.expand id)) := by
  refine ⟨?_, ?_, ?_, ?_, ?_, trivial⟩ <;> simp only [CallOK, FragOK] <;> decide +kernel

/-! ### C35 -/

/-- **C35 exactly**: a call of a named clause finds that clause already there, and continues it without its keyword, if and only if some clause occupies its position; otherwise it puts its keyword
between everything before its position and everything after it. -/
theorem C35_named_clause_iff (nl : Bool) (st : Nat) (cs : List (Call α)) (f : Frag α) (c : Call α) (hc : (spec nl st cs).frags c = [f]) :
    ((spec nl st cs).has f.pos = false →
      (spec nl st (cs ++ [c])).doc = (spec nl st cs).doc.filter (fun x => decide (x.pos < f.pos)) ++ [⟨f.pos, f.start nl, decide (f.expr ≠ [])⟩]
        ++ (spec nl st cs).doc.filter (fun x => decide (f.pos < x.pos)))
    ∧ ((spec nl st cs).has f.pos = true → ∃ x ∈ (spec nl st cs).doc, x.pos = f.pos ∧
      (spec nl st (cs ++ [c])).doc = (spec nl st cs).doc.filter (fun x => decide (x.pos < f.pos)) ++ [x.extend f]
        ++ (spec nl st cs).doc.filter (fun x => decide (f.pos < x.pos))) := by
  have hdoc : (spec nl st (cs ++ [c])).doc = addFrag nl (spec nl st cs).doc f := by
    rw [spec_append]; simp only [List.foldl_cons, List.foldl_nil, SpecState.call, spec_nl, hc]
  rw [hdoc]
  unfold addFrag
  constructor
  · intro hh
    have : (spec nl st cs).doc.find? (fun x => decide (x.pos = f.pos)) = none := by
      rw [List.find?_eq_none]
      intro x hx
      simp only [SpecState.has, List.any_eq_false, decide_eq_true_eq] at hh
      simpa using hh x hx
    rw [this]; simp
  · intro hh
    simp only [SpecState.has, List.any_eq_true, decide_eq_true_eq] at hh
    obtain ⟨x, hx, hxp⟩ := hh
    cases hf : (spec nl st cs).doc.find? (fun x => decide (x.pos = f.pos)) with
    | none =>
      rw [List.find?_eq_none] at hf
      have := hf x hx
      simp [hxp] at this
    | some y =>
      refine ⟨y, List.mem_of_find?_eq_some hf, by simpa using List.find?_some hf, by simp⟩

/-- The positions of `n` custom clauses in a row. -/
theorem clauses_positions (nl : Bool) (st : Nat) (cs : List (Call α)) (p : Nat) (hp : (spec nl st cs).lastPos = some p) (es : List (Bytes × List α)) :
    (spec nl st (cs ++ es.map fun e => .clause e.1 e.2)).lastPos = some (p + 10 * es.length)
    ∧ ∀ q, (spec nl st (cs ++ es.map fun e => .clause e.1 e.2)).has q = true ↔ (spec nl st cs).has q = true ∨ ∃ k, 1 ≤ k ∧ k ≤ es.length ∧ q = p + 10 * k := by
  induction es using List.reverseRecOn with
  | nil => simp [hp]
  | append_singleton es e ih =>
    obtain ⟨ih1, ih2⟩ := ih
    rw [List.map_append, ← List.append_assoc]
    generalize hcs : cs ++ es.map (fun e => Call.clause e.1 e.2) = cs1 at ih1 ih2
    have hcp : (spec nl st cs1).clausePos = p + 10 * es.length + 10 := by simp only [SpecState.clausePos, ih1]
    have hdoc : (spec nl st (cs1 ++ [Call.clause e.1 e.2])).doc = addFrag nl (spec nl st cs1).doc ⟨(spec nl st cs1).clausePos, e.1, [], e.2, b!", "⟩ := by
      rw [spec_append]; simp only [List.foldl_cons, List.foldl_nil, SpecState.call, spec_nl, SpecState.frags]
    have hasc := doc_ascending (α := α) nl st cs1
    have hlast : ∀ x ∈ (spec nl st cs1).doc, x.pos < (spec nl st cs1).clausePos := by
      intro x hx
      rw [hcp]
      obtain ⟨l, hl, hlp⟩ := Option.map_eq_some_iff.1 ih1
      obtain ⟨d0, hd0⟩ := List.getLast?_eq_some_iff.1 hl
      rw [hd0] at hx hasc
      rcases List.mem_append.1 hx with hx | hx
      · have := (List.pairwise_append.1 hasc).2.2 x hx l (by simp)
        omega
      · rw [List.mem_singleton] at hx; subst hx; omega
    rw [addFrag_above nl _ _ hlast] at hdoc
    constructor
    · simp only [List.map_cons, List.map_nil, SpecState.lastPos, hdoc, List.getLast?_append, List.getLast?_singleton, Option.some_or, Option.map_some, List.length_append, List.length_singleton,
        Option.some.injEq, hcp]
      omega
    · intro q
      simp only [List.map_cons, List.map_nil, SpecState.has, hdoc, List.any_append, List.any_cons, List.any_nil, Bool.or_false, Bool.or_eq_true, decide_eq_true_eq, List.length_append,
        List.length_singleton]
      have := ih2 q
      simp only [SpecState.has] at this
      rw [this, hcp, or_assoc]
      apply or_congr Iff.rfl
      constructor
      · rintro (⟨k, h1, h2, h3⟩ | h3)
        · exact ⟨k, h1, by omega, h3⟩
        · exact ⟨es.length + 1, by omega, by omega, by omega⟩
      · rintro ⟨k, h1, h2, h3⟩
        by_cases hk : k ≤ es.length
        · exact Or.inl ⟨k, h1, hk, h3⟩
        · exact Or.inr (by omega)

/-- **C35 exactly**: after `n` `Clause` calls in a row behind a clause at position `p`, the named clause at position `q > p` that was not there before is taken for present, so that it loses its
keyword, if and only if `q` is `10`, `20`, … or `10 n` behind `p`. -/
theorem C35_keyword_lost_iff (nl : Bool) (st : Nat) (cs : List (Call α)) (p q : Nat) (hp : (spec nl st cs).lastPos = some p) (hq : (spec nl st cs).has q = false) (es : List (Bytes × List α)) :
    (spec nl st (cs ++ es.map fun e => .clause e.1 e.2)).has q = true ↔ p < q ∧ (q - p) % 10 = 0 ∧ q - p ≤ 10 * es.length := by
  rw [(clauses_positions nl st cs p hp es).2 q, hq]
  constructor
  · rintro (h | ⟨k, h1, h2, h3⟩)
    · cases h
    · omega
  · rintro ⟨h1, h2, h3⟩
    exact Or.inr ⟨(q - p) / 10, by omega, by omega, by omega⟩

/-- For instance: after FROM, `n` custom clauses and then `Where`: the keyword WHERE is lost if and only if there were ten or more of them. -/
theorem C35_where_after_clauses_iff (nl : Bool) (st : Nat) (t : Bytes) (as : List α) (es : List (Bytes × List α)) :
    (spec nl st (.from_ t as :: es.map fun e => .clause e.1 e.2)).has posWhere = true ↔ 10 ≤ es.length := by
  have h := C35_keyword_lost_iff nl st [Call.from_ t as] posFrom posWhere rfl rfl es
  rw [List.singleton_append] at h
  rw [h]
  have e1 : posFrom = 1100 := rfl
  have e2 : posWhere = 1200 := rfl
  rw [e1, e2]
  omega

end Xsql
