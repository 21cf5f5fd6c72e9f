import Verif.Gen.Pages
import Verif.Query.QueryProps
set_option linter.unusedVariables false
set_option linter.unusedSimpArgs false
set_option linter.unusedSectionVars false
/-!
The text of a list query: conditions, an order, and placeholders for LIMIT and OFFSET (`Limit` and `Offset`, xsql/stmt.go:784-793), whatever order the calls are made in.  For C115.
-/
namespace Gen
open Schema Types Xsql

/-- One call on a list query: one of the calls of `Step`, `OrderBy("column")` or `OrderBy("column DESC")` (xsql/stmt.go:766-769), `Limit(x)` or `Offset(x)` (xsql/stmt.go:784-793). -/
inductive LStep (α : Type) where
  | base (s : Step α)
  | order (c : Bytes) (desc : Bool)
  | limit (x : α)
  | offset (x : α)

variable {α : Type}

/-- The builder call. -/
def LStep.call (t : Bytes) : LStep α → Call α
  | .base s => s.call t
  | .order c d => .orderBy [orderItem (c, d)]
  | .limit x => .limit x
  | .offset x => .offset x

/-- The query without its page. -/
def unpaged : List (LStep α) → List (PStep α) := List.filterMap fun | .base s => some (.base s) | .order c d => some (.order c d) | _ => none

/-- The limits and the offsets given. -/
def limitsGiven : List (LStep α) → List α := List.filterMap fun | .limit x => some x | _ => none
def offsetsGiven : List (LStep α) → List α := List.filterMap fun | .offset x => some x | _ => none

/-- A list query: `From(t)`, `Select(column)`, `Where`, `OrderBy`, one `Limit` and one `Offset`, in any order. -/
def Spec.IsList (l : List (LStep α)) : Prop := Spec.IsSelect (baseOf (unpaged l)) ∧ (limitsGiven l).length = 1 ∧ (offsetsGiven l).length = 1

theorem lsteps_ok {t : Bytes} (ht : FragOK (α := α) t []) : ∀ (l : List (LStep α)) (s : SpecState α), (∀ x ∈ unpaged l, x.OK) → (∀ c v, PStep.base (.set c v) ∉ unpaged l) → CallsOK s (l.map (LStep.call t)) := by
  intro l
  induction l with
  | nil => intro s _ _; trivial
  | cons x l ih =>
    intro s hok hset
    rw [List.map_cons]
    cases x with
    | base b =>
      have e : unpaged (LStep.base b :: l) = .base b :: unpaged l := rfl
      rw [e] at hok hset
      refine ⟨?_, ih _ (fun y hy => hok y (by simp [hy])) (fun c v hm => hset c v (by simp [hm]))⟩
      have hx := hok _ (List.mem_cons_self ..)
      cases b with
      | set c v => exact absurd (by simp) (hset c v)
      | update => exact ht
      | delete => exact ht
      | from_ => exact ht
      | col c => exact fragOK_plain hx.2
      | cond c v => exact (fragOK_plain (α := α) hx.2).append (eqph_ok v)
    | order c d =>
      have e : unpaged (LStep.order (α := α) c d :: l) = .order c d :: unpaged l := rfl
      rw [e] at hok hset
      refine ⟨?_, ih _ (fun y hy => hok y (by simp [hy])) (fun c v hm => hset c v (by simp [hm]))⟩
      have hx := hok _ (List.mem_cons_self ..)
      intro e he
      rw [List.mem_singleton] at he
      subst he
      exact (orderItem_ok hx d).2.2.2
    | limit x => exact ⟨trivial, ih _ hok hset⟩
    | offset x => exact ⟨trivial, ih _ hok hset⟩

theorem partsAt_cons (p : Nat) (c : Call α) (cs : List (Call α)) : partsAt p (c :: cs) = partsAt p [c] ++ partsAt p cs := by
  simp [partsAt]

theorem partsAt_append (p : Nat) (cs ds : List (Call α)) : partsAt p (cs ++ ds) = partsAt p cs ++ partsAt p ds := by
  simp [partsAt]

/-- The calls of the query without its page. -/
def unpagedCalls (t : Bytes) (l : List (LStep α)) : List (Call α) := (unpaged l).flatMap fun x => match x with | .base s => [s.call t] | .order c d => [.orderBy [orderItem (c, d)]] | .page .. => []

theorem partsAt_limit (p : Nat) (x : α) : partsAt p [Call.limit x] = if p = 1700 then [⟨posLimit, b!"LIMIT ?", [], [x], []⟩] else [] := by
  by_cases h : p = 1700
  · subst h; rfl
  · have : ¬ posLimit = p := fun e => h e.symm
    simp [partsAt, Call.parts, SpecState.frags, h, this]

theorem partsAt_offset (p : Nat) (x : α) : partsAt p [Call.offset x] = if p = 1800 then [⟨posOffset, b!"OFFSET ?", [], [x], []⟩] else [] := by
  by_cases h : p = 1800
  · subst h; rfl
  · have : ¬ posOffset = p := fun e => h e.symm
    simp [partsAt, Call.parts, SpecState.frags, h, this]

theorem partsAt_base (t : Bytes) (b : Step α) {p : Nat} (hp : p = 1700 ∨ p = 1800) : partsAt p [b.call t] = [] := by
  rcases hp with rfl | rfl <;> cases b <;> rfl

theorem unpaged_parts (t : Bytes) {p : Nat} (hp : p = 1700 ∨ p = 1800) (l : List (LStep α)) : partsAt p (unpagedCalls t l) = [] := by
  induction l with
  | nil => rfl
  | cons x l ih =>
    cases x with
    | base b =>
      show partsAt p (b.call t :: unpagedCalls t l) = []
      rw [partsAt_cons, ih, partsAt_base t b hp]; rfl
    | order c d =>
      show partsAt p (Call.orderBy [orderItem (c, d)] :: unpagedCalls t l) = []
      rw [partsAt_cons, ih]
      rcases hp with rfl | rfl <;> rfl
    | limit x => exact ih
    | offset x => exact ih

/-- On every clause, the calls are those of the query without its page, and the limits and offsets. -/
theorem lsteps_parts (t : Bytes) (p : Nat) : ∀ (l : List (LStep α)),
    partsAt p (l.map (LStep.call t)) = partsAt p (unpagedCalls t l) ++ (partsAt p ((limitsGiven l).map Call.limit) ++ partsAt p ((offsetsGiven l).map Call.offset)) := by
  intro l
  induction l with
  | nil => rfl
  | cons x l ih =>
    rw [List.map_cons, partsAt_cons, ih]
    cases x with
    | base b =>
      show _ = partsAt p (b.call t :: unpagedCalls t l) ++ (partsAt p ((limitsGiven l).map Call.limit) ++ partsAt p ((offsetsGiven l).map Call.offset))
      rw [partsAt_cons p (b.call t), List.append_assoc]; rfl
    | order c d =>
      show _ = partsAt p (Call.orderBy [orderItem (c, d)] :: unpagedCalls t l) ++ (partsAt p ((limitsGiven l).map Call.limit) ++ partsAt p ((offsetsGiven l).map Call.offset))
      rw [partsAt_cons p (Call.orderBy _), List.append_assoc]; rfl
    | limit x =>
      show partsAt p [Call.limit x] ++ _ = partsAt p (unpagedCalls t l) ++ (partsAt p (Call.limit x :: (limitsGiven l).map Call.limit) ++ partsAt p ((offsetsGiven l).map Call.offset))
      rw [partsAt_cons p (Call.limit x) ((limitsGiven l).map Call.limit)]
      by_cases h : p = 1700
      · rw [unpaged_parts t (Or.inl h)]; simp
      · rw [partsAt_limit, if_neg h]; simp
    | offset x =>
      show partsAt p [Call.offset x] ++ _ = partsAt p (unpagedCalls t l) ++ (partsAt p ((limitsGiven l).map Call.limit) ++ partsAt p (Call.offset x :: (offsetsGiven l).map Call.offset))
      rw [partsAt_cons p (Call.offset x) ((offsetsGiven l).map Call.offset)]
      by_cases h : p = 1800
      · have hl : ∀ xs : List α, partsAt p (xs.map Call.limit) = [] := by
          intro xs
          induction xs with
          | nil => rfl
          | cons y ys ihy => rw [List.map_cons, partsAt_cons, ihy, partsAt_limit, if_neg (by omega)]; rfl
        rw [unpaged_parts t (Or.inr h), hl]; simp
      · rw [partsAt_offset, if_neg h]; simp

theorem unpaged_pages (l : List (LStep α)) : pagesOf (unpaged l) = [] := by
  induction l with
  | nil => rfl
  | cons x l ih => cases x <;> exact ih

/-- The list query with `Paginate` in place of `Limit` and `Offset`: it has the same text. -/
def asPaged (l : List (LStep α)) : List (PStep α) := unpaged l ++ [.page 3 5]

theorem asPaged_calls (ofInt : Int → α) (t : Bytes) (l : List (LStep α)) :
    ((asPaged l).map (PStep.call t)).flatMap (PCall.expand ofInt) = unpagedCalls t l ++ [.offset (ofInt 10), .limit (ofInt 5)] := by
  unfold asPaged
  rw [List.map_append, List.flatMap_append]
  congr 1
  induction l with
  | nil => rfl
  | cons x l ih =>
    cases x with
    | base b => exact congrArg (b.call t :: ·) ih
    | order c d => exact congrArg (Call.orderBy [orderItem (c, d)] :: ·) ih
    | limit x => exact ih
    | offset x => exact ih

theorem base_plain {t : Bytes} {l : List (Step α)} (h : Spec.IsSelect l) : ∀ s ∈ l, (s.call t).plain = true := by
  obtain ⟨pre, post, rfl, h⟩ := h
  intro s hs
  by_cases e : s = .from_
  · subst e; rfl
  · have : s ∈ pre ++ post := by
      simp only [List.mem_append, List.mem_cons] at hs ⊢
      rcases hs with hs | hs | hs
      · exact Or.inl hs
      · exact absurd hs e
      · exact Or.inr hs
    rcases h s this with ⟨c, v, rfl⟩ | ⟨c, rfl⟩ <;> rfl

theorem isSelect_no_set {l : List (Step α)} (h : Spec.IsSelect l) (c : Bytes) (v : α) : Step.set c v ∉ l := by
  obtain ⟨pre, post, rfl, h⟩ := h
  intro hm
  have : Step.set c v ∈ pre ++ post := by simpa using hm
  rcases h _ this with ⟨c, v, h⟩ | ⟨c, h⟩ <;> cases h

/-- The text of a list query on every dialect. -/
theorem list_text (d : Dia) (nl : Bool) (st : Nat) (t : Bytes) (ht0 : t ≠ []) (ht : Plain t) (l : List (LStep α)) (h : Spec.IsList l) (hok : ∀ x ∈ unpaged l, x.OK) (hcols : colsOf (baseOf (unpaged l)) ≠ []) :
    (build d nl st (l.map (LStep.call t))).render = b!"SELECT " ++ joinBytes b!", " (colsOf (baseOf (unpaged l))) ++ b!" " ++ (if nl then b!"\n" else []) ++ b!"FROM " ++ t
        ++ whereText (decide (d = .postgres)) nl 1 (condsOf (baseOf (unpaged l))) ++ orderText nl (ordersOf (unpaged l))
        ++ pageText (decide (d = .postgres)) nl (1 + (condsOf (baseOf (unpaged l))).length) 3 := by
  obtain ⟨hsel, hx, hy⟩ := h
  obtain ⟨x, ex⟩ := List.length_eq_one_iff.1 hx
  obtain ⟨y, ey⟩ := List.length_eq_one_iff.1 hy
  let ofInt : Int → α := fun i => if i = 5 then x else y
  have hb : baseOf (asPaged l) = baseOf (unpaged l) := by simp [asPaged, baseOf, List.filterMap_append]
  have ho : ordersOf (asPaged l) = ordersOf (unpaged l) := by simp [asPaged, ordersOf, List.filterMap_append]
  have hp : pagesOf (asPaged l) = [(3, 5)] := by
    have := unpaged_pages l
    unfold pagesOf at this
    simp [asPaged, pagesOf, List.filterMap_append, this]
  have hok' : ∀ z ∈ asPaged l, z.OK := by
    intro z hz
    rcases List.mem_append.1 hz with hz | hz
    · exact hok z hz
    · rw [List.mem_singleton] at hz; subst hz; trivial
  obtain ⟨e1, -⟩ := page_text ofInt d nl st t ht0 ht 3 5 (asPaged l) ⟨by rw [hb]; exact hsel, hp⟩ hok' (by rw [hb]; exact hcols)
  rw [hb, ho, pbuild_eq] at e1
  rw [← e1]
  have hset : ∀ c v, PStep.base (Step.set c v) ∉ unpaged l := fun c v hm => isSelect_no_set hsel c v (mem_baseOf.2 hm)
  have hF := fragOK_plain (α := α) ht
  have hup : ∀ c ∈ unpagedCalls t l, c.plain = true := by
    intro c hc
    obtain ⟨z, hz, hc⟩ := List.mem_flatMap.1 hc
    cases z with
    | base b => rw [List.mem_singleton] at hc; subst hc; exact base_plain hsel b (mem_baseOf.2 hz)
    | order a b => rw [List.mem_singleton] at hc; subst hc; rfl
    | page a b => cases hc
  refine (C23_only_order_within_clause_matters d ?_ ?_ (lsteps_ok hF l _ hok hset) (psteps_frags ofInt hF (asPaged l) _ hok' (fun c v hm => ?_)).1 ?_).1
  · intro c hc
    obtain ⟨z, hz, rfl⟩ := List.mem_map.1 hc
    cases z with
    | base b => exact base_plain hsel b (mem_baseOf.2 (List.mem_filterMap.2 ⟨_, hz, rfl⟩))
    | _ => rfl
  · intro c hc
    rw [asPaged_calls] at hc
    rcases List.mem_append.1 hc with hc | hc
    · exact hup c hc
    · simp only [List.mem_cons, List.not_mem_nil, or_false] at hc
      rcases hc with rfl | rfl <;> rfl
  · rcases List.mem_append.1 hm with hm | hm
    · exact hset c v hm
    · rw [List.mem_singleton] at hm; cases hm
  · intro p
    rw [asPaged_calls, lsteps_parts, partsAt_append, ex, ey]
    congr 1
    rw [partsAt_cons p (Call.offset _), show ofInt 10 = y from rfl, show ofInt 5 = x from rfl]
    show partsAt p [Call.limit x] ++ partsAt p [Call.offset y] = partsAt p [Call.offset y] ++ partsAt p [Call.limit x]
    rw [partsAt_limit, partsAt_offset]
    by_cases h1 : p = 1700
    · subst h1; rfl
    · rw [if_neg h1]; simp

end Gen
