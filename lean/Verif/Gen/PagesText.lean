import Verif.Gen.ModifyText
import Verif.Xsql.PageExact
set_option linter.unusedVariables false
set_option linter.unusedSimpArgs false
/-!
The text of a query with conditions, an order and a page, whatever order the calls are made in (xsql/stmt.go:552-808).  For C114.
-/
namespace Gen
open Schema Types Xsql

/-- One call on a query for a table: one of the calls of `Step`, `OrderBy("column")` or `OrderBy("column DESC")` (xsql/stmt.go:766-769), `Paginate(page, size)` (xsql/stmt.go:796-808). -/
inductive PStep (α : Type) where
  | base (s : Step α)
  | order (c : Bytes) (desc : Bool)
  | page (page size : Int)

variable {α : Type}

/-- What is passed to `OrderBy`. -/
def orderItem (p : Bytes × Bool) : Bytes := p.1 ++ (if p.2 then b!" DESC" else [])

/-- The builder call. -/
def PStep.call (t : Bytes) : PStep α → PCall α
  | .base s => .call (s.call t)
  | .order c d => .call (.orderBy [orderItem (c, d)])
  | .page p s => .paginate p s

/-- The other calls, in order. -/
def baseOf : List (PStep α) → List (Step α) := List.filterMap fun | .base s => some s | _ => none

/-- The columns ordered by, in order; `true` for a descending order. -/
def ordersOf : List (PStep α) → List (Bytes × Bool) := List.filterMap fun | .order c d => some (c, d) | _ => none

/-- The pages asked for. -/
def pagesOf : List (PStep α) → List (Int × Int) := List.filterMap fun | .page p s => some (p, s) | _ => none

/-- A query for one page: `From(t)`, `Select(column)`, `Where`, `OrderBy` and one `Paginate(p, s)`, in any order. -/
def Spec.IsPage (p s : Int) (l : List (PStep α)) : Prop := Spec.IsSelect (baseOf l) ∧ pagesOf l = [(p, s)]

/-- The column named by a call, if any, is an ordinary name. -/
def PStep.OK : PStep α → Prop
  | .base s => s.OK
  | .order c _ => NameOK c
  | .page .. => True

/-- The number of rows before the page. -/
def skipOf (p s : Int) : Int := wrap64 ((max p 1 - 1) * max s 1)

/-- The fragments a call contributes. -/
def PStep.frags (ofInt : Int → α) (t : Bytes) : PStep α → List (Frag α)
  | .base s => [s.frag t]
  | .order c d => [⟨posOrderBy, b!"ORDER BY", orderItem (c, d), [], b!", "⟩]
  | .page p s => (if 1 < p then [⟨posOffset, b!"OFFSET ?", [], [ofInt (skipOf p s)], []⟩] else []) ++ [⟨posLimit, b!"LIMIT ?", [], [ofInt (max s 1)], []⟩]

theorem orderItem_ok {c : Bytes} (h : NameOK c) (d : Bool) : orderItem (c, d) ≠ [] ∧ (63 : UInt8) ∉ orderItem (c, d) ∧ (orderItem (c, d)).getLast? ≠ some 92 ∧ FragOK (α := α) (orderItem (c, d)) [] := by
  have h2 : FragOK (α := α) (orderItem (c, d)) [] := by
    cases d
    · simpa [orderItem] using fragOK_plain (α := α) h.2
    · have := (fragOK_plain (α := α) h.2).append (FragOK.const (α := α) (s := b!" DESC") (by decide) (by decide))
      simpa [orderItem] using this
  refine ⟨?_, ?_, h2.2.1, h2⟩
  · have := h.1; simp [orderItem, this]
  · have := h.2.1
    cases d <;> simp [orderItem, this]

theorem psteps_frags (ofInt : Int → α) {t : Bytes} (ht : FragOK (α := α) t []) : ∀ (l : List (PStep α)) (s : SpecState α), (∀ x ∈ l, x.OK) → (∀ c v, PStep.base (.set c v) ∉ l) →
    CallsOK s ((l.map (PStep.call t)).flatMap (PCall.expand ofInt)) ∧ fragsOf s ((l.map (PStep.call t)).flatMap (PCall.expand ofInt)) = l.flatMap (PStep.frags ofInt t) := by
  intro l
  induction l with
  | nil => intro s _ _; exact ⟨trivial, rfl⟩
  | cons x l ih =>
    intro s hok hset
    have hx := hok x (by simp)
    have ih' := fun s => ih s (fun y hy => hok y (by simp [hy])) (fun c v hm => hset c v (by simp [hm]))
    rw [List.map_cons, List.flatMap_cons, List.flatMap_cons]
    cases x with
    | base b =>
      obtain ⟨i1, i2⟩ := ih' (s.call (b.call t))
      have hfr : s.frags (b.call t) = [b.frag t] := by
        cases b with
        | set c v => exact absurd (by simp) (hset c v)
        | _ => rfl
      have hcall : CallOK s (b.call t) := by
        cases b with
        | update => exact ht
        | delete => exact ht
        | from_ => exact ht
        | col c => exact fragOK_plain hx.2
        | set c v => exact absurd (by simp) (hset c v)
        | cond c v => exact (fragOK_plain (α := α) hx.2).append (eqph_ok v)
      exact ⟨⟨hcall, i1⟩, by
        show fragsOf s (b.call t :: (l.map (PStep.call t)).flatMap (PCall.expand ofInt)) = _
        rw [fragsOf, hfr, i2]; rfl⟩
    | order c d =>
      obtain ⟨i1, i2⟩ := ih' (s.call (.orderBy [orderItem (c, d)]))
      refine ⟨⟨?_, i1⟩, ?_⟩
      · intro e he
        rw [List.mem_singleton] at he
        subst he
        exact (orderItem_ok hx d).2.2.2
      · show fragsOf s (.orderBy [orderItem (c, d)] :: (l.map (PStep.call t)).flatMap (PCall.expand ofInt)) = _
        rw [fragsOf, i2]; rfl
    | page p sz =>
      by_cases hp : 1 < p
      · have hm : max p 1 > 1 := by omega
        have e : PCall.expand ofInt (PStep.call (α := α) t (.page p sz)) = [.offset (ofInt (skipOf p sz)), .limit (ofInt (max sz 1))] := by
          show paginateCalls ofInt p sz = _
          rw [paginateCalls, if_pos hm]; rfl
        rw [e]
        obtain ⟨i1, i2⟩ := ih' ((s.call (.offset (ofInt (skipOf p sz)))).call (.limit (ofInt (max sz 1))))
        refine ⟨⟨trivial, trivial, i1⟩, ?_⟩
        show fragsOf s (.offset _ :: .limit _ :: (l.map (PStep.call t)).flatMap (PCall.expand ofInt)) = _
        rw [fragsOf, fragsOf, i2, PStep.frags, if_pos hp]; rfl
      · have hm : ¬ max p 1 > 1 := by omega
        have e : PCall.expand ofInt (PStep.call (α := α) t (.page p sz)) = [.limit (ofInt (max sz 1))] := by
          show paginateCalls ofInt p sz = _
          rw [paginateCalls, if_neg hm]; rfl
        rw [e]
        obtain ⟨i1, i2⟩ := ih' (s.call (.limit (ofInt (max sz 1))))
        refine ⟨⟨trivial, i1⟩, ?_⟩
        show fragsOf s (.limit _ :: (l.map (PStep.call t)).flatMap (PCall.expand ofInt)) = _
        rw [fragsOf, i2, PStep.frags, if_neg hp]; rfl

theorem limit_local (p : Nat) (kw : Bytes) (hp : single p) (hk : ∀ x : α, FragOK kw [x]) (x : α) : FragLocal (⟨p, kw, [], [x], []⟩ : Frag α) :=
  ⟨fun h => absurd rfl h, fun _ => hk x, fun _ _ => hp, fun _ => ⟨rfl, rfl⟩, by simp⟩

theorem psteps_local (ofInt : Int → α) {t : Bytes} (ht : FragOK (α := α) t []) (l : List (PStep α)) (hok : ∀ x ∈ l, x.OK) :
    ∀ f ∈ l.flatMap (PStep.frags ofInt t), FragLocal f ∧ f.pos ∈ canonical := by
  intro f hf
  obtain ⟨x, hx, hf⟩ := List.mem_flatMap.1 hf
  have h := hok x hx
  have hL : ∀ x : α, FragOK b!"LIMIT ?" [x] := fun x => ⟨rfl, by decide, by simp⟩
  have hO : ∀ x : α, FragOK b!"OFFSET ?" [x] := fun x => ⟨rfl, by decide, by simp⟩
  cases x with
  | base b =>
    rw [PStep.frags, List.mem_singleton] at hf
    exact steps_local ht [b] (by intro x hx; rw [List.mem_singleton] at hx; subst hx; exact h) f (by simp [hf])
  | order c d =>
    rw [PStep.frags, List.mem_singleton] at hf
    subst hf
    exact ⟨FragLocal.mk' (orderItem_ok h d).2.2.2 (by decide) (by decide) (show ¬ single posOrderBy by decide) sepOK_comma, by simp [canonical, posOrderBy]⟩
  | page p s =>
    rw [PStep.frags, List.mem_append] at hf
    rcases hf with hf | hf
    · split at hf
      · rw [List.mem_singleton] at hf
        subst hf
        exact ⟨limit_local _ _ (by decide) hO _, by simp [canonical, posOffset]⟩
      · cases hf
    · rw [List.mem_singleton] at hf
      subst hf
      exact ⟨limit_local _ _ (by decide) hL _, by simp [canonical, posLimit]⟩

/-! ### What is at each place -/

theorem at_base (ofInt : Int → α) (t : Bytes) (p : Nat) (hp : p ≠ 1600 ∧ p ≠ 1700 ∧ p ≠ 1800) (l : List (PStep α)) :
    fragsAt p (l.flatMap (PStep.frags ofInt t)) = fragsAt p ((baseOf l).map (Step.frag t)) := by
  induction l with
  | nil => rfl
  | cons x l ih =>
    have e : fragsAt p ((x :: l).flatMap (PStep.frags ofInt t)) = fragsAt p (x.frags ofInt t) ++ fragsAt p (l.flatMap (PStep.frags ofInt t)) := by
      simp [fragsAt]
    rw [e, ih]
    cases x with
    | base b =>
      have : baseOf (PStep.base b :: l) = b :: baseOf l := rfl
      rw [this, List.map_cons, show PStep.frags ofInt t (.base b) = [b.frag t] from rfl]
      simp [fragsAt, List.filter_cons]
      split <;> rfl
    | order c d =>
      have : baseOf (PStep.order (α := α) c d :: l) = baseOf l := rfl
      rw [this]
      have h1 : posOrderBy ≠ p := fun h => hp.1 h.symm
      simp [fragsAt, PStep.frags, h1]
    | page a b =>
      have : baseOf (PStep.page (α := α) a b :: l) = baseOf l := rfl
      rw [this]
      have h1 : posLimit ≠ p := fun h => hp.2.1 h.symm
      have h2 : posOffset ≠ p := fun h => hp.2.2 h.symm
      by_cases h : 1 < a <;> simp [fragsAt, PStep.frags, h1, h2, h]

theorem base_pos (t : Bytes) (b : Step α) : (b.frag t).pos < 1300 := by cases b <;> simp [Step.frag, posUpdate, posDelete, posFrom, posSelect, posSet, posWhere]

theorem at_order (ofInt : Int → α) (t : Bytes) (l : List (PStep α)) :
    fragsAt 1600 (l.flatMap (PStep.frags ofInt t)) = (ordersOf l).map fun o => ⟨posOrderBy, b!"ORDER BY", orderItem o, [], b!", "⟩ := by
  induction l with
  | nil => rfl
  | cons x l ih =>
    have e : fragsAt 1600 ((x :: l).flatMap (PStep.frags ofInt t)) = fragsAt 1600 (x.frags ofInt t) ++ fragsAt 1600 (l.flatMap (PStep.frags ofInt t)) := by
      simp [fragsAt]
    rw [e, ih]
    cases x with
    | base b =>
      have := base_pos t b
      have h1 : (b.frag t).pos ≠ 1600 := by omega
      have h2 : ordersOf (PStep.base b :: l) = ordersOf l := rfl
      rw [h2]
      simp [fragsAt, PStep.frags, h1]
    | order c d => rfl
    | page a b =>
      have : ordersOf (PStep.page (α := α) a b :: l) = ordersOf l := rfl
      rw [this]
      by_cases h : 1 < a <;> simp [fragsAt, PStep.frags, posLimit, posOffset, h]

theorem at_page (ofInt : Int → α) (t : Bytes) (l : List (PStep α)) :
    fragsAt 1700 (l.flatMap (PStep.frags ofInt t)) = (pagesOf l).map (fun p => ⟨posLimit, b!"LIMIT ?", [], [ofInt (max p.2 1)], []⟩)
    ∧ fragsAt 1800 (l.flatMap (PStep.frags ofInt t)) = (pagesOf l).flatMap fun p => if 1 < p.1 then [⟨posOffset, b!"OFFSET ?", [], [ofInt (skipOf p.1 p.2)], []⟩] else [] := by
  induction l with
  | nil => exact ⟨rfl, rfl⟩
  | cons x l ih =>
    have e : ∀ p, fragsAt p ((x :: l).flatMap (PStep.frags ofInt t)) = fragsAt p (x.frags ofInt t) ++ fragsAt p (l.flatMap (PStep.frags ofInt t)) := by
      intro p; simp [fragsAt]
    rw [e, e, ih.1, ih.2]
    cases x with
    | base b =>
      have := base_pos t b
      have h1 : (b.frag t).pos ≠ 1700 := by omega
      have h3 : (b.frag t).pos ≠ 1800 := by omega
      have h2 : pagesOf (PStep.base b :: l) = pagesOf l := rfl
      rw [h2]
      simp [fragsAt, PStep.frags, h1, h3]
    | order c d =>
      have h2 : pagesOf (PStep.order (α := α) c d :: l) = pagesOf l := rfl
      rw [h2]
      simp [fragsAt, PStep.frags, posOrderBy]
    | page a b =>
      have : pagesOf (PStep.page (α := α) a b :: l) = (a, b) :: pagesOf l := rfl
      rw [this]
      by_cases h : 1 < a <;> simp [fragsAt, PStep.frags, posLimit, posOffset, h]

theorem limit_clause (nl : Bool) (p : Nat) (kw : Bytes) (hk : kw ≠ []) (hp : single p) (x : α) :
    clauseText nl [(⟨p, kw, [], [x], []⟩ : Frag α)] = (if nl then b!"\n" else []) ++ kw ∧ clauseArgs [(⟨p, kw, [], [x], []⟩ : Frag α)] = [x] := by
  constructor
  · simp [clauseText, moreText, hk]
  · simp [clauseArgs, hp]

/-- The end of the statement: its order. -/
def orderText (nl : Bool) (os : List (Bytes × Bool)) : Bytes := if os = [] then [] else b!" " ++ (if nl then b!"\n" else []) ++ b!"ORDER BY " ++ joinBytes b!", " (os.map orderItem)

/-- Its page. -/
def pageText (pg nl : Bool) (i : Nat) (p : Int) : Bytes :=
  b!" " ++ (if nl then b!"\n" else []) ++ b!"LIMIT " ++ phText pg i ++ if 1 < p then b!" " ++ (if nl then b!"\n" else []) ++ b!"OFFSET " ++ phText pg (i + 1) else []

/-- Its arguments. -/
def pageArgs (ofInt : Int → α) (p s : Int) : List α := ofInt (max s 1) :: if 1 < p then [ofInt (skipOf p s)] else []

/-- The page as tokens. -/
def pageToks (ofInt : Int → α) (nl : Bool) (p s : Int) : List (Tok α) :=
  (lits (b!" " ++ (if nl then b!"\n" else []) ++ b!"LIMIT ") ++ [.ph (ofInt (max s 1))])
    ++ if 1 < p then lits (b!" " ++ (if nl then b!"\n" else []) ++ b!"OFFSET ") ++ [.ph (ofInt (skipOf p s))] else []

theorem pageToks_spec (ofInt : Int → α) (nl : Bool) (p s : Int) : Clean (pageToks ofInt nl p s) ∧ vals (pageToks ofInt nl p s) = pageArgs ofInt p s
    ∧ (∀ pg n, Xsql.written pg n (pageToks ofInt nl p s) = pageText pg nl n p) ∧ (raw (pageToks ofInt nl p s)).getLast? = some 63 := by
  have hw : ∀ (pg : Bool) n (x : Bytes) (v : α), Xsql.written pg n (lits x ++ [Tok.ph v]) = x ++ phText pg n := by
    intro pg n x v
    cases pg
    · simp only [Xsql.written, raw_append, raw_lits, phText]; rfl
    · simp only [Xsql.written, numbered_append, numbered_lits, phText, if_true, vals_lits, List.length_nil, Nat.add_zero]
      simp [numbered]
  have c1 : Clean (lits (b!" " ++ (if nl then b!"\n" else []) ++ b!"LIMIT ") ++ [Tok.ph (ofInt (max s 1))]) :=
    (clean_lits _ (by cases nl <;> decide)).append (clean_ph _) (by rw [raw_lits]; cases nl <;> decide)
  have c2 : Clean (lits (b!" " ++ (if nl then b!"\n" else []) ++ b!"OFFSET ") ++ [Tok.ph (ofInt (skipOf p s))]) :=
    (clean_lits _ (by cases nl <;> decide)).append (clean_ph _) (by rw [raw_lits]; cases nl <;> decide)
  have l1 : ∀ (x : Bytes) (v : α), (raw (lits x ++ [Tok.ph v])).getLast? = some 63 := by intro x v; rw [raw_append, List.getLast?_append]; rfl
  unfold pageToks pageText pageArgs
  by_cases hp : 1 < p
  · simp only [if_pos hp]
    refine ⟨c1.append c2 (by rw [l1]; decide), by simp, ?_, by rw [raw_append, List.getLast?_append, l1]; rfl⟩
    intro pg n
    rw [written_append, hw, hw]
    simp
  · simp only [if_neg hp, List.append_nil]
    exact ⟨c1, by simp, fun pg n => hw _ _ _ _, l1 _ _⟩

theorem mem_baseOf {b : Step α} {l : List (PStep α)} : b ∈ baseOf l ↔ PStep.base b ∈ l := by
  unfold baseOf
  rw [List.mem_filterMap]
  constructor
  · rintro ⟨x, hx, e⟩; cases x <;> simp at e; subst e; exact hx
  · intro h; exact ⟨_, h, rfl⟩

theorem mem_ordersOf {o : Bytes × Bool} {l : List (PStep α)} : o ∈ ordersOf l ↔ PStep.order o.1 o.2 ∈ l := by
  unfold ordersOf
  rw [List.mem_filterMap]
  constructor
  · rintro ⟨x, hx, e⟩; cases x <;> simp at e; subst e; exact hx
  · intro h; exact ⟨_, h, rfl⟩

theorem six_p (P : Nat → Bool) (h : ∀ p, p ∉ [900, 1100, 1200, 1600, 1700, 1800] → P p = false) : canonical.filter P = [900, 1100, 1200, 1600, 1700, 1800].filter P := by
  have g := fun p hp => h p hp
  simp only [canonical, List.filter_cons, List.filter_nil, g 200 (by decide), g 300 (by decide), g 399 (by decide), g 400 (by decide), g 499 (by decide), g 500 (by decide), g 501 (by decide),
    g 1300 (by decide), g 1400 (by decide), g 600 (by decide), g 700 (by decide), g 800 (by decide), g 1900 (by decide)]
  simp

theorem six_p_args (F : Nat → List α) (h : ∀ p, p ∉ [900, 1100, 1200, 1600, 1700, 1800] → F p = []) : canonical.flatMap F = [900, 1100, 1200, 1600, 1700, 1800].flatMap F := by
  have g := fun p hp => h p hp
  simp only [canonical, List.flatMap_cons, List.flatMap_nil, g 200 (by decide), g 300 (by decide), g 399 (by decide), g 400 (by decide), g 499 (by decide), g 500 (by decide), g 501 (by decide),
    g 1300 (by decide), g 1400 (by decide), g 600 (by decide), g 700 (by decide), g 800 (by decide), g 1900 (by decide)]
  simp

/-- The text and the arguments of a query for a page on every dialect. -/
theorem page_text (ofInt : Int → α) (d : Dia) (nl : Bool) (st : Nat) (t : Bytes) (ht0 : t ≠ []) (ht : Plain t) (p s : Int) (l : List (PStep α)) (h : Spec.IsPage p s l) (hok : ∀ x ∈ l, x.OK)
    (hcols : colsOf (baseOf l) ≠ []) :
    (pbuild ofInt d nl st (l.map (PStep.call t))).render = b!"SELECT " ++ joinBytes b!", " (colsOf (baseOf l)) ++ b!" " ++ (if nl then b!"\n" else []) ++ b!"FROM " ++ t
        ++ whereText (decide (d = .postgres)) nl 1 (condsOf (baseOf l)) ++ orderText nl (ordersOf l) ++ pageText (decide (d = .postgres)) nl (1 + (condsOf (baseOf l)).length) p
    ∧ (pbuild ofInt d nl st (l.map (PStep.call t))).args = (condsOf (baseOf l)).map (·.2) ++ pageArgs ofInt p s := by
  rw [pbuild_eq]
  obtain ⟨hsel, hpg⟩ := h
  obtain ⟨p1, p2, p3, p5, p6⟩ := places_select t hsel
  have hokb : ∀ x ∈ baseOf l, x.OK := fun x hx => hok _ (mem_baseOf.1 hx)
  have hF := fragOK_plain (α := α) ht
  obtain ⟨hc, hfr⟩ := psteps_frags ofInt hF l (SpecState.fresh nl st) hok (fun c v hm => p6 c v (mem_baseOf.2 hm))
  obtain ⟨e1, e2⟩ := closed_render .default (by simp) hc hfr (psteps_local ofInt hF l hok)
  have hother : ∀ q, q ∉ [900, 1100, 1200, 1600, 1700, 1800] → fragsAt q (l.flatMap (PStep.frags ofInt t)) = [] := by
    intro q hq
    simp only [List.mem_cons, List.not_mem_nil, or_false, not_or] at hq
    obtain ⟨h1, h2, h3, h4, h5, h6⟩ := hq
    rw [at_base ofInt t q ⟨h4, h5, h6⟩, frags_at]
    by_cases g1 : q = 600
    · subst g1; rw [p1]; rfl
    by_cases g2 : q = 700
    · subst g2; rw [p2]; rfl
    by_cases g3 : q = 800
    · subst g3; rw [p3]; rfl
    rw [← frags_at]
    exact other_pos t _ q (by simp [*])
  rw [six_p _ (fun q hq => by rw [hother q hq]; rfl)] at e1
  rw [six_p_args _ (fun q hq => by rw [hother q hq]; rfl)] at e2
  obtain ⟨a1, a2⟩ := piece_head nl t ht0 (Step.from_ (α := α)) b!"FROM" (by decide) posFrom (by decide) rfl
  have hcn : ∀ c ∈ colsOf (baseOf l), NameOK c := fun c hc => hokb _ (mem_colsOf.1 hc)
  obtain ⟨b1, b2⟩ := piece_cols nl t (baseOf l) hcols (fun c hc => (hcn c hc).1)
  obtain ⟨w1, w2, w3, w4⟩ := whereToks_spec nl (condsOf (baseOf l)) (conds_plain hokb)
  obtain ⟨g1, g2, g3, g4⟩ := pageToks_spec ofInt nl p s
  have hon : ∀ o ∈ ordersOf l, NameOK o.1 := fun o ho => hok _ (mem_ordersOf.1 ho)
  have ho1 : ∀ o ∈ ordersOf l, (63 : UInt8) ∉ orderItem o ∧ orderItem o ≠ [] := fun o ho => ⟨(orderItem_ok (α := α) (hon o ho) o.2).2.1, (orderItem_ok (α := α) (hon o ho) o.2).1⟩
  have f900 : fragsAt 900 (l.flatMap (PStep.frags ofInt t)) = ((colsOf (baseOf l)).map (Step.col (α := α))).map (Step.frag t) := by
    rw [at_base ofInt t 900 (by decide), frags_at, cols_filter]
  have f1100 : fragsAt 1100 (l.flatMap (PStep.frags ofInt t)) = [Step.from_].map (Step.frag t) := by
    rw [at_base ofInt t 1100 (by decide), frags_at, p5]
  have f1200 : fragsAt 1200 (l.flatMap (PStep.frags ofInt t)) = ((condsOf (baseOf l)).map fun p => Step.cond p.1 p.2).map (Step.frag t) := by
    rw [at_base ofInt t 1200 (by decide), frags_at, conds_filter]
  have f1600 := at_order ofInt t l
  obtain ⟨f1700, f1800⟩ := at_page ofInt t l
  rw [hpg] at f1700 f1800
  simp only [List.map_cons, List.map_nil, List.flatMap_cons, List.flatMap_nil, List.append_nil] at f1700 f1800
  obtain ⟨l1, l2⟩ := limit_clause (α := α) nl posLimit b!"LIMIT ?" (by decide) (by decide) (ofInt (max s 1))
  obtain ⟨o1, o2⟩ := limit_clause (α := α) nl posOffset b!"OFFSET ?" (by decide) (by decide) (ofInt (skipOf p s))
  -- the clauses, one by one, as `" " ++ clause` when present
  generalize hH : b!"SELECT " ++ joinBytes b!", " (colsOf (baseOf l)) ++ b!" " ++ (if nl then b!"\n" else []) ++ b!"FROM " ++ t = H
  have key : (build .default nl st ((l.map (PStep.call t)).flatMap (PCall.expand ofInt))).render
        = H ++ whereText false nl 1 (condsOf (baseOf l)) ++ orderText nl (ordersOf l) ++ pageText false nl 1 p
      ∧ (build .default nl st ((l.map (PStep.call t)).flatMap (PCall.expand ofInt))).args = (condsOf (baseOf l)).map (·.2) ++ pageArgs ofInt p s := by
    have hlast : (H ++ whereText false nl 1 (condsOf (baseOf l)) ++ orderText nl (ordersOf l) ++ pageText false nl 1 p).getLast? = some 63 := by
      have := g4
      rw [raw_written _ 1, g3] at this
      rw [List.getLast?_append, this]; rfl
    constructor
    · rw [e1]
      refine Eq.trans ?_ (solid nl 83 63 (by rw [← hH]; simp) (by decide) hlast (by decide))
      congr 1
      have hne : (((colsOf (baseOf l)).map (Step.col (α := α))).map (Step.frag t)).isEmpty = false := by simpa using hcols
      have a1' := a1
      simp only [List.filter_cons, List.filter_nil, f900, f1100, f1200, f1600, f1700, f1800, hne, List.isEmpty_cons, List.map_cons, List.map_nil, Bool.not_false, if_true, List.isEmpty_map]
      have hwc : ∀ X : List Bytes, X ≠ [] → joinBytes b!" " ((clauseText nl ([Step.from_].map (Step.frag (α := α) t))) :: (if (!(condsOf (baseOf l)).isEmpty) = true
            then clauseText nl (((condsOf (baseOf l)).map fun p => Step.cond p.1 p.2).map (Step.frag t)) :: X else X))
          = (if nl then b!"\n" else []) ++ b!"FROM" ++ b!" " ++ t ++ whereText false nl 1 (condsOf (baseOf l)) ++ b!" " ++ joinBytes b!" " X := by
        intro X hX
        obtain ⟨x, X, rfl⟩ := List.exists_cons_of_ne_nil hX
        by_cases h0 : condsOf (baseOf l) = []
        · simp only [h0, List.isEmpty_nil, Bool.not_true, Bool.false_eq_true, if_false, whereText, if_true, List.append_nil]
          rw [a1, join_two]
          simp
        · have hce : (condsOf (baseOf l)).isEmpty = false := by simpa using h0
          obtain ⟨c1, c2⟩ := piece_conds nl t (baseOf l) h0
          simp only [hce, Bool.not_false, if_true, whereText, if_neg h0]
          rw [a1, c1, join_two, join_two]
          simp
      have hoc : ∀ X : List Bytes, X ≠ [] → b!" " ++ joinBytes b!" " (if (!(ordersOf l).isEmpty) = true
            then clauseText nl ((ordersOf l).map fun o => (⟨posOrderBy, b!"ORDER BY", orderItem o, [], b!", "⟩ : Frag α)) :: X else X)
          = orderText nl (ordersOf l) ++ b!" " ++ joinBytes b!" " X := by
        intro X hX
        obtain ⟨x, X, rfl⟩ := List.exists_cons_of_ne_nil hX
        by_cases h0 : ordersOf l = []
        · simp only [h0, List.isEmpty_nil, Bool.not_true, Bool.false_eq_true, if_false, orderText, if_true]
          simp
        · have hce : (ordersOf l).isEmpty = false := by simpa using h0
          obtain ⟨c1, c2⟩ := clause_join (α := α) nl b!"ORDER BY" b!", " (by decide) posOrderBy (by decide) ((ordersOf l).map fun o => (⟨posOrderBy, b!"ORDER BY", orderItem o, [], b!", "⟩ : Frag α)) (by simpa using h0) (by
            intro f hf
            simp only [List.mem_map] at hf
            obtain ⟨o, ho, rfl⟩ := hf
            exact ⟨rfl, rfl, rfl, (ho1 o ho).2⟩)
          simp only [hce, Bool.not_false, if_true, orderText, if_neg h0]
          rw [c1, join_two]
          simp [Function.comp_def]
      have hpc : b!" " ++ joinBytes b!" " (clauseText nl [(⟨posLimit, b!"LIMIT ?", [], [ofInt (max s 1)], []⟩ : Frag α)]
            :: (if (!(if 1 < p then [(⟨posOffset, b!"OFFSET ?", [], [ofInt (skipOf p s)], []⟩ : Frag α)] else []).isEmpty) = true
              then [clauseText nl (if 1 < p then [(⟨posOffset, b!"OFFSET ?", [], [ofInt (skipOf p s)], []⟩ : Frag α)] else [])] else [])) = pageText false nl 1 p := by
        by_cases hp : 1 < p
        · simp only [if_pos hp, List.isEmpty_cons, Bool.not_false, if_true, pageText]
          rw [join_two, l1, o1]
          simp [phText, joinBytes]
        · simp only [if_neg hp, List.isEmpty_nil, Bool.not_true, Bool.false_eq_true, if_false, pageText, joinBytes]
          rw [l1]
          simp [phText]
      generalize hP : (clauseText nl [(⟨posLimit, b!"LIMIT ?", [], [ofInt (max s 1)], []⟩ : Frag α)]
            :: (if (!(if 1 < p then [(⟨posOffset, b!"OFFSET ?", [], [ofInt (skipOf p s)], []⟩ : Frag α)] else []).isEmpty) = true
              then [clauseText nl (if 1 < p then [(⟨posOffset, b!"OFFSET ?", [], [ofInt (skipOf p s)], []⟩ : Frag α)] else [])] else [])) = P at hpc
      have hP0 : P ≠ [] := by rw [← hP]; simp
      generalize hO : (if (!(ordersOf l).isEmpty) = true
            then clauseText nl ((ordersOf l).map fun o => (⟨posOrderBy, b!"ORDER BY", orderItem o, [], b!", "⟩ : Frag α)) :: P else P) = O
      have hO0 : O ≠ [] := by rw [← hO]; split <;> simp [hP0]
      refine (congrArg (fun Y => joinBytes b!" " (clauseText nl (List.map (Step.frag t) (List.map Step.col (colsOf (baseOf l)))) :: clauseText nl [Step.frag t Step.from_] :: Y))
        (?_ : _ = if (!(condsOf (baseOf l)).isEmpty) = true then clauseText nl (((condsOf (baseOf l)).map fun p => Step.cond p.1 p.2).map (Step.frag t)) :: O else O)).trans ?_
      · rw [← hO, ← hP]
        cases (condsOf (baseOf l)).isEmpty <;> cases (ordersOf l).isEmpty <;> by_cases hp : 1 < p <;>
          simp only [hp, if_true, if_false, Bool.not_true, Bool.not_false, Bool.false_eq_true, List.isEmpty_nil, List.isEmpty_cons, List.map_cons, List.map_nil, f1200, f1600, f1700, f1800]
      · have hw := hwc O hO0
        have ho := hoc P hP0
        rw [hO] at ho
        simp only [List.map_cons, List.map_nil] at hw
        rw [show (∀ (a b : Bytes) Y, joinBytes b!" " (a :: b :: Y) = a ++ b!" " ++ joinBytes b!" " (b :: Y)) from fun a b Y => by rw [join_two]; simp]
        rw [hw, b1]
        have : b!" " ++ joinBytes b!" " O = orderText nl (ordersOf l) ++ pageText false nl 1 p := by rw [ho, List.append_assoc, hpc]
        rw [List.append_assoc _ b!" " (joinBytes b!" " O), this, ← hH]
        simp
    · rw [e2]
      simp only [List.flatMap_cons, List.flatMap_nil, f900, f1100, f1200, f1600, f1700, f1800, a2, b2, l2]
      have q1 : clauseArgs (((condsOf (baseOf l)).map fun p => Step.cond p.1 p.2).map (Step.frag t)) = (condsOf (baseOf l)).map (·.2) := by
        by_cases h0 : condsOf (baseOf l) = []
        · simp [h0, clauseArgs]
        · exact (piece_conds nl t (baseOf l) h0).2
      have q2 : clauseArgs ((ordersOf l).map fun o => (⟨posOrderBy, b!"ORDER BY", orderItem o, [], b!", "⟩ : Frag α)) = [] := by
        by_cases h0 : ordersOf l = []
        · simp [h0, clauseArgs]
        · rw [(clause_join (α := α) nl b!"ORDER BY" b!", " (by decide) posOrderBy (by decide) ((ordersOf l).map fun o => (⟨posOrderBy, b!"ORDER BY", orderItem o, [], b!", "⟩ : Frag α)) (by simpa using h0) (by
            intro f hf
            simp only [List.mem_map] at hf
            obtain ⟨o, ho, rfl⟩ := hf
            exact ⟨rfl, rfl, rfl, (ho1 o ho).2⟩)).2]
          rw [List.flatMap_map]
          simp
      rw [q1, q2]
      by_cases hp : 1 < p
      · rw [if_pos hp, o2, pageArgs, if_pos hp]; simp
      · rw [if_neg hp, pageArgs, if_neg hp]; simp [clauseArgs]
  let ts : List (Tok α) := lits H ++ (whereToks nl (condsOf (baseOf l)) ++ (lits (orderText nl (ordersOf l)) ++ pageToks ofInt nl p s))
  have hts : ∀ pg, Xsql.written pg 1 ts = H ++ whereText pg nl 1 (condsOf (baseOf l)) ++ orderText nl (ordersOf l) ++ pageText pg nl (1 + (condsOf (baseOf l)).length) p := by
    intro pg
    rw [show ts = _ from rfl, written_append, written_lits, written_append, w3, written_append, written_lits, g3, vals_lits, vals_lits, w2]
    simp
  have hv : vals ts = (condsOf (baseOf l)).map (·.2) ++ pageArgs ofInt p s := by
    rw [show ts = _ from rfl, vals_append, vals_lits, vals_append, w2, vals_append, vals_lits, g2]; rfl
  have hjq : (63 : UInt8) ∉ joinBytes b!", " (colsOf (baseOf l)) := join_no (by decide) fun c hc => (hcn c hc).2.1
  have hjo : (63 : UInt8) ∉ joinBytes b!", " ((ordersOf l).map orderItem) := join_no (by decide) fun c hc => by
    obtain ⟨o, ho, rfl⟩ := List.mem_map.1 hc
    exact (ho1 o ho).1
  have hoq : (63 : UInt8) ∉ orderText nl (ordersOf l) := by
    unfold orderText
    split
    · simp
    · cases nl <;> simp [hjo]
  have hol : (orderText nl (ordersOf l)).getLast? ≠ some 92 := by
    unfold orderText
    split
    · simp
    · rename_i h0
      have hl : ∀ L : List (Bytes × Bool), L ≠ [] → (∀ o ∈ L, o ∈ ordersOf l) → (joinBytes b!", " (L.map orderItem)).getLast? ≠ some 92 ∧ joinBytes b!", " (L.map orderItem) ≠ [] := by
        intro L
        induction L with
        | nil => intro h; exact absurd rfl h
        | cons a L ih =>
          intro _ hm
          have ha := orderItem_ok (α := α) (hon a (hm a (by simp))) a.2
          cases L with
          | nil => exact ⟨ha.2.2.1, ha.1⟩
          | cons b L =>
            obtain ⟨i1, i2⟩ := ih (by simp) (fun o ho => hm o (by simp [ho]))
            rw [List.map_cons, List.map_cons, join_two, ← List.map_cons, ← List.append_assoc]
            refine ⟨?_, by simp [i2]⟩
            rw [List.getLast?_append]
            cases hg : (joinBytes b!", " ((b :: L).map orderItem)).getLast? with
            | none => exact absurd (List.getLast?_eq_none_iff.1 hg) i2
            | some z => rw [hg] at i1; simpa using i1
      obtain ⟨i1, i2⟩ := hl (ordersOf l) h0 (fun o h => h)
      rw [List.getLast?_append]
      cases hg : (joinBytes b!", " ((ordersOf l).map orderItem)).getLast? with
      | none => exact absurd (List.getLast?_eq_none_iff.1 hg) i2
      | some z => rw [hg] at i1; simpa using i1
  have hwl : (raw (whereToks nl (condsOf (baseOf l)))).getLast? ≠ some 92 := by
    by_cases h0 : condsOf (baseOf l) = []
    · simp [whereToks, h0, raw]
    · rw [w4 h0]; decide
  have hcl : Clean ts := by
    refine (clean_lits _ ?_).append (w1.append ((clean_lits _ hoq).append g1 (by rw [raw_lits]; exact hol)) hwl) ?_
    · rw [← hH]
      have := ht.1
      cases nl <;> simp [this, hjq]
    · have := ht.2
      rw [raw_lits, ← hH, List.getLast?_append]
      cases hg : t.getLast? with
      | none => exact absurd (List.getLast?_eq_none_iff.1 hg) ht0
      | some z => rw [hg] at this; simpa using this
  obtain ⟨f1, f2⟩ := every_dialect d hc (ts := ts) hcl (by
    rw [key.1, raw_written ts 1, hts]
    simp only [whereText, texts_raw, pageText, phText, Bool.false_eq_true, if_false]) (by rw [key.2, hv])
  exact ⟨by rw [f1, hts], by rw [f2, hv]⟩

end Gen
