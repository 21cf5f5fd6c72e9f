import Verif.Base
set_option linter.unusedSimpArgs false
set_option linter.unusedVariables false
/-!
Model of the not-found errors (types.go:24-70, 677-701) and property C46.

Error values are trees.  `errors.Is` and `errors.As` are those of `github.com/cockroachdb/errors`: they look through single and
multiple causes, outermost first.
-/
namespace Types

/-- A non-nil Go `error`. -/
inductive Err where
  /-- `sql.ErrNoRows` (or a value the errors library identifies with it: same type and text). -/
  | noRows
  /-- An error with no cause. -/
  | leaf (msg : Bytes)
  /-- Any wrapper; `msg` is its whole `Error()` text, which may or may not mention the cause. -/
  | wrap (msg : Bytes) (cause : Err)
  /-- An error with two causes (`errors.Join`). -/
  | join (msg : Bytes) (a b : Err)
  /-- types.go:24-28 `*ErrorNotFound` without a cause. -/
  | notFound (id table : Bytes)
  /-- types.go:24-28 `*ErrorNotFound` with a cause. -/
  | notFoundOf (id table : Bytes) (cause : Err)
  deriving DecidableEq, Repr

/-- `Error()`; for `ErrorNotFound` types.go:30-32. -/
def errText : Err → Bytes
  | .noRows => b!"sql: no rows in result set"
  | .leaf m => m
  | .wrap m _ => m
  | .join m _ _ => m
  | .notFound id table => b!"record not found: " ++ table ++ b!": " ++ id
  | .notFoundOf id table _ => b!"record not found: " ++ table ++ b!": " ++ id

/-- `strings.Contains(s, sub)` (standard library). -/
def containsSub (sub : Bytes) : Bytes → Bool
  | [] => sub.isEmpty
  | c :: s => sub.isPrefixOf (c :: s) || containsSub sub s

/-- `err == sql.ErrNoRows || errors.Is(err, sql.ErrNoRows)`; `ErrorNotFound.Unwrap` (types.go:43-45) gives its cause, and
`ErrorNotFound.Is` (types.go:35-41) is false for a target that is not an `*ErrorNotFound`. -/
def isNoRows : Err → Bool
  | .noRows => true
  | .leaf _ => false
  | .wrap _ c => isNoRows c
  | .join _ a b => isNoRows a || isNoRows b
  | .notFound _ _ => false
  | .notFoundOf _ _ c => isNoRows c

/-- `errors.As(err, &notFound)`: id and table of the first `*ErrorNotFound` found. -/
def asNotFound : Err → Option (Bytes × Bytes)
  | .noRows => none
  | .leaf _ => none
  | .wrap _ c => asNotFound c
  | .join _ a b => (asNotFound a).or (asNotFound b)
  | .notFound i t => some (i, t)
  | .notFoundOf i t _ => some (i, t)

/-- `errors.WithStack(err)`: a wrapper with the same text; nil stays nil. -/
def withStack (e : Option Err) : Option Err := e.map fun e => .wrap (errText e) e

/-- types.go:47-62 `NewErrorNotFound`; `id` is the printed id. -/
def newErrorNotFound (e : Err) (table id : Bytes) : Err := .notFoundOf id table e

/-- The text looked for at types.go:66 and 700. -/
def noRowsText : Bytes := b!"no rows in result set"

/-- types.go:64-70 `CheckNotFoundError`. -/
def checkNotFoundError (e : Option Err) (table id : Bytes) : Option Err :=
  match e with
  | none => withStack none
  | some e =>
    if isNoRows e || containsSub noRowsText (errText e) then withStack (some (newErrorNotFound e table id)) else withStack (some e)

/-- types.go:678-701 `IsNotFoundError`. -/
def isNotFoundError (e : Option Err) : Bool :=
  match e with
  | none => false
  | some e => isNoRows e || (asNotFound e).isSome || containsSub noRowsText (errText e)

/-- types.go:35-41 `ErrorNotFound.Is`: the target's id and table if it is an `*ErrorNotFound`. -/
def errorNotFoundIs (id table : Bytes) (target : Option (Bytes × Bytes)) : Bool :=
  match target with
  | none => false
  | some (i, t) => table == t && id == i

/-! ### Specification -/

/-- `e` is, or has as a direct or indirect cause, `x`. -/
inductive Spec.Wraps : Err → Err → Prop
  | refl (e) : Wraps e e
  | wrap {m c x} : Wraps c x → Wraps (.wrap m c) x
  | joinL {m a b x} : Wraps a x → Wraps (.join m a b) x
  | joinR {m a b x} : Wraps b x → Wraps (.join m a b) x
  | notFound {i t c x} : Wraps c x → Wraps (.notFoundOf i t c) x

/-- The text of the error mentions the message of `sql.ErrNoRows`. -/
def Spec.MentionsNoRows (e : Err) : Prop := ∃ a b, errText e = a ++ b!"no rows in result set" ++ b

/-- `e` is or wraps a not-found error of this package. -/
def Spec.HasNotFound (e : Err) : Prop := ∃ i t, Spec.Wraps e (.notFound i t) ∨ ∃ c, Spec.Wraps e (.notFoundOf i t c)

theorem containsSub_iff (sub s : Bytes) : containsSub sub s = true ↔ ∃ a b, s = a ++ sub ++ b := by
  induction s with
  | nil =>
    simp only [containsSub, List.isEmpty_iff]
    constructor
    · rintro rfl; exact ⟨[], [], rfl⟩
    · rintro ⟨a, b, h⟩
      have := congrArg List.length h
      simp only [List.length_nil, List.length_append] at this
      exact List.length_eq_zero_iff.1 (by omega)
  | cons c s ih =>
    simp only [containsSub, Bool.or_eq_true, List.isPrefixOf_iff_prefix, ih]
    constructor
    · rintro (⟨b, hb⟩ | ⟨a, b, h⟩)
      · exact ⟨[], b, by rw [List.nil_append]; exact hb.symm⟩
      · exact ⟨c :: a, b, by rw [h]; rfl⟩
    · rintro ⟨a, b, h⟩
      cases a with
      | nil => exact Or.inl ⟨b, by rw [h]; rfl⟩
      | cons d a =>
        simp only [List.cons_append, List.cons.injEq] at h
        exact Or.inr ⟨a, b, h.2⟩

theorem isNoRows_iff (e : Err) : isNoRows e = true ↔ Spec.Wraps e .noRows := by
  induction e with
  | noRows => exact ⟨fun _ => .refl _, fun _ => rfl⟩
  | leaf m =>
    constructor
    · intro h; cases h
    · intro h; cases h
  | wrap m c ih =>
    simp only [isNoRows, ih]
    constructor
    · exact .wrap
    · intro h; cases h; assumption
  | join m a b iha ihb =>
    simp only [isNoRows, Bool.or_eq_true, iha, ihb]
    constructor
    · rintro (h | h)
      · exact .joinL h
      · exact .joinR h
    · intro h
      cases h
      · exact Or.inl (by assumption)
      · exact Or.inr (by assumption)
  | notFound i t =>
    constructor
    · intro h; cases h
    · intro h; cases h
  | notFoundOf i t c ih =>
    simp only [isNoRows, ih]
    constructor
    · exact .notFound
    · intro h; cases h; assumption

theorem asNotFound_isSome_iff (e : Err) : (asNotFound e).isSome = true ↔ Spec.HasNotFound e := by
  induction e with
  | noRows =>
    constructor
    · intro h; cases h
    · rintro ⟨i, t, h | ⟨c, h⟩⟩ <;> cases h
  | leaf m =>
    constructor
    · intro h; cases h
    · rintro ⟨i, t, h | ⟨c, h⟩⟩ <;> cases h
  | wrap m c ih =>
    simp only [asNotFound, ih]
    constructor
    · rintro ⟨i, t, h | ⟨c, h⟩⟩
      · exact ⟨i, t, Or.inl (.wrap h)⟩
      · exact ⟨i, t, Or.inr ⟨c, .wrap h⟩⟩
    · rintro ⟨i, t, h | ⟨c, h⟩⟩
      · cases h; exact ⟨i, t, Or.inl (by assumption)⟩
      · cases h; exact ⟨i, t, Or.inr ⟨_, by assumption⟩⟩
  | join m a b iha ihb =>
    simp only [asNotFound, Option.isSome_or, Bool.or_eq_true, iha, ihb]
    constructor
    · rintro (⟨i, t, h | ⟨c, h⟩⟩ | ⟨i, t, h | ⟨c, h⟩⟩)
      · exact ⟨i, t, Or.inl (.joinL h)⟩
      · exact ⟨i, t, Or.inr ⟨c, .joinL h⟩⟩
      · exact ⟨i, t, Or.inl (.joinR h)⟩
      · exact ⟨i, t, Or.inr ⟨c, .joinR h⟩⟩
    · rintro ⟨i, t, h | ⟨c, h⟩⟩
      · cases h
        · exact Or.inl ⟨i, t, Or.inl (by assumption)⟩
        · exact Or.inr ⟨i, t, Or.inl (by assumption)⟩
      · cases h
        · exact Or.inl ⟨i, t, Or.inr ⟨_, by assumption⟩⟩
        · exact Or.inr ⟨i, t, Or.inr ⟨_, by assumption⟩⟩
  | notFound i t => exact ⟨fun _ => ⟨i, t, Or.inl (.refl _)⟩, fun _ => rfl⟩
  | notFoundOf i t c ih => exact ⟨fun _ => ⟨i, t, Or.inr ⟨c, .refl _⟩⟩, fun _ => rfl⟩

/-! ### C46 -/

/-- C46 (recognition): `IsNotFoundError` holds exactly of the errors that are or wrap `sql.ErrNoRows`, are or wrap a not-found error,
or mention the text of `sql.ErrNoRows`. -/
theorem C46_is_not_found (e : Option Err) :
    isNotFoundError e = true ↔ ∃ x, e = some x ∧ (Spec.Wraps x .noRows ∨ Spec.MentionsNoRows x ∨ Spec.HasNotFound x) := by
  cases e with
  | none => simp [isNotFoundError]
  | some x =>
    simp only [isNotFoundError, Bool.or_eq_true, isNoRows_iff, asNotFound_isSome_iff, noRowsText, containsSub_iff, Option.some.injEq,
      exists_eq_left']
    unfold Spec.MentionsNoRows
    constructor
    · rintro ((h | h) | h)
      · exact Or.inl h
      · exact Or.inr (Or.inr h)
      · exact Or.inr (Or.inl h)
    · rintro (h | h | h)
      · exact Or.inl (Or.inl h)
      · exact Or.inr h
      · exact Or.inl (Or.inr h)

/-- C46 (check, then recognise): exactly the errors that were, wrapped or mentioned `sql.ErrNoRows`, or already were or wrapped a
not-found error, are recognised after `CheckNotFoundError`. -/
theorem C46_check_recognised (e : Option Err) (table id : Bytes) :
    isNotFoundError (checkNotFoundError e table id) = true ↔
      ∃ x, e = some x ∧ (Spec.Wraps x .noRows ∨ Spec.MentionsNoRows x ∨ Spec.HasNotFound x) := by
  rw [C46_is_not_found]
  cases e with
  | none => simp [checkNotFoundError, withStack]
  | some x =>
    simp only [checkNotFoundError]
    by_cases h : (isNoRows x || containsSub noRowsText (errText x)) = true
    · rw [if_pos h]
      have hx : Spec.Wraps x .noRows ∨ Spec.MentionsNoRows x := by
        rw [Bool.or_eq_true, isNoRows_iff, noRowsText, containsSub_iff] at h; exact h
      constructor
      · intro _
        refine ⟨x, rfl, ?_⟩
        rcases hx with hx | hx
        · exact Or.inl hx
        · exact Or.inr (Or.inl hx)
      · intro _
        exact ⟨_, rfl, Or.inr (Or.inr ⟨id, table, Or.inr ⟨x, .wrap (.refl _)⟩⟩)⟩
    · rw [if_neg h]
      simp only [withStack, Option.map_some, Option.some.injEq, exists_eq_left']
      constructor
      · rintro (h | h | ⟨i, t, h | ⟨c, h⟩⟩)
        · cases h; exact Or.inl (by assumption)
        · exact Or.inr (Or.inl h)
        · cases h; exact Or.inr (Or.inr ⟨i, t, Or.inl (by assumption)⟩)
        · cases h; exact Or.inr (Or.inr ⟨i, t, Or.inr ⟨_, by assumption⟩⟩)
      · rintro (h | h | ⟨i, t, h | ⟨c, h⟩⟩)
        · exact Or.inl (.wrap h)
        · exact Or.inr (Or.inl h)
        · exact Or.inr (Or.inr ⟨i, t, Or.inl (.wrap h)⟩)
        · exact Or.inr (Or.inr ⟨i, t, Or.inr ⟨c, .wrap h⟩⟩)

/-- C46 (contents): when the error was, wrapped or mentioned `sql.ErrNoRows`, the not-found error found in the result carries the given
table and id, and the original error is still among its causes; any other error keeps its text and only gains a stack wrapper; nil stays
nil and only nil becomes nil. -/
theorem C46_check_contents (e : Option Err) (table id : Bytes) :
    (e = none ↔ checkNotFoundError e table id = none)
    ∧ (∀ x, e = some x → Spec.Wraps x .noRows ∨ Spec.MentionsNoRows x →
        ∃ r, checkNotFoundError e table id = some r ∧ asNotFound r = some (id, table) ∧ Spec.Wraps r x)
    ∧ (∀ x, e = some x → ¬ (Spec.Wraps x .noRows ∨ Spec.MentionsNoRows x) →
        ∃ r, checkNotFoundError e table id = some r ∧ errText r = errText x ∧ asNotFound r = asNotFound x
          ∧ ∀ y, Spec.Wraps x y → Spec.Wraps r y) := by
  refine ⟨?_, ?_, ?_⟩
  · cases e with
    | none => simp [checkNotFoundError, withStack]
    | some x =>
      simp only [checkNotFoundError, withStack, Option.map_some, reduceCtorEq, false_iff]
      split <;> simp
  · rintro x rfl hx
    have h : (isNoRows x || containsSub noRowsText (errText x)) = true := by
      rw [Bool.or_eq_true, isNoRows_iff, noRowsText, containsSub_iff]; exact hx
    refine ⟨_, by simp only [checkNotFoundError]; rw [if_pos h]; rfl, rfl, .wrap (.notFound (.refl _))⟩
  · rintro x rfl hx
    have h : ¬ (isNoRows x || containsSub noRowsText (errText x)) = true := by
      rw [Bool.or_eq_true, isNoRows_iff, noRowsText, containsSub_iff]; exact hx
    refine ⟨.wrap (errText x) x, by simp only [checkNotFoundError]; rw [if_neg h]; rfl, rfl, rfl, fun y hy => .wrap hy⟩

/-- Texts up to a separator that does not occur in them. -/
theorem text_cut (z : UInt8) : ∀ (a b x y : Bytes), z ∉ a → z ∉ b → a ++ z :: x = b ++ z :: y → a = b ∧ x = y
  | [], [], _, _, _, _, h => ⟨rfl, (List.cons.inj h).2⟩
  | [], c :: b, _, _, _, hb, h => absurd (by rw [(List.cons.inj h).1]; exact List.mem_cons_self) hb
  | c :: a, [], _, _, ha, _, h => absurd (by rw [(List.cons.inj h).1]; exact List.mem_cons_self) ha
  | c :: a, d :: b, x, y, ha, hb, h => by
    obtain ⟨h1, h2⟩ := List.cons.inj h
    obtain ⟨e1, e2⟩ := text_cut z a b x y (fun m => ha (List.mem_cons_of_mem _ m)) (fun m => hb (List.mem_cons_of_mem _ m)) h2
    exact ⟨by rw [h1, e1], e2⟩

/-- C46 (text): a not-found error says which record of which table, with or without a cause, and so does what `CheckNotFoundError` makes of a no-rows error; for table names without a
colon the text determines both. -/
theorem C46_text (id table : Bytes) :
    (∀ e, errText (newErrorNotFound e table id) = b!"record not found: " ++ table ++ b!": " ++ id)
    ∧ errText (.notFound id table) = b!"record not found: " ++ table ++ b!": " ++ id
    ∧ (∀ x r, Spec.Wraps x .noRows ∨ Spec.MentionsNoRows x → checkNotFoundError (some x) table id = some r → errText r = b!"record not found: " ++ table ++ b!": " ++ id)
    ∧ (∀ id' table' c c', c!":" ∉ table → c!":" ∉ table' → errText (.notFoundOf id table c) = errText (.notFoundOf id' table' c') → table = table' ∧ id = id') := by
  refine ⟨fun _ => rfl, rfl, ?_, ?_⟩
  · intro x r hx hr
    have h : (isNoRows x || containsSub noRowsText (errText x)) = true := by
      rw [Bool.or_eq_true, isNoRows_iff, noRowsText, containsSub_iff]; exact hx
    simp only [checkNotFoundError] at hr
    rw [if_pos h] at hr
    cases hr
    rfl
  · intro id' table' c c' h1 h2 h
    simp only [errText, List.append_assoc] at h
    have h := List.append_cancel_left h
    obtain ⟨e1, e2⟩ := text_cut _ _ _ _ _ h1 h2 h
    exact ⟨e1, (List.cons.inj e2).2⟩

/-- C46 (comparison): two not-found errors are the same for `errors.Is` iff table and id agree. -/
theorem C46_is_by_table_and_id (id table : Bytes) (target : Option (Bytes × Bytes)) :
    errorNotFoundIs id table target = true ↔ target = some (id, table) := by
  cases target with
  | none => simp [errorNotFoundIs]
  | some p =>
    obtain ⟨i, t⟩ := p
    simp only [errorNotFoundIs, Bool.and_eq_true, beq_iff_eq, Option.some.injEq, Prod.mk.injEq]
    constructor
    · rintro ⟨rfl, rfl⟩; exact ⟨rfl, rfl⟩
    · rintro ⟨rfl, rfl⟩; exact ⟨rfl, rfl⟩

example : Spec.Wraps (.wrap b!"query failed" (.join b!"two" (.leaf b!"x") .noRows)) .noRows := .wrap (.joinR (.refl _))
example : isNotFoundError (checkNotFoundError (some (.wrap b!"q" .noRows)) b!"users" b!"7") = true
    ∧ isNotFoundError (checkNotFoundError (some (.leaf b!"ORA: no rows in result set (1)")) b!"users" b!"7") = true
    ∧ isNotFoundError (checkNotFoundError (some (.leaf b!"timeout")) b!"users" b!"7") = false := by decide +kernel

end Types
