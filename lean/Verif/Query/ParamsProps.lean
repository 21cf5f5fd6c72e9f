import Verif.Query.Params
import Verif.Util
import Mathlib.Tactic.Tauto
import Mathlib.Tactic.ByContra
/-
C41, C42: what the parameter builder reports is what was set.
-/
set_option linter.unusedSimpArgs false
set_option linter.unusedVariables false
set_option linter.unusedSectionVars false
namespace Query
variable {V : Type} [DecidableEq V]

/-! ### Specification -/

/-- The calls made after the last `Reset`. -/
def sinceReset (ops : List (POp V)) : List (POp V) :=
  ops.foldl (fun acc o => match o with | .reset => [] | o => acc ++ [o]) []

/-- The page size used: 500 when 0 is asked for. -/
def pageSize (limit : UInt32) : UInt32 := if limit = 0 then 500 else limit

/-- The arguments a call contributes. -/
def POp.args : POp V → List (Arg V)
  | .set _ v => [v]
  | .addArgs vs => vs
  | .setPage l o => [.u32 (pageSize l), .u32 o]
  | .setCursor l _ c => [c, .u32 (pageSize l)]
  | _ => []

/-- The position a call sets. -/
def POp.pos : POp V → Option UInt32
  | .set p _ => some p
  | .setEnum p _ => some p
  | .setCursor _ p _ => some p
  | _ => none

/-- The call asks for a page. -/
def POp.pages : POp V → Bool
  | .setPage _ _ => true
  | .setCursor _ _ _ => true
  | _ => false

/-- The call adds a parameter (and is therefore refused after paging). -/
def POp.adds : POp V → Bool
  | .set _ _ => true
  | .setEnum _ _ => true
  | .addArgs _ => true
  | .setPage _ _ => true
  | .setCursor _ _ _ => true
  | _ => false

/-! ### Lemmas -/

omit [DecidableEq V] in
theorem sinceReset_snoc (ops : List (POp V)) (o : POp V) :
    sinceReset (ops ++ [o]) = match o with | .reset => [] | o => sinceReset ops ++ [o] := by
  simp [sinceReset, List.foldl_append]

theorem run_snoc (H : Bytes → UInt64) (b : Builder V) (ops : List (POp V)) (o : POp V) :
    b.run H (ops ++ [o]) = (b.run H ops).bind fun b => b.step H o := by
  simp [Builder.run, List.foldlM_append]

theorem coalesce_eq (l : UInt32) : coalesce l defaultPageSize = pageSize l := by
  unfold coalesce pageSize defaultPageSize
  by_cases h : l = 0 <;> simp [h]

theorem pageSize_pos (l : UInt32) : pageSize l > 0 := by
  unfold pageSize
  split
  · decide
  · rename_i h
    rw [gt_iff_lt, UInt32.lt_iff_toNat_lt]
    have : l.toNat ≠ 0 := fun h0 => h (UInt32.toNat.inj (by simpa using h0))
    simpa using Nat.pos_of_ne_zero this

/-- What a history that did not panic leaves in the builder. -/
structure Tracks (b : Builder V) (ops : List (POp V)) : Prop where
  args : b.args = (sinceReset ops).flatMap POp.args
  limit : b.limit > 0 ↔ ∃ o ∈ sinceReset ops, o.pages = true
  positions : ∀ i, b.positions.getLsbD i = true ↔ ∃ o ∈ sinceReset ops, ∃ p, o.pos = some p ∧ p.toNat = i
  posOK : ∀ o ∈ sinceReset ops, ∀ p, o.pos = some p → p ≤ 63
  enums : b.enums = (sinceReset ops).filterMap fun | .setEnum p v => some ⟨p, v⟩ | _ => none
  flags : b.flags = (((sinceReset ops).filterMap fun | .setFlags fs => some fs | _ => none).getLast?).getD []

theorem bit_getLsbD (p : UInt32) (i : Nat) (hp : p.toNat < 64) : (bit p).getLsbD i = decide (p.toNat = i) := by
  unfold bit
  simp only [BitVec.getLsbD_shiftLeft, BitVec.getLsbD_one]
  by_cases h : p.toNat = i
  · subst h; simp [hp]
  · simp only [h, decide_false, Bool.and_eq_false_iff, decide_eq_false_iff_not, Bool.not_eq_false', decide_eq_true_eq]
    by_cases h1 : i < 64
    · by_cases h2 : i < p.toNat
      · simp [h2]
      · simp; omega
    · simp; omega

theorem toNat_le63 {p : UInt32} (h : ¬ p > 63) : p.toNat < 64 := by
  rw [gt_iff_lt, UInt32.lt_iff_toNat_lt] at h
  have : (63 : UInt32).toNat = 63 := rfl
  omega

theorem step_tracks (H : Bytes → UInt64) (b b' : Builder V) (ops : List (POp V)) (o : POp V) (ht : Tracks b ops)
    (hs : b.step H o = some b') : Tracks b' (ops ++ [o]) := by
  cases o with
  | reset =>
    simp only [Builder.step, Option.some.injEq] at hs
    subst hs
    constructor <;> simp [sinceReset_snoc, Builder.reset]
  | name =>
    simp only [Builder.step, Option.some.injEq] at hs
    have e : b'.args = b.args ∧ b'.limit = b.limit ∧ b'.positions = b.positions ∧ b'.enums = b.enums ∧ b'.flags = b.flags := by
      subst hs; unfold Builder.name; split <;> simp
    obtain ⟨e1, e2, e3, e4, e5⟩ := e
    constructor
    · rw [e1, ht.args]; simp [sinceReset_snoc, POp.args]
    · rw [e2, ht.limit]; simp [sinceReset_snoc, POp.pages]
    · intro i; rw [e3, ht.positions]; simp [sinceReset_snoc, POp.pos, or_and_right, exists_or]
    · intro o ho; simp only [sinceReset_snoc, List.mem_append, List.mem_singleton] at ho
      rcases ho with ho | rfl
      · exact ht.posOK o ho
      · intro p hp; simp [POp.pos] at hp
    · rw [e4, ht.enums]; simp [sinceReset_snoc]
    · rw [e5, ht.flags]; simp [sinceReset_snoc]
  | setFlags fs =>
    simp only [Builder.step, Option.some.injEq, Builder.setFlags] at hs
    subst hs
    constructor
    · simp [sinceReset_snoc, POp.args, ht.args]
    · simp [sinceReset_snoc, POp.pages, ht.limit]
    · intro i; simp [sinceReset_snoc, POp.pos, ht.positions, or_and_right, exists_or]
    · intro o ho; simp only [sinceReset_snoc, List.mem_append, List.mem_singleton] at ho
      rcases ho with ho | rfl
      · exact ht.posOK o ho
      · intro p hp; simp [POp.pos] at hp
    · simp [sinceReset_snoc, ht.enums]
    · simp [sinceReset_snoc]
  | setNullColumns cs =>
    simp only [Builder.step, Option.some.injEq, Builder.setNullColumns] at hs
    subst hs
    constructor
    · simp [sinceReset_snoc, POp.args, ht.args]
    · simp [sinceReset_snoc, POp.pages, ht.limit]
    · intro i; simp [sinceReset_snoc, POp.pos, ht.positions, or_and_right, exists_or]
    · intro o ho; simp only [sinceReset_snoc, List.mem_append, List.mem_singleton] at ho
      rcases ho with ho | rfl
      · exact ht.posOK o ho
      · intro p hp; simp [POp.pos] at hp
    · simp [sinceReset_snoc, ht.enums]
    · simp [sinceReset_snoc, ht.flags]
  | addArgs vs =>
    simp only [Builder.step, Builder.addArgs] at hs
    split at hs
    · cases hs
    simp only [Option.some.injEq] at hs
    subst hs
    constructor
    · simp [sinceReset_snoc, POp.args, ht.args]
    · simp [sinceReset_snoc, POp.pages, ht.limit]
    · intro i; simp [sinceReset_snoc, POp.pos, ht.positions, or_and_right, exists_or]
    · intro o ho; simp only [sinceReset_snoc, List.mem_append, List.mem_singleton] at ho
      rcases ho with ho | rfl
      · exact ht.posOK o ho
      · intro p hp; simp [POp.pos] at hp
    · simp [sinceReset_snoc, ht.enums]
    · simp [sinceReset_snoc, ht.flags]
  | setPage l o =>
    simp only [Builder.step, Builder.setPage] at hs
    split at hs
    · cases hs
    simp only [Option.some.injEq] at hs
    subst hs
    constructor
    · simp [sinceReset_snoc, POp.args, ht.args, coalesce_eq]
    · simp only [coalesce_eq, sinceReset_snoc]
      constructor
      · intro _; exact ⟨.setPage l o, by simp, rfl⟩
      · intro _; exact pageSize_pos l
    · intro i; simp [sinceReset_snoc, POp.pos, ht.positions, or_and_right, exists_or]
    · intro o ho; simp only [sinceReset_snoc, List.mem_append, List.mem_singleton] at ho
      rcases ho with ho | rfl
      · exact ht.posOK o ho
      · intro p hp; simp [POp.pos] at hp
    · simp [sinceReset_snoc, ht.enums]
    · simp [sinceReset_snoc, ht.flags]
  | set pos v =>
    simp only [Builder.step, Builder.set] at hs
    split at hs
    · cases hs
    rename_i hp
    split at hs
    · cases hs
    simp only [Option.some.injEq] at hs
    subst hs
    constructor
    · simp [sinceReset_snoc, POp.args, ht.args]
    · simp [sinceReset_snoc, POp.pages, ht.limit]
    · intro i
      simp only [sinceReset_snoc, BitVec.getLsbD_or, Bool.or_eq_true, ht.positions, bit_getLsbD _ _ (toNat_le63 hp), decide_eq_true_eq,
        List.mem_append, List.mem_singleton, or_and_right, exists_or, exists_eq_left, POp.pos, Option.some.injEq, exists_eq_left']
    · intro o ho; simp only [sinceReset_snoc, List.mem_append, List.mem_singleton] at ho
      rcases ho with ho | rfl
      · exact ht.posOK o ho
      · intro p hp'; simp [POp.pos] at hp'; subst hp'; simpa using hp
    · simp [sinceReset_snoc, ht.enums]
    · simp [sinceReset_snoc, ht.flags]
  | setEnum pos v =>
    simp only [Builder.step, Builder.setEnum] at hs
    split at hs
    · cases hs
    rename_i hp
    split at hs
    · cases hs
    simp only [Option.some.injEq] at hs
    subst hs
    constructor
    · simp [sinceReset_snoc, POp.args, ht.args]
    · simp [sinceReset_snoc, POp.pages, ht.limit]
    · intro i
      simp only [sinceReset_snoc, BitVec.getLsbD_or, Bool.or_eq_true, ht.positions, bit_getLsbD _ _ (toNat_le63 hp), decide_eq_true_eq,
        List.mem_append, List.mem_singleton, or_and_right, exists_or, exists_eq_left, POp.pos, Option.some.injEq, exists_eq_left']
    · intro o ho; simp only [sinceReset_snoc, List.mem_append, List.mem_singleton] at ho
      rcases ho with ho | rfl
      · exact ht.posOK o ho
      · intro p hp'; simp [POp.pos] at hp'; subst hp'; simpa using hp
    · simp [sinceReset_snoc, ht.enums]
    · simp [sinceReset_snoc, ht.flags]
  | setCursor l pos c =>
    simp only [Builder.step, Builder.setCursor, Builder.set] at hs
    split at hs
    · cases hs
    rename_i hp
    split at hs
    · cases hs
    simp only [Option.map_some, Option.some.injEq] at hs
    subst hs
    constructor
    · simp [sinceReset_snoc, POp.args, ht.args, coalesce_eq]
    · simp only [coalesce_eq, sinceReset_snoc]
      constructor
      · intro _; exact ⟨.setCursor l pos c, by simp, rfl⟩
      · intro _; exact pageSize_pos l
    · intro i
      simp only [sinceReset_snoc, BitVec.getLsbD_or, Bool.or_eq_true, ht.positions, bit_getLsbD _ _ (toNat_le63 hp), decide_eq_true_eq,
        List.mem_append, List.mem_singleton, or_and_right, exists_or, exists_eq_left, POp.pos, Option.some.injEq, exists_eq_left']
    · intro o ho; simp only [sinceReset_snoc, List.mem_append, List.mem_singleton] at ho
      rcases ho with ho | rfl
      · exact ht.posOK o ho
      · intro p hp'; simp [POp.pos] at hp'; subst hp'; simpa using hp
    · simp [sinceReset_snoc, ht.enums]
    · simp [sinceReset_snoc, ht.flags]

theorem run_tracks (H : Bytes → UInt64) (qn : Bytes) (ops : List (POp V)) : ∀ b, (new qn).run H ops = some b → Tracks b ops := by
  induction ops using List.snocRec with
  | nil =>
    intro b h
    simp only [Builder.run, List.foldlM_nil, Option.pure_def, Option.some.injEq] at h
    subst h
    constructor <;> simp [sinceReset, new]
  | snoc ops o ih =>
    intro b h
    rw [run_snoc] at h
    cases hr : (new qn : Builder V).run H ops with
    | none => simp [hr] at h
    | some b0 =>
      rw [hr] at h
      exact step_tracks H b0 b ops o (ih b0 hr) h

/-! ### C41 -/

/-- Args() is the concatenation, in call order, of what each call since the last Reset passed. -/
theorem C41_args_in_call_order (H : Bytes → UInt64) (qn : Bytes) (ops : List (POp V)) (b : Builder V)
    (h : (new qn).run H ops = some b) : b.args = (sinceReset ops).flatMap POp.args :=
  (run_tracks H qn ops b h).args

/-- A call that adds a parameter panics exactly when a page or cursor was already set since the last Reset, or its position is
above 63; so after paging nothing can be appended. -/
theorem C41_adding_after_paging_panics (H : Bytes → UInt64) (qn : Bytes) (ops : List (POp V)) (b : Builder V)
    (h : (new qn).run H ops = some b) (o : POp V) :
    b.step H o = none ↔
      o.adds = true ∧ ((∃ o' ∈ sinceReset ops, o'.pages = true) ∨ ∃ p, o.pos = some p ∧ 63 < p) := by
  have ht := run_tracks H qn ops b h
  rw [← ht.limit]
  cases o <;> simp only [Builder.step, Builder.set, Builder.setEnum, Builder.setPage, Builder.setCursor, Builder.addArgs, POp.adds, POp.pos,
    reduceCtorEq, false_and, true_and, false_iff, not_false_eq_true, Option.some.injEq, exists_eq_left', exists_false, or_false,
    Bool.false_eq_true]
  all_goals
    by_cases h1 : b.limit > 0 <;> simp only [h1, if_true, if_false, iff_true, or_true, true_or, false_or, reduceCtorEq,
      Option.map_none, Option.map_some]
  all_goals
    split <;> simp_all

/-- Hence limit and offset (cursor and limit) are the last two arguments, for every history in which a page (cursor) was set. -/
theorem C41_paging_args_last (H : Bytes → UInt64) (qn : Bytes) (ops : List (POp V)) (b : Builder V)
    (h : (new qn).run H ops = some b) :
    (∀ l o, .setPage l o ∈ sinceReset ops → ∃ pre, b.args = pre ++ [.u32 (pageSize l), .u32 o] ∧ b.page = (pageSize l, o)) ∧
    (∀ l p c, .setCursor l p c ∈ sinceReset ops → ∃ pre, b.args = pre ++ [c, .u32 (pageSize l)] ∧ b.getCursor = (pageSize l, c)) := by
  induction ops using List.snocRec generalizing b with
  | nil => simp [sinceReset]
  | snoc ops o ih =>
    rw [run_snoc] at h
    cases hr : (new qn : Builder V).run H ops with
    | none => simp [hr] at h
    | some b0 =>
      rw [hr] at h
      simp only [Option.bind_some] at h
      have hnone := C41_adding_after_paging_panics H qn ops b0 hr o
      obtain ⟨ih1, ih2⟩ := ih b0 hr
      -- once paged, only calls that keep the arguments and the page are possible
      have keep : (∃ o' ∈ sinceReset ops, o'.pages = true) → o ≠ .reset → b.args = b0.args ∧ b.page = b0.page ∧ b.getCursor = b0.getCursor := by
        intro hp hreset
        have hna : o.adds = false := by
          cases ha : o.adds with
          | false => rfl
          | true => rw [hnone.2 ⟨ha, .inl hp⟩] at h; cases h
        cases o <;> simp [POp.adds] at hna hreset ⊢
        · simp only [Builder.step, Builder.setFlags, Option.some.injEq] at h; subst h; exact ⟨rfl, rfl, rfl⟩
        · simp only [Builder.step, Builder.setNullColumns, Option.some.injEq] at h; subst h; exact ⟨rfl, rfl, rfl⟩
        · simp only [Builder.step, Option.some.injEq] at h; subst h; unfold Builder.name; split <;> exact ⟨rfl, rfl, rfl⟩
      constructor
      · intro l off hm
        by_cases hreset : o = .reset
        · subst hreset; simp [sinceReset_snoc] at hm
        have hm' : POp.setPage l off ∈ sinceReset ops ∨ POp.setPage l off = o := by
          rw [sinceReset_snoc] at hm
          cases o <;> simp at hm hreset ⊢ <;> tauto
        rcases hm' with hm' | rfl
        · obtain ⟨k1, k2, _⟩ := keep ⟨_, hm', rfl⟩ hreset
          rw [k1, k2]; exact ih1 l off hm'
        · simp only [Builder.step, Builder.setPage] at h
          split at h
          · cases h
          simp only [Option.some.injEq, coalesce_eq] at h
          subst h
          exact ⟨b0.args, rfl, rfl⟩
      · intro l p c hm
        by_cases hreset : o = .reset
        · subst hreset; simp [sinceReset_snoc] at hm
        have hm' : POp.setCursor l p c ∈ sinceReset ops ∨ POp.setCursor l p c = o := by
          rw [sinceReset_snoc] at hm
          cases o <;> simp at hm hreset ⊢ <;> tauto
        rcases hm' with hm' | rfl
        · obtain ⟨k1, _, k3⟩ := keep ⟨_, hm', rfl⟩ hreset
          rw [k1, k3]; exact ih2 l p c hm'
        · simp only [Builder.step, Builder.setCursor, Builder.set] at h
          split at h
          · cases h
          split at h
          · cases h
          simp only [Option.map_some, Option.some.injEq, coalesce_eq] at h
          subst h
          exact ⟨b0.args, by simp, rfl⟩

theorem step_queryName (H : Bytes → UInt64) {b b' : Builder V} {o : POp V} (h : b.step H o = some b') : b'.queryName = b.queryName := by
  cases o <;> simp only [Builder.step, Builder.set, Builder.setEnum, Builder.setPage, Builder.setCursor, Builder.addArgs, Builder.name,
    Builder.reset, Builder.setFlags, Builder.setNullColumns] at h
  all_goals (repeat' split at h) <;> (try cases h) <;> rfl

theorem run_queryName (H : Bytes → UInt64) (ops : List (POp V)) : ∀ {b b' : Builder V}, b.run H ops = some b' → b'.queryName = b.queryName := by
  induction ops with
  | nil => intro b b' h; cases h; rfl
  | cons o ops ih =>
    intro b b' h
    simp only [Builder.run, List.foldlM_cons] at h
    obtain ⟨b1, h1, h2⟩ := Option.bind_eq_some_iff.1 h
    rw [ih (b := b1) h2, step_queryName H h1]

/-- After a Reset the builder is as new, except for the NULL columns: name, page, cursor, arguments, positions, enums and flags are
those of a builder that has just been made. -/
theorem C41_reset_starts_over (H : Bytes → UInt64) (qn : Bytes) (ops : List (POp V)) (b : Builder V)
    (h : (new qn).run H (ops ++ [.reset]) = some b) :
    b = { (new qn : Builder V) with nullColumns := b.nullColumns } ∧ b.page = (0, 0) ∧ b.getCursor = (0, .nil) ∧ b.args = [] := by
  rw [run_snoc] at h
  obtain ⟨b0, h0, h1⟩ := Option.bind_eq_some_iff.1 h
  simp only [Builder.step, Builder.reset, Option.some.injEq] at h1
  subst h1
  have := run_queryName H ops h0
  refine ⟨?_, rfl, rfl, rfl⟩
  simp only [new] at this ⊢
  rw [this]

/-- Without SetPage or SetCursor since the last Reset there is no page and no cursor; SetPage leaves no cursor behind, SetCursor no
offset. -/
theorem C41_page_and_cursor (H : Bytes → UInt64) (qn : Bytes) (ops : List (POp V)) (b : Builder V) (h : (new qn).run H ops = some b) :
    b.offset = ((sinceReset ops).findSome? fun | .setPage _ o => some o | _ => none).getD 0 ∧
    b.cursor = ((sinceReset ops).findSome? fun | .setCursor _ _ c => some c | _ => none).getD .nil ∧
    b.limit = ((sinceReset ops).findSome? fun | .setPage l _ | .setCursor l _ _ => some (pageSize l) | _ => none).getD 0 := by
  induction ops using List.snocRec generalizing b with
  | nil => cases h; exact ⟨rfl, rfl, rfl⟩
  | snoc ops o ih =>
    rw [run_snoc] at h
    obtain ⟨b0, h0, h1⟩ := Option.bind_eq_some_iff.1 h
    obtain ⟨i1, i2, i3⟩ := ih b0 h0
    by_cases hr : o = .reset
    · subst hr
      have e : sinceReset (ops ++ [.reset]) = ([] : List (POp V)) := by rw [sinceReset_snoc]
      simp only [Builder.step, Builder.reset, Option.some.injEq] at h1
      subst h1
      rw [e]; exact ⟨rfl, rfl, rfl⟩
    · have e : sinceReset (ops ++ [o]) = sinceReset ops ++ [o] := by
        rw [sinceReset_snoc]; cases o <;> simp at hr ⊢
      have hnone := C41_adding_after_paging_panics H qn ops b0 h0 o
      -- a paging call is only possible when there was none before
      have hfirst : o.adds = true → ∀ o' ∈ sinceReset ops, o'.pages = false := by
        intro ha o' ho'
        cases hp : o'.pages with
        | false => rfl
        | true => rw [hnone.2 ⟨ha, .inl ⟨o', ho', hp⟩⟩] at h1; cases h1
      have nopage : o.adds = true → (sinceReset ops).findSome? (fun | .setPage _ o => some o | _ => none) = none ∧
          (sinceReset ops).findSome? (fun | .setCursor _ _ c => some c | _ => none) = none ∧
          (sinceReset ops).findSome? (fun | .setPage l _ | .setCursor l _ _ => some (pageSize l) | _ => none) = none := by
        intro ha
        refine ⟨List.findSome?_eq_none_iff.2 fun o' ho' => ?_, List.findSome?_eq_none_iff.2 fun o' ho' => ?_,
          List.findSome?_eq_none_iff.2 fun o' ho' => ?_⟩ <;>
        (have := hfirst ha o' ho'; cases o' <;> simp [POp.pages] at this ⊢)
      rw [e, List.findSome?_append, List.findSome?_append, List.findSome?_append]
      cases o with
      | reset => exact absurd rfl hr
      | setPage l off =>
        obtain ⟨n1, n2, n3⟩ := nopage rfl
        rw [n1, n2, n3]
        simp only [Builder.step, Builder.setPage] at h1
        split at h1
        · cases h1
        simp only [Option.some.injEq, coalesce_eq] at h1
        subst h1
        exact ⟨rfl, by rw [n2] at i2; exact i2, rfl⟩
      | setCursor l p c =>
        obtain ⟨n1, n2, n3⟩ := nopage rfl
        rw [n1, n2, n3]
        simp only [Builder.step, Builder.setCursor, Builder.set] at h1
        split at h1
        · cases h1
        split at h1
        · cases h1
        simp only [Option.map_some, Option.some.injEq, coalesce_eq] at h1
        subst h1
        exact ⟨by rw [n1] at i1; exact i1, rfl, rfl⟩
      | _ =>
        simp only [List.findSome?_cons, List.findSome?_nil, Option.or_none]
        rw [← i1, ← i2, ← i3]
        simp only [Builder.step, Builder.set, Builder.setEnum, Builder.addArgs, Builder.name, Builder.setFlags, Builder.setNullColumns] at h1
        (repeat' split at h1) <;> (try cases h1) <;> exact ⟨rfl, rfl, rfl⟩

/-- A history with every kind of call. -/
def sampleOps : List (POp Nat) :=
  [.set 9 (.other 1), .reset, .set 3 (.other 7), .setEnum 5 (-2), .setEnum 5 4, .setFlags [1, -26], .addArgs [.int 2, .nil],
   .setNullColumns [b!"b", b!"a"], .setPage 0 20, .name]

/-- A hash function for examples. -/
def sampleHash : Bytes → UInt64 := fun s => s.foldl (fun h c => h * 31 + c.toUInt64) 7

example : ((new b!"q").run sampleHash sampleOps).map (·.args) =
    some [.other 7, .int 2, .nil, .u32 500, .u32 20] := by decide +kernel
example : ((new b!"q").run sampleHash (sampleOps ++ [.set 4 (.other 1)])).isNone = true := by decide +kernel
example : ((new b!"q").run sampleHash (sampleOps ++ [.reset, .set 4 (.other 1)])).isSome = true := by decide +kernel

/-! ### C42 -/

/-- IsSet(pos) is true exactly when a call since the last Reset set that position; no position above 63 is ever reported. -/
theorem C42_is_set (H : Bytes → UInt64) (qn : Bytes) (ops : List (POp V)) (b : Builder V) (h : (new qn).run H ops = some b)
    (pos : UInt32) :
    (b.isSet pos = true ↔ ∃ o ∈ sinceReset ops, o.pos = some pos) ∧ (63 < pos → b.isSet pos = false) := by
  have ht := run_tracks H qn ops b h
  have hlow : ¬ pos > 63 → (b.isSet pos = true ↔ b.positions.getLsbD pos.toNat = true) := by
    intro hp
    have hp' := toNat_le63 hp
    unfold Builder.isSet
    constructor
    · intro hne
      by_contra hf
      have : b.positions &&& bit pos = 0 := by
        apply BitVec.eq_of_getLsbD_eq
        intro i hi
        simp only [BitVec.getLsbD_and, bit_getLsbD pos i hp', BitVec.ofNat_eq_ofNat, BitVec.getLsbD_zero, Bool.and_eq_false_iff]
        by_cases hi' : pos.toNat = i
        · left; rw [← hi']; simpa using hf
        · right; simp [hi']
      simp [this] at hne
    · intro hb
      have : b.positions &&& bit pos ≠ 0 := by
        intro h0
        have := congrArg (fun v => BitVec.getLsbD v pos.toNat) h0
        simp [BitVec.getLsbD_and, hb, bit_getLsbD pos pos.toNat hp'] at this
      simpa using this
  have hhigh : pos > 63 → b.isSet pos = false := by
    intro hp
    have h64 : 64 ≤ pos.toNat := by
      rw [gt_iff_lt, UInt32.lt_iff_toNat_lt] at hp
      have : (63 : UInt32).toNat = 63 := rfl
      omega
    unfold Builder.isSet bit
    rw [BitVec.shiftLeft_eq_zero h64]; simp
  refine ⟨?_, hhigh⟩
  by_cases hp : pos > 63
  · rw [hhigh hp]
    simp only [Bool.false_eq_true, false_iff, not_exists, not_and]
    intro o ho hpos
    have := ht.posOK o ho pos hpos
    rw [gt_iff_lt, ← UInt32.not_le] at hp
    exact hp this
  · rw [hlow hp, ht.positions]
    constructor
    · rintro ⟨o, ho, p, hp1, hp2⟩
      exact ⟨o, ho, by rw [hp1, UInt32.toNat.inj hp2]⟩
    · rintro ⟨o, ho, hp1⟩
      exact ⟨o, ho, pos, hp1, rfl⟩

/-- GetEnum returns the value of the first SetEnum for the position since the last Reset (later ones are ignored); GetFlags is the
argument of the last SetFlags; GetNullColumns is not affected by Reset. -/
theorem C42_get_enum_and_flags (H : Bytes → UInt64) (qn : Bytes) (ops : List (POp V)) (b : Builder V)
    (h : (new qn).run H ops = some b) (pos : UInt32) :
    b.getEnum pos = (sinceReset ops).findSome? (fun | .setEnum p v => if p = pos then some v else none | _ => none) ∧
    b.flags = (((sinceReset ops).filterMap fun | .setFlags fs => some fs | _ => none).getLast?).getD [] := by
  have ht := run_tracks H qn ops b h
  refine ⟨?_, ht.flags⟩
  unfold Builder.getEnum
  rw [ht.enums]
  induction sinceReset ops with
  | nil => rfl
  | cons o os ih =>
    cases o <;> simp only [List.filterMap_cons, List.findSome?_cons] <;> try exact ih
    rename_i p v
    by_cases hp : p = pos
    · simp [hp]
    · simp only [hp, decide_false, List.find?_cons, Bool.false_eq_true, if_false]; exact ih

/-- Positions above 63 are refused: the call panics. -/
theorem C42_out_of_range_rejected (H : Bytes → UInt64) (b : Builder V) (pos : UInt32) (hp : 63 < pos) (v : Arg V) (e : Int32) (l : UInt32) :
    b.step H (.set pos v) = none ∧ b.step H (.setEnum pos e) = none ∧ b.step H (.setCursor l pos v) = none := by
  simp [Builder.step, Builder.set, Builder.setEnum, Builder.setCursor, hp]

/-- The NULL columns are not part of what Reset clears. -/
theorem C42_reset_keeps_null_columns (b : Builder V) : b.reset.nullColumns = b.nullColumns := rfl

example : ((new b!"q").run sampleHash sampleOps).map (fun b => [b.isSet 3, b.isSet 5, b.isSet 9, b.isSet 67]) =
    some [true, true, false, false] := by decide +kernel
example : ((new b!"q").run sampleHash sampleOps).map (fun b => b.getEnum 5) = some (some (-2)) := by decide +kernel
example : ((new b!"q").run sampleHash sampleOps).map (fun b => b.flags) = some [1, -26] := by decide +kernel

end Query
