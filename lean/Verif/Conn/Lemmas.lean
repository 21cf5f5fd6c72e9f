import Verif.Conn.Model
set_option linter.unusedVariables false
set_option linter.unusedSimpArgs false
/-! Lemmas about cutting, splitting and escaping. -/
namespace Conn

theorem cutAt_mem (c : UInt8) (t : Bytes) : ∀ s : Bytes, c ∈ s → cutAt c (s ++ t) = ((cutAt c s).1, (cutAt c s).2.map (· ++ t)) := by
  intro s
  induction s with
  | nil => intro h; cases h
  | cons x xs ih =>
    intro h
    simp only [List.cons_append, cutAt]
    by_cases e : x = c
    · simp [e]
    · have hx : c ∈ xs := by
        rcases List.mem_cons.1 h with h | h
        · exact absurd h.symm e
        · exact h
      simp [e, ih hx]

theorem cutAt_not_mem (c : UInt8) (t : Bytes) : ∀ s : Bytes, c ∉ s → cutAt c (s ++ t) = (s ++ (cutAt c t).1, (cutAt c t).2) := by
  intro s
  induction s with
  | nil => intro _; rfl
  | cons x xs ih =>
    intro h
    simp only [List.mem_cons, not_or] at h
    simp only [List.cons_append, cutAt, if_neg (Ne.symm h.1), ih h.2]

theorem cutAt_none (c : UInt8) (s : Bytes) (h : c ∉ s) : cutAt c s = (s, none) := by
  have := cutAt_not_mem c [] s h
  simpa [cutAt] using this

theorem cutAt_found (c : UInt8) (s t : Bytes) (h : c ∉ s) : cutAt c (s ++ c :: t) = (s, some t) := by
  rw [cutAt_not_mem c _ s h]; simp [cutAt]

theorem cutAt_fst_not_mem (c : UInt8) : ∀ s : Bytes, c ∉ (cutAt c s).1 := by
  intro s
  induction s with
  | nil => simp [cutAt]
  | cons x xs ih =>
    simp only [cutAt]
    split
    · simp
    · rename_i h
      simp only [List.mem_cons, not_or]
      exact ⟨fun e => h e.symm, ih⟩

theorem cutAt_eq (c : UInt8) : ∀ s : Bytes, s = (cutAt c s).1 ++ (match (cutAt c s).2 with | some t => c :: t | none => []) := by
  intro s
  induction s with
  | nil => rfl
  | cons x xs ih =>
    simp only [cutAt]
    by_cases e : x = c
    · simp [e]
    · simp only [if_neg e, List.cons_append]; rw [← ih]

theorem cutAt_some_of_mem (c : UInt8) : ∀ s : Bytes, c ∈ s → ∃ t, (cutAt c s).2 = some t := by
  intro s
  induction s with
  | nil => intro h; cases h
  | cons x xs ih =>
    intro h
    simp only [cutAt]
    by_cases e : x = c
    · exact ⟨xs, by simp [e]⟩
    · rcases List.mem_cons.1 h with h | h
      · exact absurd h.symm e
      · simpa [e] using ih h

theorem splitOn_ne_nil (c : UInt8) : ∀ s : Bytes, splitOn c s ≠ [] := by
  intro s
  induction s with
  | nil => simp [splitOn]
  | cons x xs ih =>
    simp only [splitOn]
    split
    · simp
    · split <;> simp

theorem splitOn_append (c : UInt8) (b : Bytes) : ∀ a : Bytes, splitOn c (a ++ c :: b) = splitOn c a ++ splitOn c b := by
  intro a
  induction a with
  | nil => simp [splitOn]
  | cons x xs ih =>
    simp only [List.cons_append, splitOn]
    by_cases e : x = c
    · simp [e, ih]
    · simp only [if_neg e, ih]
      cases h : splitOn c xs with
      | nil => exact absurd h (splitOn_ne_nil c xs)
      | cons p ps => rfl

theorem splitOn_not_mem (c : UInt8) : ∀ s : Bytes, c ∉ s → splitOn c s = [s] := by
  intro s
  induction s with
  | nil => intro _; rfl
  | cons x xs ih =>
    intro h
    simp only [List.mem_cons, not_or] at h
    simp only [splitOn, if_neg (Ne.symm h.1), ih h.2]

/-- Appending to the last piece. -/
theorem splitOn_last (c : UInt8) (t : Bytes) (ht : c ∉ t) : ∀ s : Bytes, ∃ ps p, splitOn c s = ps ++ [p] ∧ splitOn c (s ++ t) = ps ++ [p ++ t] := by
  intro s
  induction s with
  | nil => exact ⟨[], [], rfl, by simpa using splitOn_not_mem c t ht⟩
  | cons x xs ih =>
    obtain ⟨ps, p, h1, h2⟩ := ih
    by_cases e : x = c
    · exact ⟨[] :: ps, p, by simp [splitOn, e, h1], by simp [splitOn, e, h2]⟩
    · cases ps with
      | nil => exact ⟨[], x :: p, by simp [splitOn, e, h1], by simp [splitOn, e, h2]⟩
      | cons q qs => exact ⟨(x :: q) :: qs, p, by simp [splitOn, e, h1], by simp [splitOn, e, h2]⟩

/-- A byte kept as it is by unescaping. -/
def plain (plus : Bool) (c : UInt8) : Prop := c ≠ 37 ∧ (plus = true → c ≠ 43)

theorem unesc_cons (plus : Bool) (c : UInt8) (hc : c ≠ 37) (s : Bytes) :
    unesc plus (c :: s) = (unesc plus s).map ((if plus ∧ c = 43 then 32 else c) :: ·) := by
  match s with
  | [] => simp [unesc, hc]
  | [d] => simp [unesc, hc]
  | a :: b :: r => simp [unesc, hc]

theorem unesc_pct (plus : Bool) (a b x y : UInt8) (r : Bytes) (ha : unhex a = some x) (hb : unhex b = some y) :
    unesc plus (37 :: a :: b :: r) = (unesc plus r).map ((x * 16 + y) :: ·) := by
  simp [unesc, ha, hb]

theorem unesc_plain (plus : Bool) : ∀ s : Bytes, (∀ c ∈ s, plain plus c) → unesc plus s = some s := by
  intro s
  induction s with
  | nil => intro _; rfl
  | cons c s ih =>
    intro h
    have hc := h c (List.mem_cons_self ..)
    rw [unesc_cons plus c hc.1, ih (fun d hd => h d (List.mem_cons_of_mem _ hd))]
    simp only [Option.map_some, Option.some.injEq, List.cons.injEq, and_true]
    rw [if_neg]
    rintro ⟨h1, h2⟩
    exact hc.2 h1 h2

/-- Unescaping stops nowhere inside a prefix that is followed by a byte that is no hexadecimal digit. -/
theorem unesc_append (plus : Bool) (d : UInt8) (hd : unhex d = none) (hd2 : d ≠ 37) (t : Bytes) : ∀ s : Bytes,
    unesc plus (s ++ d :: t) = match unesc plus s, unesc plus (d :: t) with
      | some x, some y => some (x ++ y)
      | _, _ => none := by
  intro s
  fun_induction unesc plus s with
  | case1 =>
    simp only [List.nil_append]
    cases unesc plus (d :: t) <;> rfl
  | case2 =>
    cases t with
    | nil => simp [unesc]
    | cons e t => simp [unesc, hd]
  | case3 c hc =>
    simp only [List.cons_append, List.nil_append]
    rw [unesc_cons plus c hc]
    cases unesc plus (d :: t) <;> rfl
  | case4 e =>
    simp only [List.cons_append, List.nil_append]
    cases t with
    | nil => simp [unesc, hd]
    | cons a t => simp [unesc, hd]
  | case5 c e hc ih =>
    simp only [List.cons_append, List.nil_append] at ih ⊢
    rw [unesc_cons plus c hc, ih]
    cases unesc plus [e] <;> cases unesc plus (d :: t) <;> rfl
  | case6 a b r x y hb ha ih =>
    simp only [List.cons_append]
    rw [unesc_pct plus a b x y _ ha hb, ih]
    cases unesc plus r <;> cases unesc plus (d :: t) <;> rfl
  | case7 a b r hno =>
    simp only [List.cons_append, unesc, if_pos]
  | case8 c a b r hc ih =>
    simp only [List.cons_append] at ih ⊢
    rw [unesc_cons plus c hc, ih]
    cases unesc plus (a :: b :: r) <;> cases unesc plus (d :: t) <;> rfl

end Conn
