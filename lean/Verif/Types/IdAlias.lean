import Verif.Types.IdProps
set_option linter.unusedVariables false
set_option linter.unusedSimpArgs false
/-!
C12 and C13 exactly: what every variable of every program shows, copies included.
-/
namespace Types.Spec

/-- What is known of the ID variables of a program: the number of each, the text it was decoded from if that is what it prints, whether it refers to an object at all
(the zero `ID` does not), and which variables are two names of one object. -/
structure Ids where
  num : Nat → UInt64
  kept : Nat → Option Bytes
  obj : Nat → Bool
  tied : Nat → Nat → Bool

namespace Ids

/-- No variable has been used. -/
def start : Ids := ⟨fun _ => 0, fun _ => none, fun _ => false, fun a b => a == b⟩

/-- `x` becomes a new object of its own. -/
def fresh (a : Ids) (x : Nat) (n : UInt64) (k : Option Bytes) : Ids where
  num z := if z = x then n else a.num z
  kept z := if z = x then k else a.kept z
  obj z := if z = x then true else a.obj z
  tied y z := if y = x ∨ z = x then y == z else a.tied y z

/-- `x` becomes the zero ID. -/
def clear (a : Ids) (x : Nat) : Ids where
  num z := if z = x then 0 else a.num z
  kept z := if z = x then none else a.kept z
  obj z := if z = x then false else a.obj z
  tied y z := if y = x ∨ z = x then y == z else a.tied y z

/-- `x` gets the number `n` as a new ID; zero is the zero ID. -/
def give (a : Ids) (x : Nat) (n : UInt64) : Ids := if n = 0 then a.clear x else a.fresh x n none

/-- `x = y`: `x` becomes another name of what `y` names, if that is an object. -/
def copy (a : Ids) (x y : Nat) : Ids where
  num z := if z = x then a.num y else a.num z
  kept z := if z = x then a.kept y else a.kept z
  obj z := if z = x then a.obj y else a.obj z
  tied b c := if b = c then true else if b = x then a.obj y && a.tied y c else if c = x then a.obj y && a.tied b y else a.tied b c

/-- `x` and everything tied to it change to `n`. -/
def write (a : Ids) (x : Nat) (n : UInt64) : Ids :=
  if a.obj x then
    { a with num := fun z => if a.tied x z then n else a.num z, kept := fun z => if a.tied x z then none else a.kept z }
  else a.fresh x n none

/-- One statement. `Set` and `Reset` change the object; everything else changes what the variable refers to. -/
def step (a : Ids) : Op → Ids
  | .new x n => a.give x n
  | .parse x s => a.give x ((num64 s).getD 0)
  | .copy x y => a.copy x y
  | .set x s => match num64 s with
    | some n => if n = 0 then a else a.write x n
    | none => a
  | .reset x => a.write x 0
  | .scan x d => match d with
    | .u64 n | .uint n => a.give x n
    | .i64 n | .int n => a.give x n.toUInt64
    | _ => a
  | .json x d =>
    if trimQuotes d = [] ∨ trimQuotes d = [48] then a.clear x
    else match num64 (trimQuotes d) with
      | some n => a.fresh x n (some (trimQuotes d))
      | none => a
  | .yaml x r => match r with
    | some n => a.give x n
    | none => a
  | .str _ => a

/-- A program. -/
def run (ops : List Op) : Ids := ops.foldl step start

end Ids
end Types.Spec

namespace Types
open Spec (Ids)

/-- What the specification prints for a variable. -/
def shown (a : Ids) (z : Nat) : Bytes :=
  match a.kept z with
  | some t => t
  | none => if a.num z = 0 then [] else Num.dec (a.num z).toNat

/-- The program state is as the specification says. -/
structure Sim (w : World) (a : Ids) : Prop where
  wf : Wf w
  obj : ∀ z, a.obj z = false ↔ w.vars z = none
  tied : ∀ y z, y ≠ z → (a.tied y z = true ↔ w.vars y ≠ none ∧ w.vars y = w.vars z)
  refl : ∀ z, a.tied z z = true
  num : ∀ z, w.num z = a.num z
  text : ∀ z, w.text z = shown a z

theorem text_eq (w : World) (z : Nat) : w.text z = cellText (cellAt w.heap (w.vars z)) := idStr_text _ _

theorem sim_fresh {w : World} {a : Ids} (h : Sim w a) (x : Nat) (c : Cell) (k : Option Bytes)
    (hk : cellText (some c) = match k with | some t => t | none => if c.id = 0 then [] else Num.dec c.id.toNat) :
    Sim (w.put x (w.heap ++ [c], some w.heap.length)) (a.fresh x c.id k) := by
  have hnew : cellAt (w.heap ++ [c]) (some w.heap.length) = some c := by simp [cellAt]
  refine ⟨?_, ?_, ?_, ?_, ?_, ?_⟩
  · intro z p hz
    simp only [World.put] at hz ⊢
    simp only [List.length_append, List.length_singleton]
    by_cases hx : z = x
    · simp only [hx, if_true, Option.some.injEq] at hz; omega
    · simp only [hx, if_false] at hz; have := h.wf z p hz; omega
  · intro z
    by_cases hx : z = x
    · simp [Ids.fresh, World.put, hx]
    · simp only [Ids.fresh, World.put, hx, if_false]; exact h.obj z
  · intro y z hyz
    by_cases hy : y = x
    · have hz : z ≠ x := by rintro rfl; exact hyz hy
      simp only [Ids.fresh, World.put, hy, hz, if_true, if_false, true_or]
      have hne : x ≠ z := Ne.symm hz
      simp only [beq_iff_eq, hne, ne_eq, reduceCtorEq, not_false_eq_true, true_and, false_iff]
      intro he
      have := h.wf z _ he.symm
      omega
    · by_cases hz : z = x
      · simp only [Ids.fresh, World.put, hy, hz, if_true, if_false, or_true, false_or]
        simp only [beq_iff_eq, hy, ne_eq, false_iff]
        rintro ⟨_, he⟩
        have := h.wf y _ he
        omega
      · simp only [Ids.fresh, World.put, hy, hz, if_false, or_self]
        exact h.tied y z hyz
  · intro z
    by_cases hx : z = x
    · simp [Ids.fresh, hx]
    · simp only [Ids.fresh, hx, if_false, or_self]; exact h.refl z
  · intro z
    by_cases hx : z = x
    · simp [World.num, World.put, val, hx, hnew, Ids.fresh]
    · simp only [World.num, val, num_put_ne w x z hx _ _ h.wf, Ids.fresh, hx, if_false]
      exact h.num z
  · intro z
    by_cases hx : z = x
    · rw [text_eq]
      simp only [World.put, hx, if_true, hnew, hk, shown, Ids.fresh]
    · rw [text_eq, num_put_ne w x z hx _ _ h.wf, ← text_eq, h.text z]
      simp [shown, Ids.fresh, hx]

theorem sim_clear {w : World} {a : Ids} (h : Sim w a) (x : Nat) : Sim (w.put x (w.heap, none)) (a.clear x) := by
  refine ⟨?_, ?_, ?_, ?_, ?_, ?_⟩
  · intro z p hz
    simp only [World.put] at hz ⊢
    by_cases hx : z = x
    · simp [hx] at hz
    · simp only [hx, if_false] at hz; exact h.wf z p hz
  · intro z
    by_cases hx : z = x
    · simp [Ids.clear, World.put, hx]
    · simp only [Ids.clear, World.put, hx, if_false]; exact h.obj z
  · intro y z hyz
    by_cases hy : y = x
    · have hz : x ≠ z := by rintro rfl; exact hyz hy
      simp [Ids.clear, World.put, hy, hz]
    · by_cases hz : z = x
      · simp only [Ids.clear, World.put, hy, hz, if_true, if_false, or_true, beq_iff_eq, false_iff]
        rintro ⟨a, b⟩; exact a b
      · simp only [Ids.clear, World.put, hy, hz, if_false, or_self]
        exact h.tied y z hyz
  · intro z
    by_cases hx : z = x
    · simp [Ids.clear, hx]
    · simp only [Ids.clear, hx, if_false, or_self]; exact h.refl z
  · intro z
    by_cases hx : z = x
    · simp [World.num, World.put, val, hx, cellAt, Ids.clear]
    · simp only [World.num, World.put, Ids.clear, hx, if_false]; exact h.num z
  · intro z
    by_cases hx : z = x
    · simp [World.text, World.put, hx, idStr, shown, Ids.clear]
    · have := h.text z
      simp only [World.text, World.put, shown, Ids.clear, hx, if_false] at this ⊢
      exact this

theorem sim_give {w : World} {a : Ids} (h : Sim w a) (x : Nat) (n : UInt64) : Sim (w.put x (newID w.heap n)) (a.give x n) := by
  unfold Ids.give
  rcases newID_cases w.heap n with ⟨h1, h2⟩ | ⟨h1, h2⟩
  · rw [h2, if_pos h1]; exact sim_clear h x
  · rw [h2, if_neg h1]; exact sim_fresh h x ⟨n, []⟩ none (by simp [cellText, h1, idString])

theorem sim_copy {w : World} {a : Ids} (h : Sim w a) (x y : Nat) : Sim (w.put x (w.heap, w.vars y)) (a.copy x y) := by
  have hobj : ∀ z, a.obj z = true ↔ w.vars z ≠ none := by
    intro z; rw [Ne, ← h.obj z]; simp
  refine ⟨?_, ?_, ?_, ?_, ?_, ?_⟩
  · intro z p hz
    simp only [World.put] at hz ⊢
    by_cases hx : z = x
    · simp only [hx, if_true] at hz; exact h.wf y p hz
    · simp only [hx, if_false] at hz; exact h.wf z p hz
  · intro z
    by_cases hx : z = x
    · simp only [Ids.copy, World.put, hx, if_true]; exact h.obj y
    · simp only [Ids.copy, World.put, hx, if_false]; exact h.obj z
  · intro b c hbc
    by_cases hb : b = x
    · have hc : c ≠ x := by rintro rfl; exact hbc hb
      simp only [Ids.copy, World.put, hbc, hb, hc, Ne.symm hc, if_true, if_false, Bool.and_eq_true, hobj]
      by_cases hyc : y = c
      · subst hyc; simp [h.refl]
      · rw [h.tied y c hyc]
        constructor
        · rintro ⟨p, q, r⟩; exact ⟨p, r⟩
        · rintro ⟨p, r⟩; exact ⟨p, p, r⟩
    · by_cases hc : c = x
      · simp only [Ids.copy, World.put, hbc, hb, hc, if_true, if_false, Bool.and_eq_true, hobj]
        by_cases hyb : b = y
        · subst hyb; simp [h.refl]
        · rw [h.tied b y hyb]
          constructor
          · rintro ⟨p, q, r⟩; exact ⟨q, r⟩
          · rintro ⟨p, r⟩; exact ⟨r ▸ p, p, r⟩
      · simp only [Ids.copy, World.put, hbc, hb, hc, if_false]
        exact h.tied b c hbc
  · intro z; simp [Ids.copy]
  · intro z
    by_cases hx : z = x
    · have := h.num y
      simpa [World.num, World.put, hx, Ids.copy] using this
    · have := h.num z
      simpa [World.num, World.put, hx, Ids.copy] using this
  · intro z
    by_cases hx : z = x
    · have := h.text y
      simpa [World.text, World.put, hx, Ids.copy, shown] using this
    · have := h.text z
      simpa [World.text, World.put, hx, Ids.copy, shown] using this

theorem sim_write {w : World} {a : Ids} (h : Sim w a) (x p : Nat) (n : UInt64) (hx : w.vars x = some p) :
    Sim { w with heap := w.heap.set p ⟨n, []⟩ } (a.write x n) := by
  have ho : a.obj x = true := by
    cases hc : a.obj x with
    | true => rfl
    | false => have := (h.obj x).1 hc; rw [hx] at this; cases this
  have hlt := h.wf x p hx
  have hin : ∀ z, a.tied x z = true ↔ w.vars z = some p := by
    intro z
    by_cases hz : x = z
    · subst hz; simp [h.refl, hx]
    · rw [h.tied x z hz, hx]; simp [eq_comm]
  have hcell : ∀ z, cellAt (w.heap.set p ⟨n, []⟩) (w.vars z) = if a.tied x z then some ⟨n, []⟩ else cellAt w.heap (w.vars z) := by
    intro z
    by_cases hz : a.tied x z = true
    · rw [if_pos hz, (hin z).1 hz]; simp [cellAt, hlt]
    · rw [if_neg hz, cellAt_set_ne]
      intro hv; exact hz ((hin z).2 hv)
  unfold Ids.write
  rw [if_pos ho]
  refine ⟨?_, h.obj, h.tied, h.refl, ?_, ?_⟩
  · intro z q hz; simp only [List.length_set]; exact h.wf z q hz
  · intro z
    simp only [World.num, val]
    rw [hcell z]
    cases ht : a.tied x z with
    | true => simp
    | false => have := h.num z; simpa [World.num, val] using this
  · intro z
    rw [text_eq]
    show cellText (cellAt (w.heap.set p ⟨n, []⟩) (w.vars z)) = _
    rw [hcell z]
    cases ht : a.tied x z with
    | true =>
      by_cases hn : n = 0
      · simp [cellText, shown, ht, hn]
      · simp [cellText, shown, ht, hn, idString]
    | false =>
      have := h.text z
      rw [text_eq] at this
      simpa [shown, ht] using this

theorem sim_str {w : World} {a : Ids} (h : Sim w a) (x : Nat) : Sim { w with heap := (idStr w.heap (w.vars x)).1 } a := by
  rcases idStr_cases w.heap (w.vars x) with he | ⟨p, c, h1, h2, h3, h4, h5⟩
  · rw [he]; exact h
  · rw [h5]
    have hlt := (List.getElem?_eq_some_iff.1 h2).1
    have hcell : ∀ z, w.vars z ≠ some p → cellAt (w.heap.set p { c with str := idString c.id }) (w.vars z) = cellAt w.heap (w.vars z) :=
      fun z hz => cellAt_set_ne _ _ _ _ hz
    refine ⟨?_, h.obj, h.tied, h.refl, ?_, ?_⟩
    · intro z q hz; simp only [List.length_set]; exact h.wf z q hz
    · intro z
      rw [← h.num z]
      by_cases hz : w.vars z = some p
      · simp only [World.num, val, cellAt, hz, h2, List.getElem?_set_self hlt]
      · simp only [World.num, val]; rw [hcell z hz]
    · intro z
      rw [← h.text z, text_eq, text_eq]
      by_cases hz : w.vars z = some p
      · simp only [cellAt, hz, h2, List.getElem?_set_self hlt, cellText, h4, h3]
        have : idString c.id ≠ [] := dec_ne_nil _
        simp [h3, this]
      · show cellText (cellAt (w.heap.set p _) (w.vars z)) = _
        rw [hcell z hz]

theorem sim_step {w : World} {a : Ids} (h : Sim w a) (o : Op) : Sim (step w o) (a.step o) := by
  cases o with
  | new x n => exact sim_give h x n
  | parse x s =>
    simp only [step, parseID, set_eq, Ids.step, num64_eq]
    cases parseU64 s with
    | none => simp only [Option.getD_none, Ids.give]; exact sim_clear h x
    | some n =>
      simp only [Option.getD_some, Ids.give]
      by_cases hn : n = 0
      · rw [if_pos hn, if_pos hn]; exact sim_clear h x
      · rw [if_neg hn, if_neg hn]; exact sim_fresh h x ⟨n, []⟩ none (by simp [cellText, hn, idString])
  | copy x y => exact sim_copy h x y
  | set x s =>
    simp only [step, set_eq, Ids.step, num64_eq]
    cases parseU64 s with
    | none => simp only [put_self]; exact h
    | some n =>
      simp only
      by_cases hn : n = 0
      · simp only [if_pos hn, put_self]; exact h
      · simp only [if_neg hn]
        cases hv : w.vars x with
        | none =>
          unfold Ids.write
          rw [(h.obj x).2 hv]
          exact sim_fresh h x ⟨n, []⟩ none (by simp [cellText, hn, idString])
        | some p => simp only [put_same w x _ _ hv]; exact sim_write h x p n hv
  | reset x =>
    simp only [step, Ids.step]
    cases hv : w.vars x with
    | none =>
      unfold Ids.write
      rw [(h.obj x).2 hv]
      exact sim_fresh h x ⟨0, []⟩ none (by simp [cellText])
    | some p => simp only [reset, put_same w x _ _ hv]; exact sim_write h x p 0 hv
  | scan x d =>
    cases d
    case u64 n => exact sim_give h x n
    case uint n => exact sim_give h x n
    case i64 n => exact sim_give h x n.toUInt64
    case int n => exact sim_give h x n.toUInt64
    all_goals (simp only [step, scan, put_self, Ids.step]; exact h)
  | json x d =>
    simp only [step, json_eq, Ids.step, num64_eq]
    by_cases h1 : trimQuotes d = [] ∨ trimQuotes d = b!"0"
    · have h2 : trimQuotes d = [] ∨ trimQuotes d = [48] := h1
      simp only [if_pos h1, if_pos h2]; exact sim_clear h x
    · have h2 : ¬ (trimQuotes d = [] ∨ trimQuotes d = [48]) := h1
      simp only [if_neg h1, if_neg h2]
      cases hp : parseU64 (trimQuotes d) with
      | none => simp only [put_self]; exact h
      | some n =>
        refine sim_fresh h x ⟨n, trimQuotes d⟩ (some (trimQuotes d)) ?_
        have : trimQuotes d ≠ [] := fun he => h1 (Or.inl he)
        simp [cellText, this]
  | yaml x r =>
    cases r with
    | none => simp only [step, unmarshalYAML, put_self, Ids.step]; exact h
    | some n => exact sim_give h x n
  | str x => exact sim_str h x

theorem sim_run (ops : List Op) : Sim (run ops) (Ids.run ops) := by
  induction ops using List.snocRec with
  | nil =>
    refine ⟨run_wf [], fun z => by simp [Ids.run, Ids.start, run, World.init], ?_, ?_, fun _ => rfl, fun _ => rfl⟩
    · intro y z hyz
      simp [Ids.run, Ids.start, run, World.init, hyz]
    · intro z; simp [Ids.run, Ids.start]
  | snoc ops o ih =>
    rw [run_snoc]
    have : Ids.run (ops ++ [o]) = (Ids.run ops).step o := by simp [Ids.run]
    rw [this]
    exact sim_step ih o

/-- **C13 exactly**: for every program, what every variable shows is what the specification says in which copies of an ID are names of one object: `Set` and `Reset` change the object, under all
its names; every other operation changes what one variable refers to. -/
theorem C13_copies_are_names_of_one_object (ops : List Op) (x : Nat) :
    (run ops).num x = (Ids.run ops).num x
    ∧ (run ops).text x = (match (Ids.run ops).kept x with | some t => t | none => if (Ids.run ops).num x = 0 then [] else Num.dec ((Ids.run ops).num x).toNat) :=
  ⟨(sim_run ops).num x, (sim_run ops).text x⟩

/-- The specification remembers only JSON texts of the right number, and never the plain `0`. -/
theorem kept_run (ops : List Op) : ∀ (x : Nat) (t : Bytes), (Ids.run ops).kept x = some t →
    Spec.num64 t = some ((Ids.run ops).num x) ∧ t ≠ [] ∧ t ≠ [48] := by
    induction ops using List.snocRec with
    | nil => intro x t h; cases h
    | snoc ops o ih =>
      have e : Ids.run (ops ++ [o]) = (Ids.run ops).step o := by simp [Ids.run]
      rw [e]
      generalize Ids.run ops = a at ih
      have hfresh : ∀ (y : Nat) (n : UInt64) (k : Option Bytes), (∀ t, k = some t → Spec.num64 t = some n ∧ t ≠ [] ∧ t ≠ [48]) →
          ∀ x t, (a.fresh y n k).kept x = some t → Spec.num64 t = some ((a.fresh y n k).num x) ∧ t ≠ [] ∧ t ≠ [48] := by
        intro y n k hk x t h
        simp only [Ids.fresh] at h ⊢
        by_cases hx : x = y
        · simp only [hx, if_true] at h ⊢; exact hk t h
        · simp only [hx, if_false] at h ⊢; exact ih x t h
      have hclear : ∀ (y : Nat), ∀ x t, (a.clear y).kept x = some t → Spec.num64 t = some ((a.clear y).num x) ∧ t ≠ [] ∧ t ≠ [48] := by
        intro y x t h
        simp only [Ids.clear] at h ⊢
        by_cases hx : x = y
        · simp [hx] at h
        · simp only [hx, if_false] at h ⊢; exact ih x t h
      have hgive : ∀ (y : Nat) (n : UInt64), ∀ x t, (a.give y n).kept x = some t → Spec.num64 t = some ((a.give y n).num x) ∧ t ≠ [] ∧ t ≠ [48] := by
        intro y n
        unfold Ids.give
        split
        · exact hclear y
        · exact hfresh y n none (by simp)
      have hwrite : ∀ (y : Nat) (n : UInt64), ∀ x t, (a.write y n).kept x = some t → Spec.num64 t = some ((a.write y n).num x) ∧ t ≠ [] ∧ t ≠ [48] := by
        intro y n
        unfold Ids.write
        split
        · intro x t h
          simp only at h ⊢
          cases ht : a.tied y x with
          | true => rw [ht] at h; cases h
          | false => rw [ht] at h; exact ih x t h
        · exact hfresh y n none (by simp)
      cases o with
      | new y n => exact hgive y n
      | parse y s => exact hgive y _
      | copy y z =>
        intro x t h
        simp only [Ids.step, Ids.copy] at h ⊢
        by_cases hx : x = y
        · simp only [hx, if_true] at h ⊢; exact ih z t h
        · simp only [hx, if_false] at h ⊢; exact ih x t h
      | set y s =>
        simp only [Ids.step]
        split
        · split
          · exact ih
          · exact hwrite y _
        · exact ih
      | reset y => exact hwrite y 0
      | scan y d => cases d <;> first | exact hgive y _ | exact ih
      | json y d =>
        simp only [Ids.step]
        split
        · exact hclear y
        · rename_i hne
          split
          · rename_i n hn
            refine hfresh y n _ ?_
            intro t ht
            cases ht
            exact ⟨hn, fun e => hne (Or.inl e), fun e => hne (Or.inr e)⟩
          · exact ih
      | yaml y r => cases r <;> first | exact hgive y _ | exact ih
      | str y => exact ih

/-- **C12 exactly**: text and number of a variable agree (canonical text, empty iff invalid) if and only if it does not print a JSON text with a superfluous leading zero it was decoded from. -/
theorem C12_agree_iff (ops : List Op) (x : Nat) :
    (((run ops).num x ≠ 0 → Spec.Canonical ((run ops).text x) ((run ops).num x).toNat) ∧ ((run ops).text x = [] ↔ (run ops).num x = 0))
    ↔ ∀ t, (Ids.run ops).kept x = some t → t.head? ≠ some 48 := by
  obtain ⟨h1, h2⟩ := C13_copies_are_names_of_one_object ops x
  have hk := kept_run ops x
  rw [h1, h2]
  cases hkx : (Ids.run ops).kept x with
  | none =>
    simp only [reduceCtorEq, false_implies, implies_true, iff_true]
    by_cases hn : (Ids.run ops).num x = 0
    · simp [hn]
    · simp only [hn, if_false]
      exact ⟨fun _ => dec_canonical _, by simp [dec_ne_nil]⟩
  | some t =>
    obtain ⟨k1, k2, k3⟩ := hk t hkx
    rw [num64_eq] at k1
    have hd := (parseU64_some _ _).1 k1
    simp only [Option.some.injEq, forall_eq']
    constructor
    · rintro ⟨c1, c2⟩ hz
      by_cases hn : (Ids.run ops).num x = 0
      · exact k2 (c2.2 hn)
      · exact k3 ((c1 hn).2.2 hz)
    · intro hz
      refine ⟨fun _ => ⟨hd.1, hd.2, fun he => absurd he hz⟩, ⟨fun e => absurd e k2, fun hn => ?_⟩⟩
      -- a digit text of 0 starts with 0
      exfalso
      rw [hn] at hd
      obtain ⟨⟨_, hdig⟩, hnum⟩ := hd
      cases t with
      | nil => exact k2 rfl
      | cons c r =>
        have hc := hdig c (by simp)
        have hmono : ∀ (l : Bytes) (m : Nat), m ≤ l.foldl (fun a c => a * 10 + (c.toNat - 48)) m := by
          intro l
          induction l with
          | nil => intro m; exact Nat.le_refl m
          | cons b l ih => intro m; exact Nat.le_trans (by omega) (ih (m * 10 + (b.toNat - 48)))
        have hle := hmono r (0 * 10 + (c.toNat - 48))
        have hnum' : r.foldl (fun a c => a * 10 + (c.toNat - 48)) (0 * 10 + (c.toNat - 48)) = 0 := hnum
        rw [hnum'] at hle
        have : c = 48 := by
          apply UInt8.toNat_inj.1
          show c.toNat = 48
          omega
        exact hz (by rw [this]; rfl)

/-- **C13 exactly**: after any program, `Set` of an acceptable text on `x` changes the number shown by another variable `y` if and only if the two are names of one object and the number is new to
it. -/
theorem C13_set_reaches_iff (ops : List Op) (x y : Nat) (s : Bytes) (n : UInt64) (hxy : x ≠ y) (hs : Spec.num64 s = some n) (hn : n ≠ 0) :
    (run (ops ++ [.set x s])).num y ≠ (run ops).num y ↔ (Ids.run ops).obj x = true ∧ (Ids.run ops).tied x y = true ∧ (run ops).num y ≠ n := by
  rw [(C13_copies_are_names_of_one_object (ops ++ [Op.set x s]) y).1, (C13_copies_are_names_of_one_object ops y).1]
  have e : Ids.run (ops ++ [Op.set x s]) = (Ids.run ops).step (Op.set x s) := by simp [Ids.run]
  rw [e]
  simp only [Ids.step, hs, hn, if_false, Ids.write]
  cases ho : (Ids.run ops).obj x with
  | false =>
    have : y ≠ x := Ne.symm hxy
    simp [Ids.fresh, this]
  | true =>
    cases ht : (Ids.run ops).tied x y with
    | false => simp [ht]
    | true => simp only [if_true, ht, true_and]; exact ⟨fun h e => h e.symm, fun h e => h e.symm⟩

example : (Ids.run [.new 0 7, .copy 1 0]).obj 1 = true ∧ (Ids.run [.new 0 7, .copy 1 0]).tied 1 0 = true ∧ Spec.num64 b!"0042" = some 42
    ∧ (Ids.run [.new 0 7, .copy 1 0, .scan 0 (.i64 8)]).tied 1 0 = false ∧ (Ids.run [.json 3 b!"\"0042\"", .copy 4 3]).kept 4 = some b!"0042" := by decide +kernel

end Types
