import Verif.Types.IdArrayProps
set_option linter.unusedVariables false
set_option linter.unusedSimpArgs false
/-! Lists of enum values as Postgres arrays: `Int32Array` (id.go:444-456). C106. -/
namespace Types

/-- id.go:445-447 `Enum`: an enum type is an `int32` or a `uint32`; a list of its values (the nil slice and the empty one behave alike below). -/
inductive Enums where
  | signed (l : List Int32)
  | unsigned (l : List UInt32)
  deriving DecidableEq, Repr

/-- id.go:450-456 `Int32Array`: `make` and a loop over `int32(id)`; the result is never a nil slice. -/
def int32Array : Enums → List Int32
  | .signed l => l
  | .unsigned l => l.map (·.toInt32)

/-- `pq.Int32Array.Value` (third party) of a slice that is not nil. -/
def pqValue32 (l : List Int32) : DV := if l = [] then .text b!"{}" else .text (b!"{" ++ joinComma (l.map fun x => Num.fmtInt 10 x.toInt) ++ b!"}")

/-- What the database is given for `Int32Array(list)`. -/
def enumsValue (e : Enums) : DV := pqValue32 (int32Array e)

namespace Spec

/-- The numbers of the enum values. -/
def enumNumbers : Enums → List Int
  | .signed l => l.map (·.toInt)
  | .unsigned l => l.map (fun x => (x.toNat : Int))

/-- A number that a Postgres `integer` can hold. -/
def fits32 (n : Int) : Prop := -2 ^ 31 ≤ n ∧ n < 2 ^ 31

/-- The text of a Postgres array of integers, read as a list of numbers: braces, and numbers separated by commas. -/
def arrayNumbers (d : DV) : Option (List Int) :=
  match d with
  | .text s => (pqScan s).map (fun l => l.map (·.toInt))
  | _ => none

end Spec

theorem value32_scan (l : List Int32) : Spec.arrayNumbers (pqValue32 l) = some (l.map (·.toInt)) := by
  unfold pqValue32
  by_cases h : l = []
  · subst h; rfl
  · rw [if_neg h]
    have e : l.map (fun x => Num.fmtInt 10 x.toInt) = (l.map (·.toInt64)).map (fun x => Num.fmtInt 10 x.toInt) := by
      rw [List.map_map]
      apply List.map_congr_left
      intro x _
      simp
    rw [e]
    have hne : l.map (·.toInt64) ≠ [] := by simpa using h
    have := pqScan_value (l.map (·.toInt64)) hne
    simp only [Spec.arrayNumbers]
    rw [this]
    simp

theorem map_inj {α β : Type} (f : α → β) (hf : ∀ x y, f x = f y → x = y) : ∀ a b : List α, a.map f = b.map f → a = b := by
  intro a
  induction a with
  | nil =>
    intro b h
    cases b with
    | nil => rfl
    | cons y b => cases h
  | cons x a ih =>
    intro b h
    cases b with
    | nil => cases h
    | cons y b =>
      rw [List.map_cons, List.map_cons, List.cons.injEq] at h
      rw [hf x y h.1, ih b h.2]

theorem wrap32 (x : UInt32) : x.toInt32.toInt = if x.toNat < 2 ^ 31 then (x.toNat : Int) else (x.toNat : Int) - 2 ^ 32 := by
  have h : x.toInt32.toInt = x.toBitVec.toInt := rfl
  rw [h, BitVec.toInt_eq_toNat_cond]
  have : x.toBitVec.toNat = x.toNat := rfl
  rw [this]
  split <;> split <;> omega

/-- **C106**: whatever list of enum values is given, the database gets an array, never NULL, that reads back as the numbers of these values in order if and only if all of them fit a 32-bit
`integer`; for an empty list it is the empty array. -/
theorem C106_array_of_the_numbers_iff (e : Enums) :
    (∃ l, Spec.arrayNumbers (enumsValue e) = some l ∧ l.length = (Spec.enumNumbers e).length)
    ∧ (Spec.arrayNumbers (enumsValue e) = some (Spec.enumNumbers e) ↔ ∀ n ∈ Spec.enumNumbers e, Spec.fits32 n) := by
  unfold enumsValue
  rw [value32_scan]
  cases e with
  | signed l =>
    refine ⟨⟨_, rfl, by simp [int32Array, Spec.enumNumbers]⟩, fun _ n hn => ?_, fun _ => rfl⟩
    obtain ⟨x, -, rfl⟩ := List.mem_map.1 hn
    exact ⟨Int32.le_toInt x, Int32.toInt_lt x⟩
  | unsigned l =>
    refine ⟨⟨_, rfl, by simp [int32Array, Spec.enumNumbers]⟩, ?_⟩
    simp only [int32Array, Spec.enumNumbers, Option.some.injEq, List.map_map]
    rw [List.map_inj_left]
    constructor
    · intro h n hn
      obtain ⟨x, hx, rfl⟩ := List.mem_map.1 hn
      have := h x hx
      simp only [Function.comp, wrap32] at this
      unfold Spec.fits32
      split at this
      · constructor <;> omega
      · omega
    · intro h x hx
      have := h _ (List.mem_map_of_mem (f := fun x : UInt32 => (x.toNat : Int)) hx)
      unfold Spec.fits32 at this
      simp only [Function.comp, wrap32]
      rw [if_pos (by omega)]

/-- **C106**: different lists give different arrays, also when numbers do not fit (they become negative). -/
theorem C106_different_lists_different_arrays (l l' : List UInt32) (k k' : List Int32) :
    (enumsValue (.unsigned l) = enumsValue (.unsigned l') → l = l') ∧ (enumsValue (.signed k) = enumsValue (.signed k') → k = k')
    ∧ ∀ x ∈ l, ¬ Spec.fits32 x.toNat → ∃ n < 0, ∃ ns, Spec.arrayNumbers (enumsValue (.unsigned l)) = some ns ∧ n ∈ ns ∧ n = (x.toNat : Int) - 2 ^ 32 := by
  have hinj : ∀ a b : List Int32, pqValue32 a = pqValue32 b → a = b := by
    intro a b h
    have := congrArg Spec.arrayNumbers h
    rw [value32_scan, value32_scan, Option.some.injEq] at this
    exact map_inj _ (fun x y h => Int32.toInt_inj.1 h) _ _ this
  refine ⟨fun h => ?_, fun h => hinj _ _ h, ?_⟩
  · exact map_inj (fun x : UInt32 => x.toInt32) (fun x y h => by
      have := congrArg Int32.toUInt32 h
      simpa using this) _ _ (hinj _ _ h)
  · intro x hx hf
    have hw := wrap32 x
    have hlt : ¬ x.toNat < 2 ^ 31 := by
      intro h
      exact hf ⟨by omega, by omega⟩
    rw [if_neg hlt] at hw
    have := x.toNat_lt
    refine ⟨x.toInt32.toInt, by rw [hw]; omega, _, value32_scan _, ?_, hw⟩
    exact List.mem_map_of_mem (List.mem_map_of_mem hx)

/-! ### Witnesses -/

example : enumsValue (.unsigned [1, 2, 4]) = .text b!"{1,2,4}" ∧ enumsValue (.signed []) = .text b!"{}" ∧ enumsValue (.signed [-1, 7]) = .text b!"{-1,7}" := by decide +kernel
/-- A flag in the top bit. -/
example : enumsValue (.unsigned [0x80000000]) = .text b!"{-2147483648}" := by decide +kernel
example : ¬ Spec.arrayNumbers (enumsValue (.unsigned [0x80000000])) = some [0x80000000] := by
  intro h
  have := ((C106_array_of_the_numbers_iff (.unsigned [0x80000000])).2.1 h) 0x80000000 (by decide)
  exact absurd this (by unfold Spec.fits32; decide)

end Types
