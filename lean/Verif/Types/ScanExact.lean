import Verif.Types.MapProps
import Verif.Types.ColumnProps
set_option linter.unusedVariables false
set_option linter.unusedSimpArgs false
/-! C18, C19: exactly when `Scan` overwrites its destination. -/
namespace Types

/-- The column value is an integer, in one of the Go types a driver may use. -/
def Spec.IsInteger (d : DV) : Prop := ∃ i, Spec.dvInt d = some i

/-- `Scan` of `d` succeeds and the result does not depend on what was there before. -/
def Spec.Overwrites {α : Type} (scan : α → DV → α × Bool) (d : DV) : Prop := ∃ v, ∀ o, scan o d = (v, true)

/-- **C18 exactly**: for each type, the column values for which `Scan` overwrites the destination. NULL is not among them for the numbers and `Bool`, nor byte strings of another length than 16 for
`UUID`. -/
theorem C18_overwrites_iff (d : DV) :
    (Spec.Overwrites id32Scan d ↔ Spec.IsInteger d)
    ∧ (Spec.Overwrites int64Scan d ↔ Spec.IsInteger d)
    ∧ (Spec.Overwrites int32Scan d ↔ Spec.IsInteger d)
    ∧ (Spec.Overwrites boolScan d ↔ Spec.IsInteger d ∨ ∃ b, d = .bool b)
    ∧ (Spec.Overwrites nstrScan d ↔ ∀ t, d ≠ .other t)
    ∧ (Spec.Overwrites uuidScan d ↔ d = .null ∨ (∃ s, d = .text s) ∨ ∃ v, d = .bytes v ∧ v.length = 16) := by
  unfold Spec.Overwrites Spec.IsInteger
  refine ⟨?_, ?_, ?_, ?_, ?_, ?_⟩
  · cases d with
    | null =>
      simp only [id32Scan, Spec.dvInt, reduceCtorEq, exists_false, iff_false]
      rintro ⟨v, hv⟩
      have h0 := hv 0
      rw [← hv 1] at h0
      simp at h0
    | _ => simp [id32Scan, Spec.dvInt]
  · cases d with
    | null =>
      simp only [int64Scan, Spec.dvInt, reduceCtorEq, exists_false, iff_false]
      rintro ⟨v, hv⟩
      have h0 := hv 0
      rw [← hv 1] at h0
      simp at h0
    | _ => simp [int64Scan, Spec.dvInt]
  · cases d with
    | null =>
      simp only [int32Scan, Spec.dvInt, reduceCtorEq, exists_false, iff_false]
      rintro ⟨v, hv⟩
      have h0 := hv 0
      rw [← hv 1] at h0
      simp at h0
    | _ => simp [int32Scan, Spec.dvInt]
  · cases d <;> simp [boolScan, Spec.dvInt]
  · cases d <;> simp [nstrScan, nullStringScan]
  · cases d with
    | bytes v =>
      by_cases hv : v.length = 16
      · simp [uuidScan, hv]
      · simp only [uuidScan, ne_eq, hv, not_false_eq_true, if_true]
        constructor
        · rintro ⟨x, hx⟩
          have h0 := hx []
          have h1 := hx [0]
          rw [← h0] at h1
          cases h1
        · simp [hv]
    | _ => simp [uuidScan]

/-- **C19 exactly**: every outcome of scanning into a UUID. -/
theorem C19_all_outcomes (old : Bytes) (d : DV) :
    uuidScan old d = (match d with
      | .null => ([], true)
      | .text s => (s, true)
      | .bytes v => (if v.length = 16 then Spec.uuid v else old, true)
      | _ => (old, false)) := by
  cases d with
  | bytes v =>
    by_cases hv : v.length = 16
    · simp only [hv, if_true]; exact (C19_uuid_text old v hv).1
    · simp [uuidScan, hv]
  | _ => rfl

/-- **C18 exactly**, for maps: what every key shows after a stored map was scanned into a destination that holds `old`; so the destination shows exactly the column iff every old key is also in the
column. -/
theorem C18_map_scan_iff (j : Json (GoMap V)) (ok : List (Bytes × V) → Prop) (hj : Spec.MapJson j ok)
    (old : GoMap V) (ho : Spec.MapOk old) (l : List (Bytes × V)) (hok : ok l) (hl : l ≠ []) (hn : Spec.MapOk (some l)) :
    let r := mapScan j old (mapValue j (some l))
    r.2 = true ∧ (∀ k, get r.1 k = if get (some l) k = none then get old k else get (some l) k)
    ∧ ((∀ k, get r.1 k = get (some l) k) ↔ ∀ k, get old k ≠ none → get (some l) k ≠ none) := by
  obtain ⟨h1, l', h2, h3⟩ := hj l hok hl
  have hv : mapValue j (some l) = .text (j.enc (some l)) := by
    rw [mapValue]
    cases l with
    | nil => exact absurd rfl hl
    | cons => rfl
  have hne : (j.enc (some l)).isEmpty = false := by
    cases hh : j.enc (some l) with
    | nil => exact absurd hh h1
    | cons => rfl
  have hr : mapScan j old (mapValue j (some l)) = (mergeMap old l', true) := by
    rw [hv]; simp only [mapScan, hne, Bool.false_eq_true, if_false, h2]
  have hk : ∀ k, get (mergeMap old l') k = if get (some l) k = none then get old k else get (some l) k := by
    intro k
    rw [(C45_merge old (some l) ho hn l' h3).1 k]
    cases get (some l) k <;> simp
  intro r
  have hr' : r = (mergeMap old l', true) := hr
  rw [hr']
  refine ⟨rfl, hk, ?_⟩
  simp only [hk]
  constructor
  · intro h k ho hn
    have := h k
    rw [if_pos hn, hn] at this
    exact ho this
  · intro h k
    by_cases hn : get (some l) k = none
    · rw [if_pos hn, hn]
      exact Classical.byContradiction fun hc => h k hc hn
    · rw [if_neg hn]

example : Spec.MapOk (some [(b!"a", b!"1")]) ∧ get (some [(b!"a", b!"1")]) b!"a" ≠ none ∧ ¬ Spec.IsInteger .null ∧ Spec.IsInteger (.i64 5) := by
  refine ⟨by simp [Spec.MapOk, entries], by decide +kernel, by simp [Spec.IsInteger, Spec.dvInt], by simp [Spec.IsInteger, Spec.dvInt]⟩

end Types
