import Verif.Types.Columns
import Verif.Types.IdLemmas
set_option linter.unusedSimpArgs false
set_option linter.unusedVariables false
/-! Properties C17–C20 and C63: scalar column types. -/
namespace Types
open Num

/-! ### C17 -/

/-- A text is a decimal integer: optional sign, then digits; `intValue` is the integer it denotes. -/
def Spec.IntText (s : Bytes) : Prop := Spec.Digits s ∨ ((s.head? = some 43 ∨ s.head? = some 45) ∧ Spec.Digits s.tail)
def Spec.intValue (s : Bytes) : Int :=
  if s.head? = some 45 then -(Spec.number s.tail : Int) else if s.head? = some 43 then Spec.number s.tail else Spec.number s

theorem parseInt_some (bits : Nat) (hb : 1 ≤ bits) (s : Bytes) (i : Int) :
    parseInt bits s = some i ↔ Spec.IntText s ∧ Spec.intValue s = i ∧ -(2 ^ (bits - 1) : Nat) ≤ i ∧ i < (2 ^ (bits - 1) : Nat) := by
  have hpos : 0 < 2 ^ (bits - 1) := Nat.pow_pos (by omega)
  cases s with
  | nil =>
    simp only [parseInt]
    constructor
    · intro h; cases h
    · rintro ⟨h | ⟨h, _⟩, _⟩
      · exact absurd rfl h.1
      · simp at h
  | cons c cs =>
    have hnd : ∀ k : UInt8, (k = 45 ∨ k = 43) → ¬ Spec.Digits (k :: cs) := by
      rintro k (rfl | rfl) h
      · have := h.2 45 (by simp); have h45 : (45 : UInt8).toNat = 45 := rfl; omega
      · have := h.2 43 (by simp); have h43 : (43 : UInt8).toNat = 43 := rfl; omega
    simp only [parseInt]
    by_cases h45 : c = 45
    · subst h45
      simp only [if_true]
      have hI : Spec.IntText (45 :: cs) ↔ Spec.Digits cs := by
        unfold Spec.IntText
        constructor
        · rintro (h | h)
          · exact absurd h (hnd 45 (Or.inl rfl))
          · exact h.2
        · intro h; exact Or.inr ⟨Or.inr rfl, h⟩
      have hV : Spec.intValue (45 :: cs) = -(Spec.number cs : Int) := by simp [Spec.intValue]
      rw [hI, hV]
      cases hp : parseNat 10 cs with
      | none =>
        simp only
        constructor
        · intro h; cases h
        · rintro ⟨h, _⟩
          have := (parseNat10 cs _).2 ⟨h, rfl⟩
          rw [hp] at this; cases this
      | some n =>
        obtain ⟨h1, h2⟩ := (parseNat10 cs n).1 hp
        simp only
        by_cases hn : n ≤ 2 ^ (bits - 1)
        · rw [if_pos hn]
          simp only [Option.some.injEq, h1, h2, true_and]
          constructor
          · intro h; subst h; refine ⟨rfl, by omega, by omega⟩
          · rintro ⟨h, _⟩; exact h
        · rw [if_neg hn]
          constructor
          · intro h; cases h
          · rintro ⟨_, h, h3, _⟩; rw [h2] at h; omega
    · rw [if_neg h45]
      by_cases h43 : c = 43
      · subst h43
        rw [if_pos rfl]
        have hI : Spec.IntText (43 :: cs) ↔ Spec.Digits cs := by
          unfold Spec.IntText
          constructor
          · rintro (h | h)
            · exact absurd h (hnd 43 (Or.inr rfl))
            · exact h.2
          · intro h; exact Or.inr ⟨Or.inl rfl, h⟩
        have hV : Spec.intValue (43 :: cs) = (Spec.number cs : Int) := by simp [Spec.intValue]
        rw [hI, hV]
        cases hp : parseNat 10 cs with
        | none =>
          simp only
          constructor
          · intro h; cases h
          · rintro ⟨h, _⟩
            have := (parseNat10 cs _).2 ⟨h, rfl⟩
            rw [hp] at this; cases this
        | some n =>
          obtain ⟨h1, h2⟩ := (parseNat10 cs n).1 hp
          simp only
          by_cases hn : n < 2 ^ (bits - 1)
          · rw [if_pos hn]
            simp only [Option.some.injEq, h1, h2, true_and]
            constructor
            · intro h; subst h; refine ⟨rfl, by omega, by omega⟩
            · rintro ⟨h, _⟩; exact h
          · rw [if_neg hn]
            constructor
            · intro h; cases h
            · rintro ⟨_, h, _, h3⟩; rw [h2] at h; omega
      · rw [if_neg h43]
        have hI : Spec.IntText (c :: cs) ↔ Spec.Digits (c :: cs) := by
          unfold Spec.IntText
          constructor
          · rintro (h | h)
            · exact h
            · simp [h43, h45] at h
          · intro h; exact Or.inl h
        have hV : Spec.intValue (c :: cs) = (Spec.number (c :: cs) : Int) := by simp [Spec.intValue, h43, h45]
        rw [hI, hV]
        cases hp : parseNat 10 (c :: cs) with
        | none =>
          simp only
          constructor
          · intro h; cases h
          · rintro ⟨h, _⟩
            have := (parseNat10 (c :: cs) _).2 ⟨h, rfl⟩
            rw [hp] at this; cases this
        | some n =>
          obtain ⟨h1, h2⟩ := (parseNat10 (c :: cs) n).1 hp
          simp only
          by_cases hn : n < 2 ^ (bits - 1)
          · rw [if_pos hn]
            simp only [Option.some.injEq, h1, h2, true_and]
            constructor
            · intro h; subst h; refine ⟨rfl, by omega, by omega⟩
            · rintro ⟨h, _⟩; exact h
          · rw [if_neg hn]
            constructor
            · intro h; cases h
            · rintro ⟨_, h, _, h3⟩; rw [h2] at h; omega

/-- Quotes around a text that neither begins nor ends with a quote. -/
theorem trimQuotes_of_ends {s : Bytes} (h1 : s.head? ≠ some 34) (h2 : s.getLast? ≠ some 34) : trimQuotes s = s := by
  unfold trimQuotes
  rw [dropWhile_head (s := s), dropWhile_head (s := s.reverse), List.reverse_reverse]
  · intro c hc
    rw [List.head?_reverse] at hc
    simp only [beq_eq_false_iff_ne, ne_eq]
    rintro rfl; exact h2 hc
  · intro c hc
    simp only [beq_eq_false_iff_ne, ne_eq]
    rintro rfl; exact h1 hc

theorem trimQuotes_fmtInt (i : Int) : trimQuotes (fmtInt 10 i) = fmtInt 10 i := by
  have hall : ∀ c ∈ fmtInt 10 i, c ≠ 34 := by
    intro c hc
    have hd : ∀ n, ∀ c ∈ fmtNat 10 n, c ≠ 34 := by
      intro n c hc
      have h := (dec_digits n).1.2 c hc
      rintro rfl
      have : (34 : UInt8).toNat = 34 := rfl
      omega
    unfold fmtInt at hc
    split at hc
    · rcases List.mem_cons.1 hc with rfl | hc
      · decide
      · exact hd _ c hc
    · exact hd _ c hc
  exact trimQuotes_of_ends (fun h => hall _ (List.mem_of_head? h) rfl) (fun h => hall _ (List.mem_of_getLast? h) rfl)

theorem fmtInt_special (i : Int) (h : fmtInt 10 i = b!"" ∨ fmtInt 10 i = b!"0" ∨ fmtInt 10 i = b!"NULL") : i = 0 := by
  unfold fmtInt at h
  by_cases hn : i < 0
  · rw [if_pos hn] at h
    rcases h with h | h | h <;> simp at h
  · rw [if_neg hn] at h
    rcases h with h | h | h
    · exact absurd h (fmtNat_ne_nil _ _)
    · have := (dec_eq_zero i.natAbs).1 h; omega
    · exfalso
      have := (dec_digits i.natAbs).1.2
      rw [show dec i.natAbs = b!"NULL" from h] at this
      have := (this 78 (by simp)).2
      have h78 : (78 : UInt8).toNat = 78 := rfl
      omega

/-- C17 (JSON): every value survives encoding and decoding, whatever the destination held. -/
theorem C17_json_roundtrip :
    (∀ (v old : UInt32), id32FromJSON old (id32JSON v) = (v, true))
    ∧ (∀ (v old : Int64), int64FromJSON old (int64JSON v) = (v, true))
    ∧ (∀ (v old : Int32), int32FromJSON old (int32JSON v) = (v, true))
    ∧ (∀ v : Bool, boolFromJSON (boolJSON v) = v) := by
  refine ⟨?_, ?_, ?_, ?_⟩
  · intro v old
    unfold id32FromJSON id32JSON
    rw [trimQuotes_digits (dec_digits _).1, parseUint_dec 32 _ v.toNat_lt]
    by_cases h : dec v.toNat = b!"" ∨ dec v.toNat = b!"0" ∨ dec v.toNat = b!"NULL"
    · rw [if_pos h]
      have h0 := fmtInt_special (v.toNat : Int) (by
        have e : fmtInt 10 (v.toNat : Int) = dec v.toNat := by unfold fmtInt; rw [if_neg (by omega)]; rfl
        rw [e]; exact h)
      have : v = 0 := UInt32.toNat_inj.1 (by simpa using h0)
      subst this; rfl
    · rw [if_neg h]; simp
  · intro v old
    unfold int64FromJSON int64JSON
    have h1 := v.le_toInt
    have h2 := v.toInt_lt
    rw [trimQuotes_fmtInt, parseInt_fmtInt 64 _ (by simpa using h1) (by simpa using h2)]
    by_cases h : fmtInt 10 v.toInt = b!"" ∨ fmtInt 10 v.toInt = b!"0" ∨ fmtInt 10 v.toInt = b!"NULL"
    · rw [if_pos h]
      have : v = 0 := Int64.toInt_inj.1 (fmtInt_special _ h)
      subst this; rfl
    · rw [if_neg h]; simp
  · intro v old
    unfold int32FromJSON int32JSON
    have h1 := v.le_toInt
    have h2 := v.toInt_lt
    rw [trimQuotes_fmtInt, parseInt_fmtInt 32 _ (by simpa using h1) (by simpa using h2)]
    by_cases h : fmtInt 10 v.toInt = b!"" ∨ fmtInt 10 v.toInt = b!"0" ∨ fmtInt 10 v.toInt = b!"NULL"
    · rw [if_pos h]
      have : v = 0 := Int32.toInt_inj.1 (fmtInt_special _ h)
      subst this; rfl
    · rw [if_neg h]; simp
  · intro v; cases v <;> decide +kernel

/-- **C17**: `Bool` is written as the JSON literals `true` and `false`, integers as their canonical decimal text with a minus sign
for negative numbers. -/
theorem C17_json_text :
    boolJSON true = b!"true" ∧ boolJSON false = b!"false"
    ∧ (∀ v : UInt32, Spec.Canonical (id32JSON v) v.toNat)
    ∧ (∀ v : Int64, ∃ s, Spec.Canonical s v.toInt.natAbs ∧ int64JSON v = if v < 0 then b!"-" ++ s else s)
    ∧ (∀ v : Int32, ∃ s, Spec.Canonical s v.toInt.natAbs ∧ int32JSON v = if v < 0 then b!"-" ++ s else s) := by
  refine ⟨rfl, rfl, fun v => dec_canonical _, fun v => ⟨Num.dec v.toInt.natAbs, dec_canonical _, ?_⟩, fun v => ⟨Num.dec v.toInt.natAbs, dec_canonical _, ?_⟩⟩
  · have e : v < 0 ↔ v.toInt < 0 := by simp [Int64.lt_iff_toInt_lt]
    simp only [int64JSON, Num.fmtInt, e]; rfl
  · have e : v < 0 ↔ v.toInt < 0 := by simp [Int32.lt_iff_toInt_lt]
    simp only [int32JSON, Num.fmtInt, e]; rfl

/-- C17 (SQL): every value survives `Value` and `Scan` into a zero destination; NULL stands for the zero value only. -/
theorem C17_sql_roundtrip :
    (∀ v : UInt32, id32Scan 0 (id32Value v) = (v, true) ∧ (id32Value v = .null ↔ v = 0))
    ∧ (∀ v : Int64, int64Scan 0 (int64Value v) = (v, true) ∧ (int64Value v = .null ↔ v = 0))
    ∧ (∀ v : Int32, int32Scan 0 (int32Value v) = (v, true) ∧ (int32Value v = .null ↔ v = 0))
    ∧ (∀ v : Bool, boolScan false (boolValue v) = (v, true) ∧ (boolValue v = .null ↔ v = false)) := by
  refine ⟨?_, ?_, ?_, ?_⟩
  · intro v
    unfold id32Value
    by_cases h : v = 0
    · subst h; simp [id32Scan]
    · rw [if_neg h]
      refine ⟨?_, by simp [h]⟩
      simp only [id32Scan]
      congr 1
      apply UInt32.toNat_inj.1
      have hb := v.toNat_lt
      have e : (Int64.ofNat v.toNat).toUInt64 = UInt64.ofNat v.toNat := rfl
      rw [e, UInt64.toNat_toUInt32, UInt64.toNat_ofNat']
      omega
  · intro v
    unfold int64Value
    by_cases h : v = 0
    · subst h; simp [int64Scan]
    · rw [if_neg h]; exact ⟨rfl, by simp [h]⟩
  · intro v
    unfold int32Value
    by_cases h : v = 0
    · subst h; simp [int32Scan]
    · rw [if_neg h]
      refine ⟨?_, by simp [h]⟩
      simp [int32Scan]
  · intro v; cases v <;> simp [boolValue, boolScan]

/-- C17 (range): the JSON decoders accept exactly the empty text, `NULL`, and decimal integers in range (after removing quotes),
and then hold exactly that integer: nothing wraps; on error the old value stays. -/
theorem C17_json_range :
    (∀ (old : UInt32) (d : Bytes), let r := id32FromJSON old d; let s := trimQuotes d
      (r.2 = true ↔ s = [] ∨ s = b!"NULL" ∨ (Spec.Digits s ∧ Spec.number s < 2 ^ 32))
      ∧ (r.2 = false → r.1 = old) ∧ (Spec.Digits s → r.2 = true → r.1.toNat = Spec.number s))
    ∧ (∀ (old : Int64) (d : Bytes), let r := int64FromJSON old d; let s := trimQuotes d
      (r.2 = true ↔ s = [] ∨ s = b!"NULL" ∨ (Spec.IntText s ∧ -2 ^ 63 ≤ Spec.intValue s ∧ Spec.intValue s < 2 ^ 63))
      ∧ (r.2 = false → r.1 = old) ∧ (Spec.IntText s → r.2 = true → r.1.toInt = Spec.intValue s))
    ∧ (∀ (old : Int32) (d : Bytes), let r := int32FromJSON old d; let s := trimQuotes d
      (r.2 = true ↔ s = [] ∨ s = b!"NULL" ∨ (Spec.IntText s ∧ -2 ^ 31 ≤ Spec.intValue s ∧ Spec.intValue s < 2 ^ 31))
      ∧ (r.2 = false → r.1 = old) ∧ (Spec.IntText s → r.2 = true → r.1.toInt = Spec.intValue s)) := by
  have dnull : ¬ Spec.Digits b!"NULL" := by decide
  have inull : ¬ Spec.IntText b!"NULL" := by
    rintro (h | ⟨h, _⟩)
    · exact dnull h
    · simp at h
  have inil : ¬ Spec.IntText [] := by
    rintro (h | ⟨h, _⟩)
    · exact h.1 rfl
    · simp at h
  have i0 : Spec.IntText b!"0" ∧ Spec.intValue b!"0" = 0 := ⟨Or.inl (by decide), by decide +kernel⟩
  refine ⟨?_, ?_, ?_⟩
  · intro old d r s
    have hr : r = id32FromJSON old d := rfl
    unfold id32FromJSON at hr
    rw [show trimQuotes d = s from rfl] at hr
    clear_value s
    by_cases h : s = b!"" ∨ s = b!"0" ∨ s = b!"NULL"
    · rw [if_pos h] at hr
      rw [hr]
      refine ⟨?_, by simp, ?_⟩
      · simp only [true_iff]
        rcases h with h | h | h
        · exact Or.inl h
        · subst h; exact Or.inr (Or.inr ⟨by decide, by decide +kernel⟩)
        · exact Or.inr (Or.inl h)
      · intro hd _
        rcases h with h | h | h
        · subst h; exact absurd rfl hd.1
        · subst h; decide +kernel
        · subst h; exact absurd hd dnull
    · rw [if_neg h] at hr
      rw [not_or, not_or] at h
      have key := fun n => (parseUint_eq_some 32 s n)
      cases hp : parseUint 32 s with
      | none =>
        rw [hp] at hr
        rw [hr]
        refine ⟨?_, by simp, by simp⟩
        simp only [Bool.false_eq_true, false_iff]
        rintro (h1 | h1 | ⟨h1, h2⟩)
        · exact h.1 h1
        · exact h.2.2 h1
        · have := (key (Spec.number s)).2 ⟨(parseNat10 s _).2 ⟨h1, rfl⟩, h2⟩
          rw [hp] at this; cases this
      | some n =>
        rw [hp] at hr
        obtain ⟨h1, h2⟩ := (key n).1 hp
        obtain ⟨h3, h4⟩ := (parseNat10 s n).1 h1
        rw [hr]
        refine ⟨?_, by simp, ?_⟩
        · simp only [true_iff]; exact Or.inr (Or.inr ⟨h3, by omega⟩)
        · intro _ _; simp; omega
  · intro old d r s
    have hr : r = int64FromJSON old d := rfl
    unfold int64FromJSON at hr
    rw [show trimQuotes d = s from rfl] at hr
    clear_value s
    by_cases h : s = b!"" ∨ s = b!"0" ∨ s = b!"NULL"
    · rw [if_pos h] at hr
      rw [hr]
      refine ⟨?_, by simp, ?_⟩
      · simp only [true_iff]
        rcases h with h | h | h
        · exact Or.inl h
        · subst h; exact Or.inr (Or.inr ⟨i0.1, by rw [i0.2]; omega, by rw [i0.2]; omega⟩)
        · exact Or.inr (Or.inl h)
      · intro hd _
        rcases h with h | h | h
        · subst h; exact absurd hd inil
        · subst h; rw [i0.2]; rfl
        · subst h; exact absurd hd inull
    · rw [if_neg h] at hr
      rw [not_or, not_or] at h
      have key := fun i => parseInt_some 64 (by omega) s i
      cases hp : parseInt 64 s with
      | none =>
        rw [hp] at hr
        rw [hr]
        refine ⟨?_, by simp, by simp⟩
        simp only [Bool.false_eq_true, false_iff]
        rintro (h1 | h1 | ⟨h1, h2, h3⟩)
        · exact h.1 h1
        · exact h.2.2 h1
        · have := (key (Spec.intValue s)).2 ⟨h1, rfl, by simpa using h2, by simpa using h3⟩
          rw [hp] at this; cases this
      | some i =>
        rw [hp] at hr
        obtain ⟨h1, h2, h3, h4⟩ := (key i).1 hp
        rw [hr]
        refine ⟨?_, by simp, ?_⟩
        · simp only [true_iff]; exact Or.inr (Or.inr ⟨h1, by rw [h2]; simpa using h3, by rw [h2]; simpa using h4⟩)
        · intro _ _
          rw [h2]
          exact Int64.toInt_ofInt_of_le (by simpa using h3) (by simpa using h4)
  · intro old d r s
    have hr : r = int32FromJSON old d := rfl
    unfold int32FromJSON at hr
    rw [show trimQuotes d = s from rfl] at hr
    clear_value s
    by_cases h : s = b!"" ∨ s = b!"0" ∨ s = b!"NULL"
    · rw [if_pos h] at hr
      rw [hr]
      refine ⟨?_, by simp, ?_⟩
      · simp only [true_iff]
        rcases h with h | h | h
        · exact Or.inl h
        · subst h; exact Or.inr (Or.inr ⟨i0.1, by rw [i0.2]; omega, by rw [i0.2]; omega⟩)
        · exact Or.inr (Or.inl h)
      · intro hd _
        rcases h with h | h | h
        · subst h; exact absurd hd inil
        · subst h; rw [i0.2]; rfl
        · subst h; exact absurd hd inull
    · rw [if_neg h] at hr
      rw [not_or, not_or] at h
      have key := fun i => parseInt_some 32 (by omega) s i
      cases hp : parseInt 32 s with
      | none =>
        rw [hp] at hr
        rw [hr]
        refine ⟨?_, by simp, by simp⟩
        simp only [Bool.false_eq_true, false_iff]
        rintro (h1 | h1 | ⟨h1, h2, h3⟩)
        · exact h.1 h1
        · exact h.2.2 h1
        · have := (key (Spec.intValue s)).2 ⟨h1, rfl, by simpa using h2, by simpa using h3⟩
          rw [hp] at this; cases this
      | some i =>
        rw [hp] at hr
        obtain ⟨h1, h2, h3, h4⟩ := (key i).1 hp
        rw [hr]
        refine ⟨?_, by simp, ?_⟩
        · simp only [true_iff]; exact Or.inr (Or.inr ⟨h1, by rw [h2]; simpa using h3, by rw [h2]; simpa using h4⟩)
        · intro _ _
          rw [h2]
          exact Int32.toInt_ofInt_of_le (by simpa using h3) (by simpa using h4)

example : int32FromJSON 5 b!"2147483648" = (5, false) ∧ int32FromJSON 5 b!"\"-2147483648\"" = (-2147483648, true)
    ∧ id32FromJSON 7 b!"4294967296" = (7, false) ∧ int64FromJSON 0 b!"+12" = (12, true) ∧ boolFromJSON b!"yes" = false := by decide +kernel

/-! ### C63: integers from the driver -/

/-- The integer a driver value carries. -/
def Spec.dvInt : DV → Option Int
  | .i64 x | .int x => some x.toInt
  | .u64 x | .uint x => some x.toNat
  | _ => none

/-- C63 (partial): an integer column that fits the type is read as that integer.
Missing: integers that do not fit are not rejected, see `C63_out_of_range_wraps`. -/
theorem C63_scan_in_range_partial (d : DV) (i : Int) (hd : Spec.dvInt d = some i) :
    (0 ≤ i → i < 2 ^ 32 → ∀ old, ∃ v, id32Scan old d = (v, true) ∧ (v.toNat : Int) = i)
    ∧ (-2 ^ 63 ≤ i → i < 2 ^ 63 → ∀ old, ∃ v, int64Scan old d = (v, true) ∧ v.toInt = i)
    ∧ (-2 ^ 31 ≤ i → i < 2 ^ 31 → ∀ old, ∃ v, int32Scan old d = (v, true) ∧ v.toInt = i)
    ∧ (∀ old, boolScan old d = (decide (0 < i), true)) := by
  have hu : ∀ x : UInt64, (x.toNat : Int) < 2 ^ 63 → x.toInt64.toInt = x.toNat := by
    intro x hx
    have : x.toInt64.toInt = Int.bmod x.toNat (2 ^ 64) := by
      rw [Int64.toInt, ← UInt64.toNat_toBitVec]; exact BitVec.toInt_eq_toNat_bmod _
    rw [this, Int.bmod_def]
    split <;> omega
  have hs : ∀ x : Int64, 0 ≤ x.toInt → (x.toUInt64.toNat : Int) = x.toInt := by
    intro x hx
    have h1 := hu x.toUInt64
    have h2 := x.toUInt64.toNat_lt
    have hx2 := x.toInt_lt
    have : x.toInt = Int.bmod x.toUInt64.toNat (2 ^ 64) := by
      conv => lhs; rw [show x = x.toUInt64.toInt64 from by simp]
      rw [Int64.toInt, ← UInt64.toNat_toBitVec]; exact BitVec.toInt_eq_toNat_bmod _
    rw [Int.bmod_def] at this
    split at this <;> omega
  have h32 : ∀ x : Int64, -2 ^ 31 ≤ x.toInt → x.toInt < 2 ^ 31 → x.toInt32.toInt = x.toInt := by
    intro x h1 h2
    rw [Int64.toInt_toInt32, Int.bmod_def]
    split <;> omega
  have gu : ∀ x : UInt64, decide (x > 0) = decide ((0 : Int) < x.toNat) := by
    intro x
    rw [decide_eq_decide, gt_iff_lt, UInt64.lt_iff_toNat_lt]
    simp
  have gs : ∀ x : Int64, decide (x > 0) = decide (0 < x.toInt) := by
    intro x
    rw [decide_eq_decide, gt_iff_lt, Int64.lt_iff_toInt_lt]
    simp
  cases d <;> simp only [Spec.dvInt, Option.some.injEq, reduceCtorEq] at hd
  case i64 x =>
    subst hd
    refine ⟨?_, ?_, ?_, ?_⟩
    · intro h1 h2 old; refine ⟨_, rfl, ?_⟩; rw [UInt64.toNat_toUInt32]; have := hs x h1; omega
    · intro _ _ old; exact ⟨_, rfl, rfl⟩
    · intro h1 h2 old; exact ⟨_, rfl, h32 x h1 h2⟩
    · intro old; simp only [boolScan, gs]
  case int x =>
    subst hd
    refine ⟨?_, ?_, ?_, ?_⟩
    · intro h1 h2 old; refine ⟨_, rfl, ?_⟩; rw [UInt64.toNat_toUInt32]; have := hs x h1; omega
    · intro _ _ old; exact ⟨_, rfl, rfl⟩
    · intro h1 h2 old; exact ⟨_, rfl, h32 x h1 h2⟩
    · intro old; simp only [boolScan, gs]
  case u64 x =>
    subst hd
    refine ⟨?_, ?_, ?_, ?_⟩
    · intro h1 h2 old; refine ⟨_, rfl, ?_⟩; rw [UInt64.toNat_toUInt32]; omega
    · intro _ h old; exact ⟨_, rfl, hu x h⟩
    · intro h1 h2 old
      refine ⟨_, rfl, ?_⟩
      have e := hu x (by omega)
      rw [h32 _ (by omega) (by omega), e]
    · intro old; simp only [boolScan, gu]
  case uint x =>
    subst hd
    refine ⟨?_, ?_, ?_, ?_⟩
    · intro h1 h2 old; refine ⟨_, rfl, ?_⟩; rw [UInt64.toNat_toUInt32]; omega
    · intro _ h old; exact ⟨_, rfl, hu x h⟩
    · intro h1 h2 old
      refine ⟨_, rfl, ?_⟩
      have e := hu x (by omega)
      rw [h32 _ (by omega) (by omega), e]
    · intro old; simp only [boolScan, gu]

example : Spec.dvInt (.i64 (-5)) = some (-5) ∧ Spec.dvInt (.u64 4294967295) = some 4294967295 := by decide +kernel

/-- **C63, exactly**: scanning an integer column never fails, and the number is kept if and only if it is in the range of the type; otherwise the low bits are kept. -/
theorem C63_kept_iff_in_range (d : DV) (i : Int) (hd : Spec.dvInt d = some i) :
    (∀ old, ∃ v, id32Scan old d = (v, true) ∧ (v.toNat : Int) = i % 2 ^ 32 ∧ ((v.toNat : Int) = i ↔ 0 ≤ i ∧ i < 2 ^ 32))
    ∧ (∀ old, ∃ v, int64Scan old d = (v, true) ∧ v.toInt = Int.bmod i (2 ^ 64) ∧ (v.toInt = i ↔ -2 ^ 63 ≤ i ∧ i < 2 ^ 63))
    ∧ (∀ old, ∃ v, int32Scan old d = (v, true) ∧ v.toInt = Int.bmod i (2 ^ 32) ∧ (v.toInt = i ↔ -2 ^ 31 ≤ i ∧ i < 2 ^ 31)) := by
  have hu : ∀ x : UInt64, x.toInt64.toInt = Int.bmod x.toNat (2 ^ 64) := by
    intro x
    rw [Int64.toInt, ← UInt64.toNat_toBitVec]; exact BitVec.toInt_eq_toNat_bmod _
  have hx : ∀ x : Int64, x.toInt = Int.bmod x.toUInt64.toNat (2 ^ 64) := by
    intro x
    conv => lhs; rw [show x = x.toUInt64.toInt64 from by simp]
    exact hu _
  have bm64 : ∀ i : Int, Int.bmod i (2 ^ 64) = i ↔ -2 ^ 63 ≤ i ∧ i < 2 ^ 63 := by
    intro i; rw [Int.bmod_def]; split <;> omega
  have bm32 : ∀ i : Int, Int.bmod i (2 ^ 32) = i ↔ -2 ^ 31 ≤ i ∧ i < 2 ^ 31 := by
    intro i; rw [Int.bmod_def]; split <;> omega
  have em32 : ∀ i : Int, i % 2 ^ 32 = i ↔ 0 ≤ i ∧ i < 2 ^ 32 := by intro i; omega
  have s32 : ∀ x : Int64, ((x.toUInt64.toUInt32).toNat : Int) = x.toInt % 2 ^ 32 := by
    intro x
    rw [UInt64.toNat_toUInt32]
    have := hx x
    rw [Int.bmod_def] at this
    have h2 := x.toUInt64.toNat_lt
    split at this <;> omega
  have i32 : ∀ x : UInt64, x.toInt64.toInt32.toInt = Int.bmod x.toNat (2 ^ 32) := by
    intro x
    rw [Int64.toInt_toInt32, hu]
    have h2 := x.toNat_lt
    rw [Int.bmod_def, Int.bmod_def, Int.bmod_def]
    split <;> split <;> split <;> omega
  have s64 : ∀ x : Int64, x.toInt = Int.bmod x.toInt (2 ^ 64) := by
    intro x
    have h1 := x.le_toInt
    have h2 := x.toInt_lt
    exact ((bm64 _).2 ⟨h1, h2⟩).symm
  cases d <;> simp only [Spec.dvInt, Option.some.injEq, reduceCtorEq] at hd
  case i64 x =>
    subst hd
    refine ⟨fun old => ⟨_, rfl, s32 x, ?_⟩, fun old => ⟨_, rfl, s64 x, ?_⟩, fun old => ⟨_, rfl, Int64.toInt_toInt32 x, ?_⟩⟩
    · rw [s32]; exact em32 _
    · rw [← bm64, ← s64]
    · rw [Int64.toInt_toInt32]; exact bm32 _
  case int x =>
    subst hd
    refine ⟨fun old => ⟨_, rfl, s32 x, ?_⟩, fun old => ⟨_, rfl, s64 x, ?_⟩, fun old => ⟨_, rfl, Int64.toInt_toInt32 x, ?_⟩⟩
    · rw [s32]; exact em32 _
    · rw [← bm64, ← s64]
    · rw [Int64.toInt_toInt32]; exact bm32 _
  case u64 x =>
    subst hd
    have e : ((x.toUInt32).toNat : Int) = (x.toNat : Int) % 2 ^ 32 := by rw [UInt64.toNat_toUInt32]; omega
    refine ⟨fun old => ⟨_, rfl, e, ?_⟩, fun old => ⟨_, rfl, hu x, ?_⟩, fun old => ⟨_, rfl, i32 x, ?_⟩⟩
    · rw [e]; exact em32 _
    · rw [hu]; exact bm64 _
    · rw [i32]; exact bm32 _
  case uint x =>
    subst hd
    have e : ((x.toUInt32).toNat : Int) = (x.toNat : Int) % 2 ^ 32 := by rw [UInt64.toNat_toUInt32]; omega
    refine ⟨fun old => ⟨_, rfl, e, ?_⟩, fun old => ⟨_, rfl, hu x, ?_⟩, fun old => ⟨_, rfl, i32 x, ?_⟩⟩
    · rw [e]; exact em32 _
    · rw [hu]; exact bm64 _
    · rw [i32]; exact bm32 _

/-- C63 fails: an out-of-range integer column is silently reduced modulo 2^32 (or 2^64) instead of being rejected. -/
theorem C63_out_of_range_wraps :
    id32Scan 9 (.i64 4294967296) = (0, true) ∧ id32Scan 9 (.i64 (-1)) = (4294967295, true)
    ∧ int32Scan 9 (.i64 2147483648) = (-2147483648, true) ∧ int64Scan 9 (.u64 18446744073709551615) = (-1, true)
    ∧ boolScan true (.i64 (-1)) = (false, true) := by decide +kernel

/-! ### C18 -/

/-- C18 (partial): a successful scan of a column that is not NULL gives a result that does not depend on the old contents, for
`ID`, `ID32`, `Int64`, `Int32`, `Bool`, `NULLString`; for `NULLString` and `UUID` this also holds for NULL, which gives the
empty value; an unsuccessful scan leaves the destination unchanged.
Missing for the full property: NULL into the numeric types and `Bool`, and byte strings of the wrong length into `UUID`
(`C18_null_keeps_old`); `Metadata` and `KVSet` are treated in C44. -/
theorem C18_scan_overwrites_partial (d : DV) :
    (d ≠ .null → ∀ o o' : UInt32, (id32Scan o d).2 = true → id32Scan o d = id32Scan o' d)
    ∧ (d ≠ .null → ∀ o o' : Int64, (int64Scan o d).2 = true → int64Scan o d = int64Scan o' d)
    ∧ (d ≠ .null → ∀ o o' : Int32, (int32Scan o d).2 = true → int32Scan o d = int32Scan o' d)
    ∧ (d ≠ .null → ∀ o o' : Bool, (boolScan o d).2 = true → boolScan o d = boolScan o' d)
    ∧ (∀ o o' : Bytes, (nstrScan o d).2 = true → nstrScan o d = nstrScan o' d)
    ∧ ((∀ v, d = .bytes v → v.length = 16) → ∀ o o' : Bytes, (uuidScan o d).2 = true → uuidScan o d = uuidScan o' d)
    ∧ (∀ o : Bytes, nstrScan o .null = ([], true) ∧ uuidScan o .null = ([], true))
    ∧ (d ≠ .null → ∀ (h : Heap) (v v' : ID), (scan h v d).2.2 = true → scan h v d = scan h v' d) := by
  refine ⟨?_, ?_, ?_, ?_, ?_, ?_, ?_, ?_⟩
  · intro hn o o' h; cases d <;> simp_all [id32Scan]
  · intro hn o o' h; cases d <;> simp_all [int64Scan]
  · intro hn o o' h; cases d <;> simp_all [int32Scan]
  · intro hn o o' h; cases d <;> simp_all [boolScan]
  · intro o o' h; cases d <;> simp_all [nstrScan, nullStringScan]
  · intro hb o o' h; cases d <;> simp_all [uuidScan]
  · intro o; exact ⟨rfl, rfl⟩
  · intro hn h v v' he; cases d <;> simp_all [scan]

/-- C18 (errors): an unsuccessful scan leaves the destination unchanged. -/
theorem C18_error_keeps_old (d : DV) :
    (∀ o, (id32Scan o d).2 = false → (id32Scan o d).1 = o) ∧ (∀ o, (int64Scan o d).2 = false → (int64Scan o d).1 = o)
    ∧ (∀ o, (int32Scan o d).2 = false → (int32Scan o d).1 = o) ∧ (∀ o, (boolScan o d).2 = false → (boolScan o d).1 = o)
    ∧ (∀ o, (nstrScan o d).2 = false → (nstrScan o d).1 = o) ∧ (∀ o, (uuidScan o d).2 = false → (uuidScan o d).1 = o)
    ∧ (∀ h v, (scan h v d).2.2 = false → (scan h v d).1 = h ∧ (scan h v d).2.1 = v) := by
  refine ⟨?_, ?_, ?_, ?_, ?_, ?_, ?_⟩
  · intro o h; cases d <;> simp_all [id32Scan]
  · intro o h; cases d <;> simp_all [int64Scan]
  · intro o h; cases d <;> simp_all [int32Scan]
  · intro o h; cases d <;> simp_all [boolScan]
  · intro o h; cases d <;> simp_all [nstrScan, nullStringScan]
  · intro o h; cases d <;> simp_all [uuidScan]
    split at h <;> simp_all
  · intro h v he; cases d <;> simp_all [scan]

/-- C18 fails: a NULL column leaves the previous row's value in the destination, for every numeric type and `Bool`, and reports
success; so does a byte string of the wrong length scanned into a `UUID`. -/
theorem C18_null_keeps_old :
    (∀ o, id32Scan o .null = (o, true)) ∧ (∀ o, int64Scan o .null = (o, true)) ∧ (∀ o, int32Scan o .null = (o, true))
    ∧ (∀ o, boolScan o .null = (o, true)) ∧ (∀ h v, scan h v .null = (h, v, true))
    ∧ (∀ o v, v.length ≠ 16 → uuidScan o (.bytes v) = (o, true)) := by
  refine ⟨fun _ => rfl, fun _ => rfl, fun _ => rfl, fun _ => rfl, fun _ _ => rfl, ?_⟩
  intro o v hv
  rw [uuidScan, if_pos hv]

/-! ### C19 -/

/-- A byte in two upper-case hexadecimal digits. -/
def Spec.hexByte (b : UInt8) : Bytes :=
  [b!"0123456789ABCDEF".getD (b.toNat / 16) 0, b!"0123456789ABCDEF".getD (b.toNat % 16) 0]

theorem hex2_spec (b : UInt8) : hex2 b = Spec.hexByte b := by
  have h : ∀ n, n < 16 → hexDigit n = b!"0123456789ABCDEF".getD n 0 := by decide +kernel
  have := b.toNat_lt
  unfold hex2 Spec.hexByte
  rw [h _ (by omega), h _ (by omega)]

/-- The SQL Server text of a 16-byte value: the first three groups (4, 2 and 2 bytes) little-endian, the last two (2 and 6 bytes)
in order, in upper-case hexadecimal, separated by hyphens. -/
def Spec.uuid (v : Bytes) : Bytes :=
  let hex (g : Bytes) : Bytes := g.flatMap Spec.hexByte
  hex (v.take 4).reverse ++ c!"-" :: (hex ((v.drop 4).take 2).reverse ++ c!"-" :: (hex ((v.drop 6).take 2).reverse ++
    c!"-" :: (hex ((v.drop 8).take 2) ++ c!"-" :: hex (v.drop 10))))

theorem len16 {v : Bytes} (h : v.length = 16) : ∃ a0 a1 a2 a3 a4 a5 a6 a7 a8 a9 a10 a11 a12 a13 a14 a15,
    v = [a0, a1, a2, a3, a4, a5, a6, a7, a8, a9, a10, a11, a12, a13, a14, a15] := by
  have key : ∀ (n : Nat) (l : Bytes), l.length = n + 1 → ∃ a t, l = a :: t ∧ t.length = n := by
    intro n l hl
    cases l with
    | nil => cases hl
    | cons a t => exact ⟨a, t, rfl, by simpa using hl⟩
  obtain ⟨a0, t0, rfl, h0⟩ := key _ _ h
  obtain ⟨a1, t1, rfl, h1⟩ := key _ _ h0
  obtain ⟨a2, t2, rfl, h2⟩ := key _ _ h1
  obtain ⟨a3, t3, rfl, h3⟩ := key _ _ h2
  obtain ⟨a4, t4, rfl, h4⟩ := key _ _ h3
  obtain ⟨a5, t5, rfl, h5⟩ := key _ _ h4
  obtain ⟨a6, t6, rfl, h6⟩ := key _ _ h5
  obtain ⟨a7, t7, rfl, h7⟩ := key _ _ h6
  obtain ⟨a8, t8, rfl, h8⟩ := key _ _ h7
  obtain ⟨a9, t9, rfl, h9⟩ := key _ _ h8
  obtain ⟨a10, t10, rfl, h10⟩ := key _ _ h9
  obtain ⟨a11, t11, rfl, h11⟩ := key _ _ h10
  obtain ⟨a12, t12, rfl, h12⟩ := key _ _ h11
  obtain ⟨a13, t13, rfl, h13⟩ := key _ _ h12
  obtain ⟨a14, t14, rfl, h14⟩ := key _ _ h13
  obtain ⟨a15, t15, rfl, h15⟩ := key _ _ h14
  have : t15 = [] := List.length_eq_zero_iff.1 h15
  subst this
  exact ⟨_, _, _, _, _, _, _, _, _, _, _, _, _, _, _, _, rfl⟩

theorem hexDigit_inj {a b : Nat} (ha : a < 16) (hb : b < 16) (h : hexDigit a = hexDigit b) : a = b := by
  have e : ∀ n, n < 16 → (hexDigit n).toNat = if n < 10 then 48 + n else 55 + n := by
    intro n hn; unfold hexDigit; split <;> simp <;> omega
  have h1 := congrArg UInt8.toNat h
  rw [e a ha, e b hb] at h1
  split at h1 <;> split at h1 <;> omega

theorem byte_of_hex {a b : UInt8} (h1 : hexDigit (a.toNat / 16) = hexDigit (b.toNat / 16))
    (h2 : hexDigit (a.toNat % 16) = hexDigit (b.toNat % 16)) : a = b := by
  have := a.toNat_lt
  have := b.toNat_lt
  have e1 := hexDigit_inj (by omega) (by omega) h1
  have e2 := hexDigit_inj (by omega) (by omega) h2
  exact UInt8.toNat_inj.1 (by omega)

theorem uuidText_spec (a0 a1 a2 a3 a4 a5 a6 a7 a8 a9 a10 a11 a12 a13 a14 a15 : UInt8) :
    uuidText [a0, a1, a2, a3, a4, a5, a6, a7, a8, a9, a10, a11, a12, a13, a14, a15]
      = Spec.uuid [a0, a1, a2, a3, a4, a5, a6, a7, a8, a9, a10, a11, a12, a13, a14, a15] := by
  unfold uuidText Spec.uuid
  rw [← show hex2 = Spec.hexByte from funext hex2_spec]
  generalize hex2 = f
  simp [List.append_assoc]

theorem uuidScan_16 (old v : Bytes) (h : v.length = 16) : uuidScan old (.bytes v) = (uuidText v, true) := by
  rw [uuidScan, if_neg (by omega)]

/-- C19: scanning 16 bytes gives exactly the 36-character text of the specification; text input is kept verbatim. -/
theorem C19_uuid_text (old v : Bytes) (h : v.length = 16) :
    uuidScan old (.bytes v) = (Spec.uuid v, true) ∧ (Spec.uuid v).length = 36 ∧ (∀ s, uuidScan old (.text s) = (s, true)) := by
  obtain ⟨a0, a1, a2, a3, a4, a5, a6, a7, a8, a9, a10, a11, a12, a13, a14, a15, rfl⟩ := len16 h
  refine ⟨?_, ?_, fun _ => rfl⟩
  · rw [← uuidText_spec a0 a1 a2 a3 a4 a5 a6 a7 a8 a9 a10 a11 a12 a13 a14 a15]
    exact uuidScan_16 old _ rfl
  · simp only [Spec.uuid, List.take, List.drop, List.reverse_cons, List.reverse_nil,
      List.nil_append, List.cons_append, List.flatMap_cons, List.flatMap_nil, Spec.hexByte, List.append_nil, List.length_cons, List.length_nil]

/-- C19: different 16-byte values have different texts. -/
theorem C19_uuid_injective (v w : Bytes) (hv : v.length = 16) (hw : w.length = 16) (h : Spec.uuid v = Spec.uuid w) : v = w := by
  obtain ⟨a0, a1, a2, a3, a4, a5, a6, a7, a8, a9, a10, a11, a12, a13, a14, a15, rfl⟩ := len16 hv
  obtain ⟨b0, b1, b2, b3, b4, b5, b6, b7, b8, b9, b10, b11, b12, b13, b14, b15, rfl⟩ := len16 hw
  unfold Spec.uuid at h
  rw [← show hex2 = Spec.hexByte from funext hex2_spec] at h
  simp only [List.take, List.drop, List.reverse_cons, List.reverse_nil, List.nil_append, List.cons_append,
    List.flatMap_cons, List.flatMap_nil, hex2, List.append_nil, List.cons.injEq, and_true, true_and] at h
  simp only [List.cons.injEq, and_true]
  obtain ⟨h1, h2, h3, h4, h5, h6, h7, h8, h9, h10, h11, h12, h13, h14, h15, h16, h17, h18, h19, h20, h21, h22, h23, h24, h25, h26, h27,
    h28, h29, h30, h31, h32⟩ := h
  exact ⟨byte_of_hex h7 h8, byte_of_hex h5 h6, byte_of_hex h3 h4, byte_of_hex h1 h2, byte_of_hex h11 h12, byte_of_hex h9 h10,
    byte_of_hex h15 h16, byte_of_hex h13 h14, byte_of_hex h17 h18, byte_of_hex h19 h20, byte_of_hex h21 h22, byte_of_hex h23 h24,
    byte_of_hex h25 h26, byte_of_hex h27 h28, byte_of_hex h29 h30, byte_of_hex h31 h32⟩

example : Spec.uuid [0x33, 0x22, 0x11, 0x00, 0x55, 0x44, 0x77, 0x66, 0x88, 0x99, 0xaa, 0xbb, 0xcc, 0xdd, 0xee, 0xff]
    = b!"00112233-4455-6677-8899-AABBCCDDEEFF" := by decide +kernel

/-- C19 fails for other lengths: a byte string that is not 16 bytes long is not rejected; the scan reports success and leaves
the destination as it was. -/
theorem C19_wrong_length_not_rejected (old v : Bytes) (h : v.length ≠ 16) : uuidScan old (.bytes v) = (old, true) := by
  rw [uuidScan, if_pos h]

example : uuidScan b!"old" (.bytes b!"short") = (b!"old", true) := by decide +kernel

/-! ### C20 -/

/-- C20: `NULLString` is NULL exactly when empty, and `Value` followed by `Scan` is the identity whatever the destination held,
also when the driver returns the column as bytes. -/
theorem C20_nullstring (s old : Bytes) :
    (nstrValue s = .null ↔ s = []) ∧ nstrScan old (nstrValue s) = (s, true)
    ∧ (∀ t, nstrValue s = .text t → t = s ∧ nstrScan old (.bytes t) = (s, true)) ∧ nstrScan old .null = ([], true) := by
  unfold nstrValue
  by_cases h : s = []
  · subst h; simp [nstrScan, nullStringScan]
  · simp [h, nstrScan, nullStringScan]

/-- The same for a `UUID` held as text (of at least one character); a stored UUID comes back verbatim when the column is text. -/
theorem C20_uuid_value (s old : Bytes) : (uuidValue s = .null ↔ s = []) ∧ uuidScan old (uuidValue s) = (s, true) := by
  unfold uuidValue
  by_cases h : s = []
  · subst h; simp [uuidScan]
  · simp [h, uuidScan]

end Types
