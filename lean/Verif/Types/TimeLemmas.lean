import Verif.Types.TimeSpec
import Mathlib.Tactic.Tauto
import Mathlib.Tactic.NormNum
set_option linter.unusedSimpArgs false
set_option linter.unusedVariables false
/-! Lemmas on the calendar, formatting and parsing. -/
namespace Types.Tm

theorem isLeap_iff (y : Nat) : isLeap (y : Int) = true ↔ Spec.Leap y := by
  simp only [isLeap, Spec.Leap, Bool.and_eq_true, Bool.or_eq_true, beq_iff_eq, bne_iff_ne]
  omega

theorem daysToYear_eq (y : Nat) : daysToYear y = Spec.yearStart y := by
  induction y with
  | zero => decide
  | succ y ih =>
    simp only [Spec.yearStart, ← ih, daysToYear]
    by_cases h : Spec.Leap y
    · rw [if_pos h]; unfold Spec.Leap at h; push_cast; omega
    · rw [if_neg h]; unfold Spec.Leap at h; push_cast; omega

theorem daysIn_eq (y m : Nat) (h1 : 1 ≤ m) (h2 : m ≤ 12) : daysIn m y = Spec.monthDays y m := by
  have hl := isLeap_iff y
  rcases (by omega : m = 1 ∨ m = 2 ∨ m = 3 ∨ m = 4 ∨ m = 5 ∨ m = 6 ∨ m = 7 ∨ m = 8 ∨ m = 9 ∨ m = 10 ∨ m = 11 ∨ m = 12)
    with h | h | h | h | h | h | h | h | h | h | h | h <;> subst h <;> simp [daysIn, Spec.monthDays, daysBefore, hl]

theorem monthStart_eq (y m : Nat) (h1 : 1 ≤ m) (h2 : m ≤ 12) :
    Spec.monthStart y m = daysBefore.getD (m - 1) 0 + (if isLeap y ∧ 3 ≤ m then 1 else 0) := by
  have hl := isLeap_iff y
  rcases (by omega : m = 1 ∨ m = 2 ∨ m = 3 ∨ m = 4 ∨ m = 5 ∨ m = 6 ∨ m = 7 ∨ m = 8 ∨ m = 9 ∨ m = 10 ∨ m = 11 ∨ m = 12)
    with h | h | h | h | h | h | h | h | h | h | h | h <;> subst h <;>
    simp [Spec.monthStart, Spec.monthDays, daysBefore, hl] <;> (split; all_goals rfl)

theorem dateDays_eq (y m d : Nat) (h1 : 1 ≤ m) (h2 : m ≤ 12) :
    dateDays y m d = Spec.yearStart y + Spec.monthStart y m + d - 1 := by
  rw [monthStart_eq y m h1 h2, ← daysToYear_eq, dateDays]
  split <;> simp <;> omega

theorem monthOf_table : ∀ yd < 365, 1 ≤ monthOf yd ∧ monthOf yd ≤ 12 ∧ daysBefore.getD (monthOf yd - 1) 0 ≤ yd
    ∧ yd < daysBefore.getD (monthOf yd) 0 ∧ (yd < 59 ↔ monthOf yd ≤ 2) := by
  decide +kernel

/-- `civil` gives the valid calendar date with the given day number. -/
theorem civil_spec (z : Int) (h0 : 0 ≤ z) :
    ∃ y m d : Nat, civil z = ((y : Int), m, d) ∧ 1 ≤ y ∧ 1 ≤ m ∧ m ≤ 12 ∧ 1 ≤ d ∧ d ≤ Spec.monthDays y m
      ∧ Spec.yearStart y + Spec.monthStart y m + d - 1 = z := by
  obtain ⟨k, rfl⟩ := Int.eq_ofNat_of_zero_le h0
  -- the cycle decomposition
  have key : ∃ y yd : Nat, 1 ≤ y ∧ yd < (if Spec.Leap y then 366 else 365) ∧ Spec.yearStart y + yd = (k : Int)
      ∧ civil k = (if isLeap y then
          if yd = 59 then ((y : Int), 2, 29)
          else
            let yd := if yd > 59 then yd - 1 else yd
            ((y : Int), monthOf yd, yd - daysBefore.getD (monthOf yd - 1) 0 + 1)
        else ((y : Int), monthOf yd, yd - daysBefore.getD (monthOf yd - 1) 0 + 1)) := by
    have e1 : ((k : Int) % 146097).toNat = k % 146097 := by omega
    let d1 := k % 146097
    let n100 := d1 / 36524 - d1 / 36524 / 4
    let d2 := d1 - n100 * 36524
    let n4 := d2 / 1461
    let d3 := d2 - n4 * 1461
    let n1 := d3 / 365 - d3 / 365 / 4
    refine ⟨k / 146097 * 400 + n100 * 100 + n4 * 4 + n1 + 1, d3 - n1 * 365, by omega, ?_, ?_, ?_⟩
    · have hd1 : d1 < 146097 := Nat.mod_lt _ (by decide)
      have : n100 ≤ 3 ∧ d2 < 36525 ∧ (d2 = 36524 → n100 = 3) := by
        simp only [n100, d2]; omega
      have : n4 ≤ 24 ∧ d3 < 1461 ∧ (d3 = 1460 → n4 = 24 → n100 = 3) := by
        simp only [n4, d3]; omega
      have : n1 ≤ 3 ∧ d3 - n1 * 365 ≤ 365 ∧ (d3 - n1 * 365 = 365 → d3 = 1460) := by
        simp only [n1]; omega
      generalize hA : k / 146097 = A
      generalize hB : n100 = B at *
      generalize hC : n4 = C at *
      generalize hE : n1 = E at *
      split
      · omega
      · rename_i hnl
        unfold Spec.Leap at hnl
        by_cases h365 : d3 - E * 365 = 365
        · exfalso
          apply hnl
          have : E = 3 := by omega
          subst this
          constructor
          · omega
          · by_cases hc : C = 24
            · right; omega
            · left; omega
        · omega
    · rw [← daysToYear_eq, daysToYear]
      have hd1 : d1 < 146097 := Nat.mod_lt _ (by decide)
      have : n100 ≤ 3 ∧ d2 < 36525 ∧ d2 + n100 * 36524 = d1 := by
        simp only [n100, d2]; omega
      have : n4 ≤ 24 ∧ d3 < 1461 ∧ d3 + n4 * 1461 = d2 := by
        simp only [n4, d3]; omega
      have : n1 ≤ 3 ∧ n1 * 365 ≤ d3 := by
        simp only [n1]; omega
      have hk : k = 146097 * (k / 146097) + d1 := by simp only [d1]; omega
      generalize k / 146097 = A at *
      generalize n100 = B at *
      generalize n4 = C at *
      generalize n1 = E at *
      have q1 : (A * 400 + B * 100 + C * 4 + E) / 4 = A * 100 + B * 25 + C := by omega
      have q2 : (A * 400 + B * 100 + C * 4 + E) / 100 = A * 4 + B := by omega
      have q3 : (A * 400 + B * 100 + C * 4 + E) / 400 = A := by omega
      have e0 : ((A * 400 + B * 100 + C * 4 + E + 1 : Nat) : Int) - 1 = ((A * 400 + B * 100 + C * 4 + E : Nat) : Int) := by
        push_cast; omega
      rw [e0, show (4 : Int) = ((4 : Nat) : Int) from rfl, show (100 : Int) = ((100 : Nat) : Int) from rfl,
        show (400 : Int) = ((400 : Nat) : Int) from rfl, ← Int.natCast_ediv, ← Int.natCast_ediv, ← Int.natCast_ediv, q1, q2, q3]
      push_cast
      omega
    · have eY : ((k : Int) / 146097) * 400 + (n100 : Int) * 100 + (n4 : Int) * 4 + (n1 : Int) + 1
          = ((k / 146097 * 400 + n100 * 100 + n4 * 4 + n1 + 1 : Nat) : Int) := by push_cast; omega
      simp only [civil, e1]
      rw [← eY]
  obtain ⟨y, yd, hy, hyd, hz, hciv⟩ := key
  have hl := isLeap_iff y
  rw [hciv, ← hz]
  by_cases hL : Spec.Leap y
  · rw [if_pos (hl.2 hL)]
    rw [if_pos hL] at hyd
    by_cases h59 : yd = 59
    · subst h59
      rw [if_pos rfl]
      exact ⟨y, 2, 29, rfl, hy, by decide, by decide, by decide, by simp [Spec.monthDays, hL],
        by simp [Spec.monthStart, Spec.monthDays]; omega⟩
    · rw [if_neg h59]
      dsimp only
      generalize hyd' : (if yd > 59 then yd - 1 else yd) = yd'
      have hlt : yd' < 365 := by split at hyd' <;> omega
      obtain ⟨m1, m2, m3, m4, m5⟩ := monthOf_table yd' hlt
      refine ⟨y, monthOf yd', _, rfl, hy, m1, m2, by omega, ?_, ?_⟩
      · have hdi := daysIn_eq y (monthOf yd') m1 m2
        rw [← hdi, daysIn, if_pos (hl.2 hL)]
        split
        · rename_i h2; rw [h2] at m3 m4 m5 ⊢; simp [daysBefore] at m3 m4 ⊢; split at hyd' <;> omega
        · omega
      · rw [monthStart_eq y _ m1 m2]
        split at hyd'
        · rw [if_pos ⟨hl.2 hL, by omega⟩]; push_cast; omega
        · rw [if_neg (by omega)]; push_cast; omega
  · rw [if_neg (by rw [hl]; exact hL)]
    rw [if_neg hL] at hyd
    obtain ⟨m1, m2, m3, m4, m5⟩ := monthOf_table yd hyd
    refine ⟨y, monthOf yd, _, rfl, hy, m1, m2, by omega, ?_, ?_⟩
    · have hdi := daysIn_eq y (monthOf yd) m1 m2
      rw [← hdi, daysIn]
      simp only [show ¬ isLeap y = true from by rw [hl]; exact hL, if_false]
      split
      · rename_i h2; rw [h2] at m3 m4 ⊢; simp [daysBefore] at m3 m4 ⊢; omega
      · omega
    · rw [monthStart_eq y _ m1 m2, if_neg (by rw [hl]; tauto)]
      push_cast; omega

/-! #### Digits -/

theorem fixed_two (n : Nat) (h : n < 100) : fixed 2 n = Spec.two n := by
  have : n / 10 % 10 = n / 10 := by omega
  simp [fixed, Spec.two, this]

theorem fixed_four (n : Nat) (h : n < 10000) : fixed 4 n = Spec.four n := by
  simp only [fixed, Spec.four, Spec.two, List.nil_append, List.cons_append]
  rw [show n / 10 / 10 / 10 % 10 = n / 100 / 10 by omega, show n / 10 / 10 % 10 = n / 100 % 10 by omega,
    show n / 10 % 10 = n % 100 / 10 by omega, show n % 10 = n % 100 % 10 by omega]

theorem digit_toNat (n : Nat) (h : n < 10) : (UInt8.ofNat (48 + n)).toNat = 48 + n := by
  rw [UInt8.toNat_ofNat']; omega

theorem parseRange_two (n lo hi : Nat) (h : n < 100) :
    parseRange (Spec.two n) lo hi = if lo ≤ n ∧ n ≤ hi then some n else none := by
  have d1 := digit_toNat (n / 10) (by omega)
  have d2 := digit_toNat (n % 10) (by omega)
  have : (n / 10) * 10 + n % 10 = n := by omega
  simp only [parseRange, Spec.two, List.all_cons, List.all_nil, d1, d2, List.foldl_cons, List.foldl_nil]
  rw [if_pos (by simp; omega)]
  simp [this]

theorem parseRange_four (n lo hi : Nat) (h : n < 10000) :
    parseRange (Spec.four n) lo hi = if lo ≤ n ∧ n ≤ hi then some n else none := by
  have d1 := digit_toNat (n / 100 / 10) (by omega)
  have d2 := digit_toNat (n / 100 % 10) (by omega)
  have d3 := digit_toNat (n % 100 / 10) (by omega)
  have d4 := digit_toNat (n % 100 % 10) (by omega)
  have : (((n / 100 / 10) * 10 + n / 100 % 10) * 10 + n % 100 / 10) * 10 + n % 100 % 10 = n := by omega
  simp only [parseRange, Spec.four, Spec.two, List.cons_append, List.nil_append, List.all_cons, List.all_nil, d1, d2, d3, d4,
    List.foldl_cons, List.foldl_nil]
  rw [if_pos (by simp; omega)]
  simp only [Nat.add_sub_cancel_left, Nat.zero_mul, Nat.zero_add, this]

theorem foldl_nanos : ∀ (l : Bytes) (a : Nat),
    l.foldl (fun a c => a * 10 + (c.toNat - 48)) a = a * 10 ^ l.length + Spec.nanos l.length l
  | [], a => by simp [Spec.nanos]
  | c :: cs, a => by
    rw [List.foldl_cons, foldl_nanos cs]
    simp only [List.length_cons, Spec.nanos, Nat.pow_succ, Nat.add_mul, Nat.mul_assoc]
    rw [Nat.mul_comm 10]; omega

theorem nanos_pad : ∀ (k : Nat) (l : Bytes),
    Spec.nanos k (l.take k ++ List.replicate (k - l.length) c!"0") = Spec.nanos k l
  | 0, l => by simp [Spec.nanos]
  | k + 1, [] => by
    have := nanos_pad k []
    simp only [List.take_nil, List.nil_append, List.length_nil, Nat.sub_zero] at this ⊢
    rw [List.replicate_succ]
    show (48 - 48) * 10 ^ k + Spec.nanos k (List.replicate k 48) = 0
    rw [this]
    cases k <;> simp [Spec.nanos]
  | k + 1, c :: cs => by
    simp only [List.take_succ_cons, List.cons_append, List.length_cons, Nat.add_sub_add_right, Spec.nanos]
    rw [nanos_pad k cs]

theorem fracNanos_eq (l : Bytes) : fracNanos l = Spec.nanos 9 l := by
  rw [fracNanos, foldl_nanos, ← nanos_pad 9 l]
  have : (l.take 9 ++ List.replicate (9 - l.length) c!"0").length = 9 := by simp; omega
  rw [this]; simp

theorem nanos_append_zeros : ∀ (k : Nat) (l : Bytes) (n : Nat),
    Spec.nanos k (l ++ List.replicate n c!"0") = Spec.nanos k l
  | 0, l, n => by simp [Spec.nanos]
  | k + 1, [], n => by
    cases n with
    | zero => rfl
    | succ n =>
      have := nanos_append_zeros k [] n
      simp only [List.nil_append] at this ⊢
      rw [List.replicate_succ]
      show (48 - 48) * 10 ^ k + Spec.nanos k (List.replicate n 48) = 0
      rw [this]
      cases k <;> simp [Spec.nanos]
  | k + 1, c :: cs, n => by
    simp only [List.cons_append, Spec.nanos, nanos_append_zeros k cs n]

theorem strip_spec (l : Bytes) : ∃ n, l = (l.reverse.dropWhile (· == c!"0")).reverse ++ List.replicate n c!"0" := by
  refine ⟨(l.reverse.takeWhile (· == c!"0")).length, ?_⟩
  have h1 : l.reverse.takeWhile (· == c!"0") = List.replicate (l.reverse.takeWhile (· == c!"0")).length c!"0" := by
    rw [List.eq_replicate_iff]
    refine ⟨rfl, fun b hb => ?_⟩
    have := List.all_takeWhile (p := fun x : UInt8 => x == c!"0") (l := l.reverse)
    rw [List.all_eq_true] at this
    simpa using this b hb
  have h2 := List.takeWhile_append_dropWhile (p := fun x : UInt8 => x == c!"0") (l := l.reverse)
  have h3 := congrArg List.reverse h2
  rw [List.reverse_append, List.reverse_reverse, h1, List.reverse_replicate] at h3
  exact h3.symm

/-- The fraction of a formatted time: digits, no trailing zero, and the value to `k` places. -/
theorem frac_spec (k n : Nat) (hk : k = 3 ∨ k = 9) (hn : n < 1000000000) :
    ∃ f : Bytes, fracText k n = (if f = [] then [] else b!"." ++ f) ∧ (∀ c ∈ f, 48 ≤ c.toNat ∧ c.toNat ≤ 57)
      ∧ f.length ≤ k ∧ f.getLast? ≠ some c!"0" ∧ Spec.nanos 9 f = n - n % 10 ^ (9 - k) := by
  have hd : ∀ m : Nat, (UInt8.ofNat (48 + m % 10)).toNat = 48 + m % 10 := fun m => digit_toNat _ (by omega)
  have hmem : ∀ (w m : Nat), ∀ c ∈ fixed w m, 48 ≤ c.toNat ∧ c.toNat ≤ 57 := by
    intro w
    induction w with
    | zero => intro m c hc; simp [fixed] at hc
    | succ w ih =>
      intro m c hc
      simp only [fixed, List.mem_append, List.mem_singleton] at hc
      rcases hc with hc | hc
      · exact ih _ c hc
      · subst hc; rw [hd]; omega
  have hlen : ∀ (w m : Nat), (fixed w m).length = w := by
    intro w
    induction w with
    | zero => intro m; rfl
    | succ w ih => intro m; simp [fixed, ih]
  obtain ⟨z, hz⟩ := strip_spec ((fixed 9 n).take k)
  refine ⟨(((fixed 9 n).take k).reverse.dropWhile (· == c!"0")).reverse, rfl, ?_, ?_, ?_, ?_⟩
  · intro c hc
    have : c ∈ (fixed 9 n).take k := by rw [hz]; exact List.mem_append_left _ hc
    exact hmem 9 n c (List.mem_of_mem_take this)
  · have := congrArg List.length hz
    rw [List.length_append, List.length_take, hlen] at this
    omega
  · rw [List.getLast?_reverse]
    intro h
    have := List.head?_dropWhile_not (fun x : UInt8 => x == c!"0") ((fixed 9 n).take k).reverse
    rw [h] at this
    simp at this
  · rw [← nanos_append_zeros 9 _ z, ← hz]
    rcases hk with rfl | rfl <;>
      simp only [fixed, List.nil_append, List.cons_append, List.take_succ_cons, List.take_zero, Spec.nanos, hd,
        Nat.add_sub_cancel_left, Nat.reducePow, Nat.reduceSub] <;> omega

theorem yearStart_lt (y : Nat) (z : Int) (h1 : Spec.yearStart y ≤ z) (h2 : z < Spec.yearStart 10000) : y ≤ 9999 := by
  rw [← daysToYear_eq] at h1 h2
  simp only [daysToYear] at h1 h2
  omega

theorem fourtwo (f : Spec.Fields) : f.date.length = 10 ∧ f.clock.length = 8 := by
  simp [Spec.Fields.date, Spec.Fields.clock, Spec.four, Spec.two]

/-- Formatting an instant of the years 1 to 9999 gives the RFC 3339 text of that instant in UTC. -/
theorem format_spec (k : Nat) (hk : k = 3 ∨ k = 9) (ns : Int) (hr : Spec.InRange ns) :
    ∃ f : Spec.Fields, f.Valid ∧ f.zone = none ∧ f.frac.length ≤ k ∧ f.frac.getLast? ≠ some c!"0"
      ∧ format k ns = f.text ∧ f.instant = ns - ns % 10 ^ (9 - k) ∧ 1 ≤ f.y
      ∧ civil (ns / 86400000000000) = ((f.y : Int), f.mo, f.d) := by
  obtain ⟨h0, h1⟩ := hr
  have hz0 : 0 ≤ ns / 86400000000000 := by omega
  obtain ⟨y, m, d, hc, hy, hm1, hm2, hd1, hd2, hn⟩ := civil_spec _ hz0
  have hy9 : y ≤ 9999 := by
    refine yearStart_lt y (ns / 86400000000000) ?_ ?_
    · have : (0 : Int) ≤ Spec.monthStart y m := Int.natCast_nonneg _
      omega
    · generalize Spec.yearStart 10000 = Y at h1; omega
  generalize hz : ns / 86400000000000 = z at *
  generalize hsod : (ns % 86400000000000).toNat = sod
  have hsod' : (sod : Int) = ns % 86400000000000 := by omega
  have hsodlt : sod < 86400000000000 := by omega
  obtain ⟨fr, f1, f2, f3, f4, f5⟩ := frac_spec k (sod % 1000000000) hk (by omega)
  have hmd : Spec.monthDays y m ≤ 31 := by
    unfold Spec.monthDays; split <;> (try split) <;> omega
  refine ⟨⟨y, m, d, sod / 3600000000000, sod / 60000000000 % 60, sod / 1000000000 % 60, fr, none⟩, ?_, rfl, f3, f4, ?_, ?_, hy, hc⟩
  · exact ⟨hy9, hm1, hm2, hd1, hd2, by dsimp only; omega, by dsimp only; omega, by dsimp only; omega, f2, by intro e a b h; simp at h⟩
  · simp only [format, hz, hc, hsod, yearText]
    rw [if_neg (by omega), if_pos (by rw [Int.natAbs_natCast]; omega), Int.natAbs_natCast, fixed_four y (by omega),
      fixed_two m (by omega), fixed_two d (by omega), fixed_two _ (by omega), fixed_two _ (by omega), fixed_two _ (by omega), f1]
    simp only [Spec.Fields.text, Spec.Fields.zoneText, Spec.Fields.date, Spec.Fields.clock, List.append_assoc, List.nil_append]
  · simp only [Spec.Fields.instant, Spec.Fields.offset, f5, hn]
    rcases hk with rfl | rfl <;> simp only [Nat.reducePow, Nat.reduceSub] <;> push_cast <;> omega

/-! #### Parsing -/

theorem isDig_iff (c : UInt8) : isDig c = true ↔ 48 ≤ c.toNat ∧ c.toNat ≤ 57 := by
  simp [isDig]

theorem parseDateTime_text (sep : UInt8) (f : Spec.Fields) (hv : f.Valid) (rest : Bytes) :
    parseDateTime sep (f.date ++ [sep] ++ f.clock ++ rest)
      = some (((Spec.yearStart f.y + Spec.monthStart f.y f.mo + f.d - 1) * 86400 + f.h * 3600 + f.mi * 60 + f.s) * 1000000000) := by
  obtain ⟨v1, v2, v3, v4, v5, v6, v7, v8, -, -⟩ := hv
  have hmd : Spec.monthDays f.y f.mo ≤ 31 := by
    unfold Spec.monthDays; split <;> (try split) <;> omega
  generalize hs : f.date ++ [sep] ++ f.clock ++ rest = s
  have hlen : ¬ s.length < 19 := by
    rw [← hs]; simp [Spec.Fields.date, Spec.Fields.clock, Spec.four, Spec.two]
  have s1 : sub s 0 4 = Spec.four f.y := by rw [← hs]; rfl
  have s2 : sub s 5 7 = Spec.two f.mo := by rw [← hs]; rfl
  have s3 : sub s 8 10 = Spec.two f.d := by rw [← hs]; rfl
  have s4 : sub s 11 13 = Spec.two f.h := by rw [← hs]; rfl
  have s5 : sub s 14 16 = Spec.two f.mi := by rw [← hs]; rfl
  have s6 : sub s 17 19 = Spec.two f.s := by rw [← hs]; rfl
  have i1 : s[4]? = some c!"-" := by rw [← hs]; rfl
  have i2 : s[7]? = some c!"-" := by rw [← hs]; rfl
  have i3 : s[10]? = some sep := by rw [← hs]; rfl
  have i4 : s[13]? = some c!":" := by rw [← hs]; rfl
  have i5 : s[16]? = some c!":" := by rw [← hs]; rfl
  simp only [parseDateTime, if_neg hlen, s1, s2, s3, s4, s5, s6]
  rw [parseRange_four _ _ _ (by omega), if_pos ⟨by omega, by omega⟩]
  simp only [Option.bind_eq_bind, Option.bind_some, pure]
  rw [parseRange_two _ _ _ (by omega), if_pos ⟨by omega, by omega⟩]
  simp only [Option.bind_some]
  rw [parseRange_two _ _ _ (by omega), daysIn_eq _ _ v2 v3, if_pos ⟨by omega, by omega⟩]
  simp only [Option.bind_some]
  rw [parseRange_two _ _ _ (by omega), if_pos ⟨by omega, by omega⟩]
  simp only [Option.bind_some]
  rw [parseRange_two _ _ _ (by omega), if_pos ⟨by omega, by omega⟩]
  simp only [Option.bind_some]
  rw [parseRange_two _ _ _ (by omega), if_pos ⟨by omega, by omega⟩]
  simp only [Option.bind_some]
  rw [if_pos ⟨i1, i2, i3, i4, i5⟩, dateDays_eq _ _ _ v2 v3]

theorem parseZone_text (f : Spec.Fields) (hv : f.Valid) :
    parseZone f.zoneText = some f.offset := by
  obtain ⟨-, -, -, -, -, -, -, -, -, v⟩ := hv
  unfold Spec.Fields.offset Spec.Fields.zoneText
  cases hz : f.zone with
  | none => rfl
  | some p =>
    obtain ⟨e, hr, mm⟩ := p
    obtain ⟨v1, v2⟩ := v e hr mm hz
    dsimp only
    generalize hs : (if e = true then b!"+" else b!"-") ++ Spec.two hr ++ b!":" ++ Spec.two mm = s
    have hlen : s.length = 6 := by rw [← hs]; cases e <;> simp [Spec.two]
    have hne : s ≠ b!"Z" := by intro h; rw [h] at hlen; simp at hlen
    have s1 : sub s 1 3 = Spec.two hr := by rw [← hs]; cases e <;> rfl
    have s2 : sub s 4 6 = Spec.two mm := by rw [← hs]; cases e <;> rfl
    have i0 : s[0]? = some (if e then c!"+" else c!"-") := by rw [← hs]; cases e <;> rfl
    have i3 : s[3]? = some c!":" := by rw [← hs]; cases e <;> rfl
    simp only [parseZone, if_neg hne, if_pos hlen, s1, s2, i3]
    rw [parseRange_two _ _ _ (by omega), if_pos ⟨by omega, by omega⟩, parseRange_two _ _ _ (by omega), if_pos ⟨by omega, by omega⟩]
    simp only [Option.bind_eq_bind, Option.bind_some, i0]
    cases e <;> simp

theorem parseRFC3339_text (f : Spec.Fields) (hv : f.Valid) : parseRFC3339 f.text = some ⟨f.instant, f.offset⟩ := by
  have hdig := hv.2.2.2.2.2.2.2.2.1
  have hzone := parseZone_text f hv
  unfold Spec.Fields.text
  have hz0 : ∃ c cs, f.zoneText = c :: cs ∧ isDig c = false ∧ c ≠ c!"." := by
    unfold Spec.Fields.zoneText
    cases f.zone with
    | none => exact ⟨_, _, rfl, by decide, by decide⟩
    | some p => obtain ⟨e, hr, mm⟩ := p; cases e <;> exact ⟨_, _, rfl, by decide, by decide⟩
  obtain ⟨c, cs, hzc, hc1, hc2⟩ := hz0
  generalize f.zoneText = zt at *
  have hdt := parseDateTime_text c!"T" f hv ((if f.frac = [] then [] else b!"." ++ f.frac) ++ zt)
  rw [← List.append_assoc] at hdt
  have hdrop : ((f.date ++ b!"T" ++ f.clock ++ (if f.frac = [] then [] else b!"." ++ f.frac)) ++ zt).drop 19
      = (if f.frac = [] then [] else b!"." ++ f.frac) ++ zt := by
    rw [List.append_assoc _ _ zt]; rfl
  simp only [parseRFC3339, hdt, hdrop, Option.bind_eq_bind, Option.bind_some]
  by_cases hf : f.frac = []
  · simp only [hf, if_true, List.nil_append]
    rw [if_neg (by rw [hzc]; simp; intro h; exact absurd h hc2), hzone]
    simp only [Option.bind_some]
    rw [if_neg (by rw [hzc]; simp; intro h; exact absurd h hc2)]
    simp only [Spec.Fields.instant, hf, Spec.nanos]
    congr 2
    omega
  · simp only [hf, if_false]
    have htw : (List.drop 1 (b!"." ++ f.frac ++ zt)).takeWhile isDig = f.frac := by
      show (f.frac ++ zt).takeWhile isDig = f.frac
      rw [List.takeWhile_append_of_pos (fun a ha => (isDig_iff a).2 (hdig a ha)), hzc,
        List.takeWhile_cons_of_neg (by rw [hc1]; decide), List.append_nil]
    rw [htw]
    have hcond : (b!"." ++ f.frac ++ zt).head? = some c!"." ∧ f.frac ≠ [] := ⟨rfl, hf⟩
    rw [if_pos hcond]
    have hdr : List.drop (1 + f.frac.length) (b!"." ++ f.frac ++ zt) = zt := by
      rw [List.append_assoc, Nat.add_comm]
      show List.drop f.frac.length (f.frac ++ zt) = zt
      simp
    rw [hdr, hzone]
    simp only [Option.bind_some]
    rw [if_pos hcond, fracNanos_eq]
    simp only [Spec.Fields.instant]
    congr 2
    omega

end Types.Tm
