import Verif.Types.Spec
set_option linter.unusedSimpArgs false
set_option linter.unusedVariables false
/-! Lemmas about decimal texts and about the ID heap. -/
namespace Types
open Num

theorem digitVal10 (c : UInt8) (d : Nat) :
    digitVal 10 c = some d ↔ 48 ≤ c.toNat ∧ c.toNat ≤ 57 ∧ d = c.toNat - 48 := by
  unfold digitVal
  by_cases h : 48 ≤ c.toNat ∧ c.toNat ≤ 57
  · simp only [if_pos h]
    rw [if_pos (by omega)]
    simp only [Option.some.injEq]; omega
  · simp only [if_neg h]
    by_cases h2 : 97 ≤ c.toNat ∧ c.toNat ≤ 122
    · simp only [if_pos h2]
      rw [if_neg (by omega)]
      constructor
      · intro h; cases h
      · intro h; omega
    · simp only [if_neg h2]
      by_cases h3 : 65 ≤ c.toNat ∧ c.toNat ≤ 90
      · simp only [if_pos h3]
        rw [if_neg (by omega)]
        constructor
        · intro h; cases h
        · intro h; omega
      · simp only [if_neg h3]
        constructor
        · intro h; cases h
        · intro h; omega

theorem parseAcc10 : ∀ (s : Bytes) (acc n : Nat),
    parseAcc 10 acc s = some n ↔
      (∀ c ∈ s, 48 ≤ c.toNat ∧ c.toNat ≤ 57) ∧ s.foldl (fun a c => a * 10 + (c.toNat - 48)) acc = n := by
  intro s
  induction s with
  | nil => intro acc n; simp [parseAcc]
  | cons c s ih =>
    intro acc n
    rw [parseAcc]
    cases hd : digitVal 10 c with
    | none =>
      simp only
      constructor
      · intro h; cases h
      · intro h
        have hc := h.1 c (by simp)
        have := (digitVal10 c (c.toNat - 48)).2 ⟨hc.1, hc.2, rfl⟩
        rw [hd] at this; cases this
    | some d =>
      simp only
      obtain ⟨h1, h2, rfl⟩ := (digitVal10 c d).1 hd
      rw [ih]
      simp only [List.mem_cons, forall_eq_or_imp, List.foldl_cons]
      constructor
      · rintro ⟨a, b⟩; exact ⟨⟨⟨h1, h2⟩, a⟩, b⟩
      · rintro ⟨⟨_, a⟩, b⟩; exact ⟨a, b⟩

/-- What the decimal parser accepts, in the words of the specification. -/
theorem parseNat10 (s : Bytes) (n : Nat) : parseNat 10 s = some n ↔ Spec.Digits s ∧ Spec.number s = n := by
  unfold parseNat Spec.Digits Spec.number
  by_cases h : s = []
  · subst h; simp
  · rw [if_neg h, parseAcc10]
    constructor
    · rintro ⟨a, b⟩; exact ⟨⟨h, a⟩, b⟩
    · rintro ⟨⟨_, a⟩, b⟩; exact ⟨a, b⟩

theorem parseU64_some (s : Bytes) (n : UInt64) :
    parseU64 s = some n ↔ Spec.Digits s ∧ Spec.number s = n.toNat := by
  unfold parseU64
  rw [← parseNat10]
  cases h : parseUint 64 s with
  | none =>
    simp only
    constructor
    · intro h; cases h
    · intro hp
      have := (parseUint_eq_some 64 s n.toNat).2 ⟨hp, n.toNat_lt⟩
      rw [h] at this; cases this
  | some m =>
    obtain ⟨h1, h2⟩ := (parseUint_eq_some 64 s m).1 h
    simp only [Option.some.injEq, h1]
    constructor
    · rintro rfl; simp; omega
    · rintro rfl; simp

theorem parseU64_none (s : Bytes) : parseU64 s = none ↔ ¬ (Spec.Digits s ∧ Spec.number s < 2 ^ 64) := by
  constructor
  · intro h ⟨h1, h2⟩
    have := (parseU64_some s (UInt64.ofNat (Spec.number s))).2 ⟨h1, by simp; omega⟩
    rw [h] at this; cases this
  · intro h
    cases hp : parseU64 s with
    | none => rfl
    | some n =>
      obtain ⟨h1, h2⟩ := (parseU64_some s n).1 hp
      exact absurd ⟨h1, by rw [h2]; exact n.toNat_lt⟩ h

theorem parseU64_dec (n : UInt64) : parseU64 (dec n.toNat) = some n := by
  unfold parseU64
  rw [parseUint_dec 64 _ n.toNat_lt]; simp

theorem dec_ne_nil (n : Nat) : dec n ≠ [] := fmtNat_ne_nil 10 n

theorem dec_digits (n : Nat) : Spec.Digits (dec n) ∧ Spec.number (dec n) = n :=
  (parseNat10 _ _).1 (parse_fmtNat 10 (by omega) (by omega) n)

theorem dec_eq_zero (n : Nat) : dec n = b!"0" ↔ n = 0 := by
  constructor
  · intro h
    have := (dec_digits n).2
    rw [h] at this
    rw [← this]; decide
  · rintro rfl; decide +kernel

theorem digitsLE_last (f : Nat) : ∀ n, n < f → (digitsLE 10 f n).getLast? = some 0 → n = 0 := by
  induction f with
  | zero => intro n h; omega
  | succ f ih =>
    intro n h hl
    rw [digitsLE] at hl
    split at hl
    · simp at hl; exact hl
    · rename_i hn
      have hne : digitsLE 10 f (n / 10) ≠ [] := by
        cases f with
        | zero => omega
        | succ f => exact digitsLE_ne_nil _ _ _
      rw [List.getLast?_cons_of_ne_nil hne] at hl
      have := ih (n / 10) (by omega) hl
      omega

/-- The decimal text has no superfluous leading zero. -/
theorem dec_head (n : Nat) (h : (dec n).head? = some 48) : n = 0 := by
  have h2 : ((digitsLE 10 (n + 1) n).reverse.map digitByte).head? = some 48 := h
  rw [List.head?_map, List.head?_reverse] at h2
  cases hl : (digitsLE 10 (n + 1) n).getLast? with
  | none => rw [hl] at h2; cases h2
  | some d =>
    rw [hl] at h2
    have hd := digitsLE_lt 10 (by omega) _ _ d (List.mem_of_getLast? hl)
    simp only [Option.map_some, Option.some.injEq] at h2
    have hv := digitByte_toNat d (by omega)
    rw [h2, if_pos hd] at hv
    have h48 : (48 : UInt8).toNat = 48 := rfl
    have : d = 0 := by omega
    subst this
    exact digitsLE_last (n + 1) n (by omega) hl

theorem dec_canonical (n : Nat) : Spec.Canonical (dec n) n :=
  ⟨(dec_digits n).1, (dec_digits n).2, fun h => by rw [dec_head n h]; decide +kernel⟩

theorem foldl_digits_lb : ∀ (s : Bytes) (a : Nat), a * 10 ^ s.length ≤ s.foldl (fun a c => a * 10 + (c.toNat - 48)) a := by
  intro s
  induction s with
  | nil => intro a; simp
  | cons c s ih =>
    intro a
    rw [List.foldl_cons, List.length_cons, Nat.pow_succ]
    refine Nat.le_trans ?_ (ih _)
    rw [show a * (10 ^ s.length * 10) = (a * 10) * 10 ^ s.length from by
      rw [Nat.mul_assoc, Nat.mul_comm (10 ^ s.length)]]
    exact Nat.mul_le_mul_right _ (by omega)

theorem foldl_digits_ub : ∀ (s : Bytes) (a : Nat), (∀ c ∈ s, 48 ≤ c.toNat ∧ c.toNat ≤ 57) →
    s.foldl (fun a c => a * 10 + (c.toNat - 48)) a < (a + 1) * 10 ^ s.length := by
  intro s
  induction s with
  | nil => intro a _; simp
  | cons c s ih =>
    intro a h
    rw [List.foldl_cons, List.length_cons, Nat.pow_succ]
    have hc := h c (by simp)
    refine Nat.lt_of_lt_of_le (ih _ (fun x hx => h x (by simp [hx]))) ?_
    rw [show (a + 1) * (10 ^ s.length * 10) = ((a + 1) * 10) * 10 ^ s.length from by
      rw [Nat.mul_assoc, Nat.mul_comm (10 ^ s.length)]]
    exact Nat.mul_le_mul_right _ (by omega)

theorem foldl_digits_inj : ∀ (s t : Bytes) (a b : Nat), s.length = t.length →
    (∀ c ∈ s, 48 ≤ c.toNat ∧ c.toNat ≤ 57) → (∀ c ∈ t, 48 ≤ c.toNat ∧ c.toNat ≤ 57) →
    s.foldl (fun a c => a * 10 + (c.toNat - 48)) a = t.foldl (fun a c => a * 10 + (c.toNat - 48)) b → a = b ∧ s = t := by
  intro s
  induction s with
  | nil =>
    intro t a b hl hs ht h
    have : t = [] := List.length_eq_zero_iff.1 hl.symm
    subst this
    exact ⟨h, rfl⟩
  | cons c s ih =>
    intro t a b hl hs ht h
    cases t with
    | nil => cases hl
    | cons d t =>
      obtain ⟨h1, h2⟩ := ih t _ _ (by simpa using hl) (fun x hx => hs x (by simp [hx])) (fun x hx => ht x (by simp [hx])) h
      have hc := hs c (by simp)
      have hd := ht d (by simp)
      simp only at h1
      have hcd : c.toNat = d.toNat := by omega
      refine ⟨by omega, ?_⟩
      rw [h2, UInt8.toNat_inj.1 hcd]

/-- A canonical text is determined by its number. -/
theorem canonical_unique {s t : Bytes} {n : Nat} (hs : Spec.Canonical s n) (ht : Spec.Canonical t n) : s = t := by
  -- bound the length by the value
  have key : ∀ {s : Bytes} {n : Nat}, Spec.Canonical s n → n ≠ 0 → 10 ^ (s.length - 1) ≤ n ∧ n < 10 ^ s.length := by
    intro s n ⟨hd, hn, hz⟩ h0
    cases s with
    | nil => exact absurd rfl hd.1
    | cons c s =>
      have hc := hd.2 c (by simp)
      have hc0 : c.toNat ≠ 48 := by
        intro he
        have : c = 48 := UInt8.toNat_inj.1 he
        subst this
        have := hz rfl
        rw [List.cons.injEq] at this
        rw [this.2] at hn
        exact h0 (by rw [← hn]; rfl)
      have hub := foldl_digits_ub (c :: s) 0 hd.2
      unfold Spec.number at hn
      rw [hn] at hub
      have hlb := foldl_digits_lb s (0 * 10 + (c.toNat - 48))
      rw [List.foldl_cons] at hn
      rw [hn] at hlb
      refine ⟨?_, by simpa using hub⟩
      refine Nat.le_trans ?_ hlb
      simp only [List.length_cons, Nat.add_sub_cancel]
      exact Nat.le_mul_of_pos_left _ (by omega)
  by_cases h0 : n = 0
  · subst h0
    have zero : ∀ {s : Bytes}, Spec.Canonical s 0 → s = [48] := by
      intro s ⟨hd, hn, hz⟩
      cases s with
      | nil => exact absurd rfl hd.1
      | cons c s =>
        have hc := hd.2 c (by simp)
        have hlb := foldl_digits_lb s (0 * 10 + (c.toNat - 48))
        unfold Spec.number at hn
        rw [List.foldl_cons] at hn
        rw [hn] at hlb
        have hp : 0 < 10 ^ s.length := Nat.pow_pos (by omega)
        have h1 := Nat.mul_eq_zero.1 (Nat.le_zero.1 hlb)
        have : c.toNat = 48 := by omega
        have : c = 48 := UInt8.toNat_inj.1 this
        subst this
        exact hz rfl
    rw [zero hs, zero ht]
  · have h1 := key hs h0
    have h2 := key ht h0
    have hlen : s.length = t.length := by
      rcases Nat.lt_trichotomy s.length t.length with h | h | h
      · exfalso
        have := Nat.pow_le_pow_right (show 0 < 10 by omega) (show s.length ≤ t.length - 1 by omega)
        omega
      · exact h
      · exfalso
        have := Nat.pow_le_pow_right (show 0 < 10 by omega) (show t.length ≤ s.length - 1 by omega)
        omega
    have hs2 := hs.2.1
    rw [← ht.2.1] at hs2
    exact (foldl_digits_inj s t 0 0 hlen hs.1.2 ht.1.2 hs2).2

theorem canonical_iff (s : Bytes) (n : Nat) : Spec.Canonical s n ↔ s = dec n :=
  ⟨fun h => canonical_unique h (dec_canonical n), fun h => h ▸ dec_canonical n⟩

/-! Quotes. -/

theorem dropWhile_head {p : UInt8 → Bool} {s : Bytes} (h : ∀ c ∈ s.head?, p c = false) : s.dropWhile p = s := by
  cases s with
  | nil => rfl
  | cons c s => rw [List.dropWhile_cons, h c (by simp)]; rfl

theorem trimQuotes_digits {s : Bytes} (h : Spec.Digits s) : trimQuotes s = s := by
  have hq : ∀ c ∈ s, (c == 34) = false := by
    intro c hc
    have := h.2 c hc
    simp only [beq_eq_false_iff_ne, ne_eq]
    rintro rfl
    have h34 : (34 : UInt8).toNat = 34 := rfl
    omega
  unfold trimQuotes
  rw [dropWhile_head (s := s), dropWhile_head (s := s.reverse), List.reverse_reverse]
  · intro c hc
    rw [List.head?_reverse] at hc
    exact hq c (List.mem_of_getLast? hc)
  · intro c hc
    exact hq c (List.mem_of_head? hc)

theorem trimQuotes_quoted {s : Bytes} (h : Spec.Digits s) : trimQuotes (b!"\"" ++ s ++ b!"\"") = s := by
  have hq : ∀ c ∈ s, (c == 34) = false := by
    intro c hc
    have := h.2 c hc
    simp only [beq_eq_false_iff_ne, ne_eq]
    rintro rfl
    have h34 : (34 : UInt8).toNat = 34 := rfl
    omega
  unfold trimQuotes
  have h1 : (b!"\"" ++ s ++ b!"\"").dropWhile (· == 34) = s ++ b!"\"" := by
    simp only [List.cons_append, List.nil_append, List.dropWhile_cons]
    rw [if_pos (by decide)]
    refine dropWhile_head ?_
    intro c hc
    cases s with
    | nil => exact absurd rfl h.1
    | cons d s => exact hq c (by simp at hc; simp [hc])
  rw [h1, List.reverse_append]
  simp only [List.reverse_cons, List.reverse_nil, List.nil_append, List.cons_append, List.dropWhile_cons]
  rw [if_pos (by decide), dropWhile_head (s := s.reverse), List.reverse_reverse]
  intro c hc
  rw [List.head?_reverse] at hc
  exact hq c (List.mem_of_getLast? hc)

/-! The heap. -/

theorem val_alloc (h : Heap) (c : Cell) : val (alloc h c).1 (alloc h c).2 = c.id := by
  simp [alloc, val, cellAt]

theorem cellAt_alloc_new (h : Heap) (c : Cell) : cellAt (alloc h c).1 (alloc h c).2 = some c := by
  simp [alloc, cellAt]

theorem cellAt_append (h : Heap) (c : Cell) (v : ID) (hv : ∀ p, v = some p → p < h.length) :
    cellAt (h ++ [c]) v = cellAt h v := by
  cases v with
  | none => rfl
  | some p => simp only [cellAt]; exact List.getElem?_append_left (hv p rfl)

theorem newID_val (h : Heap) (n : UInt64) : val (newID h n).1 (newID h n).2 = n := by
  unfold newID
  split
  · exact val_alloc _ _
  · rename_i hn
    have : n = 0 := by
      simpa using hn
    subst this; rfl

/-- The text an ID shows, as a function of its cell. -/
def cellText (c : Option Cell) : Bytes :=
  match c with
  | none => []
  | some c => if c.id != 0 && c.str.isEmpty then idString c.id else c.str

theorem idStr_text (h : Heap) (v : ID) : (idStr h v).2 = cellText (cellAt h v) := by
  cases v with
  | none => rfl
  | some p =>
    simp only [idStr, cellAt]
    cases h[p]? with
    | none => rfl
    | some c =>
      simp only [cellText]
      split <;> rfl

theorem newID_text (h : Heap) (n : UInt64) (hn : n ≠ 0) : (idStr (newID h n).1 (newID h n).2).2 = dec n.toNat := by
  rw [idStr_text]
  unfold newID
  rw [if_pos (UInt64.pos_iff_ne_zero.2 hn), cellAt_alloc_new]
  simp [cellText, hn, idString]

end Types
