import Verif.Types.FloatLemmas
/-! Reading the decimal texts. -/
set_option linter.unusedVariables false
set_option linter.unusedSimpArgs false
set_option exponentiation.threshold 3000
namespace Types

theorem isDig_of (s : Bytes) (h : AllDigits s) : ∀ c ∈ s, isDig c = true := fun c hc => by
  simp [isDig]; exact h c hc

theorem takeWhile_app (p : UInt8 → Bool) (s t : Bytes) (h : ∀ c ∈ s, p c = true) (ht : ∀ c, t.head? = some c → p c = false) :
    (s ++ t).takeWhile p = s ∧ (s ++ t).dropWhile p = t := by
  induction s with
  | nil =>
    cases t with
    | nil => simp
    | cons c t => have := ht c rfl; simp [this]
  | cons c s ih =>
    have hc := h c (by simp)
    obtain ⟨h1, h2⟩ := ih (fun x hx => h x (by simp [hx]))
    constructor
    · simp only [List.cons_append, List.takeWhile_cons, hc, if_true, h1]
    · simp only [List.cons_append, List.dropWhile_cons, hc, if_true, h2]

/-- The exponent part of a literal. -/
theorem tailExp_literal (l : Literal) (h : l.OK) : tailExp (l.exp ++ l.expDigits) = some l.power := by
  have hd := isDig_of _ h.expDigits
  have hall : l.expDigits.all isDig = true := List.all_eq_true.2 hd
  rcases Classical.em (l.exp = []) with he | he
  · have := h.exp_iff.1 he
    simp [he, this, tailExp, Literal.power, Spec.number]
  · have hne : l.expDigits ≠ [] := fun hc => he (h.exp_iff.2 hc)
    have hs : signOf l.expDigits = (false, l.expDigits) := by
      cases hx : l.expDigits with
      | nil => exact absurd hx hne
      | cons c r =>
        have := h.expDigits c (by simp [hx])
        unfold signOf
        split
        · simp_all
        · simp_all
        · rfl
    have hx : l.exp = b!"e" ∨ l.exp = b!"E" ∨ l.exp = b!"e+" ∨ l.exp = b!"E+" ∨ l.exp = b!"e-" ∨ l.exp = b!"E-" := by
      rcases h.exp with h | h
      · exact absurd h he
      · exact h
    rcases hx with h1 | h1 | h1 | h1 | h1 | h1 <;> rw [h1]
    · simp only [List.cons_append, List.nil_append, tailExp, expOf, hs, Literal.power, h1]
      simp [hne, hall, digitsVal, Spec.number]
    · simp only [List.cons_append, List.nil_append, tailExp, expOf, hs, Literal.power, h1]
      simp [hne, hall, digitsVal, Spec.number]
    all_goals
      simp only [List.cons_append, List.nil_append, tailExp, expOf, signOf, Literal.power, h1]
      simp [hne, hall, digitsVal, Spec.number]

theorem decimalOf_literal (l : Literal) (h : l.OK) :
    decimalOf (l.int ++ (if l.point then b!"." else []) ++ l.frac ++ l.exp ++ l.expDigits)
      = some (Spec.number (l.int ++ l.frac), l.power - (l.frac.length : ℤ)) := by
  have hi := isDig_of _ h.int
  have hf := isDig_of _ h.frac
  have ht := tailExp_literal l h
  have hexp : ∀ c, (l.exp ++ l.expDigits).head? = some c → isDig c = false := by
    intro c hc
    rcases h.exp with h1 | h1 | h1 | h1 | h1 | h1 | h1
    · rw [h1, h.exp_iff.1 h1] at hc; simp at hc
    all_goals (rw [h1] at hc; simp at hc; rw [← hc]; rfl)
  have hexp2 : (l.exp ++ l.expDigits).head? ≠ some 46 := by
    intro hc
    rcases h.exp with h1 | h1 | h1 | h1 | h1 | h1 | h1
    · rw [h1, h.exp_iff.1 h1] at hc; simp at hc
    all_goals (rw [h1] at hc; simp at hc)
  cases hp : l.point with
  | true =>
    have e : l.int ++ (if true = true then b!"." else []) ++ l.frac ++ l.exp ++ l.expDigits
        = l.int ++ (46 :: (l.frac ++ (l.exp ++ l.expDigits))) := by simp
    rw [e]
    obtain ⟨t1, t2⟩ := takeWhile_app isDig l.int (46 :: (l.frac ++ (l.exp ++ l.expDigits))) hi (by
      intro c hc; simp at hc; rw [← hc]; rfl)
    obtain ⟨t3, t4⟩ := takeWhile_app isDig l.frac (l.exp ++ l.expDigits) hf hexp
    unfold decimalOf
    rw [t1, t2]
    simp only [fracOf, t3, t4, ht]
    rw [if_neg]
    · rfl
    · rintro ⟨a, b⟩
      rcases h.some_digit with c | c
      · exact c a
      · exact c b
  | false =>
    have hfr := h.no_point hp
    have e : l.int ++ (if false = true then b!"." else []) ++ l.frac ++ l.exp ++ l.expDigits
        = l.int ++ (l.exp ++ l.expDigits) := by simp [hfr]
    rw [e]
    obtain ⟨t1, t2⟩ := takeWhile_app isDig l.int (l.exp ++ l.expDigits) hi hexp
    have hfo : fracOf (l.exp ++ l.expDigits) = ([], l.exp ++ l.expDigits) := by
      unfold fracOf
      split
      · rename_i heq; rw [heq] at hexp2; simp at hexp2
      · rfl
    have hint : l.int ≠ [] := by
      rcases h.some_digit with c | c
      · exact c
      · exact absurd hfr c
    unfold decimalOf
    rw [t1, t2, hfo]
    simp [ht, hint, hfr, digitsVal, Spec.number]

/-- Everything after the sign. -/
def Literal.body (l : Literal) : Bytes := l.int ++ (if l.point then b!"." else []) ++ l.frac ++ l.exp ++ l.expDigits

theorem body_head (l : Literal) (h : l.OK) : ∃ c r, l.body = c :: r ∧ 46 ≤ c.toNat ∧ c.toNat ≤ 57 := by
  unfold Literal.body
  cases hi : l.int with
  | cons c r =>
    have := h.int c (by simp [hi])
    exact ⟨c, r ++ ((if l.point then b!"." else []) ++ l.frac ++ l.exp ++ l.expDigits), by simp, by omega, by omega⟩
  | nil =>
    have hfr : l.frac ≠ [] := by
      rcases h.some_digit with c | c
      · exact absurd hi c
      · exact c
    have hp : l.point = true := by
      cases hp : l.point with
      | true => rfl
      | false => exact absurd (h.no_point hp) hfr
    exact ⟨46, l.frac ++ l.exp ++ l.expDigits, by simp [hp], by decide, by decide⟩

theorem signOf_text (l : Literal) (h : l.OK) : signOf l.text = (decide (l.sign = b!"-"), l.body) := by
  have e : l.text = l.sign ++ l.body := by simp [Literal.text, Literal.body]
  rw [e]
  rcases h.sign with h1 | h1 | h1
  · rw [h1]
    obtain ⟨c, r, hb, h2, h3⟩ := body_head l h
    rw [hb]
    unfold signOf
    simp only [List.nil_append]
    split
    · simp_all
    · simp_all
    · simp
  · rw [h1]; simp [signOf]
  · rw [h1]; simp [signOf]

theorem lowerByte_small (c : UInt8) (h : c.toNat ≤ 57) : lowerByte c = c := by
  unfold lowerByte; rw [if_neg (by omega)]

theorem special_none (l : Literal) (h : l.OK) : specialOf l.text = none := by
  unfold specialOf
  rw [signOf_text l h]
  obtain ⟨c, r, hb, h2, h3⟩ := body_head l h
  rw [hb]
  simp only [List.map_cons, lowerByte_small c h3]
  rw [if_neg, if_neg]
  · have e : l.text = l.sign ++ l.body := by simp [Literal.text, Literal.body]
    rw [e, hb]
    rcases h.sign with h1 | h1 | h1
    · rw [h1]
      simp only [List.nil_append, List.map_cons, lowerByte_small c h3]
      intro hc; simp at hc; rw [hc.1] at h3; exact absurd h3 (by decide)
    · rw [h1]; intro hc; simp [lowerByte] at hc
    · rw [h1]; intro hc; simp [lowerByte] at hc
  · rintro (hc | hc)
    · simp at hc; rw [hc.1] at h3; exact absurd h3 (by decide)
    · simp at hc; rw [hc.1] at h3; exact absurd h3 (by decide)

theorem parse_literal (hex : Bytes → Option Dbl) (l : Literal) (h : l.OK) :
    parseFloat hex l.text = inRange (scaled (decide (l.sign = b!"-")) (Spec.number (l.int ++ l.frac)) (l.power - (l.frac.length : ℤ))) := by
  have h2 : decimalOf l.body = _ := decimalOf_literal l h
  unfold parseFloat
  rw [special_none l h, signOf_text l h]
  simp only [h2]

/-! #### The text of a finite double -/

theorem six_digits (n : Nat) : AllDigits (six n) := by
  intro c hc
  unfold six at hc
  simp only [List.mem_map] at hc
  obtain ⟨d, hd, rfl⟩ := hc
  have : d < 10 := by simp at hd; omega
  have := Num.digitByte_toNat d (by omega)
  rw [this]
  split <;> omega

theorem number_append (s t : Bytes) : Spec.number (s ++ t) = Spec.number s * 10 ^ t.length + Spec.number t := by
  have key : ∀ (t : Bytes) (a : Nat), t.foldl (fun a c => a * 10 + (c.toNat - 48)) a = a * 10 ^ t.length + Spec.number t := by
    intro t
    induction t with
    | nil => intro a; simp [Spec.number]
    | cons c t ih =>
      intro a
      simp only [List.foldl_cons, List.length_cons, Spec.number]
      rw [ih, ih (0 * 10 + (c.toNat - 48)), Nat.pow_succ]
      ring
  unfold Spec.number
  rw [List.foldl_append]
  exact key t _

theorem number_six (n : Nat) (h : n < 1000000) : Spec.number (six n) = n := by
  have hb : ∀ d, d < 10 → (Num.digitByte d).toNat - 48 = d := by
    intro d hd
    have := Num.digitByte_toNat d (by omega)
    rw [this]; split <;> omega
  unfold six Spec.number
  simp only [List.map_cons, List.map_nil, List.foldl_cons, List.foldl_nil]
  rw [hb _ (by omega), hb _ (by omega), hb _ (by omega), hb _ (by omega), hb _ (by omega), hb _ (by omega)]
  omega

end Types
