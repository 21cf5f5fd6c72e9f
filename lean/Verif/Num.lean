import Verif.Base
/-!
Go's integer/text conversions (`strconv.FormatUint`, `FormatInt`, `Itoa`, `ParseUint`, `ParseInt`),
modelled from the standard library's documentation, for bases 2..16.  Only what the repository
uses: `ParseUint(s, 10, bitSize)`, `ParseInt(s, 10, bitSize)` (no underscores, no prefixes, since
the base is given), `FormatUint(x, 10|16)`, `FormatInt(x, 10|16)`.
-/
namespace Num

/-- Digits of `n` in base `b`, least significant first; `fuel > n` suffices. -/
def digitsLE (b : Nat) : Nat → Nat → List Nat
  | 0, _ => []
  | f + 1, n => if n < b then [n] else (n % b) :: digitsLE b f (n / b)

/-- The byte of a digit: `0`-`9`, `a`-`f`. -/
def digitByte (d : Nat) : UInt8 := if d < 10 then UInt8.ofNat (48 + d) else UInt8.ofNat (87 + d)

/-- `strconv.FormatUint(n, b)` (standard library). -/
def fmtNat (b n : Nat) : Bytes := ((digitsLE b (n + 1) n).reverse).map digitByte

/-- `strconv.FormatInt(i, b)` (standard library). -/
def fmtInt (b : Nat) (i : Int) : Bytes :=
  if i < 0 then 45 :: fmtNat b i.natAbs else fmtNat b i.natAbs

/-- `strconv.Itoa` for a non-negative argument / `FormatUint(n, 10)`. -/
def dec (n : Nat) : Bytes := fmtNat 10 n

/-- Value of a digit byte in base `b` (lower and upper case letters, as in ParseUint). -/
def digitVal (b : Nat) (c : UInt8) : Option Nat :=
  let n := c.toNat
  let v := if 48 ≤ n ∧ n ≤ 57 then some (n - 48)
    else if 97 ≤ n ∧ n ≤ 122 then some (n - 87)
    else if 65 ≤ n ∧ n ≤ 90 then some (n - 55)
    else none
  match v with
  | some d => if d < b then some d else none
  | none => none

/-- Accumulate digits, most significant first. -/
def parseAcc (b : Nat) : Nat → Bytes → Option Nat
  | acc, [] => some acc
  | acc, c :: cs => match digitVal b c with
    | some d => parseAcc b (acc * b + d) cs
    | none => none

/-- Digits only, non-empty: the mathematical value. -/
def parseNat (b : Nat) (s : Bytes) : Option Nat := if s = [] then none else parseAcc b 0 s

/-- `strconv.ParseUint(s, 10, bits)` (standard library): error if empty, a non-digit occurs, or the
value is out of range. -/
def parseUint (bits : Nat) (s : Bytes) : Option Nat :=
  match parseNat 10 s with
  | some n => if n < 2 ^ bits then some n else none
  | none => none

/-- `strconv.ParseInt(s, 10, bits)` (standard library): optional sign, then as `ParseUint`, range
`-2^(bits-1) .. 2^(bits-1)-1`. -/
def parseInt (bits : Nat) (s : Bytes) : Option Int :=
  match s with
  | [] => none
  | c :: cs =>
    if c = 45 then
      match parseNat 10 cs with
      | some n => if n ≤ 2 ^ (bits - 1) then some (-(n : Int)) else none
      | none => none
    else
      match parseNat 10 (if c = 43 then cs else s) with
      | some n => if n < 2 ^ (bits - 1) then some (n : Int) else none
      | none => none

/-! ### Lemmas -/

theorem digitsLE_ne_nil (b f n : Nat) : digitsLE b (f + 1) n ≠ [] := by
  unfold digitsLE; split <;> simp

theorem digitsLE_lt (b : Nat) (hb : 0 < b) : ∀ f n d, d ∈ digitsLE b f n → d < b := by
  intro f
  induction f with
  | zero => intro n d h; simp [digitsLE] at h
  | succ f ih =>
    intro n d h
    rw [digitsLE] at h
    split at h
    · simp at h; omega
    · rcases List.mem_cons.1 h with rfl | h
      · exact Nat.mod_lt _ hb
      · exact ih _ _ h

/-- Value of a little-endian digit list. -/
def valLE (b : Nat) : List Nat → Nat
  | [] => 0
  | d :: ds => d + b * valLE b ds

theorem valLE_digits (b : Nat) (hb : 2 ≤ b) : ∀ f n, n < f → valLE b (digitsLE b f n) = n := by
  intro f
  induction f with
  | zero => intro n h; omega
  | succ f ih =>
    intro n h
    rw [digitsLE]
    split
    · simp [valLE]
    · rename_i hnb
      have hdiv : n / b < n := Nat.div_lt_self (by omega) (by omega)
      rw [valLE, ih (n / b) (by omega)]
      have := Nat.mod_add_div n b
      omega

theorem digitVal_digitByte (b d : Nat) (hb : b ≤ 16) (hd : d < b) : digitVal b (digitByte d) = some d := by
  have h : d < 16 := by omega
  unfold digitVal digitByte
  have e1 : ∀ n, n < 256 → (UInt8.ofNat n).toNat = n := fun n hn => by
    simp; omega
  by_cases h10 : d < 10
  · rw [if_pos h10, e1 _ (by omega)]
    simp only
    rw [if_pos (by omega)]
    simp [hd]
  · rw [if_neg h10, e1 _ (by omega)]
    simp only
    rw [if_neg (by omega), if_pos (by omega)]
    simp [hd]

theorem parseAcc_append (b : Nat) : ∀ (s t : Bytes) (acc : Nat),
    parseAcc b acc (s ++ t) = (parseAcc b acc s).bind fun a => parseAcc b a t := by
  intro s
  induction s with
  | nil => intro t acc; rfl
  | cons c s ih =>
    intro t acc
    simp only [List.cons_append, parseAcc]
    cases digitVal b c with
    | none => rfl
    | some d => exact ih t _

theorem parseAcc_digits (b : Nat) (hb : b ≤ 16) (ds : List Nat) (h : ∀ d ∈ ds, d < b) :
    parseAcc b 0 ((ds.reverse).map digitByte) = some (valLE b ds) := by
  induction ds with
  | nil => rfl
  | cons d ds ih =>
    rw [List.reverse_cons, List.map_append, parseAcc_append, ih (fun x hx => h x (by simp [hx]))]
    simp only [Option.bind_some, List.map_cons, List.map_nil, parseAcc,
      digitVal_digitByte b d hb (h d (by simp)), valLE, Option.some.injEq]
    rw [Nat.mul_comm, Nat.add_comm]

theorem fmtNat_ne_nil (b n : Nat) : fmtNat b n ≠ [] := by
  simp only [fmtNat, ne_eq, List.map_eq_nil_iff, List.reverse_eq_nil_iff]
  exact digitsLE_ne_nil b n n

/-- Printing then parsing. -/
theorem parse_fmtNat (b : Nat) (h2 : 2 ≤ b) (h16 : b ≤ 16) (n : Nat) : parseNat b (fmtNat b n) = some n := by
  rw [parseNat, if_neg (fmtNat_ne_nil b n), fmtNat, parseAcc_digits b h16 _ (digitsLE_lt b (by omega) _ _),
    valLE_digits b h2 _ _ (by omega)]

theorem fmtNat_inj (b : Nat) (h2 : 2 ≤ b) (h16 : b ≤ 16) {m n : Nat} (h : fmtNat b m = fmtNat b n) : m = n := by
  have h1 := parse_fmtNat b h2 h16 m
  rw [h, parse_fmtNat b h2 h16 n] at h1
  injection h1 with h1; exact h1.symm

/-- Digit bytes are `0`-`9` or `a`-`f`. -/
theorem fmtNat_bytes (b : Nat) (h2 : 2 ≤ b) (n : Nat) :
    ∀ c ∈ fmtNat b n, ∃ d, d < b ∧ c = digitByte d := by
  intro c hc
  simp only [fmtNat, List.mem_map, List.mem_reverse] at hc
  obtain ⟨d, hd, rfl⟩ := hc
  exact ⟨d, digitsLE_lt b (by omega) _ _ d hd, rfl⟩

theorem digitByte_toNat (d : Nat) (h : d < 16) :
    (digitByte d).toNat = if d < 10 then 48 + d else 87 + d := by
  unfold digitByte
  split <;> simp <;> omega

theorem parseUint_dec (bits n : Nat) (h : n < 2 ^ bits) : parseUint bits (dec n) = some n := by
  rw [parseUint, dec, parse_fmtNat 10 (by omega) (by omega)]; simp [h]

/-- What `ParseUint` accepts. -/
theorem parseUint_eq_some (bits : Nat) (s : Bytes) (n : Nat) :
    parseUint bits s = some n ↔ parseNat 10 s = some n ∧ n < 2 ^ bits := by
  unfold parseUint
  cases parseNat 10 s with
  | none => simp
  | some m =>
    simp only [Option.some.injEq]
    constructor
    · intro h
      by_cases hb : m < 2 ^ bits
      · rw [if_pos hb] at h; injection h with h; exact ⟨h, h ▸ hb⟩
      · rw [if_neg hb] at h; cases h
    · rintro ⟨rfl, hb⟩; rw [if_pos hb]

theorem parseInt_fmtInt (bits : Nat) (i : Int)
    (h1 : -(2 ^ (bits - 1) : Nat) ≤ i) (h2 : i < (2 ^ (bits - 1) : Nat)) :
    parseInt bits (fmtInt 10 i) = some i := by
  unfold fmtInt
  by_cases hneg : i < 0
  · rw [if_pos hneg]
    simp only [parseInt, if_true]
    rw [parse_fmtNat 10 (by omega) (by omega)]
    simp only
    rw [if_pos (by omega)]
    congr 1; omega
  · rw [if_neg hneg]
    cases hf : fmtNat 10 i.natAbs with
    | nil => exact absurd hf (fmtNat_ne_nil _ _)
    | cons c cs =>
      have hc := fmtNat_bytes 10 (by omega) i.natAbs c (by rw [hf]; simp)
      obtain ⟨d, hd, rfl⟩ := hc
      have hv := digitByte_toNat d (by omega)
      rw [if_pos hd] at hv
      have h45 : digitByte d ≠ 45 := by
        intro h; rw [h] at hv
        have : (45 : UInt8).toNat = 45 := rfl
        omega
      have h43 : digitByte d ≠ 43 := by
        intro h; rw [h] at hv
        have : (43 : UInt8).toNat = 43 := rfl
        omega
      simp only [parseInt, if_neg h45, if_neg h43]
      rw [← hf, parse_fmtNat 10 (by omega) (by omega)]
      simp only
      rw [if_pos (by omega)]
      congr 1; omega

example : dec 0 = b!"0" ∧ dec 1203 = b!"1203" ∧ fmtNat 16 48879 = b!"beef" ∧ fmtInt 16 (-26) = b!"-1a" := by decide +kernel
example : parseUint 64 b!"18446744073709551615" = some (2 ^ 64 - 1) ∧ parseUint 64 b!"18446744073709551616" = none
    ∧ parseUint 64 b!"+1" = none ∧ parseUint 64 b!"" = none ∧ parseInt 32 b!"-2147483648" = some (-2147483648) := by decide +kernel

end Num
