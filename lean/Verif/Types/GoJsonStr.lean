import Verif.Base
set_option linter.unusedSimpArgs false
set_option linter.unusedVariables false
/-!
String literals of Go's `encoding/json` (standard library, encode.go `appendString` with HTML escaping, decode.go `unquote` after scanner.go accepted the text), and the part of `unicode/utf8` they use.

Used by `Strings`, `Metadata` and `KVSet` (types.go:143-166, 225-258, 275-308).
-/
namespace Types.GoJson

/-! ### unicode/utf8 -/

/-- A continuation byte. -/
def cont (b : UInt8) : Bool := 0x80 ≤ b.toNat && b.toNat ≤ 0xBF

/-- `utf8.acceptRanges`: the smallest second byte after `b0`. -/
def lo (b0 : UInt8) : Nat := if b0.toNat = 0xE0 then 0xA0 else if b0.toNat = 0xF0 then 0x90 else 0x80

/-- `utf8.acceptRanges`: the largest second byte after `b0`. -/
def hi (b0 : UInt8) : Nat := if b0.toNat = 0xED then 0x9F else if b0.toNat = 0xF4 then 0x8F else 0xBF

/-- `utf8.DecodeRune` after a first byte of a two-byte rune. -/
def first2 (b0 : UInt8) (r : Bytes) : Option Bytes × Bytes :=
  match r with
  | b1 :: r1 => if cont b1 then (some [b0, b1], r1) else (none, r)
  | _ => (none, r)

/-- `utf8.DecodeRune` after a first byte of a three-byte rune. -/
def first3 (b0 : UInt8) (r : Bytes) : Option Bytes × Bytes :=
  match r with
  | b1 :: b2 :: r2 =>
    if (lo b0 ≤ b1.toNat ∧ b1.toNat ≤ hi b0) ∧ cont b2 = true
    then (some [b0, b1, b2], r2) else (none, r)
  | _ => (none, r)

/-- `utf8.DecodeRune` after a first byte of a four-byte rune. -/
def first4 (b0 : UInt8) (r : Bytes) : Option Bytes × Bytes :=
  match r with
  | b1 :: b2 :: b3 :: r3 =>
    if (lo b0 ≤ b1.toNat ∧ b1.toNat ≤ hi b0) ∧ cont b2 = true ∧ cont b3 = true
    then (some [b0, b1, b2, b3], r3) else (none, r)
  | _ => (none, r)

/-- `utf8.DecodeRune`: the bytes of the first rune (`none`: an invalid byte, `RuneError` of width 1) and the rest. -/
def first : Bytes → Option (Option Bytes × Bytes)
  | [] => none
  | b0 :: r => some (
    if b0.toNat < 0x80 then (some [b0], r)
    else if b0.toNat < 0xC2 then (none, r)
    else if b0.toNat < 0xE0 then first2 b0 r
    else if b0.toNat < 0xF0 then first3 b0 r
    else if b0.toNat < 0xF5 then first4 b0 r
    else (none, r))

/-- `utf8.EncodeRune` of a rune that is not a surrogate and at most 0x10FFFF. -/
def encodeRune (c : Nat) : Bytes :=
  if c < 0x80 then [UInt8.ofNat c]
  else if c < 0x800 then [UInt8.ofNat (0xC0 + c / 64), UInt8.ofNat (0x80 + c % 64)]
  else if c < 0x10000 then [UInt8.ofNat (0xE0 + c / 4096), UInt8.ofNat (0x80 + c / 64 % 64), UInt8.ofNat (0x80 + c % 64)]
  else [UInt8.ofNat (0xF0 + c / 262144), UInt8.ofNat (0x80 + c / 4096 % 64), UInt8.ofNat (0x80 + c / 64 % 64), UInt8.ofNat (0x80 + c % 64)]

/-- The runes of a text, read one after the other (at most `f`). -/
def runesF : Nat → Bytes → List (Option Bytes)
  | 0, _ => []
  | f + 1, s => match first s with
    | none => []
    | some (x, r) => x :: runesF f r

/-- The runes of a text; `none` stands for a byte that is not part of one. -/
def runes (s : Bytes) : List (Option Bytes) := runesF s.length s

/-- U+FFFD. -/
def replacement : Bytes := [0xEF, 0xBF, 0xBD]

/-- What is read for a rune. -/
def runeText : Option Bytes → Bytes
  | some ch => ch
  | none => replacement

/-- The text with invalid bytes replaced. -/
def sanitize (s : Bytes) : Bytes := (runes s).flatMap runeText

/-! ### Writing -/

/-- A lower-case hexadecimal digit. -/
def hexDigit (n : Nat) : UInt8 := if n < 10 then UInt8.ofNat (48 + n) else UInt8.ofNat (87 + n)

/-- `htmlSafeSet` (tables.go): bytes that are written as they are. -/
def htmlSafe (b : UInt8) : Bool := 0x20 ≤ b.toNat && b.toNat < 0x80 && b != c!"\"" && b != c!"\\" && b != c!"&" && b != c!"<" && b != c!">"

/-- encode.go `appendString`, an ASCII byte. -/
def escByte (b : UInt8) : Bytes :=
  if htmlSafe b then [b]
  else if b = c!"\\" ∨ b = c!"\"" then [c!"\\", b]
  else if b = 8 then b!"\\b"
  else if b = 12 then b!"\\f"
  else if b = 10 then b!"\\n"
  else if b = 13 then b!"\\r"
  else if b = 9 then b!"\\t"
  else [c!"\\", c!"u", 48, 48, hexDigit (b.toNat / 16), hexDigit (b.toNat % 16)]

/-- encode.go `appendString`, one rune. -/
def escRune : Option Bytes → Bytes
  | none => b!"\\ufffd"
  | some [b] => escByte b
  | some ch => if ch = [0xE2, 0x80, 0xA8] then b!"\\u2028" else if ch = [0xE2, 0x80, 0xA9] then b!"\\u2029" else ch

/-- The inside of a string literal. -/
def escBody (s : Bytes) : Bytes := (runes s).flatMap escRune

/-- A string literal. -/
def quote (s : Bytes) : Bytes := c!"\"" :: (escBody s ++ [c!"\""])

/-! ### Reading -/

/-- A hexadecimal digit. -/
def hexVal (b : UInt8) : Option Nat :=
  if 48 ≤ b.toNat ∧ b.toNat ≤ 57 then some (b.toNat - 48)
  else if 97 ≤ b.toNat ∧ b.toNat ≤ 102 then some (b.toNat - 87)
  else if 65 ≤ b.toNat ∧ b.toNat ≤ 70 then some (b.toNat - 55)
  else none

/-- Four hexadecimal digits (decode.go `getu4`, scanner.go `stateInStringEscU…`). -/
def u4 : Bytes → Option (Nat × Bytes)
  | a :: b :: c :: d :: r =>
    match hexVal a, hexVal b, hexVal c, hexVal d with
    | some w, some x, some y, some z => some (((w * 16 + x) * 16 + y) * 16 + z, r)
    | _, _, _, _ => none
  | _ => none

/-- scanner.go `stateInStringEsc`, decode.go `unquote`: the one-letter escapes. -/
def simpleEsc (e : UInt8) : Option UInt8 :=
  if e = c!"\"" ∨ e = c!"\\" ∨ e = c!"/" then some e
  else if e = c!"b" then some 8
  else if e = c!"f" then some 12
  else if e = c!"n" then some 10
  else if e = c!"r" then some 13
  else if e = c!"t" then some 9
  else none

/-- decode.go `unquote` with `utf16.DecodeRune`: after `\uX` with `X` a surrogate, a second half that makes a pair with it. -/
def lowHalf (x : Nat) : Bytes → Option (Nat × Bytes)
  | 92 :: 117 :: r =>
    match u4 r with
    | some (y, r') => if 0xD800 ≤ x ∧ x < 0xDC00 ∧ 0xDC00 ≤ y ∧ y < 0xE000 then some (0x10000 + (x - 0xD800) * 1024 + (y - 0xDC00), r') else none
    | none => none
  | _ => none

/-- decode.go `unquote`: the rune written after `\u`, and what follows it. -/
def readU (r : Bytes) : Option (Bytes × Bytes) :=
  match u4 r with
  | none => none
  | some (x, r2) =>
    if 0xD800 ≤ x ∧ x < 0xE000 then
      match lowHalf x r2 with
      | some (c, r3) => some (encodeRune c, r3)
      | none => some (replacement, r2)
    else some (encodeRune x, r2)

/-- What is read for a backslash, and what follows it. -/
def readEsc : Bytes → Option (Bytes × Bytes)
  | [] => none
  | e :: r =>
    if e = c!"u" then readU r
    else match simpleEsc e with
    | none => none
    | some c => some ([c], r)

/-- What is read for a rune that is written as it is, and what follows it. -/
def readPlain (s : Bytes) : Option (Bytes × Bytes) := (first s).map fun x => (runeText x.1, x.2)

/-- The next part of a string literal (not its closing quote), and what follows it. -/
def readChar (b : UInt8) (r : Bytes) : Option (Bytes × Bytes) :=
  if b = c!"\\" then readEsc r
  else if b.toNat < 0x20 then none
  else readPlain (b :: r)

/-- Put a text in front of what is read next. -/
def before (s : Bytes) (x : Option (Bytes × Bytes)) : Option (Bytes × Bytes) := x.map fun y => (s ++ y.1, y.2)

/-- Read the inside of a string literal up to and including its closing quote: the string and the rest (`none`: syntax error). -/
def readStr : Nat → Bytes → Option (Bytes × Bytes)
  | 0, _ => none
  | _ + 1, [] => none
  | f + 1, b :: r =>
    if b = c!"\"" then some ([], r)
    else match readChar b r with
    | none => none
    | some (ch, r') => before ch (readStr f r')

/-! ### Specification -/

namespace Spec

/-- The UTF-8 form of a code point. -/
def utf8 (c : Nat) : Bytes :=
  if c < 0x80 then [UInt8.ofNat c]
  else if c < 0x800 then [UInt8.ofNat (0xC0 + c / 64), UInt8.ofNat (0x80 + c % 64)]
  else if c < 0x10000 then [UInt8.ofNat (0xE0 + c / 4096), UInt8.ofNat (0x80 + c / 64 % 64), UInt8.ofNat (0x80 + c % 64)]
  else [UInt8.ofNat (0xF0 + c / 262144), UInt8.ofNat (0x80 + c / 4096 % 64), UInt8.ofNat (0x80 + c / 64 % 64), UInt8.ofNat (0x80 + c % 64)]

/-- A Unicode scalar value. -/
def Scalar (c : Nat) : Prop := c < 0xD800 ∨ (0xE000 ≤ c ∧ c < 0x110000)

/-- Well-formed UTF-8. -/
def Utf8 (s : Bytes) : Prop := ∃ cs : List Nat, (∀ c ∈ cs, Scalar c) ∧ s = cs.flatMap utf8

end Spec

/-! ### Lemmas -/

theorem u8_eq {b : UInt8} {n : Nat} (h : b.toNat = n) : b = UInt8.ofNat n := by
  rw [← h]; simp

theorem u8_toNat {n : Nat} (h : n < 256) : (UInt8.ofNat n).toNat = n := by
  simp [UInt8.toNat_ofNat']; omega

theorem cont_iff (b : UInt8) : cont b = true ↔ 0x80 ≤ b.toNat ∧ b.toNat ≤ 0xBF := by simp [cont]

/-- What `first` reads is a rune, in front of the rest. -/
theorem first_some {s ch r : Bytes} (h : first s = some (some ch, r)) : s = ch ++ r ∧ ∃ c, Spec.Scalar c ∧ ch = Spec.utf8 c := by
  cases s with
  | nil => cases h
  | cons b0 t =>
    have hb := b0.toNat_lt
    rw [first, Option.some.injEq] at h
    split at h
    · cases h
      refine ⟨rfl, b0.toNat, Or.inl (by omega), ?_⟩
      rename_i h0
      rw [Spec.utf8, if_pos h0]; simp
    split at h
    · cases h
    split at h
    · unfold first2 at h
      split at h
      · rename_i h0 h1 h2 _ b1 r1
        have hb1 := b1.toNat_lt
        split at h <;> cases h
        rename_i hc
        rw [cont_iff] at hc
        refine ⟨rfl, (b0.toNat - 0xC0) * 64 + (b1.toNat - 0x80), Or.inl (by omega), ?_⟩
        rw [Spec.utf8, if_neg (by omega), if_pos (by omega)]
        rw [← u8_eq (b := b0) (by omega), ← u8_eq (b := b1) (by omega)]
      · cases h
    split at h
    · unfold first3 at h
      split at h
      · rename_i h0 h1 h2 h3 _ b1 b2 r2
        split at h <;> cases h
        rename_i hc
        obtain ⟨hc1, hc2⟩ := hc
        rw [cont_iff] at hc2
        have hc1' : 0x80 ≤ b1.toNat ∧ b1.toNat ≤ 0xBF ∧ (b0.toNat = 0xE0 → 0xA0 ≤ b1.toNat) ∧ (b0.toNat = 0xED → b1.toNat ≤ 0x9F) := by
          unfold lo hi at hc1
          split at hc1 <;> (try split at hc1) <;> (try split at hc1) <;> (try split at hc1) <;> omega
        refine ⟨rfl, (b0.toNat - 0xE0) * 4096 + (b1.toNat - 0x80) * 64 + (b2.toNat - 0x80), ?_, ?_⟩
        · unfold Spec.Scalar; omega
        · rw [Spec.utf8, if_neg (by omega), if_neg (by omega), if_pos (by omega)]
          rw [← u8_eq (b := b0) (by omega), ← u8_eq (b := b1) (by omega), ← u8_eq (b := b2) (by omega)]
      · cases h
    split at h
    · unfold first4 at h
      split at h
      · rename_i h0 h1 h2 h3 h4 _ b1 b2 b3 r3
        split at h <;> cases h
        rename_i hc
        obtain ⟨hc1, hc2, hc3⟩ := hc
        rw [cont_iff] at hc2 hc3
        have hc1' : 0x80 ≤ b1.toNat ∧ b1.toNat ≤ 0xBF ∧ (b0.toNat = 0xF0 → 0x90 ≤ b1.toNat) ∧ (b0.toNat = 0xF4 → b1.toNat ≤ 0x8F) := by
          unfold lo hi at hc1
          split at hc1 <;> (try split at hc1) <;> (try split at hc1) <;> (try split at hc1) <;> omega
        refine ⟨rfl, (b0.toNat - 0xF0) * 262144 + (b1.toNat - 0x80) * 4096 + (b2.toNat - 0x80) * 64 + (b3.toNat - 0x80), ?_, ?_⟩
        · unfold Spec.Scalar; omega
        · rw [Spec.utf8, if_neg (by omega), if_neg (by omega), if_neg (by omega)]
          rw [← u8_eq (b := b0) (by omega), ← u8_eq (b := b1) (by omega), ← u8_eq (b := b2) (by omega), ← u8_eq (b := b3) (by omega)]
      · cases h
    · cases h

/-- An invalid byte is one byte, not an ASCII one. -/
theorem first_none {s r : Bytes} (h : first s = some (none, r)) : ∃ b, s = b :: r ∧ 0x80 ≤ b.toNat := by
  cases s with
  | nil => cases h
  | cons b0 t =>
    have : t = r ∧ 0x80 ≤ b0.toNat := by
      rw [first, Option.some.injEq] at h
      split at h
      · cases h
      rename_i h0
      refine ⟨?_, by omega⟩
      unfold first2 first3 first4 at h
      (repeat' split at h) <;> cases h <;> rfl
    exact ⟨b0, by rw [this.1], this.2⟩

/-- A rune in front of anything is read. -/
theorem first_utf8 {c : Nat} (hc : Spec.Scalar c) (t : Bytes) : first (Spec.utf8 c ++ t) = some (some (Spec.utf8 c), t) := by
  have hmax : c < 0x110000 := by unfold Spec.Scalar at hc; omega
  rw [Spec.utf8]
  split
  · rename_i h0
    rw [List.singleton_append, first, if_pos (by rw [u8_toNat (by omega)]; exact h0)]
  split
  · rename_i h0 h1
    rw [List.cons_append, List.cons_append, List.nil_append, first]
    have e0 := u8_toNat (n := 0xC0 + c / 64) (by omega)
    have e1 := u8_toNat (n := 0x80 + c % 64) (by omega)
    rw [if_neg (by omega), if_neg (by omega), if_pos (by omega), first2]
    rw [if_pos (by rw [cont_iff]; omega)]
  split
  · rename_i h0 h1 h2
    rw [List.cons_append, List.cons_append, List.cons_append, List.nil_append, first]
    have e0 := u8_toNat (n := 0xE0 + c / 4096) (by omega)
    have e1 := u8_toNat (n := 0x80 + c / 64 % 64) (by omega)
    have e2 := u8_toNat (n := 0x80 + c % 64) (by omega)
    rw [if_neg (by omega), if_neg (by omega), if_neg (by omega), if_pos (by omega), first3]
    rw [if_pos]
    unfold Spec.Scalar at hc
    refine ⟨?_, by rw [cont_iff]; omega⟩
    unfold lo hi
    (repeat' split) <;> omega
  · rename_i h0 h1 h2
    rw [List.cons_append, List.cons_append, List.cons_append, List.cons_append, List.nil_append, first]
    have e0 := u8_toNat (n := 0xF0 + c / 262144) (by omega)
    have e1 := u8_toNat (n := 0x80 + c / 4096 % 64) (by omega)
    have e2 := u8_toNat (n := 0x80 + c / 64 % 64) (by omega)
    have e3 := u8_toNat (n := 0x80 + c % 64) (by omega)
    rw [if_neg (by omega), if_neg (by omega), if_neg (by omega), if_neg (by omega), if_pos (by omega), first4]
    rw [if_pos]
    refine ⟨?_, by rw [cont_iff]; omega, by rw [cont_iff]; omega⟩
    unfold lo hi
    (repeat' split) <;> omega

theorem utf8_ne (c : Nat) : Spec.utf8 c ≠ [] := by
  rw [Spec.utf8]; (repeat' split) <;> simp

theorem first_rest {s r : Bytes} {x : Option Bytes} (h : first s = some (x, r)) : r.length < s.length := by
  cases x with
  | none => obtain ⟨b, rfl, -⟩ := first_none h; simp
  | some ch =>
    obtain ⟨rfl, c, -, rfl⟩ := first_some h
    have := List.length_pos_iff.2 (utf8_ne c)
    simp; omega

theorem runesF_enough : ∀ (f g : Nat) (s : Bytes), s.length ≤ f → s.length ≤ g → runesF f s = runesF g s
  | 0, g, s, hf, _ => by
    cases s with
    | nil => cases g <;> simp [runesF, first]
    | cons b s => simp at hf
  | f + 1, 0, s, _, hg => by
    cases s with
    | nil => simp [runesF, first]
    | cons b s => simp at hg
  | f + 1, g + 1, s, hf, hg => by
    simp only [runesF]
    cases hx : first s with
    | none => rfl
    | some x =>
      obtain ⟨x, r⟩ := x
      have := first_rest hx
      simp only
      rw [runesF_enough f g r (by omega) (by omega)]

theorem runes_step {s r : Bytes} {x : Option Bytes} (h : first s = some (x, r)) : runes s = x :: runes r := by
  have hl := first_rest h
  unfold runes
  cases hs : s.length with
  | zero => omega
  | succ n =>
    simp only [runesF, h]
    rw [runesF_enough n r.length r (by omega) (by omega)]

theorem runes_nil : runes [] = [] := rfl

/-- Induction over the runes of a text. -/
theorem runes_induction {P : Bytes → Prop} (h0 : P []) (h1 : ∀ c t, Spec.Scalar c → runes (Spec.utf8 c ++ t) = some (Spec.utf8 c) :: runes t → P t → P (Spec.utf8 c ++ t))
    (h2 : ∀ (b : UInt8) t, 0x80 ≤ b.toNat → runes (b :: t) = none :: runes t → P t → P (b :: t)) : ∀ s, P s := by
  suffices h : ∀ (n : Nat) (s : Bytes), s.length ≤ n → P s from fun s => h s.length s (Nat.le_refl _)
  intro n
  induction n with
  | zero => intro s hs; cases s with
    | nil => exact h0
    | cons b s => simp at hs
  | succ n ih =>
    intro s hs
    cases hx : first s with
    | none =>
      cases s with
      | nil => exact h0
      | cons b t =>
        cases hx
    | some x =>
      obtain ⟨x, r⟩ := x
      have hl := first_rest hx
      cases x with
      | none =>
        obtain ⟨b, rfl, hb⟩ := first_none hx
        exact h2 b r hb (runes_step hx) (ih r (by omega))
      | some ch =>
        obtain ⟨rfl, c, hc, rfl⟩ := first_some hx
        exact h1 c r hc (runes_step hx) (ih r (by omega))

theorem sanitize_rune {c : Nat} {t : Bytes} (h : runes (Spec.utf8 c ++ t) = some (Spec.utf8 c) :: runes t) : sanitize (Spec.utf8 c ++ t) = Spec.utf8 c ++ sanitize t := by
  rw [sanitize, h]; rfl
theorem sanitize_bad {b : UInt8} {t : Bytes} (h : runes (b :: t) = none :: runes t) : sanitize (b :: t) = replacement ++ sanitize t := by
  rw [sanitize, h]; rfl

theorem replacement_eq : replacement = Spec.utf8 0xFFFD := by decide

theorem runes_flat (cs : List Nat) (h : ∀ c ∈ cs, Spec.Scalar c) : runes (cs.flatMap Spec.utf8) = cs.map fun c => some (Spec.utf8 c) := by
  induction cs with
  | nil => rfl
  | cons c cs ih =>
    rw [List.flatMap_cons, runes_step (first_utf8 (h c (by simp)) _), ih (fun x hx => h x (by simp [hx]))]
    rfl

/-- Invalid bytes are replaced, nothing else is changed: the result is well-formed, and it is the text itself iff that was well-formed. -/
theorem sanitize_valid (s : Bytes) : Spec.Utf8 (sanitize s) := by
  induction s using runes_induction with
  | h0 => exact ⟨[], by simp, rfl⟩
  | h1 c t hc hr ih =>
    obtain ⟨cs, h1, h2⟩ := ih
    refine ⟨c :: cs, ?_, ?_⟩
    · intro x hx
      rcases List.mem_cons.1 hx with rfl | hx
      · exact hc
      · exact h1 x hx
    · rw [sanitize_rune hr, h2]; rfl
  | h2 b t hb hr ih =>
    obtain ⟨cs, h1, h2⟩ := ih
    refine ⟨0xFFFD :: cs, ?_, ?_⟩
    · intro x hx
      rcases List.mem_cons.1 hx with rfl | hx
      · exact Or.inr (by decide)
      · exact h1 x hx
    · rw [sanitize_bad hr, h2, replacement_eq]; rfl

theorem sanitize_length (s : Bytes) : s.length ≤ (sanitize s).length := by
  induction s using runes_induction with
  | h0 => simp
  | h1 c t hc hr ih => rw [sanitize_rune hr]; simp; exact ih
  | h2 b t hb hr ih => rw [sanitize_bad hr]; simp [replacement]; omega

theorem sanitize_eq_iff (s : Bytes) : sanitize s = s ↔ Spec.Utf8 s := by
  constructor
  · intro h; rw [← h]; exact sanitize_valid s
  · rintro ⟨cs, h1, rfl⟩
    rw [sanitize, runes_flat cs h1]
    induction cs with
    | nil => rfl
    | cons c cs ih =>
      have := ih (fun x hx => h1 x (by simp [hx]))
      simp only [List.map_cons, List.flatMap_cons] at this ⊢
      rw [this]; rfl

theorem sanitize_sanitize (s : Bytes) : sanitize (sanitize s) = sanitize s := (sanitize_eq_iff _).2 (sanitize_valid s)

/-! ### Reading what was written -/

theorem hex_back (n : Nat) (h : n < 16) : hexVal (hexDigit n) = some n := by
  have : ∀ m : Fin 16, hexVal (hexDigit m.val) = some m.val := by decide
  exact this ⟨n, h⟩

theorem before_some (a : Bytes) (x : Bytes × Bytes) : before a (some x) = some (a ++ x.1, x.2) := rfl

theorem readStr_char (f : Nat) {b : UInt8} {r ch r' : Bytes} (hb : b ≠ c!"\"") (h : readChar b r = some (ch, r')) :
    readStr (f + 1) (b :: r) = before ch (readStr f r') := by
  rw [readStr, if_neg hb, h]

/-- One rune, written and read. -/
theorem readChar_esc (x : Option Bytes) (t : Bytes) (hx : x = none ∨ ∃ c, Spec.Scalar c ∧ x = some (Spec.utf8 c)) :
    ∃ b r, escRune x = b :: r ∧ b ≠ c!"\"" ∧ readChar b (r ++ t) = some (runeText x, t) := by
  rcases hx with rfl | ⟨c, hc, rfl⟩
  · exact ⟨92, [117, 102, 102, 102, 100], rfl, by decide, rfl⟩
  · by_cases h0 : c < 0x80
    · have hu : Spec.utf8 c = [UInt8.ofNat c] := by rw [Spec.utf8, if_pos h0]
      have hcn := u8_toNat (n := c) (by omega)
      rw [hu]
      show ∃ b r, escByte (UInt8.ofNat c) = b :: r ∧ b ≠ c!"\"" ∧ readChar b (r ++ t) = some ([UInt8.ofNat c], t)
      generalize hb : UInt8.ofNat c = b at hcn
      rw [escByte]
      split
      · rename_i hs
        simp only [htmlSafe, Bool.and_eq_true, decide_eq_true_eq, bne_iff_ne] at hs
        obtain ⟨⟨⟨⟨⟨⟨g1, g2⟩, g3⟩, g4⟩, g5⟩, g6⟩, g7⟩ := hs
        refine ⟨b, [], rfl, g3, ?_⟩
        rw [readChar, if_neg g4, if_neg (by omega), readPlain, first, if_pos g2]
        rfl
      split
      · rename_i hs
        refine ⟨92, [b], rfl, by decide, ?_⟩
        rcases hs with rfl | rfl <;> rfl
      split
      · rename_i hs; subst hs; exact ⟨92, [98], rfl, by decide, rfl⟩
      split
      · rename_i hs; subst hs; exact ⟨92, [102], rfl, by decide, rfl⟩
      split
      · rename_i hs; subst hs; exact ⟨92, [110], rfl, by decide, rfl⟩
      split
      · rename_i hs; subst hs; exact ⟨92, [114], rfl, by decide, rfl⟩
      split
      · rename_i hs; subst hs; exact ⟨92, [116], rfl, by decide, rfl⟩
      · refine ⟨92, [117, 48, 48, hexDigit (b.toNat / 16), hexDigit (b.toNat % 16)], rfl, by decide, ?_⟩
        have hu4 : u4 (48 :: 48 :: hexDigit (b.toNat / 16) :: hexDigit (b.toNat % 16) :: t) = some (b.toNat, t) := by
          have e0 : hexVal 48 = some 0 := by decide
          simp only [u4, e0, hex_back _ (show b.toNat / 16 < 16 by omega), hex_back _ (show b.toNat % 16 < 16 by omega)]
          congr 2; omega
        show readU (48 :: 48 :: hexDigit (b.toNat / 16) :: hexDigit (b.toNat % 16) :: t) = _
        rw [readU, hu4]
        simp only
        rw [if_neg (by omega)]
        have : encodeRune b.toNat = [b] := by rw [encodeRune, if_pos (by omega)]; simp
        rw [this]
    · -- a rune of several bytes
      have hlen : ∀ b, Spec.utf8 c ≠ [b] := by
        intro b
        rw [Spec.utf8, if_neg h0]
        (repeat' split) <;> simp
      have hesc : escRune (some (Spec.utf8 c)) = if Spec.utf8 c = [0xE2, 0x80, 0xA8] then b!"\\u2028" else if Spec.utf8 c = [0xE2, 0x80, 0xA9] then b!"\\u2029" else Spec.utf8 c := by
        generalize Spec.utf8 c = ch at hlen
        cases ch with
        | nil => rfl
        | cons b ch => cases ch with
          | nil => exact absurd rfl (hlen b)
          | cons => rfl
      rw [hesc]
      split
      · rename_i h; rw [h]; exact ⟨92, [117, 50, 48, 50, 56], rfl, by decide, rfl⟩
      split
      · rename_i h; rw [h]; exact ⟨92, [117, 50, 48, 50, 57], rfl, by decide, rfl⟩
      · have hf := first_utf8 hc t
        -- the first byte is not ASCII
        obtain ⟨b, r, hbr, hb⟩ : ∃ b r, Spec.utf8 c = b :: r ∧ 0x80 ≤ b.toNat := by
          have hmax : c < 0x110000 := by unfold Spec.Scalar at hc; omega
          rw [Spec.utf8, if_neg h0]
          split
          · exact ⟨_, _, rfl, by rw [u8_toNat (by omega)]; omega⟩
          split
          · exact ⟨_, _, rfl, by rw [u8_toNat (by omega)]; omega⟩
          · exact ⟨_, _, rfl, by rw [u8_toNat (by omega)]; omega⟩
        refine ⟨b, r, hbr, ?_, ?_⟩
        · rintro rfl; exact absurd hb (by decide)
        rw [hbr] at hf ⊢
        rw [List.cons_append] at hf
        rw [readChar, if_neg, if_neg (by omega), readPlain, hf]
        · rfl
        · rintro rfl; exact absurd hb (by decide)

theorem readStr_esc (f : Nat) (x : Option Bytes) (t : Bytes) (hx : x = none ∨ ∃ c, Spec.Scalar c ∧ x = some (Spec.utf8 c)) :
    readStr (f + 1) (escRune x ++ t) = before (runeText x) (readStr f t) := by
  obtain ⟨b, r, h1, h2, h3⟩ := readChar_esc x t hx
  rw [h1, List.cons_append, readStr_char f h2 h3]

theorem escBody_rune {c : Nat} {t : Bytes} (hr : runes (Spec.utf8 c ++ t) = some (Spec.utf8 c) :: runes t) :
    escBody (Spec.utf8 c ++ t) = escRune (some (Spec.utf8 c)) ++ escBody t := by rw [escBody, hr]; rfl
theorem escBody_bad {b : UInt8} {t : Bytes} (hr : runes (b :: t) = none :: runes t) : escBody (b :: t) = escRune none ++ escBody t := by
  rw [escBody, hr]; rfl

/-- **The string codec**: reading the literal written for `s` gives `s` with its invalid bytes replaced, and leaves what follows the literal. -/
theorem readStr_escBody (s : Bytes) (r : Bytes) : ∀ f, (runes s).length < f → readStr f (escBody s ++ c!"\"" :: r) = some (sanitize s, r) := by
  induction s using runes_induction with
  | h0 =>
    intro f hf
    cases f with
    | zero => omega
    | succ f => rfl
  | h1 c t hc hr ih =>
    intro f hf
    rw [hr, List.length_cons] at hf
    cases f with
    | zero => omega
    | succ f =>
      rw [escBody_rune hr, List.append_assoc, readStr_esc f _ _ (Or.inr ⟨c, hc, rfl⟩), ih f (by omega), sanitize_rune hr]
      rfl
  | h2 b t hb hr ih =>
    intro f hf
    rw [hr, List.length_cons] at hf
    cases f with
    | zero => omega
    | succ f =>
      rw [escBody_bad hr, List.append_assoc, readStr_esc f _ _ (Or.inl rfl), ih f (by omega), sanitize_bad hr]
      rfl

theorem escRune_ne (x : Option Bytes) (hx : x = none ∨ ∃ c, Spec.Scalar c ∧ x = some (Spec.utf8 c)) : escRune x ≠ [] := by
  obtain ⟨b, r, h1, -, -⟩ := readChar_esc x [] hx
  rw [h1]; simp

/-- The literal is at least as long as its string has runes, so that its length is fuel enough. -/
theorem runes_le_esc (s : Bytes) : (runes s).length ≤ (escBody s).length := by
  induction s using runes_induction with
  | h0 => simp [runes_nil]
  | h1 c t hc hr ih =>
    have := List.length_pos_iff.2 (escRune_ne _ (Or.inr ⟨c, hc, rfl⟩))
    rw [escBody_rune hr, hr]; simp; omega
  | h2 b t hb hr ih =>
    have := List.length_pos_iff.2 (escRune_ne none (Or.inl rfl))
    rw [escBody_bad hr, hr]; simp; omega

end Types.GoJson
