import Verif.Base
/-
Model of query.go:151-168 `EncodeCursor` / `DecodeCursor`, and of `encoding/base64.RawURLEncoding` (standard library, from its
documentation: URL-safe alphabet, no padding, CR and LF in the input ignored, trailing bits not checked).
C43: cursor text round trip.
-/
set_option linter.unusedSimpArgs false
namespace Query

/-- The URL-safe alphabet: `A`-`Z`, `a`-`z`, `0`-`9`, `-`, `_`. -/
def b64Char (n : Nat) : UInt8 :=
  if n < 26 then UInt8.ofNat (65 + n)
  else if n < 52 then UInt8.ofNat (97 + (n - 26))
  else if n < 62 then UInt8.ofNat (48 + (n - 52))
  else if n = 62 then 45
  else 95

/-- Value of an alphabet character. -/
def b64Val (c : UInt8) : Option Nat :=
  let n := c.toNat
  if 65 ≤ n ∧ n ≤ 90 then some (n - 65)
  else if 97 ≤ n ∧ n ≤ 122 then some (n - 97 + 26)
  else if 48 ≤ n ∧ n ≤ 57 then some (n - 48 + 52)
  else if n = 45 then some 62
  else if n = 95 then some 63
  else none

/-- `RawURLEncoding.EncodeToString` (standard library). -/
def b64Encode : Bytes → Bytes
  | [] => []
  | [a] => [b64Char (a.toNat / 4), b64Char (a.toNat % 4 * 16)]
  | [a, b] => [b64Char (a.toNat / 4), b64Char (a.toNat % 4 * 16 + b.toNat / 16), b64Char (b.toNat % 16 * 4)]
  | a :: b :: c :: rest =>
    b64Char (a.toNat / 4) :: b64Char (a.toNat % 4 * 16 + b.toNat / 16) :: b64Char (b.toNat % 16 * 4 + c.toNat / 64) ::
      b64Char (c.toNat % 64) :: b64Encode rest

/-- Decoding of six-bit values, four at a time; one value left over is an error. -/
def b64Bytes : List Nat → Option Bytes
  | [] => some []
  | [_] => none
  | [a, b] => some [UInt8.ofNat (a * 4 + b / 16)]
  | [a, b, c] => some [UInt8.ofNat (a * 4 + b / 16), UInt8.ofNat (b % 16 * 16 + c / 4)]
  | a :: b :: c :: d :: rest =>
    (b64Bytes rest).map fun r => UInt8.ofNat (a * 4 + b / 16) :: UInt8.ofNat (b % 16 * 16 + c / 4) :: UInt8.ofNat (c % 4 * 64 + d) :: r

/-- `RawURLEncoding.DecodeString` (standard library): CR and LF are skipped, any other foreign character is an error. -/
def b64Decode (s : Bytes) : Option Bytes :=
  match (s.filter fun c => c ≠ 10 ∧ c ≠ 13).mapM b64Val with
  | some vs => b64Bytes vs
  | none => none

/-- query.go:152-154 `EncodeCursor`; `json` is `values.MapAny.JSON` (library). -/
def encodeCursor {M : Type} (json : M → Bytes) (m : M) : Bytes := b64Encode (json m)

/-- query.go:157-168 `DecodeCursor`; `unmarshal` is `json.Unmarshal` into a map (library).  `none` is an error. -/
def decodeCursor {M : Type} (unmarshal : Bytes → Option M) (s : Bytes) : Option M :=
  match b64Decode s with
  | some js => unmarshal js
  | none => none

/-! ### Lemmas -/

theorem b64Val_char (n : Nat) (h : n < 64) : b64Val (b64Char n) = some n := by
  have : ∀ k : Fin 64, b64Val (b64Char k.val) = some k.val := by decide +kernel
  exact this ⟨n, h⟩

theorem b64Char_not_newline (n : Nat) (h : n < 64) : b64Char n ≠ 10 ∧ b64Char n ≠ 13 := by
  have : ∀ k : Fin 64, b64Char k.val ≠ 10 ∧ b64Char k.val ≠ 13 := by decide +kernel
  exact this ⟨n, h⟩

theorem ofNat_toNat_eq (a : UInt8) (n : Nat) (h : n = a.toNat) : UInt8.ofNat n = a := by subst h; simp

/-- The six-bit values the encoder writes. -/
def b64Nums : Bytes → List Nat
  | [] => []
  | [a] => [a.toNat / 4, a.toNat % 4 * 16]
  | [a, b] => [a.toNat / 4, a.toNat % 4 * 16 + b.toNat / 16, b.toNat % 16 * 4]
  | a :: b :: c :: rest => a.toNat / 4 :: (a.toNat % 4 * 16 + b.toNat / 16) :: (b.toNat % 16 * 4 + c.toNat / 64) :: c.toNat % 64 :: b64Nums rest

theorem b64Encode_eq : ∀ p, b64Encode p = (b64Nums p).map b64Char
  | [] => rfl
  | [_] => rfl
  | [_, _] => rfl
  | a :: b :: c :: rest => by simp [b64Encode, b64Nums, b64Encode_eq rest]

theorem b64Nums_lt : ∀ p, ∀ n ∈ b64Nums p, n < 64
  | [] => by simp [b64Nums]
  | [a] => by
    have := a.toNat_lt
    simp only [b64Nums, List.mem_cons, List.not_mem_nil, or_false]
    rintro n (rfl | rfl) <;> omega
  | [a, b] => by
    have := a.toNat_lt; have := b.toNat_lt
    simp only [b64Nums, List.mem_cons, List.not_mem_nil, or_false]
    rintro n (rfl | rfl | rfl) <;> omega
  | a :: b :: c :: rest => by
    have := a.toNat_lt; have := b.toNat_lt; have := c.toNat_lt
    simp only [b64Nums, List.mem_cons]
    rintro n (rfl | rfl | rfl | rfl | h)
    · omega
    · omega
    · omega
    · omega
    · exact b64Nums_lt rest n h

theorem b64Nums_length : ∀ p, (b64Nums p).length = (p.length * 4 + 2) / 3
  | [] => rfl
  | [_] => by simp [b64Nums]
  | [_, _] => by simp [b64Nums]
  | a :: b :: c :: rest => by
    simp only [b64Nums, List.length_cons, b64Nums_length rest]; omega

theorem b64Bytes_nums : ∀ p, b64Bytes (b64Nums p) = some p
  | [] => rfl
  | [a] => by
    have := a.toNat_lt
    simp only [b64Nums, b64Bytes, Option.some.injEq, List.cons.injEq, and_true]
    exact ofNat_toNat_eq a _ (by omega)
  | [a, b] => by
    have := a.toNat_lt; have := b.toNat_lt
    simp only [b64Nums, b64Bytes, Option.some.injEq, List.cons.injEq, and_true]
    exact ⟨ofNat_toNat_eq a _ (by omega), ofNat_toNat_eq b _ (by omega)⟩
  | a :: b :: c :: rest => by
    have := a.toNat_lt; have := b.toNat_lt; have := c.toNat_lt
    simp only [b64Nums, b64Bytes, b64Bytes_nums rest, Option.map_some, Option.some.injEq, List.cons.injEq, and_true]
    exact ⟨ofNat_toNat_eq a _ (by omega), ofNat_toNat_eq b _ (by omega), ofNat_toNat_eq c _ (by omega)⟩

theorem mapM_vals : ∀ ns : List Nat, (∀ n ∈ ns, n < 64) → (ns.map b64Char).mapM b64Val = some ns := by
  intro ns
  induction ns with
  | nil => intro _; rfl
  | cons n ns ih =>
    intro h
    rw [List.map_cons, List.mapM_cons, b64Val_char n (h n (by simp)), ih (fun m hm => h m (by simp [hm]))]
    rfl

theorem b64_round_trip (p : Bytes) : b64Decode (b64Encode p) = some p := by
  have hlt := b64Nums_lt p
  have hf : (b64Encode p).filter (fun c => c ≠ 10 ∧ c ≠ 13) = (b64Nums p).map b64Char := by
    rw [b64Encode_eq]
    apply List.filter_eq_self.2
    intro c hc
    obtain ⟨n, hn, rfl⟩ := List.mem_map.1 hc
    simpa using b64Char_not_newline n (hlt n hn)
  rw [b64Decode, hf, mapM_vals _ hlt]
  exact b64Bytes_nums p

theorem mapM_isSome : ∀ s : Bytes, (s.mapM b64Val).isSome = s.all fun c => (b64Val c).isSome := by
  intro s
  induction s with
  | nil => rfl
  | cons c s ih =>
    rw [List.mapM_cons, List.all_cons, ← ih]
    cases b64Val c with
    | none => rfl
    | some v => cases s.mapM b64Val <;> rfl

theorem mapM_length : ∀ (s : Bytes) (vs : List Nat), s.mapM b64Val = some vs → vs.length = s.length := by
  intro s
  induction s with
  | nil => intro vs h; cases h; rfl
  | cons c s ih =>
    intro vs h
    rw [List.mapM_cons] at h
    cases hc : b64Val c with
    | none => simp [hc] at h
    | some v =>
      cases hs : s.mapM b64Val with
      | none => simp [hc, hs] at h
      | some ws =>
        simp only [hc, hs, Option.bind_eq_bind, Option.bind_some, Option.pure_def, Option.some.injEq] at h
        subst h; simp [ih ws hs]

theorem b64Bytes_isSome : ∀ vs : List Nat, (b64Bytes vs).isSome = true ↔ vs.length % 4 ≠ 1
  | [] => by simp [b64Bytes]
  | [_] => by simp [b64Bytes]
  | [_, _] => by simp [b64Bytes]
  | [_, _, _] => by simp [b64Bytes]
  | a :: b :: c :: d :: rest => by
    have := b64Bytes_isSome rest
    simp only [b64Bytes, Option.isSome_map, this, List.length_cons]
    omega

/-! ### C43 -/

/-- A character that needs no escaping in a URL. -/
def UrlSafe (c : UInt8) : Prop :=
  (65 ≤ c.toNat ∧ c.toNat ≤ 90) ∨ (97 ≤ c.toNat ∧ c.toNat ≤ 122) ∨ (48 ≤ c.toNat ∧ c.toNat ≤ 57) ∨ c = c!"-" ∨ c = c!"_"

theorem b64Val_isSome (c : UInt8) : (b64Val c).isSome = true ↔ UrlSafe c := by
  have : ∀ n : Fin 256, ((b64Val (UInt8.ofNat n.val)).isSome = true ↔
      ((65 ≤ n.val ∧ n.val ≤ 90) ∨ (97 ≤ n.val ∧ n.val ≤ 122) ∨ (48 ≤ n.val ∧ n.val ≤ 57) ∨ n.val = 45 ∨ n.val = 95)) := by decide +kernel
  have h := this ⟨c.toNat, c.toNat_lt⟩
  simp only [UInt8.ofNat_toNat] at h
  rw [h, UrlSafe]
  have e1 : c = 45 ↔ c.toNat = 45 := ⟨fun h => by rw [h]; rfl, fun h => UInt8.toNat.inj h⟩
  have e2 : c = 95 ↔ c.toNat = 95 := ⟨fun h => by rw [h]; rfl, fun h => UInt8.toNat.inj h⟩
  rw [e1, e2]

/-- Decoding an encoded cursor gives the value back, for every payload (given that the JSON text of the value reads back as the value). -/
theorem C43_round_trip {M : Type} (json : M → Bytes) (unmarshal : Bytes → Option M) (hj : ∀ m, unmarshal (json m) = some m) (m : M) :
    decodeCursor unmarshal (encodeCursor json m) = some m := by
  simp [decodeCursor, encodeCursor, b64_round_trip, hj]

/-- The encoding alone is lossless on every byte string, whatever its length, and different payloads have different texts. -/
theorem C43_payload_round_trip (p p' : Bytes) : b64Decode (b64Encode p) = some p ∧ (b64Encode p = b64Encode p' → p = p') := by
  refine ⟨b64_round_trip p, fun h => ?_⟩
  have := b64_round_trip p
  rw [h, b64_round_trip] at this
  injection this with this; exact this.symm

/-- The cursor text is URL safe, and its length is the payload's times 4/3, rounded up. -/
theorem C43_url_safe (p : Bytes) : (∀ c ∈ b64Encode p, UrlSafe c) ∧ (b64Encode p).length = (p.length * 4 + 2) / 3 := by
  constructor
  · intro c hc
    rw [b64Encode_eq] at hc
    obtain ⟨n, hn, rfl⟩ := List.mem_map.1 hc
    rw [← b64Val_isSome, b64Val_char n (b64Nums_lt p n hn)]; rfl
  · rw [b64Encode_eq, List.length_map]
    exact b64Nums_length p

/-- Text is decoded exactly when, line breaks aside, it is URL safe and its length is possible; everything else is rejected. -/
theorem C43_rejects_corrupted (s : Bytes) :
    (b64Decode s).isSome = true ↔
      (∀ c ∈ s, UrlSafe c ∨ c = 10 ∨ c = 13) ∧ (s.filter fun c => c ≠ 10 ∧ c ≠ 13).length % 4 ≠ 1 := by
  have hall : (∀ c ∈ s, UrlSafe c ∨ c = 10 ∨ c = 13) ↔ ((s.filter fun c => c ≠ 10 ∧ c ≠ 13).all fun c => (b64Val c).isSome) = true := by
    rw [List.all_eq_true]
    simp only [List.mem_filter, b64Val_isSome, decide_eq_true_eq]
    constructor
    · rintro h c ⟨hc, h1, h2⟩
      rcases h c hc with h | h | h
      · exact h
      · exact absurd h h1
      · exact absurd h h2
    · intro h c hc
      by_cases h1 : c = 10
      · exact .inr (.inl h1)
      · by_cases h2 : c = 13
        · exact .inr (.inr h2)
        · exact .inl (h c ⟨hc, h1, h2⟩)
  rw [hall, ← mapM_isSome, b64Decode]
  cases hm : (s.filter fun c => c ≠ 10 ∧ c ≠ 13).mapM b64Val with
  | none => simp
  | some vs => simp only [b64Bytes_isSome, mapM_length _ _ hm, Option.isSome_some, true_and]

/-- A cursor of impossible length or with a foreign character is rejected, whatever JSON says. -/
theorem C43_decode_cursor_rejects {M : Type} (unmarshal : Bytes → Option M) (s : Bytes)
    (h : (∃ c ∈ s, ¬ UrlSafe c ∧ c ≠ 10 ∧ c ≠ 13) ∨ ((∀ c ∈ s, UrlSafe c) ∧ s.length % 4 = 1)) : decodeCursor unmarshal s = none := by
  have : (b64Decode s).isSome = false := by
    rw [← Bool.not_eq_true, C43_rejects_corrupted]
    rintro ⟨h1, h2⟩
    rcases h with ⟨c, hc, n1, n2, n3⟩ | ⟨h3, h4⟩
    · rcases h1 c hc with h | h | h
      · exact n1 h
      · exact n2 h
      · exact n3 h
    · apply h2
      rw [List.filter_eq_self.2]
      · exact h4
      · intro c hc
        have := h3 c hc
        simp only [ne_eq, decide_eq_true_eq]
        constructor <;> (rintro rfl; revert this; simp [UrlSafe])
  rw [decodeCursor]
  cases hd : b64Decode s with
  | none => rfl
  | some p => simp [hd] at this

/-- Different texts may stand for the same cursor: unused trailing bits are not checked. -/
theorem C43_not_canonical : b64Decode b!"QQ" = b64Decode b!"QR" ∧ b64Decode b!"QQ" = some b!"A" := by decide +kernel

example : b64Encode b!"{\"after\":1234567}" = b!"eyJhZnRlciI6MTIzNDU2N30" := by decide +kernel
example : (b64Decode b!"abcde").isSome = false ∧ (b64Decode b!"ab+/").isSome = false ∧ (b64Decode b!"abc=").isSome = false := by decide +kernel
example : ¬ UrlSafe c!"=" := by simp [UrlSafe]

end Query
