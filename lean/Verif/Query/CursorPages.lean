import Verif.Query.CursorJson
import Verif.Flake.ConcLemmas
import Mathlib.Tactic.IntervalCases
set_option linter.unusedVariables false
set_option linter.unusedSimpArgs false
set_option exponentiation.threshold 3000
/-!
Paging with cursors that carry a number (query.go:151-168, types_test.go:672-679): C116.
-/
namespace Query
open Types Types.GoJson Sql

/-- The text of a cursor does not depend on the order in which the map was filled. -/
theorem C116_same_text (l l' : List (Bytes × CV)) (hp : l.Perm l') (hn : (l.map (·.1)).Nodup) : cursorText (some l) = cursorText (some l') := by
  have : orderedEntries (some l) = orderedEntries (some l') :=
    Schema.sort_perm_eq (fun x : Bytes × CV => x.1) leBytes (fun a b c => leBytes_trans a b c) (fun a b => leBytes_total a b) (fun a b => leBytes_antisymm a b) l l' hp hn
  unfold cursorText encodeCursor
  rw [encMap, encMap, this]

/-- A nil map has a cursor, too, and it decodes to a nil map without an error. -/
theorem C116_nil_map (hex : Bytes → Option Dbl) : cursorText none = b!"bnVsbA" ∧ decodeMap hex b!"bnVsbA" = some none := by
  constructor
  · decide +kernel
  · have e : (b!"bnVsbA" : Bytes) = encodeCursor (fun _ : Unit => b!"null") () := by decide +kernel
    unfold decodeMap decodeCursor
    rw [e, encodeCursor, b64_round_trip]
    show unmarshal _ _ = _
    rw [unmarshal, (reads_null 0).parse]
    rfl

/-! ### Integers -/

/-- An integer comes back as itself exactly when it is one of the numbers a `float64` can hold. -/
theorem C116_integer_exact_iff (hex : Bytes → Option Dbl) (k : Bytes) (hk : GoJson.Spec.Utf8 k) (i : Int) (hi : i.natAbs < 2 ^ 64) :
    (∃ m d, decodeMap hex (cursorText (some [(k, .int i)])) = some (some m) ∧ m.lookup k = some (.num d) ∧ numberOf d = i)
      ↔ ∃ d, Types.Finite d ∧ IsDouble d ∧ numberOf d = i := by
  obtain ⟨m, hm, -, hv⟩ := C116_values_back hex [(k, .int i)] ⟨by simp, by simpa using ⟨hk, hi⟩⟩
  obtain ⟨w, hw, hb⟩ := hv k (.int i) (by simp)
  cases w with
  | num d =>
    have hb : Nearest d i := hb
    constructor
    · rintro ⟨m', d', h1, h2, h3⟩
      rw [hm] at h1; cases h1
      rw [hw] at h2; cases h2
      exact ⟨d, hb.1, hb.2.1, h3⟩
    · rintro ⟨d', f', i', e'⟩
      have := hb.2.2 d' f' i'
      rw [e', sub_self, abs_zero] at this
      exact ⟨m, d, hm, hw, by linarith [abs_nonpos_iff.1 this]⟩
  | _ => exact hb.elim

/-- Integers of up to 2^53 are safe. -/
theorem C116_integer_exact (hex : Bytes → Option Dbl) (k : Bytes) (hk : GoJson.Spec.Utf8 k) (i : Int) (hi : i.natAbs ≤ 2 ^ 53) :
    ∃ m d, decodeMap hex (cursorText (some [(k, .int i)])) = some (some m) ∧ m.lookup k = some (.num d) ∧ numberOf d = i := by
  obtain ⟨u, h1, h2⟩ := intDbl_exact i hi
  have hlt : i.natAbs < 2 ^ 64 := by omega
  have hn := intDbl_nearest i hlt
  exact (C116_integer_exact_iff hex k hk i hlt).2 ⟨_, hn.1, hn.2.1, by rw [h1]; exact h2⟩

/-! ### Paging -/

theorem ordered_one {V : Type} (x : Bytes × V) : orderedEntries (some [x]) = [x] := rfl

theorem key_after : sanitize b!"after" = b!"after" := by decide +kernel

theorem decode_num (hex : Bytes → Option Dbl) (r : Nat) (hr : r < 2 ^ 64) : decodeMap hex (numCursor r) = some (some [(b!"after", .num (intDbl r))]) := by
  have h := decode_text hex [(b!"after", CV.int r)] (by
    intro x hx
    rw [List.mem_singleton] at hx
    rw [hx]
    show (r : Int).natAbs < 2 ^ 64
    rw [Int.natAbs_natCast]
    exact hr)
  rw [ordered_one] at h
  rw [numCursor, h, List.map_cons, List.map_nil, List.foldl_cons, List.foldl_nil, key_after, putEntry, backOf]

theorem lookup_after (v : AV) : ([(b!"after", v)] : List (Bytes × AV)).lookup b!"after" = some v := by
  rw [List.lookup, beq_self_eq_true]

theorem after_num (hex : Bytes → Option Dbl) (r : Nat) (hr : r < 2 ^ 64) : afterOf hex (numCursor r) = uintOf (.num (intDbl r)) := by
  rw [afterOf, decode_num hex r hr]
  simp only
  rw [lookup_after, Option.bind_some]

theorem after_text (hex : Bytes → Option Dbl) (r : Nat) (hr : r < 2 ^ 64) : afterOf hex (textCursor r) = some r := by
  unfold afterOf textCursor
  rw [decode_text hex _ (by intro x hx; rw [List.mem_singleton] at hx; subst hx; trivial)]
  have e3 : sanitize (Num.dec r) = Num.dec r := by
    rw [sanitize_eq_iff]
    refine ⟨(Num.dec r).map (·.toNat), ?_, ?_⟩
    · intro c hc
      obtain ⟨b, hb, rfl⟩ := List.mem_map.1 hc
      have := (dec_digits r).1.2 b hb
      unfold GoJson.Spec.Scalar
      omega
    · rw [List.flatMap_map]
      have : ∀ b ∈ Num.dec r, GoJson.Spec.utf8 b.toNat = [b] := by
        intro b hb
        have := (dec_digits r).1.2 b hb
        unfold GoJson.Spec.utf8
        rw [if_pos (by omega)]
        simp
      rw [List.flatMap_congr this]
      simp
  rw [ordered_one]
  simp only [List.map_cons, List.map_nil, List.foldl_cons, List.foldl_nil, key_after, putEntry, List.lookup, beq_self_eq_true, backOf, e3]
  simp only [Option.bind_some, uintOf, Num.dec, Num.parse_fmtNat 10 (by omega) (by omega), if_pos hr]

/-- The nearest double of an integer is an integer. -/
theorem intDbl_whole (r : Nat) (hr : r < 2 ^ 64) : ∃ k, intDbl r = .fin false (k * one) ∧ numberOf (.fin false (k * one)) = k ∧ (r ≤ 2 ^ 53 → k = r) := by
  have hnum : ∀ k : Nat, numberOf (.fin false (k * one)) = k := by
    intro k
    simp only [numberOf, Bool.false_eq_true, if_false, one_mul]
    rw [Nat.cast_mul, one_cast, mul_div_cancel_right₀ _ (ne_of_gt S_pos)]
  have hneg : decide (((r : Nat) : Int) < 0) = false := by simp
  by_cases h : r ≤ 2 ^ 53
  · obtain ⟨u, h1, h2⟩ := intDbl_exact (r : Int) (by rw [Int.natAbs_natCast]; exact h)
    rw [hneg] at h1 h2
    have : u = r * one := by
      have h3 : (u : ℚ) / 2 ^ 1074 = r := by
        simpa only [numberOf, Bool.false_eq_true, if_false, one_mul, Int.cast_natCast] using h2
      have h4 : (u : ℚ) = ((r * one : Nat) : ℚ) := by
        rw [Nat.cast_mul, one_cast, ← h3, div_mul_cancel₀ _ (ne_of_gt S_pos)]
      exact_mod_cast h4
    exact ⟨r, by rw [h1, this], hnum r, fun _ => rfl⟩
  · obtain ⟨u, hu⟩ := intDbl_finite (r : Int) (by rw [Int.natAbs_natCast]; exact hr)
    rw [hneg] at hu
    have hlp : 1074 ≤ lastPlace (r * one / 1) := by
      rw [Nat.div_one]
      by_contra hc
      have h1 := lastPlace_upper (r * one)
      have h2 : (2 : Nat) ^ (53 + lastPlace (r * one)) ≤ 2 ^ 53 * one := by
        have h4 : 53 + lastPlace (r * one) ≤ 53 + 1074 := by omega
        rw [show (2 : Nat) ^ 53 * one = 2 ^ (53 + 1074) by rw [pow_split, one_eq]]
        exact Nat.pow_le_pow_right (by decide) h4
      have h3 : 2 ^ 53 * one ≤ r * one := Nat.mul_le_mul_right _ (by omega)
      exact absurd (Nat.lt_of_lt_of_le h1 (le_trans h2 h3)) (Nat.lt_irrefl _)
    have hu2 : u = roundUnits (r * one) 1 := by
      have h1 : intDbl (r : Int) = toDbl (decide ((r : Int) < 0)) (r * one) 1 := by rw [intDbl, Int.natAbs_natCast]
      rw [h1, hneg] at hu
      unfold toDbl at hu
      split at hu
      · injection hu with _ e; exact e.symm
      · cases hu
    obtain ⟨e, he⟩ : ∃ e, lastPlace (r * one / 1) = e + 1074 := ⟨_, (Nat.sub_add_cancel hlp).symm⟩
    have hu3 : u = rne (r * one) (1 * 2 ^ lastPlace (r * one / 1)) * 2 ^ e * one := by
      rw [hu2, roundUnits, Nat.mul_assoc, he, pow_split, ← one_eq]
    exact ⟨_, by rw [hu, hu3], hnum _, fun h' => absurd h' h⟩

/-- The number a client's cursor carries is the double nearest to the row's key. -/
theorem C116_after_is_nearest (hex : Bytes → Option Dbl) (r : Nat) (hr : r < 2 ^ 64) :
    ∃ (k : Nat) (d : Dbl), Nearest d r ∧ numberOf d = k ∧ afterOf hex (numCursor r) = if k < 2 ^ 64 then some k else none := by
  obtain ⟨k, h1, h2, -⟩ := intDbl_whole r hr
  have hn := intDbl_nearest (r : Int) (by rw [Int.natAbs_natCast]; exact hr)
  rw [h1] at hn
  refine ⟨k, _, by simpa using hn, h2, ?_⟩
  rw [after_num hex r hr, h1, uintOf, Nat.mul_div_cancel _ Types.one_pos]

theorem after_small (hex : Bytes → Option Dbl) (r : Nat) (hr : r ≤ 2 ^ 53) : afterOf hex (numCursor r) = some r := by
  have hlt : r < 2 ^ 64 := by omega
  obtain ⟨k, h1, -, h3⟩ := intDbl_whole r hlt
  rw [after_num hex r hlt, h1, uintOf, Nat.mul_div_cancel _ Types.one_pos, h3 hr, if_pos hlt]

variable {V E : Type}

theorem ordered_keys (hex : Bytes → Option Dbl) (cursor : Nat → Bytes) (data : List Nat) (hd : data.Pairwise (· < ·)) (hc : ∀ r ∈ data, afterOf hex (cursor r) = some r) :
    OrderedBy data (afterKey hex) cursor := by
  intro pre r post e
  subst e
  have hr := hc r (by simp)
  rw [List.pairwise_append, List.pairwise_cons] at hd
  obtain ⟨_, ⟨h1, _⟩, h2⟩ := hd
  simp only [afterKey, hr, decide_eq_false_iff_not, decide_eq_true_eq]
  exact ⟨fun x hx => by have := h2 x hx r (by simp); omega, Nat.lt_irrefl r, h1⟩

/-- **C116**: a client that follows cursors carrying keys as numbers gets every row exactly once, in order, when no key is above 2^53. -/
theorem C116_small_keys_paged (hex : Bytes → Option Dbl) (db : List (Arg V) → Answer Nat E) (data : List Nat) (hsize : data.length < 2 ^ 32) (hd : data.Pairwise (· < ·))
    (hsmall : ∀ r ∈ data, 0 < r ∧ r ≤ 2 ^ 53) (ask : Bytes → QArgs V) (limit : UInt32) (hl : limit ≠ 0) (hs : ServesCursor db data (afterKey hex) ask limit) :
    ∃ pages, followCursor (fun c => execCursor db (fun r => .ok r) numCursor (ask c)) (data.length / limit.toNat + 1) (numCursor 0) = some pages ∧ pages.flatten = data := by
  obtain ⟨pages, h1, h2, -⟩ := C37_every_row_once db (fun r => r) numCursor data hsize (afterKey hex) ask limit hl hs
    (ordered_keys hex numCursor data hd fun r hr => after_small hex r (hsmall r hr).2) (numCursor 0)
    (fun r hr => by simp only [afterKey, after_small hex 0 (by decide), decide_eq_true_eq]; exact (hsmall r hr).1)
  exact ⟨pages, h1, by simpa using h2⟩

/-- Keys carried as text (`ID.String()`) are safe for every 64-bit key. -/
theorem C116_text_keys_paged (hex : Bytes → Option Dbl) (db : List (Arg V) → Answer Nat E) (data : List Nat) (hsize : data.length < 2 ^ 32) (hd : data.Pairwise (· < ·))
    (hkeys : ∀ r ∈ data, 0 < r ∧ r < 2 ^ 64) (ask : Bytes → QArgs V) (limit : UInt32) (hl : limit ≠ 0) (hs : ServesCursor db data (afterKey hex) ask limit) :
    ∃ pages, followCursor (fun c => execCursor db (fun r => .ok r) textCursor (ask c)) (data.length / limit.toNat + 1) (textCursor 0) = some pages ∧ pages.flatten = data := by
  obtain ⟨pages, h1, h2, -⟩ := C37_every_row_once db (fun r => r) textCursor data hsize (afterKey hex) ask limit hl hs
    (ordered_keys hex textCursor data hd fun r hr => after_text hex r (hkeys r hr).2) (textCursor 0)
    (fun r hr => by simp only [afterKey, after_text hex 0 (by decide), decide_eq_true_eq]; exact (hkeys r hr).1)
  exact ⟨pages, h1, by simpa using h2⟩

/-- A key above 2^53 whose cursor carries a smaller number: with pages of one row the client gets the same row again and again, and never comes to an end. -/
theorem C116_rounded_down_never_ends (hex : Bytes → Option Dbl) (db : List (Arg V) → Answer Nat E) (pre post : List Nat) (r k : Nat) (hd : (pre ++ r :: post).Pairwise (· < ·))
    (hk : afterOf hex (numCursor r) = some k) (hdown : k < r) (hpre : ∀ x ∈ pre, x ≤ k) (ask : Bytes → QArgs V)
    (hs : ServesCursor db (pre ++ r :: post) (afterKey hex) ask 1) : ∀ fuel, followCursor (fun c => execCursor db (fun r => .ok r) numCursor (ask c)) fuel (numCursor r) = none := by
  rw [List.pairwise_append, List.pairwise_cons] at hd
  have he : ∀ x, afterKey hex (numCursor r) x = decide (k < x) := fun x => by simp only [afterKey, hk]
  have hf : (pre ++ r :: post).filter (afterKey hex (numCursor r)) = r :: post := by
    rw [List.filter_append, List.filter_eq_nil_iff.2 fun x hx => ?_, List.nil_append, List.filter_eq_self.2]
    · intro x hx
      rw [he, decide_eq_true_eq]
      rcases List.mem_cons.1 hx with rfl | hx
      · exact hdown
      · have := hd.2.1.1 x hx; omega
    · have := hpre x hx
      rw [he, decide_eq_true_eq]; omega
  intro fuel
  induction fuel with
  | zero => rfl
  | succ fuel ih =>
    rw [followCursor, execCursor_served db (fun r => r) numCursor _ (afterKey hex) ask 1 hs, hf]
    have : ((r :: post).take (1 : UInt32).toNat).map (fun r => r) = [r] := by
      show ((r :: post).take 1).map _ = _
      simp
    simp only [this]
    have e : decide (UInt32.ofNat [r].length ≥ 1) = true := by show decide (UInt32.ofNat 1 ≥ 1) = true; decide
    simp only [e, if_true, List.getLast?_singleton, ih, Option.map_none]

/-- A key whose cursor carries a larger number: the rows between the two are in no answer to the cursor. -/
theorem C116_rounded_up_skips (hex : Bytes → Option Dbl) (data : List Nat) (r k : Nat) (hk : afterOf hex (numCursor r) = some k) (x : Nat) (h1 : r < x) (h2 : x ≤ k) :
    x ∉ data.filter (afterKey hex (numCursor r)) := by
  rw [List.mem_filter, not_and]
  intro _
  simp only [afterKey, hk, decide_eq_true_eq]
  omega

/-! ### Which keys are safe -/

theorem after_units (hex : Bytes → Option Dbl) (r e : Nat) (hr : r < 2 ^ 64) (h1 : 2 ^ (52 + e) ≤ r) (h2 : r < 2 ^ (53 + e)) :
    ∃ q, afterOf hex (numCursor r) = (if q * 2 ^ e < 2 ^ 64 then some (q * 2 ^ e) else none) ∧ (2 ^ e ∣ r → q * 2 ^ e = r) := by
  have hlp : lastPlace (r * one / 1) = e + 1074 := by
    rw [Nat.div_one]
    apply lastPlace_unique
    · rw [← Nat.add_assoc, pow_split, ← one_eq]
      exact Nat.mul_lt_mul_of_pos_right h2 Types.one_pos
    · intro _
      rw [← Nat.add_assoc, pow_split, ← one_eq]
      exact Nat.mul_le_mul_right _ h1
  obtain ⟨u, hu⟩ := intDbl_finite (r : Int) (by rw [Int.natAbs_natCast]; exact hr)
  have hneg : decide (((r : Nat) : Int) < 0) = false := by simp
  rw [hneg] at hu
  have hu2 : u = roundUnits (r * one) 1 := by
    have h1 : intDbl (r : Int) = toDbl (decide ((r : Int) < 0)) (r * one) 1 := by rw [intDbl, Int.natAbs_natCast]
    rw [h1, hneg] at hu
    unfold toDbl at hu
    split at hu
    · injection hu with _ e; exact e.symm
    · cases hu
  have hu3 : u = rne (r * one) (1 * 2 ^ (e + 1074)) * 2 ^ e * one := by
    rw [hu2, roundUnits, Nat.mul_assoc, hlp, pow_split, ← one_eq]
  refine ⟨rne (r * one) (1 * 2 ^ (e + 1074)), ?_, ?_⟩
  · rw [after_num hex r hr, hu, hu3, uintOf, Nat.mul_div_cancel _ Types.one_pos]
  · rintro ⟨c, rfl⟩
    have : 2 ^ e * c * one = c * (1 * 2 ^ (e + 1074)) := by
      rw [one_mul, pow_split, ← one_eq, Nat.mul_comm (2 ^ e) c, Nat.mul_assoc]
    rw [this, rne_exact _ _ (by positivity), Nat.mul_comm]

/-- Beyond 2^53 the keys that a cursor carries unchanged are those divisible by a power of two: by 2 up to 2^54, by 4 up to 2^55, and so on. -/
theorem C116_key_exact_iff (hex : Bytes → Option Dbl) (r e : Nat) (hr : r < 2 ^ 64) (h1 : 2 ^ (52 + e) ≤ r) (h2 : r < 2 ^ (53 + e)) : afterOf hex (numCursor r) = some r ↔ 2 ^ e ∣ r := by
  obtain ⟨q, h3, h4⟩ := after_units hex r e hr h1 h2
  constructor
  · intro h
    rw [h3] at h
    split at h
    · injection h with h; exact ⟨q, by rw [← h, Nat.mul_comm]⟩
    · cases h
  · intro h
    rw [h3, h4 h, if_pos hr]

/-- Generated identifiers (flake.go:144-192): with a clock `2^(30+e)` to `2^(31+e)` milliseconds after the start time, a cursor carries an identifier unchanged exactly when the machine number is divisible by `2^e`, whatever the moment and the sequence number. -/
theorem C116_generated_ids (hex : Bytes → Option Dbl) (g : Flake.Gen) (hseq : g.sequence.toNat < 64) (id : BitVec 64) (hid : Flake.toID g = some id) (e : Nat) (he : e ≤ 10) (h1 : (2 : Int) ^ (30 + e) ≤ g.elapsed) (h2 : g.elapsed < 2 ^ (31 + e)) :
    afterOf hex (numCursor id.toNat) = some id.toNat ↔ 2 ^ e ∣ g.machineID.toNat := by
  have hg : Flake.Inv g := ⟨le_trans (by positivity) h1, hseq⟩
  have h3 := (Flake.toID_toNat g hg id hid).2
  have h4 := (Flake.toID_pair g hg id hid).2
  have h5 := hg.seq_lt
  have h6 := g.machineID.isLt
  simp only [Flake.key] at h3
  have hdiv : 2 ^ e ∣ id.toNat ↔ 2 ^ e ∣ g.machineID.toNat := by
    rw [← h4.1]
    exact (Nat.dvd_mod_iff (Nat.pow_dvd_pow 2 (by omega))).symm
  rw [← hdiv]
  apply C116_key_exact_iff hex _ e (by omega)
  · interval_cases e <;> norm_num at h1 h2 ⊢ <;> omega
  · interval_cases e <;> norm_num at h1 h2 ⊢ <;> omega

/-! ### Concrete cases -/

/-- Keys 2^53 and 2^53 + 1 have different cursors that carry the same number; 2^53 + 3 has the cursor of the next key. -/
theorem C116_neighbours_confused (hex : Bytes → Option Dbl) :
    numCursor (2 ^ 53) ≠ numCursor (2 ^ 53 + 1) ∧ afterOf hex (numCursor (2 ^ 53)) = some (2 ^ 53) ∧ afterOf hex (numCursor (2 ^ 53 + 1)) = some (2 ^ 53)
      ∧ afterOf hex (numCursor (2 ^ 53 + 3)) = some (2 ^ 53 + 4) := by
  refine ⟨by decide +kernel, ?_, ?_, ?_⟩
  · rw [after_num hex _ (by decide)]; decide +kernel
  · rw [after_num hex _ (by decide)]; decide +kernel
  · rw [after_num hex _ (by decide)]; decide +kernel

/-- A database answering such queries. -/
def keyDb (hex : Bytes → Option Dbl) (data : List Nat) : List (Arg Bytes) → Answer Nat Nat
  | [.other c, .u32 l] => .ok (.fresh (((data.filter (afterKey hex c)).take l.toNat).map fun r => ⟨r, none⟩) none none)
  | _ => .error 0

theorem keyDb_serves (hex : Bytes → Option Dbl) (data : List Nat) (l : UInt32) : ServesCursor (keyDb hex data) data (afterKey hex) (fun c => .plain [.other c, .u32 l]) l :=
  fun c => ⟨[.other c, .u32 l], ⟨rfl, [], _, _, rfl, .u32 l⟩, rfl⟩

/-- Two rows, pages of one row: the row with key 2^53 + 1 comes back for ever. -/
example (hex : Bytes → Option Dbl) : ∀ fuel, followCursor (fun c => execCursor (keyDb hex ([2 ^ 53] ++ (2 ^ 53 + 1) :: [])) (fun r => .ok r) numCursor (.plain [.other c, .u32 1])) fuel (numCursor (2 ^ 53 + 1)) = none :=
  C116_rounded_down_never_ends hex _ [2 ^ 53] [] (2 ^ 53 + 1) (2 ^ 53) (by decide) (C116_neighbours_confused hex).2.2.1 (by decide) (by decide) _ (keyDb_serves hex _ 1)

/-- Two rows: the row with key 2^53 + 4 is never shown to a client that has seen 2^53 + 3. -/
example (hex : Bytes → Option Dbl) : (2 ^ 53 + 4) ∉ [2 ^ 53 + 3, 2 ^ 53 + 4].filter (afterKey hex (numCursor (2 ^ 53 + 3))) :=
  C116_rounded_up_skips hex _ _ _ (C116_neighbours_confused hex).2.2.2 _ (by decide) (by decide)

/-- A generator on the machine 10.35 (host part of its address), more than five years after the start time: no identifier survives. -/
example (hex : Bytes → Option Dbl) : ∃ id, Flake.toID ⟨0, 166000000000, 0, 63, 2595, 0, 0⟩ = some id ∧ afterOf hex (numCursor id.toNat) ≠ some id.toNat := by
  refine ⟨_, rfl, ?_⟩
  rw [after_num hex _ (by decide)]
  decide +kernel

/-- The cursor of the test in types_test.go:672-679, and its number. -/
example : numCursor 1234567 = b!"eyJhZnRlciI6MTIzNDU2N30" := by decide +kernel
example (hex : Bytes → Option Dbl) : afterOf hex b!"eyJhZnRlciI6MTIzNDU2N30" = some 1234567 := by
  have : (b!"eyJhZnRlciI6MTIzNDU2N30" : Bytes) = numCursor 1234567 := by decide +kernel
  rw [this]; exact after_small hex _ (by decide)

/-- A map with values of every kind. -/
example : Spec.GoodCursor [(b!"after", .int (-5)), (b!"name", .str b!"a\"b"), (b!"all", .bool true), (b!"tenant", .null)] := by
  have ha : ∀ s : Bytes, (∀ b ∈ s, b.toNat < 128) → GoJson.Spec.Utf8 s := by
    intro s hs
    refine ⟨s.map (·.toNat), ?_, ?_⟩
    · intro c hc
      obtain ⟨b, hb, rfl⟩ := List.mem_map.1 hc
      have := hs b hb
      unfold GoJson.Spec.Scalar
      omega
    · rw [List.flatMap_map]
      have : ∀ b ∈ s, GoJson.Spec.utf8 b.toNat = [b] := by
        intro b hb
        unfold GoJson.Spec.utf8
        rw [if_pos (hs b hb)]
        simp
      rw [List.flatMap_congr this]
      simp
  refine ⟨by decide, ?_⟩
  intro x hx
  simp only [List.mem_cons, List.not_mem_nil, or_false] at hx
  rcases hx with rfl | rfl | rfl | rfl
  · exact ⟨ha _ (by decide), by decide⟩
  · exact ⟨ha _ (by decide), ha _ (by decide)⟩
  · exact ⟨ha _ (by decide), trivial⟩
  · exact ⟨ha _ (by decide), trivial⟩

end Query
