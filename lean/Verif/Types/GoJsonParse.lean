import Verif.Types.GoJson
set_option linter.unusedSimpArgs false
set_option linter.unusedVariables false
/-! The parser of `GoJson` does not run out of fuel: more fuel never changes a result, and `parse` has enough for every text. -/
namespace Types.GoJson

theorem skip_le (s : Bytes) : (skip s).length ≤ s.length := by
  induction s with
  | nil => simp [skip]
  | cons b r ih => rw [skip]; split <;> simp; omega

theorem digits_le (s : Bytes) : (digits s).length ≤ s.length := by
  induction s with
  | nil => simp [digits]
  | cons b r ih => rw [digits]; split <;> simp; omega

theorem digits1_lt {s x : Bytes} (h : digits1 s = some x) : x.length < s.length := by
  cases s with
  | nil => cases h
  | cons b r =>
    rw [digits1] at h
    split at h <;> cases h
    have := digits_le r
    simp; omega

theorem exponent_le {s x : Bytes} (h : exponent s = some x) : x.length ≤ s.length := by
  cases s with
  | nil => cases h; simp
  | cons b r =>
    rw [exponent.eq_def] at h
    simp only at h
    split at h
    · split at h
      · cases h
      · rename_i s' r'
        split at h
        · have := digits1_lt h; simp; omega
        · have := digits1_lt h; simp at this ⊢; omega
    · cases h; simp

theorem fraction_le {s x : Bytes} (h : fraction s = some x) : x.length ≤ s.length := by
  cases s with
  | nil => cases h; simp
  | cons b r =>
    rw [fraction] at h
    split at h
    · cases hd : digits1 r with
      | none => rw [hd] at h; cases h
      | some y =>
        rw [hd] at h
        have h1 := digits1_lt hd
        have h2 := exponent_le h
        simp; omega
    · exact exponent_le h

theorem unsigned_lt {s x : Bytes} (h : unsigned s = some x) : x.length < s.length := by
  cases s with
  | nil => cases h
  | cons b r =>
    rw [unsigned] at h
    split at h
    · have := fraction_le h; simp; omega
    split at h
    · have := fraction_le h; have := digits_le r; simp; omega
    · cases h

theorem number_lt {s x : Bytes} (h : number s = some x) : x.length < s.length := by
  cases s with
  | nil => cases h
  | cons b r =>
    rw [number] at h
    split at h
    · have := unsigned_lt h; simp; omega
    · exact unsigned_lt h

theorem word_le {w s x : Bytes} (h : word w s = some x) : x.length ≤ s.length := by
  rw [word] at h
  split at h <;> cases h
  simp

theorem u4_lt {s : Bytes} {x : Nat × Bytes} (h : u4 s = some x) : x.2.length < s.length := by
  unfold u4 at h
  split at h
  · split at h <;> cases h
    simp
    omega
  · cases h

theorem lowHalf_lt {a : Nat} {s : Bytes} {x : Nat × Bytes} (h : lowHalf a s = some x) : x.2.length < s.length := by
  unfold lowHalf at h
  split at h
  · rename_i r
    split at h
    · rename_i y r' hu
      have := u4_lt hu
      split at h
      · rw [Option.some.injEq] at h
        subst h
        simp only [List.length_cons] at this ⊢; omega
      · exact absurd h (by simp)
    · cases h
  · cases h

theorem readU_lt {s : Bytes} {x : Bytes × Bytes} (h : readU s = some x) : x.2.length < s.length := by
  unfold readU at h
  split at h
  · cases h
  · rename_i c r2 hu
    have h1 := u4_lt hu
    split at h
    · split at h
      · rename_i c' r3 hl
        have := lowHalf_lt hl
        cases h; simp at *; omega
      · cases h; exact h1
    · cases h; exact h1

theorem readEsc_lt {s : Bytes} {x : Bytes × Bytes} (h : readEsc s = some x) : x.2.length < s.length := by
  cases s with
  | nil => cases h
  | cons e r =>
    rw [readEsc] at h
    split at h
    · have := readU_lt h; simp; omega
    · split at h <;> cases h
      simp

theorem readChar_le {b : UInt8} {r : Bytes} {x : Bytes × Bytes} (h : readChar b r = some x) : x.2.length ≤ r.length := by
  unfold readChar at h
  split at h
  · have := readEsc_lt h; omega
  split at h
  · cases h
  · rw [readPlain] at h
    cases hf : first (b :: r) with
    | none => rw [hf] at h; cases h
    | some y =>
      obtain ⟨y, r'⟩ := y
      rw [hf] at h; cases h
      have := first_rest hf
      simp at this ⊢; omega

/-- A string literal: more fuel never changes a result, its length is enough, and something is consumed. -/
theorem readStr_enough : ∀ (f : Nat) (s : Bytes) (x : Bytes × Bytes), readStr f s = some x → x.2.length < s.length ∧ ∀ g, s.length ≤ g → readStr g s = some x
  | 0, _, _, h => by cases h
  | f + 1, [], _, h => by cases h
  | f + 1, b :: r, x, h => by
    rw [readStr] at h
    split at h
    · rename_i hb
      cases h
      refine ⟨by simp, fun g hg => ?_⟩
      cases g with
      | zero => simp at hg
      | succ g => rw [readStr, if_pos hb]
    · rename_i hb
      split at h
      · cases h
      · rename_i ch r' hc
        have hle := readChar_le hc
        simp only at hle
        cases hx : readStr f r' with
        | none => rw [hx] at h; cases h
        | some y =>
          rw [hx] at h; cases h
          obtain ⟨h1, h2⟩ := readStr_enough f r' y hx
          refine ⟨by simp; omega, fun g hg => ?_⟩
          cases g with
          | zero => simp at hg
          | succ g =>
            rw [readStr, if_neg hb, hc]
            simp only
            rw [h2 g (by simp at hg; omega)]; rfl

theorem scalar_lt {b : UInt8} {r : Bytes} {x : JV × Bytes} (h : scalar b r = some x) : x.2.length ≤ r.length := by
  unfold scalar at h
  split at h
  · cases hr : readStr (r.length + 1) r with
    | none => rw [hr] at h; cases h
    | some y => rw [hr] at h; cases h; have := (readStr_enough _ _ _ hr).1; simp; omega
  split at h
  · cases hr : word b!"rue" r with
    | none => rw [hr] at h; cases h
    | some y => rw [hr] at h; cases h; exact word_le hr
  split at h
  · cases hr : word b!"alse" r with
    | none => rw [hr] at h; cases h
    | some y => rw [hr] at h; cases h; exact word_le hr
  split at h
  · cases hr : word b!"ull" r with
    | none => rw [hr] at h; cases h
    | some y => rw [hr] at h; cases h; exact word_le hr
  · cases hr : number (b :: r) with
    | none => rw [hr] at h; cases h
    | some y => rw [hr] at h; cases h; have := number_lt hr; simp at this ⊢; omega

theorem name_lt {s : Bytes} {x : Bytes × Bytes} (h : name s = some x) : x.2.length < s.length := by
  have hs := skip_le s
  unfold name at h
  split at h
  · cases h
  · rename_i b r hb
    rw [hb] at hs
    split at h
    · split at h
      · cases h
      · rename_i k r1 hr
        have h1 := (readStr_enough _ _ _ hr).1
        have h2 := skip_le r1
        split at h
        · cases h
        · rename_i b1 r2 hb1
          rw [hb1] at h2
          split at h <;> cases h
          simp at *; omega
    · cases h

/-- More fuel never changes a result. -/
theorem fuel_mono : ∀ f : Nat,
    (∀ d s x, value f d s = some x → ∀ g, f ≤ g → value g d s = some x)
    ∧ (∀ d s x, elems f d s = some x → ∀ g, f ≤ g → elems g d s = some x)
    ∧ (∀ d s x, members f d s = some x → ∀ g, f ≤ g → members g d s = some x) := by
  intro f
  induction f with
  | zero => exact ⟨fun _ _ _ h => by simp [value] at h, fun _ _ _ h => by simp [elems] at h, fun _ _ _ h => by simp [members] at h⟩
  | succ f ih =>
    obtain ⟨ihv, ihe, ihm⟩ := ih
    refine ⟨fun d s x h g hg => ?_, fun d s x h g hg => ?_, fun d s x h g hg => ?_⟩
    all_goals
      obtain ⟨g, rfl⟩ : ∃ g', g = g' + 1 := ⟨g - 1, by omega⟩
      have hfg : f ≤ g := by omega
    · rw [value] at h ⊢
      cases hs : skip s with
      | nil => rw [hs] at h; cases h
      | cons b r =>
        rw [hs] at h
        simp only at h ⊢
        by_cases h1 : b = c!"["
        · rw [if_pos h1] at h ⊢
          by_cases h2 : maxDepth ≤ d
          · rw [if_pos h2] at h; cases h
          rw [if_neg h2] at h ⊢
          by_cases h3 : (skip r).head? = some c!"]"
          · rw [if_pos h3] at h ⊢; exact h
          rw [if_neg h3] at h ⊢
          cases he : elems f (d + 1) r with
          | none => rw [he] at h; cases h
          | some y => rw [he] at h; rw [ihe _ _ _ he g hfg]; exact h
        rw [if_neg h1] at h ⊢
        by_cases h1' : b = c!"{"
        · rw [if_pos h1'] at h ⊢
          by_cases h2 : maxDepth ≤ d
          · rw [if_pos h2] at h; cases h
          rw [if_neg h2] at h ⊢
          by_cases h3 : (skip r).head? = some c!"}"
          · rw [if_pos h3] at h ⊢; exact h
          rw [if_neg h3] at h ⊢
          cases he : members f (d + 1) r with
          | none => rw [he] at h; cases h
          | some y => rw [he] at h; rw [ihm _ _ _ he g hfg]; exact h
        rw [if_neg h1'] at h ⊢; exact h
    · rw [elems] at h ⊢
      cases hv : value f d s with
      | none => rw [hv] at h; cases h
      | some y =>
        rw [hv] at h
        rw [ihv _ _ _ hv g hfg]
        simp only at h ⊢
        cases hs : skip y.2 with
        | nil => rw [hs] at h; cases h
        | cons b r =>
          rw [hs] at h
          simp only at h ⊢
          by_cases h1 : b = c!"]"
          · rw [if_pos h1] at h ⊢; exact h
          rw [if_neg h1] at h ⊢
          by_cases h2 : b = c!","
          · rw [if_pos h2] at h ⊢
            cases he : elems f d r with
            | none => rw [he] at h; cases h
            | some z => rw [he] at h; rw [ihe _ _ _ he g hfg]; exact h
          · rw [if_neg h2] at h; cases h
    · rw [members] at h ⊢
      cases hn : name s with
      | none => rw [hn] at h; cases h
      | some nm =>
        rw [hn] at h
        simp only at h ⊢
        cases hv : value f d nm.2 with
        | none => rw [hv] at h; cases h
        | some y =>
          rw [hv] at h
          rw [ihv _ _ _ hv g hfg]
          simp only at h ⊢
          cases hs : skip y.2 with
          | nil => rw [hs] at h; cases h
          | cons b r =>
            rw [hs] at h
            simp only at h ⊢
            by_cases h1 : b = c!"}"
            · rw [if_pos h1] at h ⊢; exact h
            rw [if_neg h1] at h ⊢
            by_cases h2 : b = c!","
            · rw [if_pos h2] at h ⊢
              cases he : members f d r with
              | none => rw [he] at h; cases h
              | some z => rw [he] at h; rw [ihm _ _ _ he g hfg]; exact h
            · rw [if_neg h2] at h; cases h

/-- Whatever is read with some fuel is read with a fuel that depends on the length of the text only; and something is consumed. -/
theorem fuel_enough : ∀ f : Nat,
    (∀ d s x, value f d s = some x → x.2.length < s.length ∧ value (2 * s.length + 1) d s = some x)
    ∧ (∀ d s x, elems f d s = some x → x.2.length < s.length ∧ elems (2 * s.length + 2) d s = some x)
    ∧ (∀ d s x, members f d s = some x → x.2.length < s.length ∧ members (2 * s.length + 2) d s = some x) := by
  intro f
  induction f with
  | zero => exact ⟨fun _ _ _ h => by simp [value] at h, fun _ _ _ h => by simp [elems] at h, fun _ _ _ h => by simp [members] at h⟩
  | succ f ih =>
    obtain ⟨ihv, ihe, ihm⟩ := ih
    refine ⟨fun d s x h => ?_, fun d s x h => ?_, fun d s x h => ?_⟩
    · rw [value] at h ⊢
      have hl := skip_le s
      cases hs : skip s with
      | nil => rw [hs] at h; cases h
      | cons b r =>
        rw [hs] at h hl
        rw [List.length_cons] at hl
        simp only at h ⊢
        have hskr := skip_le r
        by_cases h1 : b = c!"["
        · rw [if_pos h1] at h ⊢
          by_cases h2 : maxDepth ≤ d
          · rw [if_pos h2] at h; cases h
          rw [if_neg h2] at h ⊢
          by_cases h3 : (skip r).head? = some c!"]"
          · rw [if_pos h3] at h ⊢
            cases h; refine ⟨?_, rfl⟩
            simp; omega
          rw [if_neg h3] at h ⊢
          cases he : elems f (d + 1) r with
          | none => rw [he] at h; cases h
          | some y =>
            rw [he] at h
            obtain ⟨l1, l2⟩ := ihe _ _ _ he
            rw [(fuel_mono _).2.1 _ _ _ l2 (2 * s.length) (by omega)]
            cases h
            exact ⟨by simp; omega, rfl⟩
        rw [if_neg h1] at h ⊢
        by_cases h1' : b = c!"{"
        · rw [if_pos h1'] at h ⊢
          by_cases h2 : maxDepth ≤ d
          · rw [if_pos h2] at h; cases h
          rw [if_neg h2] at h ⊢
          by_cases h3 : (skip r).head? = some c!"}"
          · rw [if_pos h3] at h ⊢
            cases h; refine ⟨?_, rfl⟩
            simp; omega
          rw [if_neg h3] at h ⊢
          cases he : members f (d + 1) r with
          | none => rw [he] at h; cases h
          | some y =>
            rw [he] at h
            obtain ⟨l1, l2⟩ := ihm _ _ _ he
            rw [(fuel_mono _).2.2 _ _ _ l2 (2 * s.length) (by omega)]
            cases h
            exact ⟨by simp; omega, rfl⟩
        rw [if_neg h1'] at h ⊢
        have := scalar_lt h
        exact ⟨by omega, h⟩
    · rw [elems] at h ⊢
      cases hv : value f d s with
      | none => rw [hv] at h; cases h
      | some y =>
        rw [hv] at h
        obtain ⟨l1, l2⟩ := ihv _ _ _ hv
        rw [l2]
        simp only at h ⊢
        have hl := skip_le y.2
        cases hs : skip y.2 with
        | nil => rw [hs] at h; cases h
        | cons b r =>
          rw [hs] at h hl
          rw [List.length_cons] at hl
          simp only at h ⊢
          by_cases h1 : b = c!"]"
          · rw [if_pos h1] at h ⊢; cases h; exact ⟨by simp; omega, rfl⟩
          rw [if_neg h1] at h ⊢
          by_cases h2 : b = c!","
          · rw [if_pos h2] at h ⊢
            cases he : elems f d r with
            | none => rw [he] at h; cases h
            | some z =>
              rw [he] at h
              obtain ⟨m1, m2⟩ := ihe _ _ _ he
              rw [(fuel_mono _).2.1 _ _ _ m2 (2 * s.length + 1) (by omega)]
              cases h
              exact ⟨by simp; omega, rfl⟩
          · rw [if_neg h2] at h; cases h
    · rw [members] at h ⊢
      cases hn : name s with
      | none => rw [hn] at h; cases h
      | some nm =>
        have hnl := name_lt hn
        rw [hn] at h
        simp only at h ⊢
        cases hv : value f d nm.2 with
        | none => rw [hv] at h; cases h
        | some y =>
          rw [hv] at h
          obtain ⟨l1, l2⟩ := ihv _ _ _ hv
          rw [(fuel_mono _).1 _ _ _ l2 (2 * s.length + 1) (by omega)]
          simp only at h ⊢
          have hl := skip_le y.2
          cases hs : skip y.2 with
          | nil => rw [hs] at h; cases h
          | cons b r =>
            rw [hs] at h hl
            rw [List.length_cons] at hl
            simp only at h ⊢
            by_cases h1 : b = c!"}"
            · rw [if_pos h1] at h ⊢; cases h; exact ⟨by simp; omega, rfl⟩
            rw [if_neg h1] at h ⊢
            by_cases h2 : b = c!","
            · rw [if_pos h2] at h ⊢
              cases he : members f d r with
              | none => rw [he] at h; cases h
              | some z =>
                rw [he] at h
                obtain ⟨m1, m2⟩ := ihm _ _ _ he
                rw [(fuel_mono _).2.2 _ _ _ m2 (2 * s.length + 1) (by omega)]
                cases h
                exact ⟨by simp; omega, rfl⟩
            · rw [if_neg h2] at h; cases h

/-- **Fuel**: `parse` finds a value iff some amount of fuel does. -/
theorem parse_iff (s : Bytes) (v : JV) : parse s = some v ↔ ∃ f r, value f 0 s = some (v, r) ∧ skip r = [] := by
  constructor
  · intro h
    unfold parse at h
    split at h
    · cases h
    · rename_i w r hv
      split at h <;> cases h
      rename_i he
      exact ⟨_, r, hv, by simpa using he⟩
  · rintro ⟨f, r, hv, hs⟩
    unfold parse
    rw [((fuel_enough f).1 _ _ _ hv).2]
    simp [hs]

/-! ### Reading what was written -/

/-- The text `x` is read as `v`, whatever follows it. -/
def Reads (d : Nat) (x : Bytes) (v : JV) : Prop := ∃ f, ∀ r, value f d (x ++ r) = some (v, r)

theorem Reads.mono {d : Nat} {x : Bytes} {v : JV} (h : Reads d x v) : ∃ f, ∀ g, f ≤ g → ∀ r, value g d (x ++ r) = some (v, r) := by
  obtain ⟨f, h⟩ := h
  exact ⟨f, fun g hg r => (fuel_mono f).1 _ _ _ (h r) g hg⟩

theorem Reads.parse {x : Bytes} {v : JV} (h : Reads 0 x v) : parse x = some v := by
  obtain ⟨f, h⟩ := h
  refine (parse_iff x v).2 ⟨f, [], ?_, rfl⟩
  have := h []
  rwa [List.append_nil] at this

theorem readStr_quote (s r : Bytes) : readStr ((escBody s ++ c!"\"" :: r).length + 1) (escBody s ++ c!"\"" :: r) = some (sanitize s, r) := by
  apply readStr_escBody
  have := runes_le_esc s
  simp; omega

theorem quote_append (s r : Bytes) : quote s ++ r = c!"\"" :: (escBody s ++ c!"\"" :: r) := by simp [quote]

theorem skip_quote (r : Bytes) : skip (c!"\"" :: r) = c!"\"" :: r := by rw [skip, if_neg (by decide)]

theorem reads_quote (d : Nat) (s : Bytes) : Reads d (quote s) (.str (sanitize s)) := by
  refine ⟨1, fun r => ?_⟩
  rw [quote_append, value, skip_quote]
  simp only
  rw [if_neg (by decide), if_neg (by decide), scalar, if_pos rfl, readStr_quote]
  rfl

theorem reads_null (d : Nat) : Reads d b!"null" .null := by
  refine ⟨1, fun r => ?_⟩
  show value 1 d (110 :: 117 :: 108 :: 108 :: r) = _
  rw [value, skip, if_neg (by decide)]
  simp only
  rw [if_neg (by decide), if_neg (by decide), scalar, if_neg (by decide), if_neg (by decide), if_neg (by decide), if_pos rfl]
  rfl

theorem commas_cons (x : Bytes) (l : List Bytes) (t : Bytes) :
    commas (x :: l) ++ t = x ++ (match l with | [] => t | y :: l' => c!"," :: (commas (y :: l') ++ t)) := by
  cases l <;> simp [commas]

theorem elems_read (d : Nat) : ∀ l : List (Bytes × JV), l ≠ [] → (∀ p ∈ l, Reads d p.1 p.2) →
    ∃ f, ∀ g, f ≤ g → ∀ r, elems g d (commas (l.map (·.1)) ++ c!"]" :: r) = some (l.map (·.2), r)
  | [], h, _ => absurd rfl h
  | [p], _, h => by
    obtain ⟨f, hf⟩ := (h p (by simp)).mono
    refine ⟨f + 1, fun g hg r => ?_⟩
    obtain ⟨g, rfl⟩ : ∃ g', g = g' + 1 := ⟨g - 1, by omega⟩
    simp only [List.map_cons, List.map_nil, commas]
    rw [elems, hf g (by omega)]
    simp only
    rw [skip, if_neg (by decide)]
    simp
  | p :: q :: l, _, h => by
    obtain ⟨f, hf⟩ := (h p (by simp)).mono
    obtain ⟨f', hf'⟩ := elems_read d (q :: l) (by simp) (fun x hx => h x (List.mem_cons_of_mem _ hx))
    refine ⟨max f f' + 1, fun g hg r => ?_⟩
    obtain ⟨g, rfl⟩ : ∃ g', g = g' + 1 := ⟨g - 1, by omega⟩
    have := hf' g (by omega) r
    simp only [List.map_cons, commas, List.append_assoc, List.cons_append] at this ⊢
    rw [elems, hf g (by omega)]
    simp only
    rw [skip, if_neg (by decide)]
    simp only
    rw [if_neg (by decide), if_pos trivial, this]
    rfl

/-- An array of texts is read element by element. -/
theorem reads_arr {d : Nat} (hd : d < maxDepth) (l : List (Bytes × JV)) (h : ∀ p ∈ l, Reads (d + 1) p.1 p.2)
    (hne : ∀ p ∈ l, ∃ b t, p.1 = b :: t ∧ isSpace b = false ∧ b ≠ c!"]") : Reads d (c!"[" :: (commas (l.map (·.1)) ++ [c!"]"])) (.arr (l.map (·.2))) := by
  cases l with
  | nil =>
    refine ⟨1, fun r => ?_⟩
    show value 1 d (91 :: 93 :: r) = _
    have e1 : skip (91 :: 93 :: r) = 91 :: 93 :: r := by rw [skip, if_neg (by decide)]
    have e2 : skip (93 :: r) = 93 :: r := by rw [skip, if_neg (by decide)]
    rw [value, e1]
    simp only
    rw [if_pos trivial, if_neg (by omega), e2]
    simp
  | cons p l =>
    obtain ⟨f, hf⟩ := elems_read (d + 1) (p :: l) (by simp) h
    refine ⟨f + 1, fun r => ?_⟩
    obtain ⟨b, t, hb, hsp, hbr⟩ := hne p (by simp)
    have := hf f (Nat.le_refl _) r
    rw [List.cons_append, List.append_assoc]
    show value (f + 1) d (91 :: (commas (List.map (·.1) (p :: l)) ++ 93 :: r)) = _
    rw [value, skip, if_neg (by decide)]
    simp only
    rw [if_pos trivial, if_neg (by omega), if_neg, this]
    · rfl
    · rw [List.map_cons, commas_cons, hb, List.cons_append, skip, if_neg (by simp [hsp])]
      simpa using hbr

theorem name_quote (k r : Bytes) : name (quote k ++ c!":" :: r) = some (k |> sanitize, r) := by
  rw [quote_append, name, skip_quote]
  simp only
  rw [if_pos trivial, readStr_quote]
  simp only
  rw [skip, if_neg (by decide)]
  simp

theorem members_read (d : Nat) : ∀ l : List (Bytes × Bytes × JV), l ≠ [] → (∀ p ∈ l, Reads d p.2.1 p.2.2) →
    ∃ f, ∀ g, f ≤ g → ∀ r, members g d (commas (l.map fun p => quote p.1 ++ c!":" :: p.2.1) ++ c!"}" :: r) = some (l.map fun p => (sanitize p.1, p.2.2), r)
  | [], h, _ => absurd rfl h
  | [p], _, h => by
    obtain ⟨f, hf⟩ := (h p (by simp)).mono
    refine ⟨f + 1, fun g hg r => ?_⟩
    obtain ⟨g, rfl⟩ : ∃ g', g = g' + 1 := ⟨g - 1, by omega⟩
    simp only [List.map_cons, List.map_nil, commas, List.append_assoc, List.cons_append]
    rw [members, name_quote]
    simp only
    rw [hf g (by omega)]
    simp only
    rw [skip, if_neg (by decide)]
    simp
  | p :: q :: l, _, h => by
    obtain ⟨f, hf⟩ := (h p (by simp)).mono
    obtain ⟨f', hf'⟩ := members_read d (q :: l) (by simp) (fun x hx => h x (List.mem_cons_of_mem _ hx))
    refine ⟨max f f' + 1, fun g hg r => ?_⟩
    obtain ⟨g, rfl⟩ : ∃ g', g = g' + 1 := ⟨g - 1, by omega⟩
    have := hf' g (by omega) r
    simp only [List.map_cons, commas, List.append_assoc, List.cons_append] at this ⊢
    rw [members, name_quote]
    simp only
    rw [hf g (by omega)]
    simp only
    rw [skip, if_neg (by decide)]
    simp only
    rw [if_neg (by decide), if_pos trivial, this]
    rfl

/-- An object is read member by member. -/
theorem reads_obj {d : Nat} (hd : d < maxDepth) (l : List (Bytes × Bytes × JV)) (h : ∀ p ∈ l, Reads (d + 1) p.2.1 p.2.2) :
    Reads d (c!"{" :: (commas (l.map fun p => quote p.1 ++ c!":" :: p.2.1) ++ [c!"}"])) (.obj (l.map fun p => (sanitize p.1, p.2.2))) := by
  cases l with
  | nil =>
    refine ⟨1, fun r => ?_⟩
    show value 1 d (123 :: 125 :: r) = _
    have e1 : skip (123 :: 125 :: r) = 123 :: 125 :: r := by rw [skip, if_neg (by decide)]
    have e2 : skip (125 :: r) = 125 :: r := by rw [skip, if_neg (by decide)]
    rw [value, e1]
    simp only
    rw [if_neg (by decide), if_pos trivial, if_neg (by omega), e2]
    simp
  | cons p l =>
    obtain ⟨f, hf⟩ := members_read (d + 1) (p :: l) (by simp) h
    refine ⟨f + 1, fun r => ?_⟩
    have := hf f (Nat.le_refl _) r
    rw [List.cons_append, List.append_assoc]
    show value (f + 1) d (123 :: (commas (List.map _ (p :: l)) ++ 125 :: r)) = _
    rw [value, skip, if_neg (by decide)]
    simp only
    rw [if_neg (by decide), if_pos trivial, if_neg (by omega), if_neg, this]
    · rfl
    · rw [List.map_cons, commas_cons, List.append_assoc, quote_append, skip_quote]
      simp

end Types.GoJson
