import Verif.Types.IdLemmas
import Verif.Util
set_option linter.unusedSimpArgs false
set_option linter.unusedVariables false
/-! Properties C10–C13: `xdb.ID`. -/
namespace Types
open Num

theorem num64_eq (s : Bytes) : Spec.num64 s = parseU64 s := by
  unfold Spec.num64
  split
  · rename_i h
    exact ((parseU64_some s _).2 ⟨h.1, by simp; omega⟩).symm
  · rename_i h
    exact ((parseU64_none s).2 h).symm

/-- Characterisation of `Set`. -/
theorem set_eq (h : Heap) (v : ID) (s : Bytes) :
    set h v s = match parseU64 s with
      | none => (h, v, false)
      | some n => if n = 0 then (h, v, false) else
        match v with
        | none => (h ++ [⟨n, []⟩], some h.length, true)
        | some p => (h.set p ⟨n, []⟩, some p, true) := by
  unfold set
  by_cases h1 : s = b!"" ∨ s = b!"0"
  · rw [if_pos h1]
    rcases h1 with rfl | rfl
    · rw [show parseU64 b!"" = none from by decide +kernel]
    · rw [show parseU64 b!"0" = some 0 from by decide +kernel]; rfl
  · rw [if_neg h1]
    cases parseU64 s with
    | none => rfl
    | some n =>
      simp only
      split
      · rfl
      · cases v <;> rfl

/-- Characterisation of `UnmarshalJSON`. -/
theorem json_eq (h : Heap) (v : ID) (d : Bytes) :
    unmarshalJSON h v d = if trimQuotes d = [] ∨ trimQuotes d = b!"0" then (h, none, true) else
      match parseU64 (trimQuotes d) with
      | none => (h, v, false)
      | some n => (h ++ [⟨n, trimQuotes d⟩], some h.length, true) := by
  unfold unmarshalJSON
  by_cases h1 : trimQuotes d = [] ∨ trimQuotes d = b!"0"
  · rw [if_pos h1, if_pos h1]; rfl
  · rw [if_neg h1, if_neg h1]; rfl

/-! ### C10 -/

/-- C10 (text): the text of a valid ID parses back to the same number, in any heap. -/
theorem C10_text_roundtrip (h : Heap) (v : UInt64) (hv : v ≠ 0) :
    let a := newID h v
    let t := idStr a.1 a.2
    let r := parseID t.1 t.2
    t.2 = dec v.toNat ∧ r.2.2 = true ∧ val r.1 r.2.1 = v ∧ (idStr r.1 r.2.1).2 = t.2 := by
  have ht := newID_text h v hv
  intro a t r
  have hr : r = (t.1 ++ [⟨v, []⟩], some t.1.length, true) := by
    show set t.1 none t.2 = _
    rw [set_eq, show t.2 = dec v.toNat from ht, parseU64_dec]
    simp only
    rw [if_neg hv]
  refine ⟨ht, by rw [hr], by rw [hr]; exact val_alloc t.1 ⟨v, []⟩, ?_⟩
  rw [hr, idStr_text]
  have hc := cellAt_alloc_new t.1 ⟨v, []⟩
  rw [show cellAt (t.1 ++ [⟨v, []⟩]) (some t.1.length) = _ from hc]
  show cellText _ = t.2
  rw [show t.2 = dec v.toNat from ht]
  simp [cellText, hv, idString]

example : (18446744073709551615 : UInt64) ≠ 0 := by decide
example : (idStr (newID [] 42).1 (newID [] 42).2).2 = b!"42" := by decide +kernel

/-- C10 (JSON): decoding what was encoded, into any destination and any heap, succeeds and shows the same
number and the same text; the same holds if the JSON is the number quoted as a string. -/
theorem C10_json_roundtrip (h h' : Heap) (v : UInt64) (dst : ID) :
    let a := newID h v
    ∀ d ∈ [marshalJSON a.1 a.2, b!"\"" ++ marshalJSON a.1 a.2 ++ b!"\""],
    let r := unmarshalJSON h' dst d
    r.2.2 = true ∧ val r.1 r.2.1 = v ∧ (idStr r.1 r.2.1).2 = (idStr a.1 a.2).2 := by
  intro a d hd r
  have hm : marshalJSON a.1 a.2 = dec v.toNat := by rw [marshalJSON, show val a.1 a.2 = v from newID_val h v]
  have htr : trimQuotes d = dec v.toNat := by
    simp only [List.mem_cons, List.not_mem_nil, or_false] at hd
    rcases hd with rfl | rfl
    · rw [hm]; exact trimQuotes_digits (dec_digits _).1
    · rw [hm]; exact trimQuotes_quoted (dec_digits _).1
  have hr := json_eq h' dst d
  rw [htr] at hr
  by_cases hv : v = 0
  · subst hv
    rw [if_pos (Or.inr (by decide +kernel))] at hr
    have hr' : r = (h', none, true) := hr
    rw [hr']
    exact ⟨rfl, rfl, rfl⟩
  · have hne : ¬ (dec v.toNat = [] ∨ dec v.toNat = b!"0") := by
      rintro (h1 | h1)
      · exact dec_ne_nil _ h1
      · have := (dec_eq_zero _).1 h1
        exact hv (UInt64.toNat_inj.1 this)
    rw [if_neg hne, parseU64_dec] at hr
    have hr' : r = (h' ++ [⟨v, dec v.toNat⟩], some h'.length, true) := hr
    refine ⟨by rw [hr'], by rw [hr']; exact val_alloc h' ⟨v, _⟩, ?_⟩
    rw [show (idStr a.1 a.2).2 = dec v.toNat from newID_text h v hv, hr', idStr_text]
    have hc := cellAt_alloc_new h' ⟨v, dec v.toNat⟩
    rw [show cellAt (h' ++ [⟨v, dec v.toNat⟩]) (some h'.length) = _ from hc]
    simp [cellText, hv, idString, dec_ne_nil]

example : marshalJSON (newID [] 18446744073709551615).1 (newID [] 18446744073709551615).2 = b!"18446744073709551615" := by
  decide +kernel

/-- C10 (SQL): `Value` is NULL exactly for zero and otherwise the two's complement `int64`; scanning it into a
zero ID gives the same number back. -/
theorem C10_sql_roundtrip (h h' : Heap) (v : UInt64) :
    let a := newID h v
    let r := scan h' none (value a.1 a.2)
    (value a.1 a.2 = .null ↔ v = 0) ∧ (∀ x, value a.1 a.2 = .i64 x → (x.toInt - v.toNat) % 2 ^ 64 = 0)
      ∧ r.2.2 = true ∧ val r.1 r.2.1 = v := by
  intro a r
  have hval : value a.1 a.2 = if v = 0 then .null else .i64 v.toInt64 := by
    rw [value, show val a.1 a.2 = v from newID_val h v]
  by_cases hv : v = 0
  · subst hv
    have hr : r = scan h' none .null := by show scan h' none _ = _; rw [hval]; rfl
    rw [hval, hr]
    refine ⟨by simp, by simp, rfl, rfl⟩
  · rw [if_neg hv] at hval
    have hr : r = scan h' none (.i64 v.toInt64) := by show scan h' none _ = _; rw [hval]
    rw [hval, hr]
    refine ⟨by simp [hv], ?_, rfl, ?_⟩
    · intro x hx
      injection hx with hx
      subst hx
      have : v.toInt64.toInt = Int.bmod v.toNat (2 ^ 64) := by
        rw [Int64.toInt, ← UInt64.toNat_toBitVec]; exact BitVec.toInt_eq_toNat_bmod _
      rw [this]
      have := Int.bmod_emod (x := (v.toNat : Int)) (m := 2 ^ 64)
      omega
    · have := newID_val h' v.toInt64.toUInt64
      simpa [scan] using this

example : value (newID [] 18446744073709551615).1 (newID [] 18446744073709551615).2 = .i64 (-1) := by decide +kernel

/-- C10 (YAML): the number a YAML document carries is the ID's number, and reading it gives the same ID. -/
theorem C10_yaml_roundtrip (h h' : Heap) (v : UInt64) (dst : ID) :
    let a := newID h v
    let r := unmarshalYAML h' dst (some (marshalYAML a.1 a.2))
    marshalYAML a.1 a.2 = v ∧ r.2.2 = true ∧ val r.1 r.2.1 = v ∧ (idStr r.1 r.2.1).2 = (idStr a.1 a.2).2 := by
  intro a r
  have hm : marshalYAML a.1 a.2 = v := newID_val h v
  have hr : r = ((newID h' v).1, (newID h' v).2, true) := by show unmarshalYAML h' dst _ = _; rw [hm]; rfl
  rw [hr]
  refine ⟨hm, rfl, newID_val h' v, ?_⟩
  by_cases hv : v = 0
  · subst hv; rfl
  · exact (newID_text h' v hv).trans (newID_text h v hv).symm

/-! ### C11 -/

/-- C11: `Set` succeeds iff the text is a string of decimal digits denoting a number from 1 to 2^64-1; then
the ID is that number; otherwise nothing at all changes. -/
theorem C11_set_accepts (h : Heap) (v : ID) (hv : ∀ p, v = some p → p < h.length) (s : Bytes) :
    let r := set h v s
    (r.2.2 = true ↔ Spec.Digits s ∧ 1 ≤ Spec.number s ∧ Spec.number s < 2 ^ 64)
    ∧ (r.2.2 = true → (val r.1 r.2.1).toNat = Spec.number s ∧ Spec.Canonical (idStr r.1 r.2.1).2 (Spec.number s))
    ∧ (r.2.2 = false → r.1 = h ∧ r.2.1 = v) := by
  intro r
  have hr : r = set h v s := rfl
  rw [set_eq] at hr
  cases hp : parseU64 s with
  | none =>
    rw [hp] at hr
    rw [hr]
    refine ⟨?_, by simp, fun _ => ⟨rfl, rfl⟩⟩
    have := (parseU64_none s).1 hp
    simp only [Bool.false_eq_true, false_iff]
    rintro ⟨a, b, c⟩; exact this ⟨a, c⟩
  | some n =>
    rw [hp] at hr
    obtain ⟨h1, h2⟩ := (parseU64_some s n).1 hp
    simp only at hr
    by_cases hn : n = 0
    · rw [if_pos hn] at hr
      rw [hr]
      refine ⟨?_, by simp, fun _ => ⟨rfl, rfl⟩⟩
      subst hn
      have h0 : (0 : UInt64).toNat = 0 := rfl
      simp only [Bool.false_eq_true, false_iff]
      rintro ⟨a, b, c⟩; omega
    · rw [if_neg hn] at hr
      have hpos : 1 ≤ n.toNat := by
        rcases Nat.eq_zero_or_pos n.toNat with h0 | h0
        · exact absurd (UInt64.toNat_inj.1 h0) hn
        · exact h0
      have hlt := n.toNat_lt
      have hcell : r.2.2 = true ∧ cellAt r.1 r.2.1 = some ⟨n, []⟩ := by
        rw [hr]
        cases v with
        | none => exact ⟨rfl, cellAt_alloc_new h ⟨n, []⟩⟩
        | some p => exact ⟨rfl, by simp [cellAt, hv p rfl]⟩
      refine ⟨?_, ?_, by rw [hcell.1]; simp⟩
      · rw [hcell.1]; simp only [true_iff]; exact ⟨h1, by omega, by omega⟩
      · intro _
        refine ⟨by rw [val, hcell.2]; exact h2.symm, ?_⟩
        rw [idStr_text, hcell.2]
        rw [canonical_iff, h2]
        simp [cellText, hn, idString]

/-- C11: `ParseID` accepts the same texts and on error returns an invalid ID; `MustID` panics and
`TryParseID` returns an invalid ID exactly on the other texts. -/
theorem C11_parse_accepts (h : Heap) (s : Bytes) :
    let ok := Spec.Digits s ∧ 1 ≤ Spec.number s ∧ Spec.number s < 2 ^ 64
    let r := parseID h s
    (r.2.2 = true ↔ ok) ∧ (ok → (val r.1 r.2.1).toNat = Spec.number s) ∧ (¬ ok → val r.1 r.2.1 = 0)
    ∧ ((mustID h s).isSome = true ↔ ok) ∧ (∀ m, mustID h s = some m → (val m.1 m.2).toNat = Spec.number s)
    ∧ (ok → (val (tryParseID h s).1 (tryParseID h s).2).toNat = Spec.number s)
    ∧ (¬ ok → val (tryParseID h s).1 (tryParseID h s).2 = 0) := by
  intro ok r
  obtain ⟨h1, h2, h3⟩ := C11_set_accepts h none (by simp) s
  have hz : ¬ ok → val (set h none s).1 (set h none s).2.1 = 0 := by
    intro hn
    have : (set h none s).2.2 = false := by
      cases hb : (set h none s).2.2 with
      | false => rfl
      | true => exact absurd (h1.1 hb) hn
    rw [(h3 this).1, (h3 this).2]; rfl
  refine ⟨h1, fun ho => (h2 (h1.2 ho)).1, hz, ?_, ?_, fun ho => (h2 (h1.2 ho)).1, hz⟩
  · show (mustID h s).isSome = true ↔ _
    rw [← show _ ↔ ok from h1]
    unfold mustID
    cases (set h none s).2.2 <;> simp
  · intro m hm
    unfold mustID at hm
    cases hb : (set h none s).2.2 with
    | false => rw [hb] at hm; cases hm
    | true =>
      rw [hb] at hm
      simp only [if_true, Option.some.injEq] at hm
      subst hm
      exact (h2 hb).1

/-- C11: `Valid`, `Invalid` and `IsZero` of the parsed ID tell whether the text was accepted. -/
theorem C11_parsed_is_valid_iff (h : Heap) (s : Bytes) :
    let ok := Spec.Digits s ∧ 1 ≤ Spec.number s ∧ Spec.number s < 2 ^ 64
    (valid (parseID h s).1 (parseID h s).2.1 = true ↔ ok) ∧ (invalid (parseID h s).1 (parseID h s).2.1 = true ↔ ¬ ok) ∧ (isZero (parseID h s).1 (parseID h s).2.1 = true ↔ ¬ ok) := by
  intro ok
  obtain ⟨_, h2, h3, _⟩ := C11_parse_accepts h s
  have key : val (parseID h s).1 (parseID h s).2.1 = 0 ↔ ¬ ok := by
    constructor
    · intro h0 hok
      have := h2 hok
      rw [h0] at this
      have h1 := hok.2.1
      rw [← this] at h1
      exact absurd h1 (by decide)
    · exact h3
  refine ⟨?_, ?_, ?_⟩
  · unfold valid
    rw [bne_iff_ne, ne_eq, key, Classical.not_not]
  · unfold invalid
    rw [beq_iff_eq, key]
  · unfold isZero
    rw [beq_iff_eq, key]

/-- C11 (finding): the Go specification does not order the read of `id` and the call `id.Set(val)` in
`return id, id.Set(val)`.  With the read first, `ParseID` would report success and return an invalid ID. -/
theorem C11_parse_relies_on_evaluation_order (h : Heap) (s : Bytes) :
    (parseIDReadFirst h s).2.2 = (parseID h s).2.2
    ∧ val (parseIDReadFirst h s).1 (parseIDReadFirst h s).2.1 = 0 := ⟨rfl, rfl⟩

example : (parseID [] b!"18446744073709551615").2.2 = true ∧ (parseID [] b!"18446744073709551616").2.2 = false
    ∧ (parseID [] b!"0").2.2 = false ∧ (parseID [] b!"+7").2.2 = false ∧ (parseID [] b!"007").2.2 = true := by decide +kernel

/-! ### Reachable worlds -/

/-- No variable dangles. -/
def Wf (w : World) : Prop := ∀ x p, w.vars x = some p → p < w.heap.length

theorem newID_cases (h : Heap) (n : UInt64) :
    (n = 0 ∧ newID h n = (h, none)) ∨ (n ≠ 0 ∧ newID h n = (h ++ [⟨n, []⟩], some h.length)) := by
  unfold newID
  by_cases hn : n = 0
  · subst hn; exact Or.inl ⟨rfl, rfl⟩
  · exact Or.inr ⟨hn, by rw [if_pos (UInt64.pos_iff_ne_zero.2 hn)]; rfl⟩

theorem idStr_cases (h : Heap) (v : ID) :
    (idStr h v).1 = h ∨ ∃ p c, v = some p ∧ h[p]? = some c ∧ c.id ≠ 0 ∧ c.str = [] ∧
      (idStr h v).1 = h.set p { c with str := idString c.id } := by
  cases v with
  | none => exact Or.inl rfl
  | some p =>
    simp only [idStr]
    cases hp : h[p]? with
    | none => exact Or.inl rfl
    | some c =>
      simp only
      by_cases hc : (c.id != 0 && c.str.isEmpty) = true
      · rw [if_pos hc]
        simp at hc
        exact Or.inr ⟨p, c, rfl, hp, hc.1, hc.2, rfl⟩
      · rw [if_neg hc]; exact Or.inl rfl

/-- Every statement either replaces the named variable by a fresh pointer (or nil, or another variable's
pointer), or overwrites the cell it points to, or fills in a cached text. -/
inductive Eff (w : World) : Op → World → Prop
  | nop (o) (ho : ∀ x n, o ≠ .new x n) (ho2 : ∀ x s, o ≠ .parse x s) : Eff w o w
  | nil (o x) (hx : o ∈ [Op.new x 0, .reset x, .scan x (.u64 0), .scan x (.uint 0), .scan x (.i64 0), .scan x (.int 0), .yaml x (some 0)]
      ∨ (∃ s, o = .parse x s) ∨ ∃ d, o = .json x d) (hr : o ≠ .reset x) : Eff w o (w.put x (w.heap, none))
  | fresh (o x c) (hx : (∃ n, o = .new x n) ∨ (∃ s, o = .parse x s) ∨ (∃ d, o = .scan x d) ∨ (∃ d, o = .json x d)
      ∨ (∃ r, o = .yaml x r) ∨ (w.vars x = none ∧ ((∃ s, o = .set x s) ∨ o = .reset x)))
      (hc : c.str = [] ∨ ∃ d, o = .json x d ∧ c.str = trimQuotes d ∧ parseU64 (trimQuotes d) = some c.id ∧ c.str ≠ [] ∧ c.str ≠ b!"0") :
      Eff w o (w.put x (w.heap ++ [c], some w.heap.length))
  | copy (x y) : Eff w (.copy x y) (w.put x (w.heap, w.vars y))
  | inplace (o x p n) (hx : (∃ s, o = .set x s) ∨ o = .reset x) (hp : w.vars x = some p) :
      Eff w o { w with heap := w.heap.set p ⟨n, []⟩ }
  | cache (x p c) (hp : w.vars x = some p) (hc : w.heap[p]? = some c) (h0 : c.id ≠ 0) (hs : c.str = []) :
      Eff w (.str x) { w with heap := w.heap.set p { c with str := idString c.id } }

theorem put_self (w : World) (x : Nat) : w.put x (w.heap, w.vars x) = w := by
  cases w with
  | mk h v =>
    simp only [World.put, World.mk.injEq, true_and]
    funext z
    by_cases hz : z = x
    · subst hz; simp
    · simp [hz]

theorem put_same (w : World) (x : Nat) (h : Heap) (p : ID) (hp : w.vars x = p) : w.put x (h, p) = { w with heap := h } := by
  cases w with
  | mk h' v =>
    simp only [World.put, World.mk.injEq, true_and]
    funext z
    by_cases hz : z = x
    · subst hz; simp only at hp; simp [hp]
    · simp [hz]

theorem step_eff (w : World) (o : Op) : Eff w o (step w o) := by
  cases o with
  | new x n =>
    rcases newID_cases w.heap n with ⟨rfl, h⟩ | ⟨_, h⟩
    · rw [step, h]; exact .nil _ x (Or.inl (by simp)) (by simp)
    · rw [step, h]; exact .fresh _ x _ (Or.inl ⟨_, rfl⟩) (Or.inl rfl)
  | parse x s =>
    rw [step, parseID, set_eq]
    cases parseU64 s with
    | none => exact .nil _ x (Or.inr (Or.inl ⟨_, rfl⟩)) (by simp)
    | some n =>
      simp only
      by_cases hn : n = 0
      · rw [if_pos hn]; exact .nil _ x (Or.inr (Or.inl ⟨_, rfl⟩)) (by simp)
      · rw [if_neg hn]; exact .fresh _ x _ (Or.inr (Or.inl ⟨_, rfl⟩)) (Or.inl rfl)
  | copy x y => exact .copy x y
  | set x s =>
    rw [step, set_eq]
    cases parseU64 s with
    | none => simp only [put_self]; exact .nop _ (by simp) (by simp)
    | some n =>
      simp only
      by_cases hn : n = 0
      · rw [if_pos hn]; simp only [put_self]; exact .nop _ (by simp) (by simp)
      · rw [if_neg hn]
        cases hv : w.vars x with
        | none => exact .fresh _ x _ (Or.inr (Or.inr (Or.inr (Or.inr (Or.inr ⟨hv, Or.inl ⟨_, rfl⟩⟩))))) (Or.inl rfl)
        | some p => simp only [put_same w x _ _ hv]; exact .inplace _ x p n (Or.inl ⟨_, rfl⟩) hv
  | reset x =>
    rw [step]
    cases hv : w.vars x with
    | none => exact .fresh _ x _ (Or.inr (Or.inr (Or.inr (Or.inr (Or.inr ⟨hv, Or.inr rfl⟩))))) (Or.inl rfl)
    | some p => simp only [reset, put_same w x _ _ hv]; exact .inplace _ x p 0 (Or.inr rfl) hv
  | scan x d =>
    cases d
    case null => rw [step]; simp only [scan, put_self]; exact .nop _ (by simp) (by simp)
    case u64 n =>
      rcases newID_cases w.heap n with ⟨rfl, h⟩ | ⟨_, h⟩
      · simp only [step, scan, h]; exact .nil _ x (Or.inl (by simp)) (by simp)
      · simp only [step, scan, h]; exact .fresh _ x _ (Or.inr (Or.inr (Or.inl ⟨_, rfl⟩))) (Or.inl rfl)
    case uint n =>
      rcases newID_cases w.heap n with ⟨rfl, h⟩ | ⟨_, h⟩
      · simp only [step, scan, h]; exact .nil _ x (Or.inl (by simp)) (by simp)
      · simp only [step, scan, h]; exact .fresh _ x _ (Or.inr (Or.inr (Or.inl ⟨_, rfl⟩))) (Or.inl rfl)
    case i64 n =>
      rcases newID_cases w.heap n.toUInt64 with ⟨hz, h⟩ | ⟨_, h⟩
      · have hz0 : n = 0 := by have := congrArg UInt64.toInt64 hz; simpa using this
        subst hz0
        simp only [step, scan, h]; exact .nil _ x (Or.inl (by simp)) (by simp)
      · simp only [step, scan, h]; exact .fresh _ x _ (Or.inr (Or.inr (Or.inl ⟨_, rfl⟩))) (Or.inl rfl)
    case int n =>
      rcases newID_cases w.heap n.toUInt64 with ⟨hz, h⟩ | ⟨_, h⟩
      · have hz0 : n = 0 := by have := congrArg UInt64.toInt64 hz; simpa using this
        subst hz0
        simp only [step, scan, h]; exact .nil _ x (Or.inl (by simp)) (by simp)
      · simp only [step, scan, h]; exact .fresh _ x _ (Or.inr (Or.inr (Or.inl ⟨_, rfl⟩))) (Or.inl rfl)
    all_goals (rw [step]; simp only [scan, put_self]; exact .nop _ (by simp) (by simp))
  | json x d =>
    rw [step, json_eq]
    by_cases h1 : trimQuotes d = [] ∨ trimQuotes d = b!"0"
    · simp only [if_pos h1]; exact .nil _ x (Or.inr (Or.inr ⟨_, rfl⟩)) (by simp)
    · simp only [if_neg h1]
      rw [not_or] at h1
      cases hp : parseU64 (trimQuotes d) with
      | none => simp only [put_self]; exact .nop _ (by simp) (by simp)
      | some n =>
        exact .fresh _ x _ (Or.inr (Or.inr (Or.inr (Or.inl ⟨_, rfl⟩)))) (Or.inr ⟨d, rfl, rfl, hp, h1.1, h1.2⟩)
  | yaml x r =>
    cases r with
    | none => simp only [step, unmarshalYAML, put_self]; exact .nop _ (by simp) (by simp)
    | some n =>
      rcases newID_cases w.heap n with ⟨rfl, h⟩ | ⟨_, h⟩
      · simp only [step, unmarshalYAML, h]; exact .nil _ x (Or.inl (by simp)) (by simp)
      · simp only [step, unmarshalYAML, h]
        exact .fresh _ x _ (Or.inr (Or.inr (Or.inr (Or.inr (Or.inl ⟨_, rfl⟩))))) (Or.inl rfl)
  | str x =>
    rw [step]
    rcases idStr_cases w.heap (w.vars x) with h | ⟨p, c, h1, h2, h3, h4, h5⟩
    · rw [h]; exact .nop _ (by simp) (by simp)
    · rw [h5]; exact .cache x p c h1 h2 h3 h4

theorem step_wf (w : World) (o : Op) (hw : Wf w) : Wf (step w o) := by
  have he := step_eff w o
  generalize step w o = w' at he
  cases he with
  | nop => exact hw
  | nil _ x =>
    intro z p hz
    simp only [World.put] at hz
    by_cases h : z = x
    · simp [h] at hz
    · simp only [h, if_false] at hz; exact hw z p hz
  | fresh _ x c =>
    intro z p hz
    simp only [World.put] at hz ⊢
    simp only [List.length_append, List.length_singleton]
    by_cases h : z = x
    · simp only [h, if_true, Option.some.injEq] at hz; omega
    · simp only [h, if_false] at hz; have := hw z p hz; omega
  | copy x y =>
    intro z p hz
    simp only [World.put] at hz ⊢
    by_cases h : z = x
    · simp only [h, if_true] at hz; exact hw y p hz
    · simp only [h, if_false] at hz; exact hw z p hz
  | inplace _ x p n =>
    intro z q hz
    simp only [List.length_set]
    exact hw z q hz
  | cache x p c =>
    intro z q hz
    simp only [List.length_set]
    exact hw z q hz

theorem run_snoc (ops : List Op) (o : Op) : run (ops ++ [o]) = step (run ops) o := by simp [run]

theorem run_wf (ops : List Op) : Wf (run ops) := by
  induction ops using List.snocRec with
  | nil => intro x p h; cases h
  | snoc ops o ih => rw [run_snoc]; exact step_wf _ _ ih

/-- Cells written by a statement. -/
theorem step_cells (P : Cell → Prop) (w : World) (o : Op)
    (h0 : ∀ n, P ⟨n, []⟩) (hd : ∀ n, n ≠ 0 → P ⟨n, idString n⟩)
    (hj : ∀ x d n, o = .json x d → parseU64 (trimQuotes d) = some n → trimQuotes d ≠ [] → trimQuotes d ≠ b!"0" → P ⟨n, trimQuotes d⟩)
    (hw : ∀ c ∈ w.heap, P c) : ∀ c ∈ (step w o).heap, P c := by
  have he := step_eff w o
  generalize step w o = w' at he
  cases he with
  | nop => exact hw
  | nil _ x => exact hw
  | fresh _ x c hx hc =>
    intro e hm
    rcases List.mem_append.1 hm with hm | hm
    · exact hw e hm
    · simp only [List.mem_singleton] at hm
      subst hm
      rcases hc with hc | ⟨d, ho, hc, hp, hn, hz⟩
      · have := h0 e.id; rw [← hc] at this; exact this
      · have := hj x d e.id ho hp (hc ▸ hn) (hc ▸ hz); rw [← hc] at this; exact this
  | copy => exact hw
  | inplace _ x p n =>
    intro e hm
    rcases List.mem_or_eq_of_mem_set hm with hm | rfl
    · exact hw e hm
    · exact h0 n
  | cache x p c hp hc hne =>
    intro e hm
    rcases List.mem_or_eq_of_mem_set hm with hm | rfl
    · exact hw e hm
    · exact hd _ hne

/-! ### C12 -/

/-- C12 (always): whatever the program did, the text of a valid ID is a string of decimal digits that denotes
its number. -/
theorem C12_text_denotes_number (ops : List Op) (x : Nat) :
    (run ops).num x ≠ 0 →
      Spec.Digits ((run ops).text x) ∧ Spec.number ((run ops).text x) = ((run ops).num x).toNat := by
  have hall : ∀ c ∈ (run ops).heap, c.str = [] ∨ (Spec.Digits c.str ∧ Spec.number c.str = c.id.toNat) := by
    induction ops using List.snocRec with
    | nil => intro c hc; simp [run, World.init] at hc
    | snoc ops o ih =>
      rw [run_snoc]
      refine step_cells (fun c => c.str = [] ∨ (Spec.Digits c.str ∧ Spec.number c.str = c.id.toNat)) _ o ?_ ?_ ?_ ih
      · intro n; exact Or.inl rfl
      · intro n _; exact Or.inr (dec_digits _)
      · intro x d n _ hp _ _; exact Or.inr ((parseU64_some _ _).1 hp)
  intro hx
  unfold World.num val at hx
  unfold World.num val World.text
  rw [idStr_text]
  cases hc : cellAt (run ops).heap ((run ops).vars x) with
  | none => rw [hc] at hx; exact absurd rfl hx
  | some c =>
    rw [hc] at hx
    simp only at hx ⊢
    have hm : c ∈ (run ops).heap := by
      unfold cellAt at hc
      split at hc
      · cases hc
      · exact List.mem_of_getElem? hc
    rcases hall c hm with h | h
    · have : cellText (some c) = dec c.id.toNat := by simp [cellText, hx, h, idString]
      rw [this]; exact dec_digits _
    · have hne : c.str.isEmpty = false := by
        cases hs : c.str with
        | nil => exact absurd hs h.1.1
        | cons => rfl
      have : cellText (some c) = c.str := by simp [cellText, hne]
      rw [this]; exact h

/-- C12 (partial): for programs that decode JSON numbers in canonical form only, the text of an ID is the
canonical decimal text of its number, and is empty exactly for an invalid ID.
Missing for the full property: JSON texts with leading zeros, see `C12_text_number_agree_fails`. -/
theorem C12_text_number_agree_partial (ops : List Op) (hj : ∀ o ∈ ops, Spec.CanonicalJson o) (x : Nat) :
    ((run ops).num x ≠ 0 → Spec.Canonical ((run ops).text x) ((run ops).num x).toNat)
    ∧ ((run ops).text x = [] ↔ (run ops).num x = 0) := by
  have hall : ∀ c ∈ (run ops).heap, c.str = [] ∨ (c.id ≠ 0 ∧ c.str = dec c.id.toNat) := by
    induction ops using List.snocRec with
    | nil => intro c hc; simp [run, World.init] at hc
    | snoc ops o ih =>
      rw [run_snoc]
      refine step_cells (fun c => c.str = [] ∨ (c.id ≠ 0 ∧ c.str = dec c.id.toNat)) _ o ?_ ?_ ?_
        (ih fun o ho => hj o (by simp [ho]))
      · intro n; exact Or.inl rfl
      · intro n hn; exact Or.inr ⟨hn, rfl⟩
      · intro x d n ho hp hne hz
        have hc := hj o (by simp)
        rw [ho] at hc
        simp only [Spec.CanonicalJson, num64_eq] at hc
        have hc := (hc.resolve_left hne) n hp
        have hd := (canonical_iff _ _).1 hc
        refine Or.inr ⟨?_, hd⟩
        rintro rfl
        exact hz hd
  unfold World.num val World.text
  rw [idStr_text]
  cases hc : cellAt (run ops).heap ((run ops).vars x) with
  | none => simp [cellText]
  | some c =>
    simp only
    have hm : c ∈ (run ops).heap := by
      unfold cellAt at hc
      split at hc
      · cases hc
      · exact List.mem_of_getElem? hc
    rcases hall c hm with h | ⟨h1, h2⟩
    · by_cases h0 : c.id = 0
      · simp [cellText, h0, h]
      · have : cellText (some c) = dec c.id.toNat := by simp [cellText, h0, h, idString]
        rw [this]
        exact ⟨fun _ => dec_canonical _, by simp [dec_ne_nil, h0]⟩
    · have : cellText (some c) = dec c.id.toNat := by
        have hne : c.str.isEmpty = false := by
          cases hs : c.str with
          | nil => rw [hs] at h2; exact absurd h2.symm (dec_ne_nil _)
          | cons => rfl
        simp [cellText, hne, h2, dec_ne_nil]
      rw [this]
      exact ⟨fun _ => dec_canonical _, by simp [dec_ne_nil, h1]⟩

example : ∀ o ∈ [Op.new 0 7, .copy 1 0, .set 1 b!"0042", .json 2 b!"\"15\"", .json 3 b!"", .str 1, .reset 2],
    Spec.CanonicalJson o := by
  intro o ho
  simp only [List.mem_cons, List.not_mem_nil, or_false] at ho
  rcases ho with rfl | rfl | rfl | rfl | rfl | rfl | rfl
  · trivial
  · trivial
  · trivial
  · refine Or.inr fun n hn => ?_
    have : n = 15 := by
      have h : Spec.num64 (trimQuotes b!"\"15\"") = some 15 := by decide +kernel
      rw [h] at hn; injection hn with hn; exact hn.symm
    subst this
    exact ⟨by decide +kernel, by decide +kernel, by decide +kernel⟩
  · exact Or.inl (by decide +kernel)
  · trivial
  · trivial

/-- C12 fails in general: after decoding the JSON text `007` the ID is 7 but prints `007`; after decoding `00`
the ID is invalid but prints a non-empty text. -/
theorem C12_text_number_agree_fails :
    ¬ (∀ (ops : List Op) (x : Nat),
      ((run ops).num x ≠ 0 → Spec.Canonical ((run ops).text x) ((run ops).num x).toNat)
      ∧ ((run ops).text x = [] ↔ (run ops).num x = 0)) := by
  intro h
  have h1 := (h [.json 0 b!"00"] 0).2
  have h2 : (run [.json 0 b!"00"]).num 0 = 0 := by decide +kernel
  have h3 : (run [.json 0 b!"00"]).text 0 = b!"00" := by decide +kernel
  rw [h2, h3] at h1
  simp at h1

/-- The other half of the counterexample, and JSON `null`, which is rejected. -/
theorem C12_leading_zero_witness :
    (run [.json 0 b!"007"]).num 0 = 7 ∧ (run [.json 0 b!"007"]).text 0 = b!"007"
    ∧ ¬ Spec.Canonical ((run [.json 0 b!"007"]).text 0) 7 ∧ (unmarshalJSON [] none b!"null").2.2 = false := by
  refine ⟨by decide +kernel, by decide +kernel, ?_, by decide +kernel⟩
  rw [show (run [.json 0 b!"007"]).text 0 = b!"007" from by decide +kernel]
  rintro ⟨_, _, h⟩
  have := h rfl
  simp at this

/-- The quoted and underscored texts are the plain text with that decoration; an invalid nil ID prints as nothing. -/
theorem C12_decorated_texts (h : Heap) (v : ID) :
    ((underscoreString h v).2 = if (idStr h v).2 = [] then [] else c!"_" :: (idStr h v).2)
    ∧ (v = none → (quotedString h v).2 = []) ∧ (v ≠ none → (quotedString h v).2 = c!"\"" :: ((idStr h v).2 ++ [c!"\""])) := by
  refine ⟨?_, ?_, ?_⟩
  · unfold underscoreString
    cases (idStr h v).2 <;> rfl
  · rintro rfl; rfl
  · intro hv
    cases v with
    | none => exact absurd rfl hv
    | some p => rfl

/-! ### C13 -/

theorem num_put_ne (w : World) (x z : Nat) (hz : z ≠ x) (c : Cell) (r : ID) (hw : Wf w) :
    cellAt (w.put x (w.heap ++ [c], r)).heap ((w.put x (w.heap ++ [c], r)).vars z) = cellAt w.heap (w.vars z) := by
  simp only [World.put, hz, if_false]
  exact cellAt_append _ _ _ fun p hp => hw z p hp

theorem cellAt_set_ne (h : Heap) (p : Nat) (c : Cell) (v : ID) (hv : v ≠ some p) : cellAt (h.set p c) v = cellAt h v := by
  cases v with
  | none => rfl
  | some q =>
    simp only [cellAt]
    rw [List.getElem?_set_ne]
    rintro rfl; exact hv rfl

/-- C13 (who can change whom): after any program, a statement on variable `x` changes what another variable `y`
shows only if it is `Set` or `Reset` and `x` and `y` are copies sharing one cell.  `String()` changes nothing
that can be observed, and `NewID`, `ParseID`, `Scan`, `UnmarshalJSON`, `UnmarshalYAML` and assignment change the
variable they are given only. -/
theorem C13_only_set_or_reset_reach_copies (ops : List Op) (o : Op) (y : Nat)
    (htarget : ∀ x, (∃ n, o = .new x n) ∨ (∃ s, o = .parse x s) ∨ (∃ z, o = .copy x z) ∨ (∃ s, o = .set x s)
      ∨ o = .reset x ∨ (∃ d, o = .scan x d) ∨ (∃ d, o = .json x d) ∨ (∃ r, o = .yaml x r) → y ≠ x)
    (hchg : (run (ops ++ [o])).num y ≠ (run ops).num y ∨ (run (ops ++ [o])).text y ≠ (run ops).text y) :
    ∃ x p, ((∃ s, o = .set x s) ∨ o = .reset x) ∧ (run ops).vars x = some p ∧ (run ops).vars y = some p := by
  rw [run_snoc] at hchg
  have hw := run_wf ops
  generalize run ops = w at *
  have he := step_eff w o
  generalize step w o = w' at *
  have same : cellAt w'.heap (w'.vars y) = cellAt w.heap (w.vars y) → False := by
    intro h
    rcases hchg with hc | hc
    · exact hc (by unfold World.num val; rw [h])
    · exact hc (by unfold World.text; rw [idStr_text, idStr_text, h])
  cases he with
  | nop => exact (same rfl).elim
  | nil _ x hx hr =>
    refine (same ?_).elim
    have hyx : y ≠ x := by
      refine htarget x ?_
      rcases hx with hx | ⟨s, rfl⟩ | ⟨d, rfl⟩
      · simp only [List.mem_cons, List.not_mem_nil, or_false] at hx
        rcases hx with rfl | rfl | rfl | rfl | rfl | rfl | rfl <;> simp
      · simp
      · simp
    simp [World.put, hyx]
  | fresh _ x c hx hc =>
    refine (same ?_).elim
    have hyx : y ≠ x := by
      refine htarget x ?_
      rcases hx with ⟨_, rfl⟩ | ⟨_, rfl⟩ | ⟨_, rfl⟩ | ⟨_, rfl⟩ | ⟨_, rfl⟩ | ⟨_, ⟨_, rfl⟩ | rfl⟩ <;> simp
    exact num_put_ne w x y hyx c _ hw
  | copy x z =>
    refine (same ?_).elim
    have hyx : y ≠ x := htarget x (by simp)
    simp [World.put, hyx]
  | inplace _ x p n hx hp =>
    by_cases hy : w.vars y = some p
    · exact ⟨x, p, hx, hp, hy⟩
    · exact (same (cellAt_set_ne _ _ _ _ hy)).elim
  | cache x p c hp hc h0 hs =>
    refine (same ?_).elim
    by_cases hy : w.vars y = some p
    · exfalso
      rcases hchg with hc' | hc'
      · refine hc' ?_
        have hlt := (List.getElem?_eq_some_iff.1 hc).1
        simp only [World.num, val, cellAt, hy, hc, List.getElem?_set_self hlt]
      · refine hc' ?_
        have hlt := (List.getElem?_eq_some_iff.1 hc).1
        unfold World.text
        rw [idStr_text, idStr_text]
        simp only [cellAt, hy, hc, List.getElem?_set_self hlt]
        simp [cellText, h0, hs]
    · exact cellAt_set_ne _ _ _ _ hy

/-- C13 fails: a copy of a valid ID is not independent.  For every program and every valid ID `x`, after
`y = x; y.Set(s)` with an acceptable text, `x` has changed too; after `y = x; y.Reset()` `x` is invalid. -/
theorem C13_copies_share (ops : List Op) (x y : Nat) (hxy : x ≠ y) (hv : (run ops).num x ≠ 0) (s : Bytes)
    (hs : Spec.Digits s) (h1 : 1 ≤ Spec.number s) (h2 : Spec.number s < 2 ^ 64) :
    ((run (ops ++ [.copy y x, .set y s])).num x).toNat = Spec.number s
    ∧ (run (ops ++ [.copy y x, .reset y])).num x = 0 := by
  have e : ∀ o, run (ops ++ [.copy y x, o]) = step (step (run ops) (.copy y x)) o := by intro o; simp [run]
  rw [e, e]
  generalize run ops = w at *
  have hx : ∃ p c, w.vars x = some p ∧ w.heap[p]? = some c := by
    unfold World.num val cellAt at hv
    cases hx : w.vars x with
    | none => rw [hx] at hv; exact absurd rfl hv
    | some p =>
      rw [hx] at hv
      simp only at hv
      cases hc : w.heap[p]? with
      | none => rw [hc] at hv; exact absurd rfl hv
      | some c => exact ⟨p, c, rfl, hc⟩
  obtain ⟨p, c, hx, hc⟩ := hx
  have hlt := (List.getElem?_eq_some_iff.1 hc).1
  have hp := (parseU64_some s (UInt64.ofNat (Spec.number s))).2 ⟨hs, by simp; omega⟩
  constructor
  · simp only [step, World.put, set_eq, hp, if_true]
    rw [if_neg (by intro h; have := congrArg UInt64.toNat h; simp at this; omega)]
    simp [World.num, val, cellAt, hxy, hx, hlt]
    omega
  · simp [step, World.put, reset, World.num, val, cellAt, hxy, hx, hlt]

example : (run [.new 0 7, .copy 1 0, .set 1 b!"9"]).num 0 = 9 := by decide +kernel

/-- What the statements do, as pure values, one at a time. -/
theorem step_value (w : World) (hw : Wf w) (o : Op) (m : Nat → UInt64) (hm : ∀ z, w.num z = m z)
    (hset : ∀ x, (∃ s, o = .set x s) ∨ o = .reset x → ∀ z, z ≠ x → w.vars z ≠ none → w.vars z ≠ w.vars x) :
    ∀ z, (step w o).num z = Spec.valueStep m o z := by
  intro z
  have hnew : ∀ (x : Nat) (n : UInt64), (w.put x (newID w.heap n)).num z = if z = x then n else m z := by
    intro x n
    by_cases hz : z = x
    · subst hz
      simp only [World.num, World.put, if_true]
      exact newID_val _ _
    · rw [if_neg hz, ← hm z]
      rcases newID_cases w.heap n with ⟨_, h⟩ | ⟨_, h⟩
      · rw [h]; simp [World.num, World.put, hz]
      · rw [h]
        simp only [World.num, val, num_put_ne w x z hz _ _ hw]
  have hfresh : ∀ (x : Nat) (c : Cell), (w.put x (w.heap ++ [c], some w.heap.length)).num z = if z = x then c.id else m z := by
    intro x c
    by_cases hz : z = x
    · subst hz
      simp [World.num, World.put, val, cellAt]
    · rw [if_neg hz, ← hm z]
      simp only [World.num, val, num_put_ne w x z hz _ _ hw]
  have hnil : ∀ (x : Nat), (w.put x (w.heap, none)).num z = if z = x then 0 else m z := by
    intro x
    by_cases hz : z = x
    · subst hz; simp [World.num, World.put, val, cellAt]
    · rw [if_neg hz, ← hm z]; simp [World.num, World.put, hz]
  have hin : ∀ (x p : Nat) (n : UInt64), w.vars x = some p →
      (∀ z, z ≠ x → w.vars z ≠ none → w.vars z ≠ w.vars x) →
      World.num { w with heap := w.heap.set p ⟨n, []⟩ } z = if z = x then n else m z := by
    intro x p n hx hs
    by_cases hz : z = x
    · subst hz
      have := hw z p hx
      simp [World.num, val, cellAt, hx, this]
    · rw [if_neg hz, ← hm z]
      have : w.vars z ≠ some p := by
        intro hzp
        exact hs z hz (by rw [hzp]; simp) (by rw [hzp, hx])
      simp only [World.num, val, cellAt_set_ne _ _ _ _ this]
  cases o with
  | new x n => simp only [step, Spec.valueStep]; exact hnew x n
  | parse x s =>
    simp only [step, parseID, set_eq, Spec.valueStep, num64_eq]
    cases parseU64 s with
    | none => exact hnil x
    | some n =>
      simp only [Option.getD_some]
      by_cases hn : n = 0
      · rw [if_pos hn]; subst hn; exact hnil x
      · rw [if_neg hn]; exact hfresh x ⟨n, []⟩
  | copy x y =>
    simp only [step, Spec.valueStep]
    by_cases hz : z = x
    · subst hz; simp only [if_true]; rw [← hm y]; simp [World.num, World.put]
    · simp only [hz, if_false]; rw [← hm z]; simp [World.num, World.put, hz]
  | set x s =>
    simp only [step, set_eq, Spec.valueStep, num64_eq]
    cases parseU64 s with
    | none => simp only [put_self]; exact hm z
    | some n =>
      simp only
      by_cases hn : n = 0
      · simp only [if_pos hn, put_self]; exact hm z
      · simp only [if_neg hn]
        cases hv : w.vars x with
        | none => exact hfresh x ⟨n, []⟩
        | some p => simp only [put_same w x _ _ hv]; exact hin x p n hv (hset x (Or.inl ⟨_, rfl⟩))
  | reset x =>
    simp only [step, Spec.valueStep]
    cases hv : w.vars x with
    | none => exact hfresh x ⟨0, []⟩
    | some p => simp only [reset, put_same w x _ _ hv]; exact hin x p 0 hv (hset x (Or.inr rfl))
  | scan x d =>
    cases d
    case u64 n => exact hnew x n
    case uint n => exact hnew x n
    case i64 n => exact hnew x n.toUInt64
    case int n => exact hnew x n.toUInt64
    all_goals (simp only [step, scan, put_self, Spec.valueStep]; exact hm z)
  | json x d =>
    simp only [step, json_eq, Spec.valueStep, num64_eq]
    by_cases h1 : trimQuotes d = []
    · simp only [if_pos (Or.inl h1 : trimQuotes d = [] ∨ _), if_pos h1]; exact hnil x
    · rw [if_neg h1]
      by_cases h2 : trimQuotes d = b!"0"
      · simp only [if_pos (Or.inr h2 : trimQuotes d = [] ∨ _)]
        rw [h2, show parseU64 b!"0" = some 0 from by decide +kernel]
        exact hnil x
      · simp only [if_neg (not_or.2 ⟨h1, h2⟩)]
        cases parseU64 (trimQuotes d) with
        | none => simp only [put_self]; exact hm z
        | some n => exact hfresh x ⟨n, _⟩
  | yaml x r =>
    cases r with
    | none => simp only [step, unmarshalYAML, put_self, Spec.valueStep]; exact hm z
    | some n => exact hnew x n
  | str x =>
    simp only [step, Spec.valueStep]
    rw [← hm z]
    rcases idStr_cases w.heap (w.vars x) with h | ⟨p, c, h1, h2, h3, h4, h5⟩
    · rw [h]
    · rw [h5]
      have hlt := (List.getElem?_eq_some_iff.1 h2).1
      by_cases hz : w.vars z = some p
      · simp only [World.num, val, cellAt, hz, h2, List.getElem?_set_self hlt]
      · simp only [World.num, val, cellAt_set_ne _ _ _ _ hz]

/-- Sharing is recorded by `tied`. -/
def Tracks (tied : Nat → Bool) (w : World) : Prop :=
  ∀ x z, z ≠ x → w.vars z ≠ none → w.vars z = w.vars x → tied x = true ∧ tied z = true

theorem tracks_put_fresh {tied : Nat → Bool} {w : World} (hw : Wf w) (h : Tracks tied w) (x : Nat) (c : Cell)
    (tied' : Nat → Bool) (ht : ∀ z, z ≠ x → tied z = true → tied' z = true) :
    Tracks tied' (w.put x (w.heap ++ [c], some w.heap.length)) := by
  intro a b hab hn he
  simp only [World.put] at hn he
  by_cases ha : a = x
  · have hb : b ≠ x := by rintro rfl; exact hab ha.symm
    simp only [ha, hb, if_true, if_false] at he
    have := hw b _ he
    omega
  · by_cases hb : b = x
    · simp only [ha, hb, if_true, if_false] at he
      have := hw a _ he.symm
      omega
    · simp only [ha, hb, if_false] at he hn
      have := h a b hab hn he
      exact ⟨ht a ha this.1, ht b hb this.2⟩

theorem tracks_put_nil {tied : Nat → Bool} {w : World} (h : Tracks tied w) (x : Nat)
    (tied' : Nat → Bool) (ht : ∀ z, z ≠ x → tied z = true → tied' z = true) :
    Tracks tied' (w.put x (w.heap, none)) := by
  intro a b hab hn he
  simp only [World.put] at hn he
  by_cases hb : b = x
  · simp [hb] at hn
  · by_cases ha : a = x
    · simp only [ha, hb, if_true, if_false] at he hn; exact absurd he hn
    · simp only [ha, hb, if_false] at he hn
      have := h a b hab hn he
      exact ⟨ht a ha this.1, ht b hb this.2⟩

theorem untied_run : ∀ (ops : List Op) (tied : Nat → Bool) (w : World) (m : Nat → UInt64), Wf w → Tracks tied w →
    (∀ z, w.num z = m z) → Spec.Untied tied ops → ∀ z, (ops.foldl step w).num z = ops.foldl Spec.valueStep m z := by
  intro ops
  induction ops with
  | nil => intro tied w m hw ht hm _ z; exact hm z
  | cons o ops ih =>
    intro tied w m hw ht hm hu z
    rw [List.foldl_cons, List.foldl_cons]
    have hw' := step_wf w o hw
    have he := step_eff w o
    -- the tracking after the statement, and what remains of the hypothesis
    have key : ∃ tied', Tracks tied' (step w o) ∧ Spec.Untied tied' ops ∧
        (∀ x, (∃ s, o = .set x s) ∨ o = .reset x → tied x = false) := by
      generalize hwe : step w o = w' at he
      cases o with
      | new x n =>
        refine ⟨fun z => if z = x then false else tied z, ?_, hu, by simp⟩
        cases he with
        | nop o ho => exact absurd rfl (ho x n)
        | nil o y hx hr =>
          have : y = x := by simp at hx; exact hx.1.symm
          subst this
          exact tracks_put_nil ht y _ (by intro z hz h; simp [hz, h])
        | fresh o y c hx hc =>
          have : y = x := by simpa [eq_comm] using hx
          subst this
          exact tracks_put_fresh hw ht y c _ (by intro z hz h; simp [hz, h])
        | inplace o y p n hx hp => simp at hx
      | parse x s =>
        refine ⟨fun z => if z = x then false else tied z, ?_, hu, by simp⟩
        cases he with
        | nop o ho ho2 => exact absurd rfl (ho2 x s)
        | nil o y hx hr =>
          have : y = x := by simpa [eq_comm] using hx
          subst this
          exact tracks_put_nil ht y _ (by intro z hz h; simp [hz, h])
        | fresh o y c hx hc =>
          have : y = x := by simpa [eq_comm] using hx
          subst this
          exact tracks_put_fresh hw ht y c _ (by intro z hz h; simp [hz, h])
        | inplace o y p n hx hp => simp at hx
      | copy x y =>
        refine ⟨fun z => if z = x ∨ z = y then true else tied z, ?_, hu, by simp⟩
        cases he with
        | nop o ho =>
          intro a b hab hn h
          have := ht a b hab hn h
          simp [this.1, this.2]
        | nil o y hx hr => simp at hx
        | fresh o y c hx hc => simp at hx
        | inplace o y p n hx hp => simp at hx
        | copy =>
          intro a b hab hn h
          simp only [World.put] at hn h
          by_cases ha : a = x
          · have hb : b ≠ x := by rintro rfl; exact hab ha.symm
            simp only [ha, hb, if_true, if_false] at h hn
            by_cases hby : b = y
            · simp [ha, hby]
            · have := ht y b hby hn h
              simp [ha, this.2]
          · by_cases hb : b = x
            · simp only [ha, hb, if_true, if_false] at h hn
              by_cases hay : a = y
              · simp [hb, hay]
              · have := ht a y (Ne.symm hay) hn h
                simp [hb, this.1]
            · simp only [ha, hb, if_false] at h hn
              have := ht a b hab hn h
              simp [this.1, this.2]
      | set x s =>
        refine ⟨tied, ?_, hu.2, by rintro y (⟨s, hs⟩ | hs) <;> simp at hs; obtain ⟨rfl, _⟩ := hs; exact hu.1⟩
        cases he with
        | nop o ho => exact ht
        | nil o y hx hr => simp at hx
        | fresh o y c hx hc => exact tracks_put_fresh hw ht y c _ (by intro z hz h; exact h)
        | inplace o y p n hx hp => exact ht
      | reset x =>
        refine ⟨tied, ?_, hu.2, by rintro y (⟨s, hs⟩ | hs) <;> simp at hs; subst hs; exact hu.1⟩
        cases he with
        | nop o ho => exact ht
        | nil o y hx hr =>
          have : y = x := by simpa [eq_comm] using hx
          subst this
          exact absurd rfl hr
        | fresh o y c hx hc => exact tracks_put_fresh hw ht y c _ (by intro z hz h; exact h)
        | inplace o y p n hx hp => exact ht
      | scan x d =>
        refine ⟨tied, ?_, hu, by simp⟩
        cases he with
        | nop o ho => exact ht
        | nil o y hx hr => exact tracks_put_nil ht y _ (by intro z hz h; exact h)
        | fresh o y c hx hc => exact tracks_put_fresh hw ht y c _ (by intro z hz h; exact h)
        | inplace o y p n hx hp => exact ht
      | json x d =>
        refine ⟨tied, ?_, hu, by simp⟩
        cases he with
        | nop o ho => exact ht
        | nil o y hx hr => exact tracks_put_nil ht y _ (by intro z hz h; exact h)
        | fresh o y c hx hc => exact tracks_put_fresh hw ht y c _ (by intro z hz h; exact h)
        | inplace o y p n hx hp => exact ht
      | yaml x r =>
        refine ⟨tied, ?_, hu, by simp⟩
        cases he with
        | nop o ho => exact ht
        | nil o y hx hr => exact tracks_put_nil ht y _ (by intro z hz h; exact h)
        | fresh o y c hx hc => exact tracks_put_fresh hw ht y c _ (by intro z hz h; exact h)
        | inplace o y p n hx hp => exact ht
      | str x =>
        refine ⟨tied, ?_, hu, by simp⟩
        cases he with
        | nop o ho => exact ht
        | nil o y hx hr => exact tracks_put_nil ht y _ (by intro z hz h; exact h)
        | fresh o y c hx hc => exact tracks_put_fresh hw ht y c _ (by intro z hz h; exact h)
        | inplace o y p n hx hp => exact ht
        | cache x p c => exact ht
    obtain ⟨tied', ht', hu', hset⟩ := key
    refine ih tied' (step w o) _ hw' ht' ?_ hu' z
    refine step_value w hw o m hm ?_
    intro x hx a hax hn he
    have := ht x a hax hn he
    rw [hset x hx] at this
    cases this.1

/-- C13 (partial): if no variable that took part in a copy is changed by `Set` or `Reset` before it is given a
fresh ID, every variable behaves as an independent value.
Missing for the full property: `Set` and `Reset` on a copied variable, see `C13_copies_share`. -/
theorem C13_copies_independent_partial (ops : List Op) (h : Spec.Untied (fun _ => false) ops) (x : Nat) :
    (run ops).num x = Spec.valueRun ops x :=
  untied_run ops _ World.init _ (by intro x p h; cases h) (by intro a b _ hn _; exact absurd rfl hn) (fun _ => rfl) h x

example : Spec.Untied (fun _ => false)
    [.new 0 7, .set 0 b!"8", .copy 1 0, .scan 1 (.i64 9), .json 0 b!"\"3\"", .new 1 4, .reset 1, .copy 2 0] := by
  simp [Spec.Untied]

end Types
