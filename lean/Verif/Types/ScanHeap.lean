import Verif.Types.GoJsonProps
set_option linter.unusedSimpArgs false
set_option linter.unusedVariables false
/-!
`Scan` of `Strings`, `Metadata` and `KVSet` with the memory they refer to (types.go:143-154, 225-246, 275-296): `json.Unmarshal` writes into the array of the slice, or the map, that the destination
already holds (standard library, decode.go `array`, `object`).
-/
namespace Types.GoJson
open Types

/-! ### Slices -/

/-- Arrays of strings; those with an address below `next` exist. -/
structure Arrays where
  arr : Nat → List Bytes
  next : Nat

/-- A slice: its array, where it starts and its length.  It may grow up to the end of the array. -/
structure Slice where
  addr : Nat
  off : Nat
  len : Nat
deriving DecidableEq

/-- Replace the contents of one array. -/
def Arrays.put (h : Arrays) (a : Nat) (l : List Bytes) : Arrays := { h with arr := fun x => if x = a then l else h.arr x }

/-- A new array. -/
def Arrays.alloc (h : Arrays) (l : List Bytes) : Arrays := { arr := fun x => if x = h.next then l else h.arr x, next := h.next + 1 }

/-- What a slice shows. -/
def Arrays.elems (h : Arrays) (s : Slice) : List Bytes := ((h.arr s.addr).drop s.off).take s.len

/-- What a destination shows (nil, or its elements). -/
def Arrays.view (h : Arrays) (s : Option Slice) : Option (List Bytes) := s.map h.elems

/-- decode.go `literalStore` into an existing string: `null` leaves it, and so does a value of another type, which is an error. -/
def storeInto (old : Bytes) : JV → Bytes × Bool
  | .str s => (s, true)
  | .null => (old, true)
  | _ => (old, false)

/-- decode.go `array` for a slice: element `i` is stored into the array if it has room for it, otherwise the slice is moved to a new array (of a size chosen by the runtime, `grow`). -/
def fill (grow : Nat → Nat) : Arrays → Nat → Nat → Nat → List JV → Arrays × Nat × Nat × Bool
  | h, a, o, _, [] => (h, a, o, true)
  | h, a, o, i, v :: vs =>
    if o + i < (h.arr a).length then
      let x := storeInto (((h.arr a)[o + i]?).getD []) v
      let r := fill grow (h.put a ((h.arr a).set (o + i) x.1)) a o (i + 1) vs
      (r.1, r.2.1, r.2.2.1, x.2 && r.2.2.2)
    else
      let x := storeInto [] v
      let r := fill grow (h.alloc (((h.arr a).drop o).take i ++ x.1 :: List.replicate (grow i) [])) h.next 0 (i + 1) vs
      (r.1, r.2.1, r.2.2.1, x.2 && r.2.2.2)

/-- `json.Unmarshal` of a parsed value into a `*[]string`; `false` means an error is returned. -/
def storeSlice (grow : Nat → Nat) (h : Arrays) (dest : Option Slice) (v : JV) : Arrays × Option Slice × Bool :=
  match v with
  | .null => (h, none, true)
  | .arr [] => (h.alloc [], some ⟨h.next, 0, 0⟩, true)
  | .arr (v :: vs) =>
    match dest with
    | none =>
      let r := fill grow (h.alloc []) h.next 0 0 (v :: vs)
      (r.1, some ⟨r.2.1, r.2.2.1, (v :: vs).length⟩, r.2.2.2)
    | some s =>
      let r := fill grow h s.addr s.off 0 (v :: vs)
      (r.1, some ⟨r.2.1, r.2.2.1, (v :: vs).length⟩, r.2.2.2)
  | _ => (h, dest, false)

/-- types.go:143-154 `Strings.Scan`. -/
def stringsScanH (grow : Nat → Nat) (sp : Nat → Bytes) (h : Arrays) (dest : Option Slice) (d : DV) : Arrays × Option Slice × Bool :=
  match d with
  | .null => (h, none, true)
  | d =>
    if (sprint sp d).isEmpty then (h.alloc [], some ⟨h.next, 0, 0⟩, true)
    else
      match parse (sprint sp d) with
      | none => (h, dest, false)
      | some v => storeSlice grow h dest v

/-! ### Specification -/

namespace Spec

/-- The destination refers to an existing array, within its bounds. -/
def Holds (h : Arrays) (s : Slice) : Prop := s.addr < h.next ∧ s.off + s.len ≤ (h.arr s.addr).length

/-- The elements of an array value. -/
def items : JV → List JV
  | .arr vs => vs
  | _ => []

/-- The memory a destination may write to: from the start of its slice to the end of its array. -/
def room (h : Arrays) : Option Slice → List Bytes
  | none => []
  | some s => (h.arr s.addr).drop s.off

/-- What an element shows after a JSON value was stored into it: the text of a JSON string, and for everything else what it was. -/
def shown (old : Bytes) : JV → Bytes
  | .str s => s
  | _ => old

/-- What the array elements `ms` become when values are stored over them, one by one, as far as both go. -/
def over : List Bytes → List JV → List Bytes
  | ms, [] => ms
  | [], _ => []
  | m :: ms, v :: vs => shown m v :: over ms vs

/-- The elements that are stored: over `ms` as far as it goes, then over empty strings. -/
def stored : List Bytes → List JV → List Bytes
  | _, [] => []
  | [], v :: vs => shown [] v :: stored [] vs
  | m :: ms, v :: vs => shown m v :: stored ms vs

end Spec

/-! ### Lemmas -/

theorem storeInto_shown (m : Bytes) (v : JV) : (storeInto m v).1 = Spec.shown m v := by cases v <;> rfl

theorem over_nil (vs : List JV) : Spec.over [] vs = [] := by cases vs <;> rfl

theorem stored_length : ∀ (ms : List Bytes) (vs : List JV), (Spec.stored ms vs).length = vs.length
  | _, [] => by simp [Spec.stored]
  | [], v :: vs => by simp [Spec.stored, stored_length [] vs]
  | m :: ms, v :: vs => by simp [Spec.stored, stored_length ms vs]

theorem over_take : ∀ (n : Nat) (ms : List Bytes) (vs : List JV), (Spec.over ms vs).take n = Spec.over (ms.take n) vs
  | n, ms, [] => by simp [Spec.over]
  | n, [], v :: vs => by simp [Spec.over]
  | 0, m :: ms, v :: vs => by simp [Spec.over]
  | n + 1, m :: ms, v :: vs => by simp [Spec.over, over_take n ms vs]

theorem over_str : ∀ (ms l : List Bytes), Spec.over ms (l.map .str) = l.take ms.length ++ ms.drop l.length
  | ms, [] => by simp [Spec.over]
  | [], x :: l => by simp [Spec.over]
  | m :: ms, x :: l => by simp [Spec.over, Spec.shown, over_str ms l]

theorem stored_str : ∀ (ms l : List Bytes), Spec.stored ms (l.map .str) = l
  | _, [] => rfl
  | [], x :: l => by simp [Spec.stored, Spec.shown, stored_str [] l]
  | m :: ms, x :: l => by simp [Spec.stored, Spec.shown, stored_str ms l]

/-- The loop: what it does to the array it starts with, to all other arrays, and what the resulting slice shows. -/
theorem fill_spec (grow : Nat → Nat) : ∀ (vs : List JV) (h : Arrays) (a o i : Nat), a < h.next → o + i ≤ (h.arr a).length →
    let r := fill grow h a o i vs
    (∀ b, b < h.next → b ≠ a → r.1.arr b = h.arr b)
    ∧ r.1.arr a = (h.arr a).take (o + i) ++ Spec.over ((h.arr a).drop (o + i)) vs
    ∧ ((r.1.arr r.2.1).drop r.2.2.1).take (i + vs.length) = ((h.arr a).drop o).take i ++ Spec.stored ((h.arr a).drop (o + i)) vs
    ∧ r.2.1 < r.1.next ∧ r.2.2.1 + (i + vs.length) ≤ (r.1.arr r.2.1).length ∧ h.next ≤ r.1.next
    ∧ r.2.2.2 = vs.all (fun v => (storeInto [] v).2)
    ∧ (r.2.1 = a ∧ r.2.2.1 = o ∨ h.next ≤ r.2.1) := by
  intro vs
  induction vs with
  | nil =>
    intro h a o i ha ho
    refine ⟨fun _ _ _ => rfl, ?_, ?_, ha, ho, Nat.le_refl _, rfl, Or.inl ⟨rfl, rfl⟩⟩
    · show h.arr a = _
      simp [fill, Spec.over]
    · simp [fill, Spec.stored]
  | cons v vs ih =>
    intro h a o i ha ho
    have hok : ∀ m, (storeInto m v).2 = (storeInto [] v).2 := by intro m; cases v <;> rfl
    by_cases hlt : o + i < (h.arr a).length
    · -- in place
      have hdrop : (h.arr a).drop (o + i) = (h.arr a)[o + i] :: (h.arr a).drop (o + i + 1) := by rw [List.drop_eq_getElem_cons hlt]
      generalize hA : h.arr a = A at hlt hdrop ho
      have hg : (A[o + i]?).getD [] = A[o + i] := by simp [hlt]
      generalize hx : (storeInto A[o + i] v).1 = x
      have hih := ih (h.put a (A.set (o + i) x)) a o (i + 1) ha (by simp [Arrays.put]; omega)
      have hput : (h.put a (A.set (o + i) x)).arr a = A.set (o + i) x := by simp [Arrays.put]
      rw [hput] at hih
      have hr : fill grow h a o i (v :: vs) = ((fill grow (h.put a (A.set (o + i) x)) a o (i + 1) vs).1, (fill grow (h.put a (A.set (o + i) x)) a o (i + 1) vs).2.1,
          (fill grow (h.put a (A.set (o + i) x)) a o (i + 1) vs).2.2.1, (storeInto [] v).2 && (fill grow (h.put a (A.set (o + i) x)) a o (i + 1) vs).2.2.2) := by
        rw [fill, hA, if_pos hlt]
        simp only [hg, hx, hok A[o + i]]
      rw [hr]
      generalize fill grow (h.put a (A.set (o + i) x)) a o (i + 1) vs = r at hih
      obtain ⟨g1, g2, g3, g4, g5, g6, g7, g8⟩ := hih
      have e1 : (A.set (o + i) x).drop (o + (i + 1)) = A.drop (o + i + 1) := by
        rw [List.drop_set, if_pos (by omega)]; rfl
      have e2 : (A.set (o + i) x).take (o + (i + 1)) = A.take (o + i) ++ [x] := by
        rw [show o + (i + 1) = o + i + 1 from rfl, List.take_add_one, List.take_set_of_le (by omega)]
        simp [hlt]
      have e3 : ((A.set (o + i) x).drop o).take (i + 1) = (A.drop o).take i ++ [x] := by
        rw [List.take_add_one, List.drop_set, if_neg (by omega), List.take_set_of_le (by omega)]
        have : ((A.drop o).set (o + i - o) x)[i]? = some x := by
          have e : o + i - o = i := by omega
          rw [e, List.getElem?_set_self (by simp; omega)]
        rw [this]; rfl
      refine ⟨?_, ?_, ?_, g4, ?_, g6, ?_, g8⟩
      · intro b hb hba
        rw [g1 b hb hba]; simp [Arrays.put, hba]
      · rw [g2, e1, e2, hdrop]
        simp [Spec.over, ← storeInto_shown, hx]
      · rw [show i + (v :: vs).length = i + 1 + vs.length by simp; omega, g3, e1, e3, hdrop]
        simp [Spec.stored, ← storeInto_shown, hx]
      · rw [show i + (v :: vs).length = i + 1 + vs.length by simp; omega]; exact g5
      · simp only [List.all_cons, g7]
    · -- moved
      have hA0 : (h.arr a).drop (o + i) = [] := List.drop_eq_nil_of_le (by omega)
      generalize hA : h.arr a = A at hlt hA0 ho
      generalize hx : (storeInto [] v).1 = x
      have hlen : ((A.drop o).take i).length = i := by simp; omega
      generalize hN : (A.drop o).take i ++ x :: List.replicate (grow i) [] = N
      have hNl : 0 + (i + 1) ≤ N.length := by rw [← hN]; simp; omega
      have hput : (h.alloc N).arr h.next = N := by simp [Arrays.alloc]
      have hih := ih (h.alloc N) h.next 0 (i + 1) (by simp [Arrays.alloc]) (by rw [hput]; exact hNl)
      rw [hput] at hih
      have hr : fill grow h a o i (v :: vs) = ((fill grow (h.alloc N) h.next 0 (i + 1) vs).1, (fill grow (h.alloc N) h.next 0 (i + 1) vs).2.1,
          (fill grow (h.alloc N) h.next 0 (i + 1) vs).2.2.1, (storeInto [] v).2 && (fill grow (h.alloc N) h.next 0 (i + 1) vs).2.2.2) := by
        rw [fill, hA, if_neg hlt]
        simp only [hx, hN]
      rw [hr]
      generalize fill grow (h.alloc N) h.next 0 (i + 1) vs = r at hih
      obtain ⟨g1, g2, g3, g4, g5, g6, g7, g8⟩ := hih
      have hnx : (h.alloc N).next = h.next + 1 := rfl
      rw [hnx] at g1 g6 g8
      have e1 : N.drop (0 + (i + 1)) = List.replicate (grow i) [] := by
        rw [← hN, Nat.zero_add, List.drop_append, List.drop_eq_nil_of_le (by omega), hlen]
        simp
      have e3 : (N.drop 0).take (i + 1) = (A.drop o).take i ++ [x] := by
        rw [← hN, List.drop_zero, List.take_append, hlen, List.take_of_length_le (by omega)]
        simp
      have hst : ∀ n, Spec.stored (List.replicate n []) vs = Spec.stored [] vs := by
        clear g1 g2 g3 g4 g5 g6 g7 g8 hr ih
        induction vs with
        | nil => intro n; cases n <;> rfl
        | cons w vs ihv =>
          intro n
          cases n with
          | zero => rfl
          | succ n => rw [List.replicate_succ, Spec.stored, Spec.stored, ihv n]
      refine ⟨?_, ?_, ?_, g4, ?_, Nat.le_trans (Nat.le_succ _) g6, ?_, ?_⟩
      · intro b hb hba
        rw [g1 b (by omega) (by omega)]; simp [Arrays.alloc]; omega
      · rw [g1 a (by omega) (by omega), hA0, over_nil]
        simp only [Arrays.alloc]
        rw [if_neg (by omega), hA, List.take_of_length_le (by omega)]
        simp
      · rw [show i + (v :: vs).length = i + 1 + vs.length by simp; omega, g3, e1, e3, hA0, hst]
        simp [Spec.stored, ← storeInto_shown, hx]
      · rw [show i + (v :: vs).length = i + 1 + vs.length by simp; omega]; exact g5
      · simp only [List.all_cons, g7]
      · right
        show h.next ≤ r.2.1
        rcases g8 with g | g
        · omega
        · omega

/-- Storing a value that is not an array, or an empty one, leaves all arrays as they are. -/
theorem storeSlice_spec (grow : Nat → Nat) (h : Arrays) (dest : Option Slice) (hd : ∀ s, dest = some s → Spec.Holds h s) (v : JV) :
    let r := storeSlice grow h dest v
    (∀ b, b < h.next → (∀ s, dest = some s → s.addr ≠ b) → r.1.arr b = h.arr b)
    ∧ (∀ s, dest = some s → r.1.arr s.addr = (h.arr s.addr).take s.off ++ Spec.over ((h.arr s.addr).drop s.off) (Spec.items v))
    ∧ (∀ s, r.2.1 = some s → Spec.Holds r.1 s) ∧ h.next ≤ r.1.next
    ∧ (∀ vs, v = .arr vs → r.1.view r.2.1 = some (Spec.stored (Spec.room h dest) vs) ∧ r.2.2 = vs.all fun v => (storeInto [] v).2)
    ∧ ((∀ vs, v ≠ .arr vs) → r.1 = h) := by
  intro r
  cases v with
  | arr vs =>
    cases vs with
    | nil =>
      have hr : r = (h.alloc [], some ⟨h.next, 0, 0⟩, true) := rfl
      rw [hr]
      refine ⟨fun b hb _ => ?_, fun s hs => ?_, fun s hs => ?_, Nat.le_succ _, fun vs hvs => ?_, fun hv => absurd rfl (hv [])⟩
      · simp [Arrays.alloc]; omega
      · have := (hd s hs).1
        simp only [Arrays.alloc, Spec.items, Spec.over, List.take_append_drop]
        rw [if_neg (by omega)]
      · cases hs; exact ⟨Nat.lt_succ_self _, by simp⟩
      · cases hvs; refine ⟨?_, rfl⟩
        simp [Arrays.view, Arrays.elems, Spec.stored]
    | cons w vs =>
      cases dest with
      | none =>
        have hsp := fill_spec grow (w :: vs) (h.alloc []) h.next 0 0 (Nat.lt_succ_self _) (by simp)
        have hput : (h.alloc []).arr h.next = [] := by simp [Arrays.alloc]
        rw [hput] at hsp
        have hr : r = ((fill grow (h.alloc []) h.next 0 0 (w :: vs)).1,
          some ⟨(fill grow (h.alloc []) h.next 0 0 (w :: vs)).2.1, (fill grow (h.alloc []) h.next 0 0 (w :: vs)).2.2.1, (w :: vs).length⟩,
          (fill grow (h.alloc []) h.next 0 0 (w :: vs)).2.2.2) := rfl
        rw [hr]
        generalize fill grow (h.alloc []) h.next 0 0 (w :: vs) = q at hsp
        obtain ⟨g1, g2, g3, g4, g5, g6, g7, g8⟩ := hsp
        refine ⟨fun b hb _ => ?_, fun s hs => (nomatch hs), fun s hs => ?_, Nat.le_trans (Nat.le_succ _) g6, fun us hus => ?_, fun hv => absurd rfl (hv _)⟩
        · show q.1.arr b = _
          rw [g1 b (Nat.lt_succ_of_lt hb) (by omega)]; simp [Arrays.alloc]
          omega
        · cases hs
          exact ⟨g4, by simpa using g5⟩
        · cases hus
          refine ⟨?_, g7⟩
          simp only [Arrays.view, Option.map_some, Arrays.elems]
          simp only [Nat.zero_add] at g3
          rw [g3]; simp [Spec.room]
      | some s0 =>
        obtain ⟨hs1, hs2⟩ := hd s0 rfl
        have hsp := fill_spec grow (w :: vs) h s0.addr s0.off 0 hs1 (by omega)
        have hr : r = ((fill grow h s0.addr s0.off 0 (w :: vs)).1,
          some ⟨(fill grow h s0.addr s0.off 0 (w :: vs)).2.1, (fill grow h s0.addr s0.off 0 (w :: vs)).2.2.1, (w :: vs).length⟩,
          (fill grow h s0.addr s0.off 0 (w :: vs)).2.2.2) := rfl
        rw [hr]
        generalize fill grow h s0.addr s0.off 0 (w :: vs) = q at hsp
        obtain ⟨g1, g2, g3, g4, g5, g6, g7, g8⟩ := hsp
        refine ⟨fun b hb hb2 => ?_, fun s hs => ?_, fun s hs => ?_, g6, fun us hus => ?_, fun hv => absurd rfl (hv _)⟩
        · exact g1 b hb (fun hh => hb2 s0 rfl hh.symm)
        · cases hs
          exact g2
        · cases hs
          exact ⟨g4, by simpa using g5⟩
        · cases hus
          refine ⟨?_, g7⟩
          simp only [Arrays.view, Option.map_some, Arrays.elems]
          simp only [Nat.zero_add] at g3
          rw [g3]; simp [Spec.room]
  | null =>
    have hr : r = (h, none, true) := rfl
    rw [hr]
    refine ⟨fun b hb _ => rfl, fun s hs => ?_, fun s hs => (nomatch hs), Nat.le_refl _, fun vs hvs => (nomatch hvs), fun _ => rfl⟩
    simp [Spec.items, Spec.over]
  | _ =>
    have hr : r = (h, dest, false) := rfl
    rw [hr]
    refine ⟨fun b hb _ => rfl, fun s hs => ?_, fun s hs => hd s hs, Nat.le_refl _, fun vs hvs => (nomatch hvs), fun _ => rfl⟩
    simp [Spec.items, Spec.over]

/-- With room enough, nothing moves. -/
theorem fill_inplace (grow : Nat → Nat) : ∀ (vs : List JV) (h : Arrays) (a o i : Nat), o + i + vs.length ≤ (h.arr a).length →
    (fill grow h a o i vs).2.1 = a ∧ (fill grow h a o i vs).2.2.1 = o := by
  intro vs
  induction vs with
  | nil => intro h a o i _; exact ⟨rfl, rfl⟩
  | cons v vs ih =>
    intro h a o i hl
    simp only [List.length_cons] at hl
    rw [fill, if_pos (by omega)]
    exact ih _ a o (i + 1) (by simp [Arrays.put]; omega)

/-! ### Strings: C100 -/

theorem scanH_text (grow : Nat → Nat) (sp : Nat → Bytes) (h : Arrays) (dest : Option Slice) (l : List Bytes) :
    stringsScanH grow sp h dest (stringsValue strings (some l)) = storeSlice grow h dest (jvStrs (some l)) := by
  have hne : (strings.enc (some l)).isEmpty = false := rfl
  have hp : parse (strings.enc (some l)) = some (jvStrs (some l)) := (reads_strs (by decide) (some l)).parse
  simp only [stringsValue, stringsScanH, sprint, hne, Bool.false_eq_true, if_false, hp]

/-- Two slices that start at the same place of the same array (as a copy of a slice value does). -/
def Spec.Copy (c s : Slice) : Prop := c.addr = s.addr ∧ c.off = s.off

theorem copy_after (grow : Nat → Nat) (h : Arrays) (s : Slice) (hs : Spec.Holds h s) (c : Slice) (hc : Spec.Copy c s) (v : JV) :
    (storeSlice grow h (some s) v).1.elems c = Spec.over (h.elems c) (Spec.items v) := by
  have := (storeSlice_spec grow h (some s) (fun t ht => by cases ht; exact hs) v).2.1 s rfl
  unfold Arrays.elems
  rw [hc.1, hc.2, this, List.drop_append, List.drop_take, ← over_take]
  have : s.off ≤ (h.arr s.addr).length := Nat.le_trans (Nat.le_add_right _ _) hs.2
  simp [Nat.min_eq_left this]

/-- **C100 for `Strings`, exactly**: a row is scanned into a destination that holds a slice, of which `c` is a copy taken before.  The destination shows the row; the copy shows the row's elements in
place of its own, as far as the row goes.  So the copy is what it was iff the row begins as the copy did. -/
theorem C100_strings_copy_after_next_scan (grow : Nat → Nat) (sp : Nat → Bytes) (h : Arrays) (s : Slice) (hs : Spec.Holds h s) (c : Slice) (hc : Spec.Copy c s) (l : List Bytes)
    (hl : ∀ x ∈ l, Spec.Utf8 x) :
    let r := stringsScanH grow sp h (some s) (stringsValue strings (some l))
    r.2.2 = true ∧ r.1.view r.2.1 = some l
    ∧ r.1.elems c = l.take (h.elems c).length ++ (h.elems c).drop l.length
    ∧ (r.1.elems c = h.elems c ↔ l.take (h.elems c).length = (h.elems c).take l.length) := by
  intro r
  have hr : r = storeSlice grow h (some s) (jvStrs (some l)) := scanH_text grow sp h (some s) l
  have hj : jvStrs (some l) = .arr (l.map .str) := by
    have : l.map (fun s => JV.str (sanitize s)) = l.map .str := List.map_inj_left.2 fun x hx => by rw [(sanitize_eq_iff x).2 (hl x hx)]
    rw [jvStrs, this]
  have hcp := copy_after grow h s hs c hc (.arr (l.map .str))
  obtain ⟨h1, h2, h3, h4, h5, h6⟩ := storeSlice_spec grow h (some s) (fun t ht => by cases ht; exact hs) (.arr (l.map .str))
  rw [hr, hj]
  obtain ⟨h7, h8⟩ := h5 _ rfl
  have hv : (storeSlice grow h (some s) (.arr (l.map .str))).1.elems c = l.take (h.elems c).length ++ (h.elems c).drop l.length := by
    rw [hcp]; exact over_str _ _
  refine ⟨?_, ?_, hv, ?_⟩
  · rw [h8]; simp [storeInto]
  · rw [h7, stored_str]
  · rw [hv]
    constructor
    · intro he
      generalize h.elems c = xs at he
      by_cases hle : l.length ≤ xs.length
      · have := congrArg (List.take l.length) he
        rw [List.take_of_length_le hle, List.take_left'  rfl] at this
        rw [List.take_of_length_le hle]; exact this
      · rw [List.drop_eq_nil_of_le (by omega), List.append_nil] at he
        rw [he, List.take_of_length_le (by omega)]
    · intro he
      rw [he, List.take_append_drop]

/-- Slices of other arrays are not touched, whatever is scanned, and whether it succeeds or not. -/
theorem C100_strings_others_kept (grow : Nat → Nat) (sp : Nat → Bytes) (h : Arrays) (dest : Option Slice) (hd : ∀ s, dest = some s → Spec.Holds h s) (d : DV) (c : Slice)
    (hc : c.addr < h.next) (hne : ∀ s, dest = some s → s.addr ≠ c.addr) :
    (stringsScanH grow sp h dest d).1.elems c = h.elems c := by
  have key : (stringsScanH grow sp h dest d).1.arr c.addr = h.arr c.addr := by
    have halloc : (h.alloc []).arr c.addr = h.arr c.addr := by simp [Arrays.alloc]; omega
    unfold stringsScanH
    split
    · rfl
    · split
      · exact halloc
      · split
        · rfl
        · exact (storeSlice_spec grow h dest hd _).1 c.addr hc hne
  unfold Arrays.elems
  rw [key]

/-- One row after the other, each into a variable of its own. -/
def scanFresh (grow : Nat → Nat) (sp : Nat → Bytes) : Arrays → List DV → Arrays × List (Option Slice × Bool)
  | h, [] => (h, [])
  | h, d :: ds =>
    let r := stringsScanH grow sp h none d
    let q := scanFresh grow sp r.1 ds
    (q.1, (r.2.1, r.2.2) :: q.2)

/-- One row after the other into the same variable, of which a copy is kept each time. -/
def scanReused (grow : Nat → Nat) (sp : Nat → Bytes) : Arrays → Option Slice → List DV → Arrays × List (Option Slice × Bool)
  | h, _, [] => (h, [])
  | h, dest, d :: ds =>
    let r := stringsScanH grow sp h dest d
    let q := scanReused grow sp r.1 r.2.1 ds
    (q.1, (r.2.1, r.2.2) :: q.2)

theorem scanH_holds (grow : Nat → Nat) (sp : Nat → Bytes) (h : Arrays) (dest : Option Slice) (hd : ∀ s, dest = some s → Spec.Holds h s) (d : DV) :
    (∀ s, (stringsScanH grow sp h dest d).2.1 = some s → Spec.Holds (stringsScanH grow sp h dest d).1 s) ∧ h.next ≤ (stringsScanH grow sp h dest d).1.next := by
  unfold stringsScanH
  split
  · exact ⟨fun s hs => (nomatch hs), Nat.le_refl _⟩
  · split
    · exact ⟨fun s hs => by cases hs; exact ⟨Nat.lt_succ_self _, by simp⟩, Nat.le_succ _⟩
    · split
      · exact ⟨hd, Nat.le_refl _⟩
      · exact ⟨(storeSlice_spec grow h dest hd _).2.2.1, (storeSlice_spec grow h dest hd _).2.2.2.1⟩

theorem scanFresh_keeps (grow : Nat → Nat) (sp : Nat → Bytes) : ∀ (ds : List DV) (h : Arrays) (c : Slice), c.addr < h.next → (scanFresh grow sp h ds).1.elems c = h.elems c
  | [], h, c, _ => rfl
  | d :: ds, h, c, hc => by
    have h1 := scanH_holds grow sp h none (fun s hs => by cases hs) d
    show (scanFresh grow sp (stringsScanH grow sp h none d).1 ds).1.elems c = _
    rw [scanFresh_keeps grow sp ds _ c (by omega)]
    exact C100_strings_others_kept grow sp h none (fun s hs => by cases hs) d c hc (fun s hs => by cases hs)

/-- **C100 for `Strings`, fresh variables**: however many rows are scanned, each into a variable of its own, in the end every variable shows its own row. -/
theorem C100_strings_fresh_rows (grow : Nat → Nat) (sp : Nat → Bytes) (rows : List (Option (List Bytes))) (hu : ∀ l ∈ rows, ∀ x, l = some x → ∀ s ∈ x, Spec.Utf8 s) (h : Arrays) :
    let r := scanFresh grow sp h (rows.map (stringsValue strings))
    r.2.map (fun x => (r.1.view x.1, x.2)) = rows.map fun l => (l, true) := by
  induction rows generalizing h with
  | nil => rfl
  | cons l rows ih =>
    intro r
    have ih' := ih (fun l' hl' => hu l' (List.mem_cons_of_mem _ hl')) (stringsScanH grow sp h none (stringsValue strings l)).1
    show List.map _ (_ :: _) = _
    rw [List.map_cons, List.map_cons]
    congr 1
    have hholds := scanH_holds grow sp h none (fun s hs => by cases hs) (stringsValue strings l)
    cases l with
    | none => rfl
    | some x =>
      have hx : ∀ s ∈ x, Spec.Utf8 s := hu (some x) (by simp) x rfl
      have hj : jvStrs (some x) = .arr (x.map .str) := by
        have : x.map (fun s => JV.str (sanitize s)) = x.map .str := List.map_inj_left.2 fun y hy => by rw [(sanitize_eq_iff y).2 (hx y hy)]
        rw [jvStrs, this]
      have hsc := scanH_text grow sp h none x
      rw [hj] at hsc
      obtain ⟨-, -, h3, h4, h5, -⟩ := storeSlice_spec grow h none (fun t ht => by cases ht) (.arr (x.map .str))
      obtain ⟨h7, h8⟩ := h5 _ rfl
      rw [stored_str] at h7
      have hok : (storeSlice grow h none (.arr (x.map .str))).2.2 = true := by rw [h8]; simp [storeInto]
      show ((scanFresh grow sp (stringsScanH grow sp h none (stringsValue strings (some x))).1 _).1.view (stringsScanH grow sp h none (stringsValue strings (some x))).2.1, _) = _
      rw [hsc]
      generalize storeSlice grow h none (.arr (x.map .str)) = q at h3 h4 h7 hok
      obtain ⟨q1, q2, q3⟩ := q
      cases q2 with
      | none => cases h7
      | some s =>
        have hk := scanFresh_keeps grow sp (rows.map (stringsValue strings)) q1 s (h3 s rfl).1
        show (some (Arrays.elems _ s), q3) = _
        rw [hk]
        simp only [Arrays.view, Option.map_some] at h7
        rw [h7]
        simp only at hok
        rw [hok]

theorem storeSlice_inplace (grow : Nat → Nat) (h : Arrays) (s : Slice) (vs : List JV) (hv : vs ≠ []) (hl : s.off + vs.length ≤ (h.arr s.addr).length) :
    (storeSlice grow h (some s) (.arr vs)).2.1 = some ⟨s.addr, s.off, vs.length⟩ := by
  cases vs with
  | nil => exact absurd rfl hv
  | cons v vs =>
    obtain ⟨h1, h2⟩ := fill_inplace grow (v :: vs) h s.addr s.off 0 (by omega)
    show some (Slice.mk _ _ _) = _
    rw [h1, h2]

theorem reused_aux (grow : Nat → Nat) (sp : Nat → Bytes) (n : Nat) (hn : n ≠ 0) : ∀ (rows : List (List Bytes)), rows ≠ [] → (∀ l ∈ rows, l.length = n) → (∀ l ∈ rows, ∀ s ∈ l, Spec.Utf8 s) →
    ∀ (h : Arrays) (s : Slice), Spec.Holds h s → s.len = n →
    let r := scanReused grow sp h (some s) (rows.map fun l => stringsValue strings (some l))
    r.1.elems s = rows.getLast?.getD [] ∧ ∀ x ∈ r.2, x = (some s, true) := by
  intro rows
  induction rows with
  | nil => intro h; exact absurd rfl h
  | cons l rows ih =>
    intro _ hlen hu h s hs hsn
    have hl : l.length = n := hlen l (by simp)
    have hlne : l.map JV.str ≠ [] := by cases l with
      | nil => simp at hl; omega
      | cons => simp
    have hj : jvStrs (some l) = .arr (l.map .str) := by
      have : l.map (fun s => JV.str (sanitize s)) = l.map .str := List.map_inj_left.2 fun y hy => by rw [(sanitize_eq_iff y).2 (hu l (by simp) y hy)]
      rw [jvStrs, this]
    have hsc := scanH_text grow sp h (some s) l
    rw [hj] at hsc
    have hin := storeSlice_inplace grow h s (l.map .str) hlne (by rw [List.length_map]; have := hs.2; omega)
    have hse : (⟨s.addr, s.off, (l.map JV.str).length⟩ : Slice) = s := by
      rw [List.length_map, hl, ← hsn]
    rw [hse] at hin
    obtain ⟨-, -, h3, h4, h5, -⟩ := storeSlice_spec grow h (some s) (fun t ht => by cases ht; exact hs) (.arr (l.map .str))
    obtain ⟨h7, h8⟩ := h5 _ rfl
    rw [stored_str, hin] at h7
    have hok : (storeSlice grow h (some s) (.arr (l.map .str))).2.2 = true := by rw [h8]; simp [storeInto]
    have hh := h3 s hin
    intro r
    have hr : r = ((scanReused grow sp (storeSlice grow h (some s) (.arr (l.map .str))).1 (some s) (rows.map fun l => stringsValue strings (some l))).1,
        (some s, true) :: (scanReused grow sp (storeSlice grow h (some s) (.arr (l.map .str))).1 (some s) (rows.map fun l => stringsValue strings (some l))).2) := by
      show ((scanReused grow sp (stringsScanH grow sp h (some s) (stringsValue strings (some l))).1 (stringsScanH grow sp h (some s) (stringsValue strings (some l))).2.1 _).1,
        ((stringsScanH grow sp h (some s) (stringsValue strings (some l))).2.1, (stringsScanH grow sp h (some s) (stringsValue strings (some l))).2.2) ::
        (scanReused grow sp (stringsScanH grow sp h (some s) (stringsValue strings (some l))).1 (stringsScanH grow sp h (some s) (stringsValue strings (some l))).2.1 _).2) = _
      rw [hsc, hin, hok]
    rw [hr]
    generalize (storeSlice grow h (some s) (.arr (l.map .str))).1 = h' at h7 hh
    cases hrows : rows with
    | nil =>
      refine ⟨?_, ?_⟩
      · show h'.elems s = l
        simpa [Arrays.view] using h7
      · intro x hx
        simpa [scanReused] using hx
    | cons l' rows' =>
      rw [← hrows]
      obtain ⟨i1, i2⟩ := ih (by rw [hrows]; simp) (fun x hx => hlen x (List.mem_cons_of_mem _ hx)) (fun x hx => hu x (List.mem_cons_of_mem _ hx)) h' s hh hsn
      refine ⟨?_, ?_⟩
      · show (scanReused grow sp h' (some s) _).1.elems s = _
        rw [i1, hrows]
        simp [List.getLast?_cons_cons]
      · intro x hx
        rcases List.mem_cons.1 hx with rfl | hx
        · rfl
        · exact i2 x hx

/-- **C100 fails for a reused variable**: rows of the same length (not zero) are scanned one after the other into one variable and a copy is kept of each; in the end every copy shows the last row. -/
theorem C100_strings_reused_all_copies_are_the_last_row (grow : Nat → Nat) (sp : Nat → Bytes) (n : Nat) (hn : n ≠ 0) (rows : List (List Bytes)) (hlen : ∀ l ∈ rows, l.length = n)
    (hu : ∀ l ∈ rows, ∀ s ∈ l, Spec.Utf8 s) (h : Arrays) :
    let r := scanReused grow sp h none (rows.map fun l => stringsValue strings (some l))
    r.2.map (fun x => (r.1.view x.1, x.2)) = rows.map fun _ => (rows.getLast?, true) := by
  cases rows with
  | nil => intro r; rfl
  | cons l rows =>
    have hl : l.length = n := hlen l (by simp)
    have hj : jvStrs (some l) = .arr (l.map .str) := by
      have : l.map (fun s => JV.str (sanitize s)) = l.map .str := List.map_inj_left.2 fun y hy => by rw [(sanitize_eq_iff y).2 (hu l (by simp) y hy)]
      rw [jvStrs, this]
    have hsc := scanH_text grow sp h none l
    rw [hj] at hsc
    obtain ⟨-, -, h3, h4, h5, -⟩ := storeSlice_spec grow h none (fun t ht => by cases ht) (.arr (l.map .str))
    obtain ⟨h7, h8⟩ := h5 _ rfl
    rw [stored_str] at h7
    have hok : (storeSlice grow h none (.arr (l.map .str))).2.2 = true := by rw [h8]; simp [storeInto]
    have hlenS : ∀ s, (storeSlice grow h none (.arr (l.map .str))).2.1 = some s → s.len = n := by
      intro s hs
      cases l with
      | nil => simp at hl; omega
      | cons x l =>
        have : s = ⟨_, _, ((x :: l).map JV.str).length⟩ := (Option.some.inj hs).symm
        rw [this]
        simpa using hl
    intro r
    have hr : r = ((scanReused grow sp (storeSlice grow h none (.arr (l.map .str))).1 (storeSlice grow h none (.arr (l.map .str))).2.1 (rows.map fun l => stringsValue strings (some l))).1,
        ((storeSlice grow h none (.arr (l.map .str))).2.1, true) ::
          (scanReused grow sp (storeSlice grow h none (.arr (l.map .str))).1 (storeSlice grow h none (.arr (l.map .str))).2.1 (rows.map fun l => stringsValue strings (some l))).2) := by
      show ((scanReused grow sp (stringsScanH grow sp h none (stringsValue strings (some l))).1 (stringsScanH grow sp h none (stringsValue strings (some l))).2.1 _).1,
        ((stringsScanH grow sp h none (stringsValue strings (some l))).2.1, (stringsScanH grow sp h none (stringsValue strings (some l))).2.2) ::
        (scanReused grow sp (stringsScanH grow sp h none (stringsValue strings (some l))).1 (stringsScanH grow sp h none (stringsValue strings (some l))).2.1 _).2) = _
      rw [hsc, hok]
    rw [hr]
    generalize storeSlice grow h none (.arr (l.map .str)) = q at h3 h4 h7 hlenS
    obtain ⟨q1, q2, q3⟩ := q
    cases q2 with
    | none => cases h7
    | some s =>
      simp only [Arrays.view, Option.map_some, Option.some.injEq] at h7
      cases hrows : rows with
      | nil =>
        show [(some (q1.elems s), true)] = [(some l, true)]
        rw [h7]
      | cons l' rows' =>
        rw [← hrows]
        obtain ⟨i1, i2⟩ := reused_aux grow sp n hn rows (by rw [hrows]; simp) (fun x hx => hlen x (List.mem_cons_of_mem _ hx)) (fun x hx => hu x (List.mem_cons_of_mem _ hx)) q1 s
          (h3 s rfl) (hlenS s rfl)
        have hcount : (scanReused grow sp q1 (some s) (rows.map fun l => stringsValue strings (some l))).2.length = rows.length := by
          have : ∀ (ds : List DV) (h : Arrays) (t : Option Slice), (scanReused grow sp h t ds).2.length = ds.length := by
            intro ds
            induction ds with
            | nil => intro h t; rfl
            | cons d ds ihd => intro h t; show List.length (_ :: _) = _; rw [List.length_cons, ihd]; rfl
          rw [this, List.length_map]
        have hlast : (l :: rows).getLast? = some (rows.getLast?.getD []) := by
          rw [hrows, List.getLast?_cons_cons, List.getLast?_cons]
          rfl
        rw [hlast]
        generalize scanReused grow sp q1 (some s) (rows.map fun l => stringsValue strings (some l)) = w at i1 i2 hcount
        have hmap : ((some s, true) :: w.2).map (fun x => (w.1.view x.1, x.2)) = ((some s, true) :: w.2).map fun _ => (some (rows.getLast?.getD []), true) := by
          refine List.map_inj_left.2 fun x hx => ?_
          have : x = (some s, true) := by
            rcases List.mem_cons.1 hx with h | h
            · exact h
            · exact i2 x h
          rw [this]
          show (some (w.1.elems s), true) = _
          rw [i1]
        rw [hmap, List.map_const', List.map_const']
        simp [hcount]

end Types.GoJson
