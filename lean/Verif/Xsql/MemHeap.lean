import Verif.Xsql.MemModel
import Mathlib.Tactic.Linarith
set_option linter.unusedSimpArgs false
set_option linter.unusedVariables false
set_option linter.unusedSectionVars false
/- Lemmas about arrays and slices. -/
namespace Xsql

/-! ### goCopy -/
section
variable {β : Type}

theorem goCopy_length (d : List β) (i : Nat) (s : List β) (h : i + s.length ≤ d.length) : (goCopy d i s).length = d.length := by
  simp only [goCopy, List.length_append, List.length_take, List.length_drop]; omega

theorem goCopy_append (a r : List β) (i : Nat) (s : List β) (h : i + s.length ≤ a.length) : goCopy (a ++ r) i s = goCopy a i s ++ r := by
  have h1 : i ≤ a.length := by omega
  simp only [goCopy, List.length_append]
  rw [List.take_append_of_le_length h1, List.drop_append_of_le_length h, List.take_of_length_le (l := s) (by omega), List.take_of_length_le (l := s) (by omega)]
  simp

theorem goCopy_end (a s : List β) (r : List β) (h : s.length ≤ r.length) : goCopy (a ++ r) a.length s = a ++ s ++ r.drop s.length := by
  simp only [goCopy, List.length_append]
  rw [List.take_left', List.take_of_length_le (by omega), List.drop_append]
  · simp
  · rfl

theorem goCopy_take (d : List β) (i : Nat) (s : List β) : goCopy d i (s.take (d.length - i)) = goCopy d i s := by
  simp only [goCopy, List.take_take, Nat.min_self, List.length_take]
  congr 1
  by_cases h : s.length ≤ d.length - i
  · rw [Nat.min_eq_right h]
  · rw [List.drop_eq_nil_of_le (by omega), List.drop_eq_nil_of_le (by omega)]

theorem goCopy_nil (d : List β) (i : Nat) : goCopy d i [] = d := by simp [goCopy]

theorem goCopy_take_lt (d : List β) (i n : Nat) (s : List β) (h : n ≤ i) (h' : i ≤ d.length) : (goCopy d i s).take n = d.take n := by
  simp only [goCopy, List.append_assoc]
  rw [List.take_append_of_le_length (by simp; omega), List.take_take, Nat.min_eq_left h]

theorem goCopy_one (d : List β) (i : Nat) (c : β) (h : i < d.length) : goCopy d i [c] = d.set i c := by
  simp only [goCopy, List.length_singleton]
  rw [List.take_of_length_le (l := [c]) (by simp; omega), List.set_eq_take_append_cons_drop]
  simp [h]

end

/-! ### Slices over arrays -/
namespace Heap
variable {β : Type}

/-- The slice starts its array and shows these elements. -/
def Shows (h : Heap β) (s : Slice) (xs : List β) : Prop := s.off = 0 ∧ s.len = xs.length ∧ s.arr < h.next ∧ ∃ rest, h.cell s.arr = xs ++ rest

theorem Shows.read {h : Heap β} {s : Slice} {xs : List β} (k : h.Shows s xs) : h.read s = xs := by
  obtain ⟨h1, h2, _, r, h3⟩ := k
  simp [Heap.read, h1, h2, h3]

/-- A slice that can be used as the source for a slice `d`. -/
def Src (h : Heap β) (d s : Slice) (xs : List β) : Prop :=
  s.len = xs.length ∧ (xs ≠ [] → s.arr < h.next ∧ (∃ pre post, h.cell s.arr = pre ++ xs ++ post ∧ pre.length = s.off) ∧ (s.arr = d.arr → s.off = 0 ∧ s.len ≤ d.len))

theorem Src.read {h : Heap β} {d s : Slice} {xs : List β} (k : h.Src d s xs) : h.read s = xs := by
  obtain ⟨h1, h2⟩ := k
  by_cases hx : xs = []
  · subst hx; simp [Heap.read, h1]
  · obtain ⟨_, ⟨pre, post, h3, h4⟩, _⟩ := h2 hx
    simp [Heap.read, h1, h3, ← h4]

/-- The arrays of `h` other than `a` are the same in `h'`; `a'` is `a` or new. -/
structure Step (h h' : Heap β) (a a' : Nat) : Prop where
  next : h.next ≤ h'.next
  cell : ∀ i < h.next, i ≠ a → h'.cell i = h.cell i
  own : a' = a ∨ h.next ≤ a'

theorem Step.refl (h : Heap β) (a : Nat) : Step h h a a := ⟨le_refl _, fun _ _ _ => rfl, .inl rfl⟩

theorem Step.trans {h h' h'' : Heap β} {a a' a'' : Nat} (k : Step h h' a a') (k' : Step h' h'' a' a'') : Step h h'' a a'' where
  next := le_trans k.next k'.next
  cell i hi ha := by
    have hn := k.next
    rw [k'.cell i (by omega) (by rcases k.own with e | e <;> omega), k.cell i hi ha]
  own := by
    have hn := k.next
    rcases k'.own with e | e
    · rw [e]; exact k.own
    · right; omega

theorem Step.shows {h h' : Heap β} {a a' : Nat} (k : Step h h' a a') {s : Slice} {xs : List β} (hs : h.Shows s xs) (hne : s.arr ≠ a) : h'.Shows s xs := by
  obtain ⟨h1, h2, h3, r, h4⟩ := hs
  have hn := k.next
  exact ⟨h1, h2, by omega, r, by rw [k.cell _ h3 hne, h4]⟩

theorem alloc_cell (h : Heap β) (xs : List β) (a : Nat) : (h.alloc xs).cell a = if a = h.next then xs else h.cell a := rfl

theorem alloc_step (h : Heap β) (xs : List β) (a : Nat) : Step h (h.alloc xs) a a where
  next := by simp [alloc]
  cell i hi _ := by simp [alloc]; omega
  own := .inl rfl

theorem store_cell (h : Heap β) (arr off : Nat) (xs : List β) (a : Nat) : (h.store arr off xs).cell a = if a = arr then goCopy (h.cell arr) off xs else h.cell a := rfl

theorem store_step (h : Heap β) (arr off : Nat) (xs : List β) : Step h (h.store arr off xs) arr arr where
  next := by simp [store]
  cell i _ hne := by simp [store, hne]
  own := .inl rfl

variable [Inhabited β]

/-- What `append` does. -/
theorem append_spec (h : Heap β) (d : Slice) (old xs : List β) (hd : h.Shows d old) :
    let r := h.append d xs
    r.1.Shows r.2 (old ++ xs) ∧ Step h r.1 d.arr r.2.arr ∧ (∀ a, a ≠ r.2.arr → r.1.cell a = h.cell a) ∧ (r.2.arr = d.arr ∨ r.2.arr = h.next) ∧
      (r.2.arr = d.arr → r.1.cell d.arr = goCopy (h.cell d.arr) d.len xs ∧ d.len + xs.length ≤ (h.cell d.arr).length) := by
  obtain ⟨h1, h2, h3, rest, h4⟩ := hd
  simp only [append]
  split
  · next hc =>
    simp only [cap, h1, h4, List.length_append, h2] at hc
    refine ⟨⟨h1, by simp [h2], h3, rest.drop xs.length, ?_⟩, by simpa using store_step .., ?_, .inl rfl, fun _ => ⟨?_, ?_⟩⟩
    · simp only [store_cell, if_true, h1, h2, h4, Nat.zero_add]
      rw [goCopy_end _ _ _ (by omega)]
    · intro a ha; simp only [store_cell]; rw [if_neg ha]
    · simp [store_cell, h1]
    · simp only [h4, List.length_append]; omega
  · have hr : h.read d = old := by simp [Heap.read, h1, h2, h4]
    rw [hr]
    refine ⟨⟨rfl, by simp [h2], by simp [alloc], List.replicate (h.room h.next) default, by simp [alloc]⟩, ?_, ?_, .inr rfl, ?_⟩
    · have := alloc_step h (old ++ xs ++ List.replicate (h.room h.next) default) d.arr
      exact ⟨this.next, this.cell, .inr (le_refl _)⟩
    · intro a ha; simp only [alloc_cell]; rw [if_neg ha]
    · intro e; dsimp only at e; omega

/-- What `insertAt` does. -/
theorem insertAt_spec (h : Heap β) (d s : Slice) (old xs : List β) (i : Nat) (hd : h.Shows d old) (hs : h.Src d s xs) :
    let r := h.insertAt d s i
    r.1.Shows r.2 (Xsql.insertAt old xs i) ∧ Step h r.1 d.arr r.2.arr ∧ (xs = [] → r = (h, d)) := by
  have hrd := hs.read
  by_cases hx : xs = []
  · subst hx
    have : s.len = 0 := hs.1
    simp only [insertAt, this, Nat.lt_irrefl, if_false, Xsql.insertAt, List.length_nil, gt_iff_lt]
    exact ⟨hd, Step.refl .., fun _ => trivial⟩
  · have hlen : 0 < xs.length := List.length_pos_iff.2 hx
    obtain ⟨hsl, hs2⟩ := hs
    obtain ⟨hsn, ⟨pre, post, hcell, hpre⟩, hal⟩ := hs2 hx
    have hd0 := hd
    obtain ⟨hd1, hd2, hd3, rest0, hd4⟩ := hd0
    obtain ⟨ap, st, oth, own, inpl⟩ := append_spec h d old xs hd
    simp only [insertAt, hsl, hlen, gt_iff_lt, if_true, hrd, Xsql.insertAt, hd2]
    generalize hr : h.append d xs = r at *
    obtain ⟨h1, d1⟩ := r
    dsimp only at *
    refine ⟨?_, ?_, fun e => absurd e hx⟩
    · by_cases hi : i < old.length
      · rw [if_pos hi, if_pos hi]
        obtain ⟨a1, a2, a3, rest, a4⟩ := ap
        have e1 : h1.read (d1.from i) = (old ++ xs).drop i := by
          simp only [Heap.read, Slice.from, a1, a2, a4, Nat.zero_add]
          rw [List.drop_append_of_le_length (by simp; omega), List.take_append_of_le_length (by simp), List.take_of_length_le (by simp)]
        have e2 : d1.len - (i + xs.length) = old.length - i := by rw [a2]; simp; omega
        have e3 : (h1.copy (d1.from (i + xs.length)) (d1.from i)).cell d1.arr = goCopy (old ++ xs) (i + xs.length) ((old ++ xs).drop i) ++ rest := by
          simp only [Heap.copy, store_cell, Slice.from, if_true, e2, a1, a4, Nat.zero_add]
          have := e1
          simp only [Slice.from, a1, Nat.zero_add] at this
          rw [this, goCopy_append _ _ _ _ (by simp; omega), ← goCopy_take (old ++ xs) (i + xs.length) ((old ++ xs).drop i)]
          congr 3; simp; omega
        have e4 : (h1.copy (d1.from (i + xs.length)) (d1.from i)).read s = xs := by
          by_cases hsa : s.arr = d1.arr
          · have hda : d1.arr = d.arr := by rcases own with e | e <;> omega
            obtain ⟨b1, b2⟩ := hal (by omega)
            have hxs : xs = old.take xs.length := by
              have : pre = [] := by rw [b1] at hpre; exact List.eq_nil_of_length_eq_zero hpre
              subst this
              rw [hsa, hda, hd4] at hcell
              have := congrArg (List.take xs.length) hcell
              simp only [List.nil_append, List.take_left'] at this
              rw [List.take_append_of_le_length (by omega)] at this
              exact this.symm
            have : (goCopy (old ++ xs) (i + xs.length) ((old ++ xs).drop i)).take xs.length = xs := by
              rw [goCopy_take_lt _ _ _ _ (by omega) (by simp; omega), List.take_append_of_le_length (by omega), ← hxs]
            simp only [Heap.read, hsa, e3, b1, hsl, List.drop_zero]
            rw [List.take_append_of_le_length, this]
            simp only [goCopy, List.length_append, List.length_take, List.length_drop]; omega
          · simp only [Heap.read, Heap.copy, store_cell, Slice.from, if_neg hsa]
            rw [oth _ hsa, hcell]; simp [hsl, ← hpre]
        refine ⟨a1, ?_, ?_, rest, ?_⟩
        · rw [a2]; simp only [goCopy, List.length_append, List.length_take, List.length_drop]; omega
        · simp only [copy, store]; exact a3
        · have hlenA : (goCopy (old ++ xs) (i + xs.length) ((old ++ xs).drop i)).length = (old ++ xs).length := by
            simp only [goCopy, List.length_append, List.length_take, List.length_drop]; omega
          generalize h1.copy (d1.from (i + xs.length)) (d1.from i) = h2 at *
          simp only [Heap.copy, e4, store_cell, Slice.from, if_true, a1, Nat.zero_add, e3]
          rw [List.take_of_length_le (by rw [a2]; simp; omega), goCopy_append _ _ _ _ (by rw [hlenA]; simp; omega)]
      · rw [if_neg hi, if_neg hi]; exact ap
    · by_cases hi : i < old.length
      · rw [if_pos hi]
        refine st.trans ?_
        simp only [Heap.copy, Slice.from]
        exact (store_step ..).trans (store_step ..)
      · rw [if_neg hi]; exact st

/-- `copy(d[i:], s)` inside the slice. -/
theorem copy_spec (h : Heap β) (d s : Slice) (old xs : List β) (i : Nat) (hi : i ≤ old.length) (hd : h.Shows d old) (hs : h.Src d s xs) :
    (h.copy (d.from i) s).Shows d (goCopy old i xs) ∧ Step h (h.copy (d.from i) s) d.arr d.arr := by
  have hrd := hs.read
  obtain ⟨h1, h2, h3, rest, h4⟩ := hd
  refine ⟨⟨h1, ?_, h3, rest, ?_⟩, store_step ..⟩
  · simp only [goCopy, List.length_append, List.length_take, List.length_drop]; omega
  · simp only [Heap.copy, hrd, store_cell, Slice.from, if_true, h1, Nat.zero_add, h2, h4]
    rw [goCopy_append _ _ _ _ (by simp; omega), goCopy_take]

/-- `makeCopy`. -/
theorem makeCopy_spec (h : Heap β) (d : Slice) (old : List β) (c : Nat) (hd : h.Shows d old) (a : Nat) :
    let r := h.makeCopy d c
    r.1.Shows r.2 old ∧ Step h r.1 a r.2.arr := by
  have hr := hd.read
  obtain ⟨h1, h2, h3, rest, h4⟩ := hd
  refine ⟨⟨rfl, h2, by simp [makeCopy, alloc], List.replicate (c - d.len) default, by simp [makeCopy, alloc, hr]⟩, ?_⟩
  have := alloc_step h (h.read d ++ List.replicate (c - d.len) default) a
  exact ⟨this.next, this.cell, .inr (le_refl _)⟩

end Heap
end Xsql
