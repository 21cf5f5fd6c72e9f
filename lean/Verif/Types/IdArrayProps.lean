import Verif.Types.IdArray
import Verif.Types.IdLemmas
set_option linter.unusedSimpArgs false
set_option linter.unusedVariables false
/-! Properties C14, C15, C16 and C62: `xdb.IDArray`. -/
namespace Types

/-! ### Specification -/

/-- One element per value, in order of first occurrence. -/
def Spec.firsts : List UInt64 → List UInt64
  | [] => []
  | x :: xs => x :: (Spec.firsts xs).filter (· ≠ x)

/-- `a` followed by the values of `b` that are new. -/
def Spec.union (a b : List UInt64) : List UInt64 := a ++ (Spec.firsts b).filter (· ∉ a)

theorem firsts_mem (l : List UInt64) (x : UInt64) : x ∈ Spec.firsts l ↔ x ∈ l := by
  induction l with
  | nil => rfl
  | cons y l ih =>
    simp only [Spec.firsts, List.mem_cons, List.mem_filter, decide_eq_true_eq]
    rw [ih]
    by_cases h : x = y <;> simp [h]

theorem firsts_nodup (l : List UInt64) : (Spec.firsts l).Nodup := by
  induction l with
  | nil => exact .nil
  | cons y l ih =>
    rw [Spec.firsts, List.nodup_cons]
    refine ⟨by simp, ih.filter _⟩

theorem firsts_of_nodup {l : List UInt64} (h : l.Nodup) : Spec.firsts l = l := by
  induction l with
  | nil => rfl
  | cons y l ih =>
    rw [List.nodup_cons] at h
    rw [Spec.firsts, ih h.2]
    congr 1
    rw [List.filter_eq_self]
    intro a ha
    simp only [decide_eq_true_eq]
    rintro rfl; exact h.1 ha

/-- Adding one value at the end, if new. -/
def addPure (a : List UInt64) (x : UInt64) : List UInt64 := if x ∈ a then a else a ++ [x]

theorem foldl_addPure : ∀ (b a : List UInt64), b.foldl addPure a = Spec.union a b := by
  intro b
  induction b with
  | nil => intro a; simp [Spec.union, Spec.firsts]
  | cons x b ih =>
    intro a
    rw [List.foldl_cons, ih]
    unfold addPure Spec.union
    by_cases hx : x ∈ a
    · rw [if_pos hx]
      simp only [Spec.firsts, List.filter_cons, hx, not_true_eq_false, decide_false, Bool.false_eq_true, if_false, List.filter_filter]
      congr 1
      apply List.filter_congr
      intro y hy
      by_cases hya : y ∈ a
      · simp [hya]
      · have : y ≠ x := by rintro rfl; exact hya hx
        simp [hya, this]
    · rw [if_neg hx]
      simp only [Spec.firsts, List.filter_cons, hx, not_false_eq_true, decide_true, if_true, List.filter_filter, List.append_assoc,
        List.singleton_append]
      congr 2
      apply List.filter_congr
      intro y hy
      by_cases hya : y = x <;> simp [hya]

/-! ### The memory -/

theorem arrayOf_lt {m : Mem} {s : Slice} (h : 0 < (arrayOf m s).length) : ∃ a, s.arr = some a ∧ a < m.length := by
  unfold arrayOf at h
  cases ha : s.arr with
  | none => rw [ha] at h; simp at h
  | some a =>
    refine ⟨a, rfl, ?_⟩
    rw [ha] at h
    simp only at h
    rcases Nat.lt_or_ge a m.length with hl | hl
    · exact hl
    · rw [List.getElem?_eq_none_iff.2 hl] at h; simp at h

theorem take_set_len (l : List UInt64) (n : Nat) (x : UInt64) (h : n < l.length) : (l.set n x).take (n + 1) = l.take n ++ [x] := by
  rw [List.take_add_one]
  rw [List.take_set_of_le (Nat.le_refl n)]
  simp [h]

/-- `append` shows the old elements followed by the new one, and fits. -/
theorem append1_read (g : Nat → Nat) (m : Mem) (s : Slice) (x : UInt64) (hs : SliceOk m s) :
    read (append1 g m s x).1 (append1 g m s x).2 = read m s ++ [x] ∧ SliceOk (append1 g m s x).1 (append1 g m s x).2 := by
  unfold append1
  by_cases h : s.len < (arrayOf m s).length
  · rw [if_pos h]
    obtain ⟨a, ha, hlt⟩ := arrayOf_lt (m := m) (s := s) (by omega)
    have harr : ∀ (k : Nat), arrayOf (m.set a ((arrayOf m s).set s.len x)) ⟨some a, k⟩ = (arrayOf m s).set s.len x := by
      intro k; simp [arrayOf, hlt]
    simp only [ha]
    constructor
    · unfold read
      rw [harr]
      exact take_set_len _ _ _ h
    · refine ⟨?_, ?_⟩
      · rw [harr]; simp; omega
      · intro b hb; simp only [Option.some.injEq] at hb; subst hb; simpa using hlt
  · rw [if_neg h]
    have hl : (read m s).length = s.len := by
      unfold read; rw [List.length_take]; have := hs.1; omega
    constructor
    · generalize hrd : read m s = rd at *
      have e : arrayOf (m ++ [rd ++ x :: List.replicate (g s.len) 0]) ⟨some m.length, s.len + 1⟩
          = rd ++ x :: List.replicate (g s.len) 0 := by simp [arrayOf]
      conv => lhs; unfold read
      simp only
      rw [e, show s.len + 1 = (rd ++ [x]).length from by simp [hl],
        show rd ++ x :: List.replicate (g s.len) 0 = (rd ++ [x]) ++ List.replicate (g s.len) 0 from by simp]
      exact List.take_left
    · refine ⟨?_, ?_⟩
      · simp only [arrayOf, List.getElem?_append_right (Nat.le_refl _), Nat.sub_self, List.getElem?_cons_zero, Option.getD_some]
        simp [hl]
      · intro b hb; simp only [Option.some.injEq] at hb; subst hb; simp

/-- `append` disturbs only slices of the same array that are longer than the receiver. -/
theorem append1_frame (g : Nat → Nat) (m : Mem) (s t : Slice) (x : UInt64) (ht : SliceOk m t)
    (h : t.arr ≠ s.arr ∨ t.len ≤ s.len) :
    read (append1 g m s x).1 t = read m t ∧ SliceOk (append1 g m s x).1 t := by
  unfold append1
  by_cases hc : s.len < (arrayOf m s).length
  · rw [if_pos hc]
    obtain ⟨a, ha, hlt⟩ := arrayOf_lt (m := m) (s := s) (by omega)
    simp only [ha]
    by_cases hta : t.arr = some a
    · have hle : t.len ≤ s.len := by
        rcases h with h | h
        · rw [hta, ha] at h; exact absurd rfl h
        · exact h
      have e1 : arrayOf m t = arrayOf m s := by unfold arrayOf; rw [hta, ha]
      have e2 : arrayOf (m.set a ((arrayOf m s).set s.len x)) t = (arrayOf m s).set s.len x := by
        unfold arrayOf; rw [hta, ha]; simp [hlt]
      refine ⟨?_, ?_, ?_⟩
      · unfold read
        rw [e1, e2, List.take_set_of_le hle]
      · rw [e2, List.length_set, ← e1]; exact ht.1
      · intro b hb; rw [List.length_set]; exact ht.2 b hb
    · have e2 : arrayOf (m.set a ((arrayOf m s).set s.len x)) t = arrayOf m t := by
        unfold arrayOf
        cases htb : t.arr with
        | none => rfl
        | some b =>
          have : a ≠ b := by rintro rfl; exact hta htb
          simp [this]
      refine ⟨?_, ?_, ?_⟩
      · unfold read; rw [e2]
      · rw [e2]; exact ht.1
      · intro b hb; rw [List.length_set]; exact ht.2 b hb
  · rw [if_neg hc]
    have e2 : arrayOf (m ++ [read m s ++ x :: List.replicate (g s.len) 0]) t = arrayOf m t := by
      unfold arrayOf
      cases htb : t.arr with
      | none => rfl
      | some b => simp only; rw [List.getElem?_append_left (ht.2 b htb)]
    refine ⟨?_, ?_, ?_⟩
    · show List.take t.len _ = List.take t.len _
      rw [e2]
    · rw [e2]; exact ht.1
    · intro b hb
      have := ht.2 b hb
      simp only [List.length_append, List.length_singleton]; omega

theorem read_length {m : Mem} {s : Slice} (h : SliceOk m s) : (read m s).length = s.len := by
  unfold read; rw [List.length_take]; have := h.1; omega

theorem add_read (g : Nat → Nat) (m : Mem) (s : Slice) (x : UInt64) (hs : SliceOk m s) :
    read (add g m s x).1 (add g m s x).2 = addPure (read m s) x ∧ SliceOk (add g m s x).1 (add g m s x).2 := by
  unfold add addPure
  split
  · exact ⟨rfl, hs⟩
  · exact append1_read g m s x hs

theorem add_frame (g : Nat → Nat) (m : Mem) (s t : Slice) (x : UInt64) (ht : SliceOk m t) (h : t.arr ≠ s.arr ∨ t.len ≤ s.len) :
    read (add g m s x).1 t = read m t ∧ SliceOk (add g m s x).1 t := by
  unfold add
  split
  · exact ⟨rfl, ht⟩
  · exact append1_frame g m s t x ht h

/-- Where an `append` result lives: the receiver's array (then it is at least as long), or a new one. -/
theorem add_place (g : Nat → Nat) (m : Mem) (s : Slice) (x : UInt64) :
    s.len ≤ (add g m s x).2.len ∧ ((add g m s x).2.arr = s.arr ∨ ((add g m s x).2.arr = some m.length ∧ (add g m s x).1.length = m.length + 1)) := by
  unfold add
  split
  · exact ⟨Nat.le_refl _, Or.inl rfl⟩
  · unfold append1
    split
    · cases h : s.arr with
      | none => exact ⟨Nat.le_refl _, Or.inl h⟩
      | some a => exact ⟨Nat.le_succ _, Or.inl rfl⟩
    · exact ⟨Nat.le_succ _, Or.inr ⟨rfl, by simp⟩⟩

/-- The loop of `Concat` when the argument lives in another array, or when the receiver is a prefix of a duplicate-free argument. -/
theorem concatLoop_sep (g : Nat → Nat) (other : Slice) : ∀ (f i : Nat) (m : Mem) (s : Slice), SliceOk m s → SliceOk m other →
    i + f = other.len → other.arr ≠ s.arr →
    read (concatLoop g other f i (m, s)).1 (concatLoop g other f i (m, s)).2 = ((read m other).drop i).foldl addPure (read m s)
    ∧ SliceOk (concatLoop g other f i (m, s)).1 (concatLoop g other f i (m, s)).2
    ∧ (∀ t, SliceOk m t → (t.arr ≠ s.arr ∨ t.len ≤ s.len) → read (concatLoop g other f i (m, s)).1 t = read m t) := by
  intro f
  induction f with
  | zero =>
    intro i m s hs ho hi hne
    refine ⟨?_, hs, fun t _ _ => rfl⟩
    rw [List.drop_of_length_le (by rw [read_length ho]; omega)]; rfl
  | succ f ih =>
    intro i m s hs ho hi hne
    rw [concatLoop]
    have hx : (read m other).drop i = (read m other).getD i 0 :: (read m other).drop (i + 1) := by
      have hlt : i < (read m other).length := by rw [read_length ho]; omega
      rw [List.drop_eq_getElem_cons hlt, List.getD_eq_getElem?_getD, List.getElem?_eq_getElem hlt]; rfl
    generalize hxe : (read m other).getD i 0 = x at hx
    simp only [hxe]
    obtain ⟨a1, a2⟩ := add_read g m s x hs
    obtain ⟨b1, b2⟩ := add_frame g m s other x ho (Or.inl hne)
    obtain ⟨c0, c1⟩ := add_place g m s x
    have hne' : other.arr ≠ (add g m s x).2.arr := by
      rcases c1 with c1 | ⟨c1, _⟩
      · rw [c1]; exact hne
      · rw [c1]; intro h; have := ho.2 _ h; omega
    obtain ⟨d1, d2, d3⟩ := ih (i + 1) (add g m s x).1 (add g m s x).2 a2 b2 (by omega) hne'
    refine ⟨?_, d2, ?_⟩
    · rw [d1, b1, a1, hx]; rfl
    · intro t ht h
      obtain ⟨e1, e2⟩ := add_frame g m s t x ht h
      rw [d3 t e2 ?_, e1]
      rcases c1 with c1 | ⟨c1, _⟩
      · rw [c1]
        rcases h with h | h
        · exact Or.inl h
        · exact Or.inr (by omega)
      · refine Or.inl ?_
        rw [c1]; intro h; have := ht.2 _ h; omega

theorem set_same {l : List UInt64} {n : Nat} {x : UInt64} (h : l[n]? = some x) : l.set n x = l := by
  have hn := (List.getElem?_eq_some_iff.1 h)
  obtain ⟨hl, rfl⟩ := hn
  exact List.set_getElem_self hl

theorem concatLoop_prefix (g : Nat → Nat) (other : Slice) (m : Mem) (ho : SliceOk m other) (hnd : (read m other).Nodup) :
    ∀ (f i : Nat) (s : Slice), s.arr = other.arr → i + f = other.len → i ≤ other.len → (s.len = i ∨ (i ≤ s.len ∧ s.len ≤ other.len)) →
    concatLoop g other f i (m, s) = (m, ⟨s.arr, max s.len other.len⟩) := by
  intro f
  induction f with
  | zero =>
    intro i s hs hi _ hlen
    rw [concatLoop]
    have : max s.len other.len = s.len := by omega
    rw [this]
  | succ f ih =>
    intro i s hs hi _ hlen
    have hlen : i ≤ s.len ∧ s.len ≤ other.len := by omega
    have hi' : i < other.len := by omega
    have harr : arrayOf m s = arrayOf m other := by unfold arrayOf; rw [hs]
    have hil : i < (read m other).length := by rw [read_length ho]; exact hi'
    have hx : (read m other).getD i 0 = (read m other)[i] := by
      rw [List.getD_eq_getElem?_getD, List.getElem?_eq_getElem hil]; rfl
    rw [concatLoop]
    simp only [hx]
    have hrs : read m s = (read m other).take s.len := by
      unfold read; rw [harr, List.take_take, Nat.min_eq_left hlen.2]
    by_cases hin : i < s.len
    · have hmem : (read m other)[i] ∈ read m s := by
        rw [hrs]
        exact List.mem_take_iff_getElem.2 ⟨i, by omega, rfl⟩
      rw [add, if_pos hmem]
      exact ih (i + 1) s hs (by omega) (by omega) (Or.inr ⟨hin, hlen.2⟩)
    · have hie : s.len = i := by omega
      have hmem : (read m other)[i] ∉ read m s := by
        rw [hrs]
        intro hm
        obtain ⟨j, hj, he⟩ := List.mem_take_iff_getElem.1 hm
        exact absurd he (by
          have := (List.pairwise_iff_getElem.1 hnd) j i (by omega) hil (by omega)
          exact this)
      have hcap : s.len < (arrayOf m s).length := by rw [harr]; have := ho.1; omega
      obtain ⟨a, ha, hlt⟩ := arrayOf_lt (m := m) (s := s) (by omega)
      have hget : (arrayOf m s)[s.len]? = some (read m other)[i] := by
        rw [harr, hie]
        have : (read m other)[i]? = some (read m other)[i] := List.getElem?_eq_getElem hil
        rw [← this]
        unfold read
        rw [List.getElem?_take_of_lt hi']
      have hstep : add g m s (read m other)[i] = (m, ⟨some a, s.len + 1⟩) := by
        rw [add, if_neg hmem, append1, if_pos hcap]
        simp only [ha]
        rw [set_same hget]
        have : m.set a (arrayOf m s) = m := by
          unfold arrayOf; rw [ha]
          simp only
          rw [List.getElem?_eq_getElem hlt, Option.getD_some]
          exact List.set_getElem_self hlt
        rw [this]
      rw [hstep]
      rw [ih (i + 1) ⟨some a, s.len + 1⟩ (by rw [← hs, ha]) (by omega) (by omega) (Or.inl (by simp [hie]))]
      rw [ha]
      congr 2
      simp only
      omega

/-! ### C14 -/

/-- C14 (Add): adding a value keeps the elements and their order and puts the value at the end if it is new;
a duplicate-free array stays duplicate-free and has exactly one more member. -/
theorem C14_add (g : Nat → Nat) (m : Mem) (s : Slice) (x : UInt64) (hs : SliceOk m s) :
    let r := add g m s x
    read r.1 r.2 = (if x ∈ read m s then read m s else read m s ++ [x])
    ∧ ((read m s).Nodup → (read r.1 r.2).Nodup) ∧ (∀ y, y ∈ read r.1 r.2 ↔ y = x ∨ y ∈ read m s) := by
  intro r
  have h := (add_read g m s x hs).1
  have hr : read r.1 r.2 = addPure (read m s) x := h
  refine ⟨hr, ?_, ?_⟩
  · intro hn
    rw [hr]; unfold addPure
    split
    · exact hn
    · rename_i hx
      rw [List.nodup_append]
      refine ⟨hn, by simp, ?_⟩
      intro a ha b hb
      simp only [List.mem_singleton] at hb
      subst hb; rintro rfl; exact hx ha
  · intro y
    rw [hr]; unfold addPure
    split
    · rename_i hx
      constructor
      · exact Or.inr
      · rintro (rfl | h)
        · exact hx
        · exact h
    · simp [or_comm]

/-- C14 (NewIDArray): one element per number, in order of first occurrence. -/
theorem C14_new (g : Nat → Nat) (m : Mem) (vals : List UInt64) :
    let r := newIDArray g m vals
    read r.1 r.2 = Spec.firsts vals ∧ (read r.1 r.2).Nodup ∧ ∀ y, y ∈ read r.1 r.2 ↔ y ∈ vals := by
  have key : ∀ (vals : List UInt64) (m : Mem) (s : Slice), SliceOk m s →
      read (vals.foldl (fun r v => add g r.1 r.2 v) (m, s)).1 (vals.foldl (fun r v => add g r.1 r.2 v) (m, s)).2
        = vals.foldl addPure (read m s) := by
    intro vals
    induction vals with
    | nil => intro m s _; rfl
    | cons v vals ih =>
      intro m s hs
      rw [List.foldl_cons, List.foldl_cons]
      obtain ⟨h1, h2⟩ := add_read g m s v hs
      rw [show (add g (m, s).1 (m, s).2 v) = ((add g m s v).1, (add g m s v).2) from rfl, ih _ _ h2, h1]
  intro r
  have h := key vals m nilSlice ⟨by simp [nilSlice, arrayOf], by simp [nilSlice]⟩
  have hr : read r.1 r.2 = Spec.firsts vals := by
    refine h.trans ?_
    rw [foldl_addPure]
    simp [Spec.union, read, nilSlice]
  rw [hr]
  exact ⟨rfl, firsts_nodup _, firsts_mem _⟩

example : Spec.firsts [3, 1, 3, 0, 1, 2] = [3, 1, 0, 2] := by decide

/-- C14 (Concat): for duplicate-free operands — wherever they live in memory, even if one is a prefix of the
other's backing array — the result is duplicate-free and has exactly the union of the members: the shorter operand
(the receiver on a tie) followed by the new members of the other, each in its order. -/
theorem C14_concat (g : Nat → Nat) (m : Mem) (n o : Slice) (hn : SliceOk m n) (ho : SliceOk m o)
    (dn : (read m n).Nodup) (d_o : (read m o).Nodup) :
    let r := concat g m n o
    (read r.1 r.2 = if (read m o).length < (read m n).length then read m o ++ (read m n).filter (· ∉ read m o)
      else read m n ++ (read m o).filter (· ∉ read m n))
    ∧ (read r.1 r.2).Nodup ∧ (∀ x, x ∈ read r.1 r.2 ↔ x ∈ read m n ∨ x ∈ read m o) := by
  have main : ∀ (a b : Slice), SliceOk m a → SliceOk m b → (read m a).Nodup → (read m b).Nodup → a.len ≤ b.len →
      read (concatLoop g b b.len 0 (m, a)).1 (concatLoop g b b.len 0 (m, a)).2 = read m a ++ (read m b).filter (· ∉ read m a) := by
    intro a b ha hb da db hle
    by_cases hab : b.arr = a.arr
    · rw [concatLoop_prefix g b m hb db b.len 0 a hab.symm (by omega) (by omega) (Or.inr ⟨by omega, hle⟩)]
      have harr : arrayOf m a = arrayOf m b := by unfold arrayOf; rw [hab]
      have e : read m ⟨a.arr, max a.len b.len⟩ = read m b := by
        unfold read
        rw [show max a.len b.len = b.len from by omega]
        congr 1
      simp only [e]
      have hpre : read m a = (read m b).take a.len := by
        unfold read; rw [harr, List.take_take, Nat.min_eq_left hle]
      have hsplit : read m b = read m a ++ (read m b).drop a.len := by rw [hpre]; exact (List.take_append_drop _ _).symm
      have hfil : (read m b).filter (· ∉ read m a) = (read m b).drop a.len := by
        generalize (read m b).drop a.len = d at hsplit
        have hdis := List.nodup_append.1 (hsplit ▸ db)
        rw [hsplit, List.filter_append]
        rw [List.filter_eq_nil_iff.2 (by simp), List.filter_eq_self.2]
        · rfl
        · intro y hy
          simp only [decide_eq_true_eq]
          intro hya
          exact hdis.2.2 y hya y hy rfl
      rw [hfil]; exact hsplit
    · obtain ⟨h1, _, _⟩ := concatLoop_sep g b b.len 0 m a ha hb (by omega) hab
      rw [h1, List.drop_zero, foldl_addPure, Spec.union, firsts_of_nodup db]
  intro r
  have hr : read r.1 r.2 = if (read m o).length < (read m n).length then read m o ++ (read m n).filter (· ∉ read m o)
      else read m n ++ (read m o).filter (· ∉ read m n) := by
    show read (concat g m n o).1 (concat g m n o).2 = _
    rw [read_length hn, read_length ho, concat]
    by_cases h : o.len < n.len
    · rw [if_pos h, if_pos h]; exact main o n ho hn d_o dn (by omega)
    · rw [if_neg h, if_neg h]; exact main n o hn ho dn d_o (by omega)
  have nd : ∀ (a b : List UInt64), a.Nodup → b.Nodup → (a ++ b.filter (· ∉ a)).Nodup := by
    intro a b ha hb
    rw [List.nodup_append]
    refine ⟨ha, hb.filter _, ?_⟩
    intro x hx y hy
    simp only [List.mem_filter, decide_eq_true_eq] at hy
    rintro rfl; exact hy.2 hx
  have mm : ∀ (a b : List UInt64) (x : UInt64), x ∈ a ++ b.filter (· ∉ a) ↔ x ∈ a ∨ x ∈ b := by
    intro a b x
    simp only [List.mem_append, List.mem_filter, decide_eq_true_eq]
    by_cases h : x ∈ a <;> simp [h]
  refine ⟨hr, ?_, ?_⟩
  · rw [hr]; split
    · exact nd _ _ d_o dn
    · exact nd _ _ dn d_o
  · intro x
    rw [hr]; split
    · rw [mm]; exact or_comm
    · exact mm _ _ _

/-- C14 (Concat of arbitrary arrays in different memory): the shorter operand as it is, followed by the new values of the
other in order of first occurrence. -/
theorem C14_concat_any (g : Nat → Nat) (m : Mem) (n o : Slice) (hn : SliceOk m n) (ho : SliceOk m o) (hne : n.arr ≠ o.arr) :
    let r := concat g m n o
    read r.1 r.2 = if (read m o).length < (read m n).length then Spec.union (read m o) (read m n) else Spec.union (read m n) (read m o) := by
  intro r
  show read (concat g m n o).1 (concat g m n o).2 = _
  rw [read_length hn, read_length ho, concat]
  by_cases h : o.len < n.len
  · rw [if_pos h, if_pos h]
    rw [(concatLoop_sep g n n.len 0 m o ho hn (by omega) hne).1, List.drop_zero, foldl_addPure]
  · rw [if_neg h, if_neg h]
    rw [(concatLoop_sep g o o.len 0 m n hn ho (by omega) (Ne.symm hne)).1, List.drop_zero, foldl_addPure]

/-- C14 (Contains, Overlaps): membership by number; `Overlaps` iff some number is shared, and it is symmetric. -/
theorem C14_contains_overlaps (l o : List UInt64) (x : UInt64) :
    (containsID l x = true ↔ x ∈ l) ∧ (overlaps l o = true ↔ ∃ y, y ∈ l ∧ y ∈ o) ∧ overlaps l o = overlaps o l := by
  have hc : ∀ (l : List UInt64) x, containsID l x = true ↔ x ∈ l := by intro l x; simp [containsID]
  have ho : ∀ (l o : List UInt64), overlaps l o = true ↔ ∃ y, y ∈ l ∧ y ∈ o := by
    intro l o; simp [overlaps, hc]
  refine ⟨hc l x, ho l o, ?_⟩
  rw [Bool.eq_iff_iff, ho, ho]
  constructor <;> rintro ⟨y, a, b⟩ <;> exact ⟨y, b, a⟩

/-- A worked case of the hypotheses: two slices of one array, one a prefix of the other. -/
example : SliceOk [[1, 2, 3, 0]] ⟨some 0, 2⟩ ∧ SliceOk [[1, 2, 3, 0]] ⟨some 0, 3⟩ ∧ (read [[1, 2, 3, 0]] ⟨some 0, 3⟩).Nodup := by
  simp [SliceOk, arrayOf, read]

/-! ### C62: arrays derived earlier -/

/-- C62 (Add, Concat leave the receiver and the argument alone): calling `Add` or `Concat` never changes what the
receiver, the argument, or any slice that is not a longer window on the operands' backing arrays, shows — provided the
operands do not share a backing array. -/
theorem C62_operands_unchanged_partial (g : Nat → Nat) (m : Mem) (n o : Slice) (x : UInt64) (hn : SliceOk m n) (ho : SliceOk m o) :
    read (add g m n x).1 n = read m n
    ∧ (∀ t, SliceOk m t → (t.arr ≠ n.arr ∨ t.len ≤ n.len) → read (add g m n x).1 t = read m t)
    ∧ (n.arr ≠ o.arr → read (concat g m n o).1 n = read m n ∧ read (concat g m n o).1 o = read m o)
    ∧ (n.arr ≠ o.arr → ∀ t, SliceOk m t → (t.arr ≠ n.arr ∨ t.len ≤ n.len) → (t.arr ≠ o.arr ∨ t.len ≤ o.len) →
        read (concat g m n o).1 t = read m t) := by
  have hcc : n.arr ≠ o.arr → ∀ t, SliceOk m t → (t.arr ≠ n.arr ∨ t.len ≤ n.len) → (t.arr ≠ o.arr ∨ t.len ≤ o.len) →
        read (concat g m n o).1 t = read m t := by
    intro hne t ht h1 h2
    rw [concat]
    split
    · exact (concatLoop_sep g n n.len 0 m o ho hn (by omega) hne).2.2 t ht h2
    · exact (concatLoop_sep g o o.len 0 m n hn ho (by omega) (Ne.symm hne)).2.2 t ht h1
  refine ⟨(add_frame g m n n x hn (Or.inr (Nat.le_refl _))).1, fun t ht h => (add_frame g m n t x ht h).1, ?_, hcc⟩
  intro hne
  exact ⟨hcc hne n hn (Or.inr (Nat.le_refl _)) (Or.inl hne), hcc hne o ho (Or.inl (Ne.symm hne)) (Or.inr (Nat.le_refl _))⟩

/-- C62 fails: two arrays derived from the same array can overwrite each other.  With the Go runtime's doubling,
`a := NewIDArray(1,2,3); b := a.Add(4); c := a.Add(5)` leaves `b` showing `1,2,3,5`. -/
theorem C62_siblings_overwritten :
    let g : Nat → Nat := fun n => if n = 0 then 0 else n - 1
    let a := newIDArray g [] [1, 2, 3]
    let b := add g a.1 a.2 4
    let c := add g b.1 a.2 5
    read b.1 b.2 = [1, 2, 3, 4] ∧ read c.1 b.2 = [1, 2, 3, 5] ∧ read c.1 c.2 = [1, 2, 3, 5] := by decide +kernel

/-- **C62, exactly**: after `b := a.Add(x)` and `c := a.Add(y)` with two different new values, `b` shows something else than before if and only if `a` had spare capacity. -/
theorem C62_siblings_overwritten_iff (g : Nat → Nat) (m : Mem) (a : Slice) (x y : UInt64) (ha : SliceOk m a) (hx : x ∉ read m a) (hy : y ∉ read m a) (hxy : x ≠ y) :
    read (add g (add g m a x).1 a y).1 (add g m a x).2 ≠ read (add g m a x).1 (add g m a x).2 ↔ a.len < (arrayOf m a).length := by
  have hread := (append1_read g m a x ha)
  have hax : read (append1 g m a x).1 a = read m a := (append1_frame g m a a x ha (.inr (Nat.le_refl _))).1
  unfold add
  rw [if_neg hx]
  rw [hax, if_neg hy]
  constructor
  · intro hne
    refine Classical.byContradiction fun hc => ?_
    apply hne
    have hnew : (append1 g m a x).2.arr = some m.length := by simp [append1, hc]
    refine (append1_frame g (append1 g m a x).1 a (append1 g m a x).2 y hread.2 (.inl ?_)).1
    rw [hnew]
    intro e
    have := ha.2 m.length e.symm
    omega
  · intro hc e
    obtain ⟨b, hb, hlt⟩ := arrayOf_lt (m := m) (s := a) (by omega)
    have e1 : append1 g m a x = (m.set b ((arrayOf m a).set a.len x), ⟨some b, a.len + 1⟩) := by
      simp only [append1, if_pos hc, hb]
    have harr : arrayOf (m.set b ((arrayOf m a).set a.len x)) a = (arrayOf m a).set a.len x := by
      simp [arrayOf, hb, hlt]
    have e2 : append1 g (append1 g m a x).1 a y = ((append1 g m a x).1.set b ((arrayOf (append1 g m a x).1 a).set a.len y), ⟨some b, a.len + 1⟩) := by
      have : a.len < (arrayOf (append1 g m a x).1 a).length := by rw [e1]; simp only [harr]; simpa using hc
      generalize (append1 g m a x).1 = m' at this ⊢
      unfold append1
      rw [if_pos this]
      simp only [hb]
    have hok : SliceOk (append1 g m a x).1 a := (append1_frame g m a a x ha (.inr (Nat.le_refl _))).2
    have h2 := (append1_read g (append1 g m a x).1 a y hok).1
    have hs : (append1 g (append1 g m a x).1 a y).2 = (append1 g m a x).2 := by rw [e2, e1]
    rw [hs, hax] at h2
    rw [h2, hread.1] at e
    have := List.append_cancel_left e
    exact hxy (by simpa using this.symm)

/-- C62 (Sort): sorting reorders every window on the same backing array; other arrays are untouched. -/
theorem C62_sort_in_place (m : Mem) (s t : Slice) (hs : SliceOk m s) (ht : SliceOk m t) :
    (t.arr ≠ s.arr → read (sortIDs m s).1 t = read m t) ∧ (sortIDs m s).2 = s := by
  unfold sortIDs
  split
  · exact ⟨fun _ => rfl, rfl⟩
  · cases ha : s.arr with
    | none => exact ⟨fun _ => rfl, rfl⟩
    | some a =>
      refine ⟨?_, rfl⟩
      intro hne
      unfold read arrayOf
      cases hb : t.arr with
      | none => rfl
      | some b =>
        have : a ≠ b := by rintro rfl; exact hne (by rw [hb])
        simp [this]

/-! ### C15 -/

/-- C15 (Sort): the array becomes the ascending permutation of its elements — the result of any sorting algorithm. -/
theorem C15_sort (m : Mem) (s : Slice) (hs : SliceOk m s) :
    let r := sortIDs m s
    (read r.1 r.2).Perm (read m s) ∧ (read r.1 r.2).Pairwise (· ≤ ·)
    ∧ ∀ l : List UInt64, l.Perm (read m s) → l.Pairwise (· ≤ ·) → l = read r.1 r.2 := by
  intro r
  have ht : ∀ a b c : UInt64, decide (a ≤ b) = true → decide (b ≤ c) = true → decide (a ≤ c) = true := by
    intro a b c h1 h2; simp only [decide_eq_true_eq] at *; exact UInt64.le_trans h1 h2
  have hto : ∀ a b : UInt64, (decide (a ≤ b) || decide (b ≤ a)) = true := by
    intro a b; simp only [Bool.or_eq_true, decide_eq_true_eq]; exact UInt64.le_total a b
  have han : ∀ a b : UInt64, decide (a ≤ b) = true → decide (b ≤ a) = true → a = b := by
    intro a b h1 h2; simp only [decide_eq_true_eq] at *; exact UInt64.le_antisymm h1 h2
  have hr : read r.1 r.2 = Util.sort (fun x y => decide (x ≤ y)) (read m s) := by
    show read (sortIDs m s).1 (sortIDs m s).2 = _
    unfold sortIDs
    by_cases h : s.len < 2
    · rw [if_pos h]
      have hl := read_length hs
      cases hrd : read m s with
      | nil => rfl
      | cons y l =>
        cases l with
        | nil => rfl
        | cons z l => rw [hrd] at hl; simp at hl; omega
    · rw [if_neg h]
      cases ha : s.arr with
      | none => have := hs.1; unfold arrayOf at this; rw [ha] at this; simp at this; omega
      | some a =>
        have hlt := hs.2 a ha
        simp only
        unfold read
        have hl : (Util.sort (fun x y => decide (x ≤ y)) ((arrayOf m s).take s.len)).length = s.len := by
          rw [(Util.sort_perm _ _).length_eq, List.length_take]; have := hs.1; omega
        have : arrayOf (m.set a (Util.sort (fun x y => decide (x ≤ y)) ((arrayOf m s).take s.len) ++ (arrayOf m s).drop s.len)) s
            = Util.sort (fun x y => decide (x ≤ y)) ((arrayOf m s).take s.len) ++ (arrayOf m s).drop s.len := by
          generalize Util.sort (fun x y => decide (x ≤ y)) ((arrayOf m s).take s.len) ++ (arrayOf m s).drop s.len = L
          unfold arrayOf
          rw [ha]; simp [hlt]
        rw [this]
        rw [List.take_append_of_le_length (by omega), List.take_of_length_le (by omega)]
  have hs' := Util.sort_sorted (fun x y : UInt64 => decide (x ≤ y)) ht hto (read m s)
  refine ⟨?_, ?_, ?_⟩
  · rw [hr]; exact Util.sort_perm _ _
  · rw [hr]; exact hs'.imp (by intro a b h; simpa using h)
  · intro l h1 h2
    rw [hr]
    exact Util.sort_unique _ ht hto han _ _ h1 (h2.imp (by intro a b h; simpa using h))

theorem parseID_ok (s : Bytes) :
    ((parseID [] s).2.2 = true → ∃ n, parseU64 s = some n ∧ n ≠ 0 ∧ val (parseID [] s).1 (parseID [] s).2.1 = n)
    ∧ ((parseID [] s).2.2 = false → ∀ n, parseU64 s = some n → n = 0) := by
  have hset : parseID [] s = match parseU64 s with
      | none => ([], none, false)
      | some n => if n = 0 then ([], none, false) else ([⟨n, []⟩], some 0, true) := by
    unfold parseID set
    by_cases h1 : s = b!"" ∨ s = b!"0"
    · rw [if_pos h1]
      rcases h1 with rfl | rfl
      · rw [show parseU64 b!"" = none from by decide +kernel]
      · rw [show parseU64 b!"0" = some 0 from by decide +kernel]; rfl
    · rw [if_neg h1]
      cases parseU64 s with
      | none => rfl
      | some n =>
        simp only
        split <;> rfl
  rw [hset]
  cases hp : parseU64 s with
  | none => simp
  | some n =>
    simp only
    by_cases hn : n = 0
    · simp [hn]
    · simp only [if_neg hn, Bool.true_eq_false, false_imp_iff, and_true]
      intro _
      exact ⟨n, rfl, hn, rfl⟩

/-- The valid numbers among some texts, in order. -/
def Spec.validNumbers (texts : List Bytes) : List UInt64 :=
  texts.filterMap fun s => if Spec.Digits s ∧ 1 ≤ Spec.number s ∧ Spec.number s < 2 ^ 64 then some (UInt64.ofNat (Spec.number s)) else none

/-- C15 (IDArrayFromStrings): exactly the numbers of the texts that are decimal numbers from 1 to 2^64-1, each once,
in order of first occurrence. -/
theorem C15_from_strings (g : Nat → Nat) (m : Mem) (texts : List Bytes) :
    let r := idArrayFromStrings g m texts
    read r.1 r.2 = Spec.firsts (Spec.validNumbers texts) := by
  have key : ∀ (texts : List Bytes) (m : Mem) (s : Slice), SliceOk m s →
      read (texts.foldl (fun r s => if (parseID [] s).2.2 then add g r.1 r.2 (val (parseID [] s).1 (parseID [] s).2.1) else r) (m, s)).1
          (texts.foldl (fun r s => if (parseID [] s).2.2 then add g r.1 r.2 (val (parseID [] s).1 (parseID [] s).2.1) else r) (m, s)).2
        = (Spec.validNumbers texts).foldl addPure (read m s) := by
    intro texts
    induction texts with
    | nil => intro m s _; rfl
    | cons v texts ih =>
      intro m s hs
      rw [List.foldl_cons]
      obtain ⟨p1, p2⟩ := parseID_ok v
      cases hok : (parseID [] v).2.2 with
      | false =>
        simp only [Bool.false_eq_true, if_false]
        rw [ih m s hs]
        have : Spec.validNumbers (v :: texts) = Spec.validNumbers texts := by
          unfold Spec.validNumbers
          rw [List.filterMap_cons, if_neg]
          rintro ⟨h1, h2, h3⟩
          have hp := (parseU64_some v (UInt64.ofNat (Spec.number v))).2 ⟨h1, by simp; omega⟩
          have := congrArg UInt64.toNat (p2 hok _ hp)
          simp at this; omega
        rw [this]
      | true =>
        obtain ⟨n, h1, h2, h3⟩ := p1 hok
        simp only [if_true]
        obtain ⟨h4, h5⟩ := add_read g m s n hs
        rw [h3]
        rw [show (add g m s n) = ((add g m s n).1, (add g m s n).2) from rfl, ih _ _ h5, h4]
        obtain ⟨q1, q2⟩ := (parseU64_some v n).1 h1
        have : Spec.validNumbers (v :: texts) = n :: Spec.validNumbers texts := by
          unfold Spec.validNumbers
          have hpos : 1 ≤ n.toNat := by
            rcases Nat.eq_zero_or_pos n.toNat with h0 | h0
            · exact absurd (UInt64.toNat_inj.1 h0) h2
            · exact h0
          rw [List.filterMap_cons, if_pos ⟨q1, by omega, by rw [q2]; exact n.toNat_lt⟩]
          simp [q2]
        rw [this]; rfl
  intro r
  have h := key texts m nilSlice ⟨by simp [nilSlice, arrayOf], by simp [nilSlice]⟩
  refine h.trans ?_
  rw [foldl_addPure]
  simp [Spec.union, read, nilSlice]

example : Spec.validNumbers [b!"7", b!"x", b!"0", b!"007", b!"18446744073709551616", b!"12"] = [7, 7, 12] := by decide +kernel

theorem validNumbers_strings (l : List UInt64) (h : ∀ x ∈ l, x ≠ 0) : Spec.validNumbers (strings l) = l := by
  induction l with
  | nil => rfl
  | cons x l ih =>
    have hx := h x (by simp)
    have ht : (idStr (newID [] x).1 (newID [] x).2).2 = Num.dec x.toNat := newID_text [] x hx
    rw [strings, List.map_cons, ht]
    unfold Spec.validNumbers
    obtain ⟨d1, d2⟩ := dec_digits x.toNat
    have hpos : 1 ≤ x.toNat := by
      rcases Nat.eq_zero_or_pos x.toNat with h0 | h0
      · exact absurd (UInt64.toNat_inj.1 h0) hx
      · exact h0
    rw [List.filterMap_cons, if_pos ⟨d1, by omega, by rw [d2]; exact x.toNat_lt⟩]
    simp only [d2, UInt64.ofNat_toNat]
    congr 1
    exact ih fun y hy => h y (by simp [hy])

/-- C15 (Strings, then IDArrayFromStrings): the numbers come back in order, repeated ones once, zero IDs dropped. -/
theorem C15_strings_roundtrip (g : Nat → Nat) (m : Mem) (l : List UInt64) (h : ∀ x ∈ l, x ≠ 0) :
    let r := idArrayFromStrings g m (strings l)
    read r.1 r.2 = Spec.firsts l ∧ (l.Nodup → read r.1 r.2 = l) ∧ (strings l).length = l.length := by
  intro r
  have hr : read r.1 r.2 = Spec.firsts l := (C15_from_strings g m (strings l)).trans (by rw [validNumbers_strings l h])
  refine ⟨hr, fun hn => by rw [hr, firsts_of_nodup hn], by simp [strings]⟩

example : ∀ x ∈ ([5, 18446744073709551615, 1] : List UInt64), x ≠ 0 := by decide
example : strings [5, 0, 18446744073709551615] = [b!"5", b!"", b!"18446744073709551615"]
    ∧ arrayString [5, 6] = b!"5,6" := by decide +kernel

theorem joinComma_intercalate (ps : List Bytes) : joinComma ps = List.intercalate b!"," ps := by
  induction ps with
  | nil => rfl
  | cons p ps ih =>
    cases ps with
    | nil => simp [joinComma, List.intercalate]
    | cons q ps =>
      rw [joinComma, ih]
      simp [List.intercalate]

/-- C15 (`String`): the texts of the elements, in order, separated by commas; the text of a number is its decimal text without
superfluous zeros, that of the zero ID is empty. -/
theorem C15_array_text (l : List UInt64) :
    ∃ texts : List Bytes, texts.length = l.length
      ∧ (∀ (i : Nat) (n : UInt64) (t : Bytes), l[i]? = some n → texts[i]? = some t → if n = 0 then t = [] else Spec.Canonical t n.toNat)
      ∧ strings l = texts ∧ arrayString l = List.intercalate b!"," texts := by
  refine ⟨strings l, by simp [strings], ?_, rfl, joinComma_intercalate _⟩
  intro i n t hn ht
  simp only [strings, List.getElem?_map, hn, Option.map_some, Option.some.injEq] at ht
  subst ht
  split
  · rename_i h; subst h; rfl
  · rename_i h
    rw [newID_text [] n h]
    exact dec_canonical _

example : arrayString [5, 0, 18446744073709551615] = b!"5,,18446744073709551615" := by decide +kernel

/-! ### C16 -/

theorem splitComma_no {s : Bytes} (h : ∀ c ∈ s, c ≠ c!",") : splitComma s = [s] := by
  induction s with
  | nil => rfl
  | cons c s ih =>
    rw [splitComma, if_neg (h c (by simp)), ih fun d hd => h d (by simp [hd])]

theorem splitComma_append {s t : Bytes} (h : ∀ c ∈ s, c ≠ c!",") : splitComma (s ++ c!"," :: t) = s :: splitComma t := by
  induction s with
  | nil => simp [splitComma]
  | cons c s ih =>
    rw [List.cons_append, splitComma, if_neg (h c (by simp)), ih fun d hd => h d (by simp [hd])]

theorem splitComma_join : ∀ (ps : List Bytes), ps ≠ [] → (∀ p ∈ ps, ∀ c ∈ p, c ≠ c!",") → splitComma (joinComma ps) = ps := by
  intro ps
  induction ps with
  | nil => intro h; exact absurd rfl h
  | cons p ps ih =>
    intro _ h
    cases ps with
    | nil => exact splitComma_no (h p (by simp))
    | cons q ps =>
      rw [joinComma, splitComma_append (h p (by simp)), ih (by simp) fun r hr => h r (by simp [hr])]

theorem fmtInt_bytes (i : Int) : ∀ c ∈ Num.fmtInt 10 i, c ≠ c!"," := by
  have hd : ∀ n, ∀ c ∈ Num.fmtNat 10 n, c ≠ c!"," := by
    intro n c hc
    have h := (dec_digits n).1.2 c hc
    rintro rfl
    have : (44 : UInt8).toNat = 44 := rfl
    omega
  intro c hc
  unfold Num.fmtInt at hc
  split at hc
  · rcases List.mem_cons.1 hc with rfl | hc
    · decide
    · exact hd _ c hc
  · exact hd _ c hc

theorem fmtInt_ne_nil (i : Int) : Num.fmtInt 10 i ≠ [] := by
  unfold Num.fmtInt
  split
  · simp
  · exact Num.fmtNat_ne_nil _ _

theorem parseInts_fmt (l : List Int64) : parseInts (l.map fun x => Num.fmtInt 10 x.toInt) = some l := by
  induction l with
  | nil => rfl
  | cons x l ih =>
    rw [List.map_cons, parseInts]
    have h1 := x.le_toInt
    have h2 := x.toInt_lt
    rw [Num.parseInt_fmtInt 64 x.toInt (by simpa using h1) (by simpa using h2)]
    simp only [ih]
    simp

theorem pqScan_value (l : List Int64) (h : l ≠ []) :
    pqScan (b!"{" ++ joinComma (l.map fun x => Num.fmtInt 10 x.toInt) ++ b!"}") = some l := by
  simp only [List.cons_append, List.nil_append, pqScan]
  rw [if_neg (by simp)]
  rw [List.dropLast_concat]
  have hne : joinComma (l.map fun x => Num.fmtInt 10 x.toInt) ≠ [] := by
    cases l with
    | nil => exact absurd rfl h
    | cons x l =>
      cases l with
      | nil => exact fmtInt_ne_nil _
      | cons y l => simp [joinComma]
  rw [if_neg hne, splitComma_join _ (by simp [h]), parseInts_fmt]
  intro p hp c hc
  simp only [List.mem_map] at hp
  obtain ⟨x, _, rfl⟩ := hp
  exact fmtInt_bytes _ c hc

/-- C16: storing an array and reading it back, as text or as bytes, gives the same numbers; the empty array is NULL
and NULL is the empty array. -/
theorem C16_sql_roundtrip (l : List UInt64) :
    arrayScan (arrayValue l) = (l, true) ∧ (arrayValue l = .null ↔ l = [])
    ∧ (∀ s, arrayValue l = .text s → arrayScan (.bytes s) = (l, true)) := by
  have hsc : l ≠ [] → pqScan (b!"{" ++ joinComma ((int64Array l).map fun x => Num.fmtInt 10 x.toInt) ++ b!"}") = some (int64Array l) :=
    fun h => pqScan_value _ (by simp [int64Array, h])
  have hback : (int64Array l).map (·.toUInt64) = l := by
    simp [int64Array, Function.comp_def]
  by_cases h : l = []
  · subst h
    refine ⟨rfl, by simp [arrayValue], ?_⟩
    intro s hs; simp [arrayValue] at hs
  · have hv : arrayValue l = .text (b!"{" ++ joinComma ((int64Array l).map fun x => Num.fmtInt 10 x.toInt) ++ b!"}") := by
      rw [arrayValue, if_neg h, pqValue]
    rw [hv]
    refine ⟨?_, by simp [h], ?_⟩
    · simp only [arrayScan]
      rw [hsc h]; simp only [hback]
    · intro s hs
      injection hs with hs
      subst hs
      simp only [arrayScan]
      rw [hsc h]; simp only [hback]

example : arrayValue [1, 18446744073709551615, 0] = .text b!"{1,-1,0}" := by decide +kernel
example : arrayScan (.bytes b!"{}") = ([], true) ∧ arrayScan (.text b!"") = ([], false) ∧ arrayScan (.text b!"{1,,2}") = ([], false) := by
  decide +kernel

/-- C16 (destination): the result does not depend on what the destination held before: a failed scan empties it, and a text
that is not a list of 64-bit integers in braces is an error. -/
theorem C16_scan_resets (d : DV) : (arrayScan d).2 = false → (arrayScan d).1 = [] := by
  unfold arrayScan
  split
  · simp
  · split <;> simp
  · split <;> simp
  · simp

end Types
