import Verif.Base
/-! General lemmas about lists. -/

/-- Induction on a history, from its end. -/
theorem List.snocRec {β : Type _} {P : List β → Prop} (nil : P []) (snoc : ∀ l x, P l → P (l ++ [x])) (l : List β) : P l := by
  rw [← List.reverse_reverse l]
  induction l.reverse with
  | nil => exact nil
  | cons x xs ih => rw [List.reverse_cons]; exact snoc _ _ ih

namespace Util
variable {β : Type _}

/-- Insert before the first element that is not smaller. -/
def insert (le : β → β → Bool) (x : β) : List β → List β
  | [] => [x]
  | y :: ys => if le x y then x :: y :: ys else y :: insert le x ys

/-- Insertion sort (stable).  Stands for Go's `sort` functions: see `sort_unique`. -/
def sort (le : β → β → Bool) : List β → List β
  | [] => []
  | x :: xs => insert le x (sort le xs)

theorem insert_perm (le : β → β → Bool) (x : β) : ∀ l, (insert le x l).Perm (x :: l) := by
  intro l
  induction l with
  | nil => exact .refl _
  | cons y ys ih =>
    rw [insert]
    split
    · exact .refl _
    · exact (ih.cons y).trans (.swap x y ys)

theorem sort_perm (le : β → β → Bool) : ∀ l, (sort le l).Perm l := by
  intro l
  induction l with
  | nil => exact .refl _
  | cons x xs ih => exact (insert_perm le x _).trans (ih.cons x)

theorem insert_sorted (le : β → β → Bool) (ht : ∀ a b c, le a b = true → le b c = true → le a c = true)
    (htot : ∀ a b, (le a b || le b a) = true) (x : β) :
    ∀ l, l.Pairwise (fun a b => le a b = true) → (insert le x l).Pairwise (fun a b => le a b = true) := by
  intro l
  induction l with
  | nil => intro _; exact List.pairwise_singleton _ _
  | cons y ys ih =>
    intro h
    rw [insert]
    rw [List.pairwise_cons] at h
    split
    · rename_i hxy
      rw [List.pairwise_cons]
      refine ⟨?_, List.pairwise_cons.2 h⟩
      intro z hz
      rcases List.mem_cons.1 hz with rfl | hz
      · exact hxy
      · exact ht _ _ _ hxy (h.1 z hz)
    · rename_i hxy
      rw [List.pairwise_cons]
      refine ⟨?_, ih h.2⟩
      intro z hz
      have hz := (insert_perm le x ys).mem_iff.1 hz
      rcases List.mem_cons.1 hz with rfl | hz
      · have := htot z y; simp only [hxy, Bool.false_or] at this; exact this
      · exact h.1 z hz

theorem sort_sorted (le : β → β → Bool) (ht : ∀ a b c, le a b = true → le b c = true → le a c = true)
    (htot : ∀ a b, (le a b || le b a) = true) : ∀ l, (sort le l).Pairwise (fun a b => le a b = true) := by
  intro l
  induction l with
  | nil => exact .nil
  | cons x xs ih => exact insert_sorted le ht htot x _ ih

/-- A sorted permutation is unique when the order is antisymmetric, so `sort` is the result of every sorting algorithm. -/
theorem sort_unique (le : β → β → Bool) (ht : ∀ a b c, le a b = true → le b c = true → le a c = true)
    (htot : ∀ a b, (le a b || le b a) = true) (ha : ∀ a b, le a b = true → le b a = true → a = b) (l l' : List β)
    (hp : l'.Perm l) (hs : l'.Pairwise fun a b => le a b = true) : l' = sort le l :=
  List.Perm.eq_of_pairwise (fun a b _ _ => ha a b) hs (sort_sorted le ht htot l) (hp.trans (sort_perm le l).symm)

end Util
