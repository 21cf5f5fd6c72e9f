import Verif.Catalog.Seen
import Verif.Schema.ListProps
set_option linter.unusedVariables false
set_option linter.unusedSimpArgs false
/-! Columns in order. -/
namespace Catalog
open Schema (ColRow)

theorem ofInt_toNat {n : Int} (h0 : 0 ≤ n) (h1 : n < 2 ^ 32) : (UInt32.ofInt n).toNat = n.toNat := by
  unfold UInt32.ofInt
  simp
  have h2 : n % 4294967296 = n := Int.emod_eq_of_lt h0 (by simpa using h1)
  rw [h2]
  have : n.toNat < 4294967296 := by omega
  omega

theorem sort_of_sorted {β : Type} (le : β → β → Bool) : ∀ l : List β, l.Pairwise (fun a b => le a b = true) → Util.sort le l = l := by
  intro l
  induction l with
  | nil => intro _; rfl
  | cons x xs ih =>
    intro h
    rw [List.pairwise_cons] at h
    rw [Util.sort, ih h.2]
    cases xs with
    | nil => rfl
    | cons y ys => rw [Util.insert, if_pos (h.1 y (by simp))]

/-- What a row says about a column, when ordinal positions are in range. -/
def rowSeen (eqFold : Bytes → Bytes → Bool) (c : ColRow) : Seen.Col :=
  ⟨c.name, c.type, c.udt, eqFold b!"YES" c.nullable || eqFold b!"TRUE" c.nullable || eqFold b!"NULL" c.nullable, (UInt32.ofInt (c.maxLen.getD 0)).toNat, c.ordinal.toNat⟩

/-- Rows in any order are reported in order of position. -/
theorem sorted_seen (eqFold : Bytes → Bytes → Bool) (s t : Bytes) (ii : List Schema.Index) (ref : Bytes → Option Schema.ForeignKey) (L rows : List ColRow) (hp : rows.Perm L)
    (hord : L.Pairwise (fun a b => a.ordinal < b.ordinal)) (hrange : ∀ c ∈ L, 0 < c.ordinal ∧ c.ordinal < 2 ^ 32) :
    (Util.sort (fun a b : Schema.Column => decide (a.position ≤ b.position)) (rows.map (fun c => Schema.Spec.column eqFold s t ii (ref c.name) c))).map Seen.seen = L.map (rowSeen eqFold) := by
  have hpos : ∀ a ∈ L, (UInt32.ofInt a.ordinal).toNat = a.ordinal.toNat := fun a ha => ofInt_toNat (by have := hrange a ha; omega) (hrange a ha).2
  have hnd : ((rows.map (fun c => Schema.Spec.column eqFold s t ii (ref c.name) c)).map (fun c => c.position)).Nodup := by
    rw [List.map_map]
    refine ((hp.map ((fun c : Schema.Column => c.position) ∘ fun c => Schema.Spec.column eqFold s t ii (ref c.name) c)).nodup_iff).2 ?_
    rw [List.Nodup, List.pairwise_map]
    refine List.Pairwise.imp_of_mem ?_ hord
    intro a b ha hb hlt e
    have e : UInt32.ofInt a.ordinal = UInt32.ofInt b.ordinal := e
    have := congrArg UInt32.toNat e
    rw [hpos a ha, hpos b hb] at this
    have := hrange a ha
    omega
  rw [Schema.sort_perm_eq (fun c : Schema.Column => c.position) (fun a b : UInt32 => decide (a ≤ b)) ?_ ?_ ?_ _ _ (hp.map _) hnd, sort_of_sorted]
  · rw [List.map_map]
    apply List.map_congr_left
    intro a ha
    simp only [Function.comp, Seen.seen, Schema.Spec.column, rowSeen, hpos a ha]
  · rw [List.pairwise_map]
    refine List.Pairwise.imp_of_mem ?_ hord
    intro a b ha hb hlt
    apply decide_eq_true
    show UInt32.ofInt a.ordinal ≤ UInt32.ofInt b.ordinal
    rw [UInt32.le_iff_toNat_le, hpos a ha, hpos b hb]
    omega
  · intro a b c h1 h2; simp only [decide_eq_true_eq] at *; exact UInt32.le_trans h1 h2
  · intro a b; simp only [Bool.or_eq_true, decide_eq_true_eq]; exact UInt32.le_total _ _
  · intro a b h1 h2; simp only [decide_eq_true_eq] at *; exact UInt32.le_antisymm h1 h2

end Catalog
