import Verif.Types.IdArray
import Verif.Types.IdLemmas
set_option linter.unusedSimpArgs false
set_option linter.unusedVariables false
/-!
Model of `xdb.Merge` (merge.go) and property C47.

The walk over the two structs is `mergo.Merge` with `WithOverride` (dario.cat/mergo, not in /repo); it is modelled
from its documentation: field by field, nested structs recursively, the transformers first, otherwise the source field
replaces the destination field when it is not empty.  Pointers, maps, interfaces, arrays, unexported fields and
opaque structs such as `time.Time` are not modelled.
-/
namespace Types.Mg

/-- The value of a struct field. `scalar` stands for Booleans and numbers (0 is the zero value), `slice` for slices
such as `IDArray`. -/
inductive FV where
  | time (ns : Int)
  | id (v : ID)
  | nstr (s : Bytes)
  | scalar (n : Int)
  | text (s : Bytes)
  | slice (s : Slice)
  | struct (fs : List FV)

mutual
/-- mergo's `deepMerge` with override, and merge.go:18-53 `Transformer` for `Time`, `ID` and `NULLString`:
`dst.Set(src)` copies the field, so an ID keeps its pointer and a slice its backing array. -/
def merge (h : Heap) : FV → FV → FV
  | .time d, .time s => if (s == 0) then .time d else .time s
  | .id d, .id s => if valid h s then .id s else .id d
  | .nstr d, .nstr s => if s ≠ [] then .nstr s else .nstr d
  | .scalar d, .scalar s => if s ≠ 0 then .scalar s else .scalar d
  | .text d, .text s => if s.length ≠ 0 then .text s else .text d
  | .slice d, .slice s => if s.len ≠ 0 then .slice s else .slice d
  | .struct ds, .struct ss => .struct (mergeFields h ds ss)
  | d, _ => d
/-- The loop over the fields. -/
def mergeFields (h : Heap) : List FV → List FV → List FV
  | d :: ds, s :: ss => merge h d s :: mergeFields h ds ss
  | ds, _ => ds
end

namespace Spec

/-- The plain field at a path of field numbers. -/
def leaf : List Nat → FV → Option FV
  | [], .struct _ => none
  | [], v => some v
  | i :: p, .struct fs => (fs[i]?).bind (leaf p)
  | _ :: _, _ => none

/-- The type of a plain field. -/
def kind : FV → Nat
  | .time _ => 0 | .id _ => 1 | .nstr _ => 2 | .scalar _ => 3 | .text _ => 4 | .slice _ => 5 | .struct _ => 6

/-- Two values of the same struct type: the same plain fields of the same types. -/
def SameType (a b : FV) : Prop := ∀ p, (leaf p a).map kind = (leaf p b).map kind

/-- A plain field is set. -/
def IsSet (h : Heap) : FV → Prop
  | .time t => t ≠ 0
  | .id v => ∃ p c, v = some p ∧ h[p]? = some c ∧ c.id ≠ 0
  | .nstr s => s ≠ []
  | .scalar n => n ≠ 0
  | .text s => s ≠ []
  | .slice s => 0 < s.len
  | .struct _ => False

end Spec

theorem mergeFields_get (h : Heap) : ∀ (ds ss : List FV) (i : Nat) (d s : FV), ds[i]? = some d → ss[i]? = some s →
    (mergeFields h ds ss)[i]? = some (merge h d s)
  | [], _, i, d, s, hd, _ => by simp at hd
  | d0 :: ds, [], i, d, s, _, hs => by simp at hs
  | d0 :: ds, s0 :: ss, 0, d, s, hd, hs => by
    simp at hd hs; subst hd; subst hs; simp [mergeFields]
  | d0 :: ds, s0 :: ss, i + 1, d, s, hd, hs => by
    simp at hd hs; simp [mergeFields, mergeFields_get h ds ss i d s hd hs]

theorem mergeFields_get_none (h : Heap) : ∀ (ds ss : List FV) (i : Nat), ds[i]? = none → (mergeFields h ds ss)[i]? = none
  | [], ss, i, hd => by simp [mergeFields]
  | d0 :: ds, [], i, hd => by simpa [mergeFields] using hd
  | d0 :: ds, s0 :: ss, 0, hd => by simp at hd
  | d0 :: ds, s0 :: ss, i + 1, hd => by
    simp only [List.getElem?_cons_succ] at hd
    simp only [mergeFields, List.getElem?_cons_succ]
    exact mergeFields_get_none h ds ss i hd

theorem mergeFields_get_src_none (h : Heap) : ∀ (ds ss : List FV) (i : Nat), ss[i]? = none → (mergeFields h ds ss)[i]? = ds[i]?
  | [], ss, i, hd => by simp [mergeFields]
  | d0 :: ds, [], i, hd => by simp [mergeFields]
  | d0 :: ds, s0 :: ss, 0, hd => by simp at hd
  | d0 :: ds, s0 :: ss, i + 1, hd => by
    simp only [List.getElem?_cons_succ] at hd
    simp only [mergeFields, List.getElem?_cons_succ]
    exact mergeFields_get_src_none h ds ss i hd

theorem valid_iff (h : Heap) (v : ID) : valid h v = true ↔ Spec.IsSet h (.id v) := by
  unfold valid val cellAt Spec.IsSet
  cases v with
  | none => simp
  | some p =>
    cases hc : h[p]? with
    | none => simp [hc]
    | some c => simp [hc]

/-- Merging two plain fields of the same type. -/
theorem merge_leaf (h : Heap) (v w : FV) (hv : ∀ fs, v ≠ .struct fs) (hk : Spec.kind v = Spec.kind w) :
    (Spec.IsSet h w → merge h v w = w) ∧ (¬ Spec.IsSet h w → merge h v w = v) := by
  cases v with
  | struct fs => exact absurd rfl (hv fs)
  | id d =>
    cases w <;> simp [Spec.kind] at hk
    rename_i s
    rw [← valid_iff]
    constructor
    · intro hs; simp [merge, hs]
    · intro hs; simp [merge, hs]
  | slice d =>
    cases w <;> simp [Spec.kind] at hk
    rename_i s
    constructor
    · intro hs; simp only [Spec.IsSet] at hs; rw [merge, if_pos (by omega)]
    · intro hs; simp only [Spec.IsSet] at hs; rw [merge, if_neg (by omega)]
  | _ =>
    cases w <;> simp [Spec.kind] at hk
    constructor <;> intro hs <;> simp [Spec.IsSet] at hs <;> simp [merge, hs]

theorem sameType_struct (ds : List FV) (s : FV) (h : Spec.SameType (.struct ds) s) : ∃ ss, s = .struct ss := by
  have := h []
  cases s with
  | struct ss => exact ⟨ss, rfl⟩
  | _ => simp [Spec.leaf] at this

/-- C47 (fields, partial): after `Merge(dst, src)` of two values of the same struct type every plain field of `dst` is
that of `src` when it is set there, and as before otherwise; no field appears or disappears.
Missing: the two structs share IDs and slices afterwards, see `C47_merge_ties_ids`. -/
theorem C47_merge_fields_partial (h : Heap) (d s : FV) (hst : Spec.SameType d s) (p : List Nat) :
    (∀ v w, Spec.leaf p d = some v → Spec.leaf p s = some w →
      (Spec.IsSet h w → Spec.leaf p (merge h d s) = some w) ∧ (¬ Spec.IsSet h w → Spec.leaf p (merge h d s) = some v))
    ∧ (Spec.leaf p d = none → Spec.leaf p (merge h d s) = none) := by
  induction p generalizing d s with
  | nil =>
    cases d with
    | struct ds =>
      obtain ⟨ss, rfl⟩ := sameType_struct ds s hst
      simp [Spec.leaf, merge]
    | _ =>
      refine ⟨?_, by simp [Spec.leaf]⟩
      intro v w hv hw
      have hk := hst []
      rw [hv, hw] at hk
      simp only [Option.map_some, Option.some.injEq] at hk
      simp only [Spec.leaf, Option.some.injEq] at hv
      subst hv
      have hws : s = w ∧ ∀ fs, w ≠ .struct fs := by
        cases s <;> simp [Spec.leaf] at hw <;> subst hw <;> simp
      obtain ⟨rfl, hns⟩ := hws
      obtain ⟨m1, m2⟩ := merge_leaf h _ s (by intro fs hh; cases hh) hk
      constructor
      · intro hs; rw [m1 hs]; exact hw
      · intro hs; rw [m2 hs]; rfl
  | cons i p ih =>
    cases d with
    | struct ds =>
      obtain ⟨ss, rfl⟩ := sameType_struct ds s hst
      simp only [merge, Spec.leaf]
      cases hd : ds[i]? with
      | none =>
        rw [mergeFields_get_none h ds ss i hd]
        simp
      | some d' =>
        cases hs : ss[i]? with
        | none =>
          rw [mergeFields_get_src_none h ds ss i hs, hd]
          simp
        | some s' =>
          rw [mergeFields_get h ds ss i d' s' hd hs]
          simp only [Option.bind_some]
          refine ih d' s' ?_
          intro q
          have := hst (i :: q)
          simpa [Spec.leaf, hd, hs] using this
    | _ =>
      refine ⟨by simp [Spec.leaf], fun _ => ?_⟩
      cases s <;> simp only [merge] <;> (try split) <;> rfl

/-- C47 fails (independence): when an ID field of `src` is set, `dst` and `src` share the ID's storage after `Merge`:
setting the ID of `dst` to another number, or resetting it, changes the ID of `src`. -/
theorem C47_merge_ties_ids (h : Heap) (d s : FV) (hst : Spec.SameType d s) (p : List Nat) (v : ID)
    (hp : Spec.leaf p s = some (.id v)) (hv : Spec.IsSet h (.id v)) (t : Bytes) (ht : Types.Spec.Digits t)
    (h1 : 1 ≤ Types.Spec.number t) (h2 : Types.Spec.number t < 2 ^ 64) :
    ∃ r : ID, Spec.leaf p (merge h d s) = some (.id r)
      ∧ (set h r t).2.2 = true ∧ (val (set h r t).1 v).toNat = Types.Spec.number t ∧ val (reset h r).1 v = 0 := by
  have hk := hst p
  rw [hp] at hk
  cases hd : Spec.leaf p d with
  | none => rw [hd] at hk; simp at hk
  | some w =>
    refine ⟨v, ((C47_merge_fields_partial h d s hst p).1 w _ hd hp).1 hv, ?_⟩
    obtain ⟨q, c, rfl, hc, hne⟩ := hv
    have hlt := (List.getElem?_eq_some_iff.1 hc).1
    have hpu := (parseU64_some t (UInt64.ofNat (Types.Spec.number t))).2 ⟨ht, by simp; omega⟩
    have hn0 : UInt64.ofNat (Types.Spec.number t) ≠ 0 := by
      intro hh; have := congrArg UInt64.toNat hh; simp at this; omega
    have hset : set h (some q) t = (h.set q ⟨UInt64.ofNat (Types.Spec.number t), []⟩, some q, true) := by
      unfold set
      rw [if_neg ?_, hpu]
      · simp only [if_neg hn0]
      · rintro (rfl | rfl)
        · exact ht.1 rfl
        · simp [Types.Spec.number] at h1
    rw [hset]
    refine ⟨rfl, ?_, ?_⟩
    · simp [val, cellAt, hlt]; omega
    · simp [reset, val, cellAt, hlt]

/-! Concrete case: nested structs with every kind of field. -/
def exDst : FV := .struct [.time 5, .id none, .struct [.nstr b!"a", .scalar 1], .text b!"x", .slice ⟨some 0, 2⟩]
def exSrc : FV := .struct [.time 0, .id (some 0), .struct [.nstr b!"", .scalar 9], .text b!"", .slice ⟨none, 0⟩]
example : Spec.leaf [1] (merge [⟨7, []⟩] exDst exSrc) = some (.id (some 0)) := rfl
example : Spec.leaf [0] (merge [⟨7, []⟩] exDst exSrc) = some (.time 5) := rfl
example : Spec.leaf [2, 0] (merge [⟨7, []⟩] exDst exSrc) = some (.nstr b!"a") := rfl
example : Spec.leaf [2, 1] (merge [⟨7, []⟩] exDst exSrc) = some (.scalar 9) := rfl
example : Spec.SameType exDst exSrc := by
  intro p
  rcases p with _ | ⟨_ | _ | _ | _ | _ | i, p⟩
  · rfl
  · rcases p with _ | ⟨j, p⟩ <;> rfl
  · rcases p with _ | ⟨j, p⟩ <;> rfl
  · rcases p with _ | ⟨_ | _ | j, p⟩
    · rfl
    · rcases p with _ | ⟨k, p⟩ <;> rfl
    · rcases p with _ | ⟨k, p⟩ <;> rfl
    · simp [exDst, exSrc, Spec.leaf]
  · rcases p with _ | ⟨j, p⟩ <;> rfl
  · rcases p with _ | ⟨j, p⟩ <;> rfl
  · simp [exDst, exSrc, Spec.leaf]

end Types.Mg
