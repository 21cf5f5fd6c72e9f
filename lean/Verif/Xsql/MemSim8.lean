import Verif.Xsql.MemSim7
set_option linter.unusedSimpArgs false
set_option linter.unusedVariables false
set_option linter.unusedSectionVars false
/- The program's own lists of arguments. -/
namespace Xsql
open Heap
variable {α : Type} [Inhabited α]
namespace Mem

theorem setList_lists (s : View α) (v : Nat) (l : Option (ArgVar α)) (i : Nat) : (s.setList v l).lists i = if i = v then l else s.lists i := rfl

theorem hold_setList (s : View α) (v : Nat) (l : Option (ArgVar α)) : hold (s.setList v l) none = hold s none := by funext i; cases i <;> rfl

/-- A list is forgotten, and its variable gets another slice. -/
theorem Sim.drop {m : Mem α} {s : View α} (S : Sim m s none) (v : Nat) (h' : Heap α) (g : Grow m.args h') (sl : Slice) :
    Sim ({ m with args := h' }.setSlice v sl) (s.setList v none) none := by
  have hh := hold_setList s v none
  have hp : ptr ({ m with args := h' }.setSlice v sl) none = ptr m none := by funext i; cases i <;> rfl
  refine S.carry id g (.refl _) (.refl _) (.congr rfl rfl rfl rfl) (S.bufs.congr rfl rfl rfl rfl) (le_refl _) ?_ ?_ (fun _ h => h) S.nodup S.pool (fun _ _ => rfl) S.cache S.newLines ?_
  · intro i q h; rw [hh] at h; rw [hp]; exact ⟨h, rfl⟩
  · intro i j _ _ h; exact h
  · intro i l h
    rw [setList_lists] at h
    by_cases e : i = v
    · rw [if_pos e] at h; cases h
    · rw [if_neg e] at h
      refine ⟨h, by simp [setSlice, e], fun h' lo e => ⟨rfl, rfl, ?_⟩⟩
      have := S.usedVar h e
      simp only [Used, hh, hp]; exact this

/-- A list appears. -/
theorem Sim.addList {m : Mem α} {s : View α} (S : Sim m s none) (v : Nat) (l : ArgVar α) (ok : ListOK m (s.setList v (some l)) none v l)
    (sep : ∀ v' l', s.lists v' = some l' → l'.from_ = none → v' ≠ v → (m.slices v).arr ≠ (m.slices v').arr) (hv : s.lists v = none) : Sim m (s.setList v (some l)) none := by
  have hh := hold_setList s v (some l)
  have hu : ∀ o, Used m (s.setList v (some l)) none o ↔ Used m s none o := by intro o; simp only [Used, hh]
  constructor
  · rw [hh]; exact S.live
  · rw [hh]; exact S.inj
  · intro a c b h1 h2; exact S.injB a c b ((hu a).1 h1) ((hu c).1 h2)
  · exact S.pool
  · exact S.nodup
  · exact S.poolLt
  · intro a c h1 h2; exact S.sepA a c ((hu a).1 h1) ((hu c).1 h2)
  · intro a c h1 h2; exact S.sepD a c ((hu a).1 h1) ((hu c).1 h2)
  · intro a c h1 h2; exact S.sepC a c ((hu a).1 h1) ((hu c).1 h2)
  · exact S.bufs
  · exact S.cache
  · exact S.newLines
  · intro i k hk
    rw [setList_lists] at hk
    by_cases e : i = v
    · rw [if_pos e] at hk; obtain rfl := Option.some.inj hk; rw [e]; exact ok
    · rw [if_neg e] at hk
      have ok' := S.lists i k hk
      unfold ListOK at ok' ⊢
      cases hf : k.from_ with
      | none =>
        rw [hf] at ok'
        obtain ⟨k1, k2, k3⟩ := ok'
        refine ⟨k1, fun o ho => k2 o ((hu o).1 ho), fun v' l' h1 h2 => ?_⟩
        rw [setList_lists] at h1
        by_cases e' : v' = v
        · rw [e']; exact sep i k hk hf e
        · rw [if_neg e'] at h1; exact k3 v' l' h1 h2
      | some p => rw [hf] at ok'; exact ok'

/-- `v = []any{...}`. -/
theorem Sim.mkSlice {m : Mem α} {s : View α} (S : Sim m s none) (v : Nat) (xs : List α) :
    Sim ((m.listed xs).1.setSlice v (m.listed xs).2) (s.setList v (some { val := xs })) none := by
  have S1 := S.drop v (m.args.alloc xs) (.alloc _ _) { arr := m.args.next, len := xs.length }
  have hu : ∀ o, Used ({ m with args := m.args.alloc xs }.setSlice v { arr := m.args.next, len := xs.length }) (s.setList v none) none o → Used m s none o := by
    rintro o (k | ⟨i, k, k'⟩)
    · exact .inl k
    · rw [hold_setList] at k
      cases i with
      | none => simp [hold] at k
      | some j => exact .inr ⟨some j, k, k'⟩
  have slOther : ∀ v' l', s.lists v' = some l' → (m.slices v').arr < m.args.next := by
    intro v' l' h
    have ok := S.lists v' l' h
    unfold ListOK at ok
    cases hf : l'.from_ with
    | none => rw [hf] at ok; exact ok.1.2.2.1
    | some p =>
      obtain ⟨k, lo⟩ := p
      rw [hf] at ok
      obtain ⟨q, o, hi, k1, k2, _, _, k5, _⟩ := ok
      have h1 : hold s none (some k) = some q := k1
      rw [k5]
      exact (S.arrs (.inr ⟨some k, by rw [h1]; rfl, k2⟩)).1
  have := S1.addList v { val := xs } ?_ ?_ (by simp [setList_lists])
  · have e : ((s.setList v none).setList v (some { val := xs })) = s.setList v (some { val := xs }) := by
      simp only [View.setList]; congr 1; funext i; by_cases e : i = v <;> simp [e]
    rw [e] at this
    exact this
  · refine ⟨⟨by simp [setSlice], by simp [setSlice], by simp [setSlice, Heap.alloc], [], by simp [setSlice, Heap.alloc]⟩, ?_, ?_⟩
    · intro o ho
      have : Used m s none o := hu o (by
        rcases ho with k | ⟨i, k, k'⟩
        · exact .inl k
        · exact .inr ⟨i, by rw [hold_setList] at k; exact k, k'⟩)
      have h1 := (S.arrs this).1
      simp only [setSlice, if_true]
      show (m.obj o).args.arr ≠ m.args.next
      omega
    · intro v' l' h1 h2
      simp only [setList_lists, h2, if_false] at h1
      have := slOther v' l' h1
      simp only [setSlice, h2, if_false, if_true]
      omega
  · intro v' l' h1 _ h2
    simp only [setList_lists, h2, if_false] at h1
    have := slOther v' l' h1
    simp only [setSlice, h2, if_false, if_true]
    omega

/-- A list as the source of arguments for a statement. -/
theorem Sim.src {m : Mem α} {s : View α} (S : Sim m s none) {h o b v : Nat} {q : Stmt α} {l : ArgVar α} (hq : s.world.live h = some q) (hv : m.vars h = some o) (L : Live m o b q)
    (hl : s.lists v = some l) (hf : ∀ lo, l.from_ = some (h, lo) → lo = 0) : m.args.Src (m.obj o).args (m.slices v) l.val := by
  have ok := S.lists v l hl
  have gh : hold s none (some h) = some q := hq
  have uo : Used m s none o := .inr ⟨some h, by rw [gh]; rfl, hv⟩
  unfold ListOK at ok
  cases hk : l.from_ with
  | none =>
    rw [hk] at ok
    exact Shows.src ok.1 (fun e => ok.2.1 o uo e.symm)
  | some p =>
    obtain ⟨k, lo⟩ := p
    rw [hk] at ok
    obtain ⟨q', o', hi, k1, k2, k3, k4, k5, k6⟩ := ok
    obtain ⟨o2, b2, e2, L'⟩ := S.get k1
    rw [k2] at e2; obtain rfl := Option.some.inj e2
    have gk : hold s none (some k) = some q' := k1
    obtain ⟨a1, a2, a3, rst, a4⟩ := L'.rep.args
    have hlen : l.val.length = hi - lo := by rw [k6]; simp; omega
    refine ⟨by rw [k5, hlen]; rfl, fun _ => ⟨by rw [k5]; exact a3, ⟨q'.args.take lo, q'.args.drop hi ++ rst, ?_, ?_⟩, fun e => ?_⟩⟩
    · rw [k5]
      show m.args.cell (m.obj o').args.arr = _
      rw [a4, k6]
      have : q'.args.take lo ++ (q'.args.take hi).drop lo = q'.args.take hi := by
        have e1 : q'.args.take lo = (q'.args.take hi).take lo := by rw [List.take_take, Nat.min_eq_left k3]
        rw [e1, List.take_append_drop]
      rw [this, ← List.append_assoc, List.take_append_drop]
    · rw [k5]; simp only [Slice.sub, a1, List.length_take]; omega
    · rw [k5] at e ⊢
      have eo : o' = o := S.sepA o' o (.inr ⟨some k, by rw [gk]; rfl, k2⟩) uo e
      subst eo
      have ekh : k = h := Option.some.inj (S.inj (some k) (some h) o' (by rw [gk]; rfl) (by rw [gh]; rfl) k2 hv)
      subst ekh
      have hlo := hf lo hk
      subst hlo
      refine ⟨by simp only [Slice.sub, a1], ?_⟩
      show hi - 0 ≤ (m.obj o').args.len
      rw [a2]; omega

theorem sub_read {β : Type} {h : Heap β} {s : Slice} {xs : List β} (k : h.Shows s xs) (lo hi : Nat) (h1 : lo ≤ hi) (h2 : hi ≤ xs.length) : h.read (s.sub lo hi) = (xs.take hi).drop lo := by
  obtain ⟨a1, a2, a3, rst, a4⟩ := k
  simp only [Heap.read, Slice.sub, a1, a4, Nat.zero_add]
  rw [List.drop_append_of_le_length (by omega), List.take_append_of_le_length (by simp; omega), List.drop_take]

/-- The program looks at a list. -/
theorem Sim.look {m : Mem α} {s : View α} (S : Sim m s none) {v : Nat} {l : ArgVar α} (hl : s.lists v = some l) : m.args.read (m.slices v) = l.val := by
  have ok := S.lists v l hl
  unfold ListOK at ok
  cases hk : l.from_ with
  | none => rw [hk] at ok; exact ok.1.read
  | some p =>
    obtain ⟨k, lo⟩ := p
    rw [hk] at ok
    obtain ⟨q', o', hi, k1, k2, k3, k4, k5, k6⟩ := ok
    obtain ⟨o2, b2, e2, L'⟩ := S.get k1
    rw [k2] at e2; obtain rfl := Option.some.inj e2
    rw [k5, k6]
    exact sub_read L'.rep.args lo hi k3 k4

/-- `v = h.Args()[lo:hi]`. -/
theorem Sim.takeArgs {m : Mem α} {s : View α} (S : Sim m s none) {h o : Nat} {q : Stmt α} (hq : s.world.live h = some q) (hv : m.vars h = some o) (v lo hi : Nat) (h1 : lo ≤ hi)
    (h2 : hi ≤ q.args.length) : Sim (m.setSlice v ((m.obj o).args.sub lo hi)) (s.setList v (some { val := (q.args.take hi).drop lo, from_ := some (h, lo) })) none := by
  have gh : hold s none (some h) = some q := hq
  have uo : Used m s none o := .inr ⟨some h, by rw [gh]; rfl, hv⟩
  have S1 := S.drop v m.args (.refl _) ((m.obj o).args.sub lo hi)
  have := S1.addList v { val := (q.args.take hi).drop lo, from_ := some (h, lo) } ?_ ?_ (by simp [setList_lists])
  · have e : ((s.setList v none).setList v (some { val := (q.args.take hi).drop lo, from_ := some (h, lo) })) = s.setList v (some { val := (q.args.take hi).drop lo, from_ := some (h, lo) }) := by
      simp only [View.setList]; congr 1; funext i; by_cases e : i = v <;> simp [e]
    rw [e] at this
    exact this
  · exact ⟨q, o, hi, hq, hv, h1, h2, by simp [setSlice], rfl⟩
  · intro v' l' k1 k2 k3
    simp only [setList_lists, k3, if_false] at k1
    have ok := S.lists v' l' k1
    unfold ListOK at ok; rw [k2] at ok
    simp only [setSlice, k3, if_false, if_true]
    exact ok.2.1 o uo

/-- `v[i] = x`. -/
theorem Sim.setElem {m : Mem α} {s : View α} (S : Sim m s none) {v i : Nat} {l : ArgVar α} (hl : s.lists v = some l) (hf : l.from_ = none) (hi : i < l.val.length) (x : α) :
    Sim { m with args := m.args.store (m.slices v).arr ((m.slices v).off + i) [x] } (s.setList v (some { l with val := l.val.set i x })) none := by
  have okv := S.lists v l hl
  unfold ListOK at okv; rw [hf] at okv
  obtain ⟨v1, v2, v3⟩ := okv
  have st := store_step m.args (m.slices v).arr ((m.slices v).off + i) [x]
  have hnew : (m.args.store (m.slices v).arr ((m.slices v).off + i) [x]).Shows (m.slices v) (l.val.set i x) := by
    obtain ⟨a1, a2, a3, rst, a4⟩ := v1
    refine ⟨a1, by simp [a2], a3, rst, ?_⟩
    simp only [store_cell, if_true, a1, Nat.zero_add, a4]
    rw [goCopy_one _ _ _ (by simp; omega), List.set_append_left _ _ hi]
  generalize m.args.store (m.slices v).arr ((m.slices v).off + i) [x] = h' at *
  have hh := hold_setList s v (some { l with val := l.val.set i x })
  have hp : ptr ({ m with args := h' } : Mem α) none = ptr m none := by funext i; cases i <;> rfl
  have hu : ∀ o, Used ({ m with args := h' } : Mem α) (s.setList v (some { l with val := l.val.set i x })) none o ↔ Used m s none o := by intro o; simp only [Used, hh, hp]
  constructor
  · rw [hh, hp]
    intro j q hq
    obtain ⟨o, b, k1, L⟩ := S.live j q hq
    have uo : Used m s none o := .inr ⟨j, by rw [hq]; rfl, k1⟩
    exact ⟨o, b, k1, { L.rep with args := st.shows L.rep.args (v2 o uo) }, L.lt, L.out, L.free, L.obj⟩
  · rw [hh, hp]; exact S.inj
  · intro a c b h1 h2; exact S.injB a c b ((hu a).1 h1) ((hu c).1 h2)
  · exact forall2_imp S.pool fun a c ha r => { r with args := st.shows r.args (v2 a (.inl ha)) }
  · exact S.nodup
  · exact S.poolLt
  · intro a c h1 h2; exact S.sepA a c ((hu a).1 h1) ((hu c).1 h2)
  · intro a c h1 h2; exact S.sepD a c ((hu a).1 h1) ((hu c).1 h2)
  · intro a c h1 h2; exact S.sepC a c ((hu a).1 h1) ((hu c).1 h2)
  · exact S.bufs.congr rfl rfl rfl rfl
  · exact S.cache
  · exact S.newLines
  · intro j k hk
    rw [setList_lists] at hk
    by_cases e : j = v
    · rw [if_pos e] at hk; obtain rfl := Option.some.inj hk; subst e
      unfold ListOK
      dsimp only
      rw [hf]
      refine ⟨hnew, fun o ho => v2 o ((hu o).1 ho), fun v' l' h1 h2 => ?_⟩
      rw [setList_lists, if_neg h2] at h1
      exact v3 v' l' h1 h2
    · rw [if_neg e] at hk
      have ok' := S.lists j k hk
      unfold ListOK at ok' ⊢
      cases hf' : k.from_ with
      | none =>
        rw [hf'] at ok'
        obtain ⟨k1, k2, k3⟩ := ok'
        refine ⟨st.shows k1 (v3 j k hk e), fun o ho => k2 o ((hu o).1 ho), fun v' l' h1 h2 => ?_⟩
        rw [setList_lists] at h1
        by_cases e' : v' = v
        · rw [e']; exact fun e2 => v3 j k hk e e2.symm
        · rw [if_neg e'] at h1; exact k3 v' l' h1 h2
      | some p => rw [hf'] at ok'; exact ok'

end Mem
end Xsql
