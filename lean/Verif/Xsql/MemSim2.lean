import Verif.Xsql.MemSim
set_option linter.unusedSimpArgs false
set_option linter.unusedVariables false
set_option linter.unusedSectionVars false
/- Opening, assigning and closing statements; the cache; the program's own lists. -/
namespace Xsql
open Heap
variable {α : Type} [Inhabited α]
namespace Mem

/-! ### The program's lists -/

theorem expire_lists (s : View α) (h v : Nat) (l : ArgVar α) : (s.expire h).lists v = some l ↔ s.lists v = some l ∧ l.from_.map Prod.fst ≠ some h := by
  simp only [View.expire]
  cases hl : s.lists v with
  | none => simp
  | some k =>
    dsimp only
    by_cases hk : k.from_.map Prod.fst = some h
    · rw [if_pos hk]
      constructor
      · intro e; cases e
      · rintro ⟨e, e'⟩; exact absurd ((Option.some.inj e) ▸ hk) e'
    · rw [if_neg hk]
      constructor
      · intro e; exact ⟨e, (Option.some.inj e) ▸ hk⟩
      · exact fun e => e.1

/-! ### Memory grows, names change, nothing else -/

/-- New arrays may appear. -/
def _root_.Xsql.Heap.Grow {β : Type} (h h' : Heap β) : Prop := h.next ≤ h'.next ∧ ∀ a < h.next, h'.cell a = h.cell a

theorem _root_.Xsql.Heap.Grow.refl {β : Type} (h : Heap β) : Grow h h := ⟨le_refl _, fun _ _ => rfl⟩

theorem _root_.Xsql.Heap.Grow.alloc {β : Type} (h : Heap β) (xs : List β) : Grow h (h.alloc xs) :=
  ⟨by simp [Heap.alloc], fun a ha => by simp only [alloc_cell]; rw [if_neg (by omega)]⟩

theorem _root_.Xsql.Heap.Grow.shows {β : Type} {h h' : Heap β} (g : Grow h h') {s : Slice} {xs : List β} (k : h.Shows s xs) : h'.Shows s xs := by
  obtain ⟨h1, h2, h3, r, h4⟩ := k
  have := g.1
  exact ⟨h1, h2, by omega, r, by rw [g.2 _ h3, h4]⟩

/-- The state of the objects in use is carried over; `f` tells which name a statement had before. -/
theorem Sim.carry {m m' : Mem α} {s s' : View α} {x x' : Option (Nat × Stmt α)} (S : Sim m s x) (f : Option Nat → Option Nat)
    (hA : Grow m.args m'.args) (hD : Grow m.dest m'.dest) (hC : Grow m.chunks m'.chunks)
    (hB : BufFrame m m' (fun _ => False)) (hBk : Bufs m') (hn : m.nextObj ≤ m'.nextObj)
    (hf : ∀ i q, hold s' x' i = some q → hold s x (f i) = some q ∧ ptr m' x' i = ptr m x (f i))
    (hinj : ∀ i j, (hold s' x' i).isSome = true → (hold s' x' j).isSome = true → f i = f j → i = j)
    (hsub : ∀ o ∈ m'.pool, o ∈ m.pool) (hnd : m'.pool.Nodup) (hpool : List.Forall₂ (Pooled m) m'.pool s'.world.pool)
    (hobj : ∀ o, Used m' s' x' o → m'.obj o = m.obj o)
    (hcache : m'.cache = s'.world.cache) (hnl : m'.newLines = s'.world.newLines)
    (hsl : ∀ v l, s'.lists v = some l → s.lists v = some l ∧ m'.slices v = m.slices v ∧ ∀ h lo, l.from_ = some (h, lo) → s'.world.live h = s.world.live h ∧ m'.vars h = m.vars h ∧ Used m' s' x' ((m.vars h).getD 0)) :
    Sim m' s' x' := by
  have hu : ∀ o, Used m' s' x' o → Used m s x o := by
    rintro o (h | ⟨i, h, h'⟩)
    · exact .inl (hsub o h)
    · obtain ⟨q, hq⟩ := Option.isSome_iff_exists.1 h
      obtain ⟨k1, k2⟩ := hf i q hq
      exact .inr ⟨f i, by rw [k1]; rfl, by rw [← k2]; exact h'⟩
  constructor
  · intro i q hq
    obtain ⟨k1, k2⟩ := hf i q hq
    obtain ⟨o, b, l1, l2⟩ := S.live (f i) q k1
    have hui : Used m' s' x' o := .inr ⟨i, by rw [hq]; rfl, by rw [k2]; exact l1⟩
    have e := hobj o hui
    refine ⟨o, b, by rw [k2]; exact l1, ?_, lt_of_lt_of_le l2.lt hB.nextBuf, hB.used b l2.lt l2.out id, fun h => l2.free (hsub o h), lt_of_lt_of_le l2.obj hn⟩
    have r := l2.rep
    constructor
    all_goals (try rw [e])
    all_goals first
      | exact r.name | exact r.dialect | exact r.pos | exact r.sql | exact r.nl | exact r.buf
      | exact hA.shows r.args | exact hD.shows r.dest | exact hC.shows r.chunks
      | exact hB.shows l2.lt l2.out id r.bytes
  · intro i j o h1 h2 h3 h4
    obtain ⟨q, hq⟩ := Option.isSome_iff_exists.1 h1
    obtain ⟨p, hp⟩ := Option.isSome_iff_exists.1 h2
    obtain ⟨a1, a2⟩ := hf i q hq
    obtain ⟨b1, b2⟩ := hf j p hp
    exact hinj i j h1 h2 (S.inj (f i) (f j) o (by rw [a1]; rfl) (by rw [b1]; rfl) (by rw [← a2]; exact h3) (by rw [← b2]; exact h4))
  · intro o o' b h1 h2 h3 h4
    rw [hobj o h1] at h3; rw [hobj o' h2] at h4
    exact S.injB o o' b (hu o h1) (hu o' h2) h3 h4
  · refine forall2_imp hpool fun a c ha r => ?_
    have e := hobj a (.inl ha)
    constructor
    all_goals (try rw [e])
    all_goals first
      | exact r.dialect | exact r.pos | exact r.nl | exact r.buf | exact r.empty
      | exact hA.shows r.args | exact hD.shows r.dest | exact hC.shows r.chunks
  · exact hnd
  · intro o ho; exact lt_of_lt_of_le (S.poolLt o (hsub o ho)) hn
  · intro o o' h1 h2; rw [hobj o h1, hobj o' h2]; exact S.sepA o o' (hu o h1) (hu o' h2)
  · intro o o' h1 h2; rw [hobj o h1, hobj o' h2]; exact S.sepD o o' (hu o h1) (hu o' h2)
  · intro o o' h1 h2; rw [hobj o h1, hobj o' h2]; exact S.sepC o o' (hu o h1) (hu o' h2)
  · exact hBk
  · exact hcache
  · exact hnl
  · intro v l hl
    obtain ⟨k1, k2, k3⟩ := hsl v l hl
    have ok := S.lists v l k1
    unfold ListOK at ok ⊢
    cases hfr : l.from_ with
    | none =>
      rw [hfr] at ok
      obtain ⟨a1, a2, a3⟩ := ok
      refine ⟨by rw [k2]; exact hA.shows a1, fun o ho => by rw [hobj o ho, k2]; exact a2 o (hu o ho), fun v' l' h1 h2 => ?_⟩
      obtain ⟨b1, b2, _⟩ := hsl v' l' h1
      rw [b2, k2]; exact a3 v' l' b1 h2
    | some p =>
      obtain ⟨h, lo⟩ := p
      rw [hfr] at ok
      obtain ⟨q, o, hi, a1, a2, a3, a4, a5, a6⟩ := ok
      obtain ⟨b1, b2, b3⟩ := k3 h lo hfr
      rw [a2] at b3
      exact ⟨q, o, hi, by rw [b1]; exact a1, by rw [b2]; exact a2, a3, a4, by rw [k2, hobj o b3]; exact a5, a6⟩

theorem Sim.usedVar {m : Mem α} {s : View α} {x : Option (Nat × Stmt α)} (S : Sim m s x) {v : Nat} {l : ArgVar α} (hl : s.lists v = some l) {h lo : Nat} (hf : l.from_ = some (h, lo)) :
    Used m s x ((m.vars h).getD 0) := by
  have ok := S.lists v l hl
  unfold ListOK at ok
  rw [hf] at ok
  obtain ⟨q, o, hi, a1, a2, _⟩ := ok
  rw [a2]
  have h1 : hold s x (some h) = some q := a1
  exact .inr ⟨some h, by rw [h1]; rfl, a2⟩

theorem Bufs.congr {m m' : Mem α} (h : Bufs m) (h1 : m'.bytes = m.bytes) (h2 : m'.bufs = m.bufs) (h3 : m'.nextBuf = m.nextBuf) (h4 : m'.bufPool = m.bufPool) : Bufs m' :=
  ⟨by rw [h1, h2, h3]; exact h.wf, by rw [h2, h3]; exact h.sep, by rw [h4]; exact h.nodup, by rw [h2, h3, h4]; exact h.pool⟩

theorem BufFrame.congr {m m' : Mem α} {ex : Nat → Prop} (h1 : m'.bytes = m.bytes) (h2 : m'.bufs = m.bufs) (h3 : m'.nextBuf = m.nextBuf) (h4 : m'.bufPool = m.bufPool) : BufFrame m m' ex :=
  ⟨by rw [h3], by rw [h1], fun _ _ _ _ => by rw [h1, h2]; exact ⟨rfl, rfl⟩, fun _ _ h _ => by rw [h4]; exact h⟩

/-! ### Caches and modes -/

theorem Sim.setCache {m : Mem α} {s : View α} {x : Option (Nat × Stmt α)} (S : Sim m s x) (c : Dia → Bytes → Option Bytes) :
    Sim { m with cache := c } { s with world := { s.world with cache := c } } x := by
  have hh : hold { s with world := { s.world with cache := c } } x = hold s x := by funext i; cases i <;> rfl
  have hp : ptr { m with cache := c } x = ptr m x := by funext i; cases i <;> rfl
  refine S.carry id (.refl _) (.refl _) (.refl _) (.congr rfl rfl rfl rfl) (S.bufs.congr rfl rfl rfl rfl) (le_refl _) ?_ ?_ (fun _ h => h) S.nodup S.pool (fun _ _ => rfl) rfl S.newLines ?_
  · intro i q h; rw [hh] at h; rw [hp]; exact ⟨h, rfl⟩
  · intro i j _ _ h; exact h
  · intro v l h
    refine ⟨h, rfl, fun h' lo e => ⟨rfl, rfl, ?_⟩⟩
    have := S.usedVar h e
    simp only [Used, hh, hp]; exact this

theorem Sim.setModes {m : Mem α} {s : View α} {x : Option (Nat × Stmt α)} (S : Sim m s x) (n : Dia → Bool) :
    Sim { m with newLines := n } { s with world := { s.world with newLines := n } } x := by
  have hh : hold { s with world := { s.world with newLines := n } } x = hold s x := by funext i; cases i <;> rfl
  have hp : ptr { m with newLines := n } x = ptr m x := by funext i; cases i <;> rfl
  refine S.carry id (.refl _) (.refl _) (.refl _) (.congr rfl rfl rfl rfl) (S.bufs.congr rfl rfl rfl rfl) (le_refl _) ?_ ?_ (fun _ h => h) S.nodup S.pool (fun _ _ => rfl) S.cache rfl ?_
  · intro i q h; rw [hh] at h; rw [hp]; exact ⟨h, rfl⟩
  · intro i j _ _ h; exact h
  · intro v l h
    refine ⟨h, rfl, fun h' lo e => ⟨rfl, rfl, ?_⟩⟩
    have := S.usedVar h e
    simp only [Used, hh, hp]; exact this

/-! ### A new statement -/

/-- An object ready for a new statement: nobody uses it. -/
structure Fresh (m : Mem α) (s : View α) (o : Nat) (p : Stmt α) : Prop where
  pos : (m.obj o).pos = p.pos
  args : m.args.Shows (m.obj o).args []
  dest : m.dest.Shows (m.obj o).dest []
  chunks : m.chunks.Shows (m.obj o).chunks []
  empty : p.args = [] ∧ p.dest = [] ∧ p.chunks = []
  lt : o < m.nextObj
  free : o ∉ m.pool
  unused : ¬ Used m s none o
  sepA : ∀ a, Used m s none a → (m.obj a).args.arr ≠ (m.obj o).args.arr
  sepD : ∀ a, Used m s none a → (m.obj a).dest.arr ≠ (m.obj o).dest.arr
  sepC : ∀ a, Used m s none a → (m.obj a).chunks.arr ≠ (m.obj o).chunks.arr
  lists : ∀ v l, s.lists v = some l → l.from_ = none → (m.slices v).arr ≠ (m.obj o).args.arr

/-- The value the pool hands out. -/
def taken (w : World α) (pick : Option Nat) : Stmt α := match pick with
  | some i => (w.pool[i]?).getD {}
  | none => {}

/-- The pool afterwards. -/
def leftPool (w : World α) (pick : Option Nat) : List (Stmt α) := match pick with
  | some i => w.pool.eraseIdx i
  | none => w.pool

theorem forall2_eraseIdx {β γ : Type} {R : β → γ → Prop} {l : List β} {l' : List γ} (h : List.Forall₂ R l l') (i : Nat) : List.Forall₂ R (l.eraseIdx i) (l'.eraseIdx i) := by
  induction h generalizing i with
  | nil => simp
  | cons h hs ih => cases i with
    | zero => simpa using hs
    | succ i => simpa using List.Forall₂.cons h (ih i)

theorem forall2_get {β γ : Type} {R : β → γ → Prop} {l : List β} {l' : List γ} (h : List.Forall₂ R l l') (i : Nat) (a : β) (ha : l[i]? = some a) : ∃ b, l'[i]? = some b ∧ R a b := by
  induction h generalizing i with
  | nil => simp at ha
  | cons h hs ih => cases i with
    | zero => simp at ha; subst ha; exact ⟨_, by simp, h⟩
    | succ i => simp at ha; simpa using ih i ha

theorem forall2_none {β γ : Type} {R : β → γ → Prop} {l : List β} {l' : List γ} (h : List.Forall₂ R l l') (i : Nat) (ha : l[i]? = none) : l'[i]? = none ∧ l'.eraseIdx i = l' := by
  have hl := h.length_eq
  simp at ha
  exact ⟨by simp; omega, List.eraseIdx_of_length_le (by omega)⟩

theorem takeStmt_ok {m : Mem α} {s : View α} (S : Sim m s none) (pick : Option Nat) :
    Sim (m.takeStmt pick).1 { s with world := { s.world with pool := leftPool s.world pick } } none ∧
      Fresh (m.takeStmt pick).1 { s with world := { s.world with pool := leftPool s.world pick } } (m.takeStmt pick).2 (taken s.world pick) ∧ (m.takeStmt pick).1.newLines = m.newLines ∧
      (m.takeStmt pick).1.vars = m.vars := by
  -- a new object
  have new : ∀ w : World α, w = { s.world with pool := s.world.pool } → Sim m.newStmt.1 { s with world := w } none ∧ Fresh m.newStmt.1 { s with world := w } m.newStmt.2 {} ∧ m.newStmt.1.newLines = m.newLines ∧ m.newStmt.1.vars = m.vars := by
    rintro _ rfl
    have hh : hold { s with world := { s.world with pool := s.world.pool } } none = hold s none := by funext i; cases i <;> rfl
    have hp : ptr m.newStmt.1 none = ptr m none := by funext i; cases i <;> rfl
    have hu : ∀ o, Used m.newStmt.1 { s with world := { s.world with pool := s.world.pool } } none o ↔ Used m s none o := fun o => by simp only [Used, hh, hp]; rfl
    have hob : ∀ o, Used m s none o → m.newStmt.1.obj o = m.obj o := fun o ho => by
      have := S.objLt ho
      simp only [newStmt]; rw [if_neg (by omega)]
    have hself : m.newStmt.1.obj m.nextObj = { chunks := { arr := m.chunks.next }, args := { arr := m.args.next }, dest := { arr := m.dest.next } } := by simp [newStmt]
    refine ⟨?_, ?_, rfl, rfl⟩
    · refine S.carry id (.alloc _ _) (.alloc _ _) (.alloc _ _) (.congr rfl rfl rfl rfl) (S.bufs.congr rfl rfl rfl rfl) (by simp [newStmt]) ?_ ?_ (fun _ h => h) S.nodup S.pool ?_ S.cache S.newLines ?_
      · intro i q h; rw [hh] at h; rw [hp]; exact ⟨h, rfl⟩
      · intro i j _ _ h; exact h
      · intro o ho; exact hob o ((hu o).1 ho)
      · intro v l h
        exact ⟨h, rfl, fun h' lo e => ⟨rfl, rfl, (hu _).2 (S.usedVar h e)⟩⟩
    · have hun : ¬ Used m s none m.nextObj := fun h => absurd (S.objLt h) (lt_irrefl _)
      refine ⟨?_, ?_, ?_, ?_, ⟨rfl, rfl, rfl⟩, by simp [newStmt], fun h => absurd (S.poolLt _ h) (lt_irrefl _), fun h => hun ((hu _).1 h), ?_, ?_, ?_, ?_⟩
      · show (m.newStmt.1.obj m.nextObj).pos = _; rw [hself]
      · show m.newStmt.1.args.Shows (m.newStmt.1.obj m.nextObj).args _; rw [hself]; simp [Shows, newStmt, alloc]
      · show m.newStmt.1.dest.Shows (m.newStmt.1.obj m.nextObj).dest _; rw [hself]; simp [Shows, newStmt, alloc]
      · show m.newStmt.1.chunks.Shows (m.newStmt.1.obj m.nextObj).chunks _; rw [hself]; simp [Shows, newStmt, alloc]
      · intro a ha
        show _ ≠ (m.newStmt.1.obj m.nextObj).args.arr
        have ha := (hu a).1 ha
        rw [hself, hob a ha]; have := (S.arrs ha).1; dsimp only; omega
      · intro a ha
        show _ ≠ (m.newStmt.1.obj m.nextObj).dest.arr
        have ha := (hu a).1 ha
        rw [hself, hob a ha]; have := (S.arrs ha).2.1; dsimp only; omega
      · intro a ha
        show _ ≠ (m.newStmt.1.obj m.nextObj).chunks.arr
        have ha := (hu a).1 ha
        rw [hself, hob a ha]; have := (S.arrs ha).2.2; dsimp only; omega
      · intro v l hl hf
        show _ ≠ (m.newStmt.1.obj m.nextObj).args.arr
        have ok := S.lists v l hl
        unfold ListOK at ok; rw [hf] at ok
        have := ok.1.2.2.1
        rw [hself]; simp only [newStmt]; omega
  cases pick with
  | none => exact new _ rfl
  | some i =>
    cases hi : m.pool[i]? with
    | none =>
      obtain ⟨e1, e2⟩ := forall2_none S.pool i hi
      have e3 : taken s.world (some i) = ({} : Stmt α) := by simp [taken, e1]
      simp only [takeStmt, hi, e3]
      exact new _ (by simp [leftPool, e2])
    | some o =>
      obtain ⟨p, hp1, hp2⟩ := forall2_get S.pool i o hi
      have e3 : taken s.world (some i) = p := by simp [taken, hp1]
      simp only [takeStmt, hi, e3]
      have hmem : o ∈ m.pool := List.mem_of_getElem? hi
      have hnot : o ∉ m.pool.eraseIdx i := by
        obtain ⟨hlt, e⟩ := List.getElem?_eq_some_iff.1 hi
        rw [← e]; exact nodup_eraseIdx S.nodup i hlt
      have hh : hold { s with world := { s.world with pool := leftPool s.world (some i) } } none = hold s none := by funext j; cases j <;> rfl
      have hpt : ptr { m with pool := m.pool.eraseIdx i } none = ptr m none := by funext j; cases j <;> rfl
      have hu : ∀ a, Used { m with pool := m.pool.eraseIdx i } { s with world := { s.world with pool := leftPool s.world (some i) } } none a → Used m s none a ∧ a ≠ o := by
        rintro a (h | ⟨j, h, h'⟩)
        · exact ⟨.inl (List.mem_of_mem_eraseIdx h), fun e => hnot (e ▸ h)⟩
        · rw [hh] at h; rw [hpt] at h'
          refine ⟨.inr ⟨j, h, h'⟩, fun e => ?_⟩
          obtain ⟨q, hq⟩ := Option.isSome_iff_exists.1 h
          obtain ⟨o', b, k1, k2⟩ := S.live j q hq
          rw [h'] at k1; obtain rfl := Option.some.inj k1
          exact k2.free (e ▸ hmem)
      have huo : Used m s none o := .inl hmem
      refine ⟨?_, ?_, by first | rfl | trivial, by first | rfl | trivial⟩
      · refine S.carry id (.refl _) (.refl _) (.refl _) (.congr rfl rfl rfl rfl) (S.bufs.congr rfl rfl rfl rfl) (le_refl _) ?_ ?_ (fun a h => List.mem_of_mem_eraseIdx h) (List.Nodup.eraseIdx i S.nodup)
          (forall2_eraseIdx S.pool i) (fun _ _ => rfl) S.cache S.newLines ?_
        · intro j q h; rw [hh] at h; rw [hpt]; exact ⟨h, rfl⟩
        · intro j k _ _ h; exact h
        · intro v l h
          refine ⟨h, rfl, fun h' lo e => ⟨rfl, rfl, ?_⟩⟩
          have ok := S.lists v l h
          unfold ListOK at ok; rw [e] at ok
          obtain ⟨q, o', hi', a1, a2, _⟩ := ok
          rw [a2]
          have h1 : hold { s with world := { s.world with pool := leftPool s.world (some i) } } none (some h') = some q := a1
          exact .inr ⟨some h', by rw [h1]; rfl, a2⟩
      · refine ⟨hp2.pos, hp2.args, hp2.dest, hp2.chunks, hp2.empty, S.poolLt o hmem, hnot, fun h => (hu o h).2 rfl, ?_, ?_, ?_, ?_⟩
        · intro a ha e; exact (hu a ha).2 (S.sepA a o (hu a ha).1 huo e)
        · intro a ha e; exact (hu a ha).2 (S.sepD a o (hu a ha).1 huo e)
        · intro a ha e; exact (hu a ha).2 (S.sepC a o (hu a ha).1 huo e)
        · intro v l hl hf e
          have ok := S.lists v l hl
          unfold ListOK at ok; rw [hf] at ok
          exact ok.2.1 o huo e.symm

end Mem
end Xsql
