import Verif.Xsql.MemCall
set_option linter.unusedSimpArgs false
set_option linter.unusedVariables false
set_option linter.unusedSectionVars false
/- The memory of a program and its view by values: the relation, and the steps that keep it. -/
namespace Xsql
open Heap
variable {α : Type} [Inhabited α]
namespace Mem

/-- The statements, by name: `some h` is the variable `h`; `none` an object taken from the pool and not yet assigned. -/
def ptr (m : Mem α) (x : Option (Nat × Stmt α)) : Option Nat → Option Nat
  | some h => m.vars h
  | none => x.map (·.1)

/-- Their values. -/
def hold (s : View α) (x : Option (Nat × Stmt α)) : Option Nat → Option (Stmt α)
  | some h => s.world.live h
  | none => x.map (·.2)

/-- An object that is in the pool, or that the program uses. -/
def Used (m : Mem α) (s : View α) (x : Option (Nat × Stmt α)) (o : Nat) : Prop :=
  o ∈ m.pool ∨ ∃ i, (hold s x i).isSome = true ∧ ptr m x i = some o

/-- An object in the pool. -/
structure Pooled (m : Mem α) (o : Nat) (q : Stmt α) : Prop where
  dialect : (m.obj o).dialect = q.dialect
  pos : (m.obj o).pos = q.pos
  nl : (m.obj o).useNewLines = q.useNewLines
  args : m.args.Shows (m.obj o).args []
  dest : m.dest.Shows (m.obj o).dest []
  chunks : m.chunks.Shows (m.obj o).chunks []
  buf : (m.obj o).buf = none
  empty : q.args = [] ∧ q.dest = [] ∧ q.chunks = []

/-- An object in use. -/
structure Live (m : Mem α) (o b : Nat) (q : Stmt α) : Prop where
  rep : Rep m o b q
  lt : b < m.nextBuf
  out : b ∉ m.bufPool
  free : o ∉ m.pool
  obj : o < m.nextObj

/-- A list of arguments the program holds. -/
def ListOK (m : Mem α) (s : View α) (x : Option (Nat × Stmt α)) (v : Nat) (l : ArgVar α) : Prop := match l.from_ with
  | none => m.args.Shows (m.slices v) l.val ∧ (∀ o, Used m s x o → (m.obj o).args.arr ≠ (m.slices v).arr) ∧
      ∀ v' l', s.lists v' = some l' → v' ≠ v → (m.slices v').arr ≠ (m.slices v).arr
  | some (h, lo) => ∃ q o hi, s.world.live h = some q ∧ m.vars h = some o ∧ lo ≤ hi ∧ hi ≤ q.args.length ∧ m.slices v = (m.obj o).args.sub lo hi ∧ l.val = (q.args.take hi).drop lo

/-- The memory holds what the view says. -/
structure Sim (m : Mem α) (s : View α) (x : Option (Nat × Stmt α)) : Prop where
  live : ∀ i q, hold s x i = some q → ∃ o b, ptr m x i = some o ∧ Live m o b q
  inj : ∀ i j o, (hold s x i).isSome = true → (hold s x j).isSome = true → ptr m x i = some o → ptr m x j = some o → i = j
  injB : ∀ o o' b, Used m s x o → Used m s x o' → (m.obj o).buf = some b → (m.obj o').buf = some b → o = o'
  pool : List.Forall₂ (Pooled m) m.pool s.world.pool
  nodup : m.pool.Nodup
  poolLt : ∀ o ∈ m.pool, o < m.nextObj
  sepA : ∀ o o', Used m s x o → Used m s x o' → (m.obj o).args.arr = (m.obj o').args.arr → o = o'
  sepD : ∀ o o', Used m s x o → Used m s x o' → (m.obj o).dest.arr = (m.obj o').dest.arr → o = o'
  sepC : ∀ o o', Used m s x o → Used m s x o' → (m.obj o).chunks.arr = (m.obj o').chunks.arr → o = o'
  bufs : Bufs m
  cache : m.cache = s.world.cache
  newLines : m.newLines = s.world.newLines
  lists : ∀ v l, s.lists v = some l → ListOK m s x v l

theorem forall2_left {β γ : Type} {R : β → γ → Prop} {l : List β} {l' : List γ} (h : List.Forall₂ R l l') : ∀ a ∈ l, ∃ b ∈ l', R a b := by
  induction h with
  | nil => simp
  | cons h _ ih =>
    intro a ha
    rcases List.mem_cons.1 ha with e | e
    · subst e; exact ⟨_, by simp, h⟩
    · obtain ⟨b, hb, hr⟩ := ih a e; exact ⟨b, by simp [hb], hr⟩

/-- The arrays of used objects exist. -/
theorem Sim.arrs {m : Mem α} {s : View α} {x : Option (Nat × Stmt α)} (S : Sim m s x) {o : Nat} (h : Used m s x o) :
    (m.obj o).args.arr < m.args.next ∧ (m.obj o).dest.arr < m.dest.next ∧ (m.obj o).chunks.arr < m.chunks.next := by
  rcases h with h | ⟨i, h1, h2⟩
  · obtain ⟨q, _, p⟩ := forall2_left S.pool o h
    exact ⟨p.args.2.2.1, p.dest.2.2.1, p.chunks.2.2.1⟩
  · obtain ⟨q, hq⟩ := Option.isSome_iff_exists.1 h1
    obtain ⟨o', b, e, l⟩ := S.live i q hq
    rw [h2] at e; obtain rfl := Option.some.inj e
    exact ⟨l.rep.args.2.2.1, l.rep.dest.2.2.1, l.rep.chunks.2.2.1⟩

theorem Sim.objLt {m : Mem α} {s : View α} {x : Option (Nat × Stmt α)} (S : Sim m s x) {o : Nat} (h : Used m s x o) : o < m.nextObj := by
  rcases h with h | ⟨i, h1, h2⟩
  · exact S.poolLt o h
  · obtain ⟨q, hq⟩ := Option.isSome_iff_exists.1 h1
    obtain ⟨o', b, e, l⟩ := S.live i q hq
    rw [h2] at e; obtain rfl := Option.some.inj e
    exact l.obj

/-- One array moves to a new place. -/
theorem sep_move {U : Nat → Prop} {f f' : Nat → Nat} {o n : Nat} (h : ∀ a b, U a → U b → f a = f b → a = b) (hn : ∀ a, U a → f a < n)
    (ho : ∀ a, a ≠ o → f' a = f a) (hm : f' o = f o ∨ n ≤ f' o) (hu : U o) : ∀ a b, U a → U b → f' a = f' b → a = b := by
  intro a b ha hb e
  by_cases h1 : a = o
  · by_cases h2 : b = o
    · omega
    · subst h1
      rw [ho b h2] at e
      have := hn b hb
      rcases hm with k | k
      · exact h _ _ ha hb (by omega)
      · omega
  · by_cases h2 : b = o
    · subst h2
      rw [ho a h1] at e
      have := hn a ha
      rcases hm with k | k
      · exact h _ _ ha hb (by omega)
      · omega
    · rw [ho a h1, ho b h2] at e; exact h a b ha hb e

/-- Another object keeps its value. -/
theorem CallFrame.other {m m' : Mem α} {o b : Nat} {ch : Prop} (F : CallFrame m m' o b ch) {o' b' : Nat} {q : Stmt α} (L : Live m o' b' q) (ho : o' ≠ o) (hb : b' ≠ b)
    (ha : (m.obj o').args.arr ≠ (m.obj o).args.arr) (hd : (m.obj o').dest.arr ≠ (m.obj o).dest.arr) (hc : (m.obj o').chunks.arr ≠ (m.obj o).chunks.arr) : Live m' o' b' q := by
  have r := L.rep
  have e := F.obj o' ho
  refine ⟨?_, lt_of_lt_of_le L.lt F.bufs.nextBuf, F.bufs.used b' L.lt L.out hb, by rw [F.pool]; exact L.free, by rw [F.nextObj]; exact L.obj⟩
  constructor
  all_goals (try rw [e])
  all_goals first
    | exact r.name | exact r.dialect | exact r.pos | exact r.sql | exact r.nl | exact r.buf
    | exact F.args.shows r.args ha | exact F.dest.shows r.dest hd | exact F.chunks.shows r.chunks hc
    | exact F.bufs.shows L.lt L.out hb r.bytes

theorem CallFrame.pooled {m m' : Mem α} {o b : Nat} {ch : Prop} (F : CallFrame m m' o b ch) {o' : Nat} {q : Stmt α} (r : Pooled m o' q) (ho : o' ≠ o)
    (ha : (m.obj o').args.arr ≠ (m.obj o).args.arr) (hd : (m.obj o').dest.arr ≠ (m.obj o).dest.arr) (hc : (m.obj o').chunks.arr ≠ (m.obj o).chunks.arr) : Pooled m' o' q := by
  have e := F.obj o' ho
  constructor
  all_goals (try rw [e])
  all_goals first
    | exact r.dialect | exact r.pos | exact r.nl | exact r.buf | exact r.empty
    | exact F.args.shows r.args ha | exact F.dest.shows r.dest hd | exact F.chunks.shows r.chunks hc

theorem forall2_imp {β γ : Type} {R R' : β → γ → Prop} {l : List β} {l' : List γ} (h : List.Forall₂ R l l') (k : ∀ a b, a ∈ l → R a b → R' a b) : List.Forall₂ R' l l' := by
  induction h with
  | nil => exact .nil
  | cons h _ ih => exact .cons (k _ _ (by simp) h) (ih fun a b ha hr => k a b (by simp [ha]) hr)

/-- One statement changes. -/
theorem Sim.update {m m' : Mem α} {s s' : View α} {x x' : Option (Nat × Stmt α)} (S : Sim m s x) {i : Option Nat} {q q' : Stmt α} {o b : Nat} {ch : Prop}
    (hq : hold s x i = some q) (hp : ptr m x i = some o) (L : Live m o b q) (F : CallFrame m m' o b ch) (R : Rep m' o b q')
    (hptr : ptr m' x' = ptr m x) (hi : hold s' x' i = some q') (hj : ∀ j, j ≠ i → hold s' x' j = hold s x j)
    (hpool : s'.world.pool = s.world.pool) (hcache : s'.world.cache = s.world.cache) (hnl : s'.world.newLines = s.world.newLines)
    (hlists : ∀ v l, s'.lists v = some l → s.lists v = some l ∧ (ch → l.from_.map (fun p => some p.1) ≠ some i)) : Sim m' s' x' := by
  have hsome : ∀ j, (hold s' x' j).isSome = (hold s x j).isSome := by
    intro j
    by_cases e : j = i
    · subst e; rw [hi, hq]; rfl
    · rw [hj j e]
  have hused : ∀ a, Used m' s' x' a ↔ Used m s x a := by
    intro a; simp only [Used, F.pool, hptr, hsome]
  have hu : Used m s x o := .inr ⟨i, by rw [hq]; rfl, hp⟩
  have hneq : ∀ a, Used m s x a → a ≠ o → (m.obj a).args.arr ≠ (m.obj o).args.arr ∧ (m.obj a).dest.arr ≠ (m.obj o).dest.arr ∧ (m.obj a).chunks.arr ≠ (m.obj o).chunks.arr :=
    fun a ha hao => ⟨fun e => hao (S.sepA a o ha hu e), fun e => hao (S.sepD a o ha hu e), fun e => hao (S.sepC a o ha hu e)⟩
  have hbuf : ∀ a, (m'.obj a).buf = (m.obj a).buf := by
    intro a
    by_cases e : a = o
    · subst e; rw [R.buf, L.rep.buf]
    · rw [F.obj a e]
  have L' : Live m' o b q' := ⟨R, lt_of_lt_of_le L.lt F.bufs.nextBuf, F.own, by rw [F.pool]; exact L.free, by rw [F.nextObj]; exact L.obj⟩
  constructor
  · intro j p hjp
    by_cases e : j = i
    · subst e
      rw [hi] at hjp; obtain rfl := Option.some.inj hjp
      exact ⟨o, b, by rw [hptr]; exact hp, L'⟩
    · rw [hj j e] at hjp
      obtain ⟨o1, b1, k1, k2⟩ := S.live j p hjp
      have hu1 : Used m s x o1 := .inr ⟨j, by rw [hjp]; rfl, k1⟩
      have ho1 : o1 ≠ o := fun e' => e (S.inj j i o (by rw [hjp]; rfl) (by rw [hq]; rfl) (e' ▸ k1) hp)
      have hb1 : b1 ≠ b := fun e' => ho1 (S.injB o1 o b hu1 hu (e' ▸ k2.rep.buf) L.rep.buf)
      obtain ⟨n1, n2, n3⟩ := hneq o1 hu1 ho1
      exact ⟨o1, b1, by rw [hptr]; exact k1, F.other k2 ho1 hb1 n1 n2 n3⟩
  · intro j k a h1 h2 h3 h4
    rw [hsome] at h1 h2; rw [hptr] at h3 h4
    exact S.inj j k a h1 h2 h3 h4
  · intro a c b0 h1 h2 h3 h4
    rw [hused] at h1 h2; rw [hbuf] at h3 h4
    exact S.injB a c b0 h1 h2 h3 h4
  · rw [F.pool, hpool]
    refine forall2_imp S.pool fun a c ha hr => ?_
    have hao : a ≠ o := fun e => L.free (e ▸ ha)
    obtain ⟨n1, n2, n3⟩ := hneq a (.inl ha) hao
    exact F.pooled hr hao n1 n2 n3
  · rw [F.pool]; exact S.nodup
  · rw [F.pool, F.nextObj]; exact S.poolLt
  · intro a c h1 h2
    rw [hused] at h1 h2
    exact sep_move (f := fun a => (m.obj a).args.arr) (f' := fun a => (m'.obj a).args.arr) S.sepA (fun a ha => (S.arrs ha).1) (fun a ha => by rw [F.obj a ha]) F.args.own hu a c h1 h2
  · intro a c h1 h2
    rw [hused] at h1 h2
    exact sep_move (f := fun a => (m.obj a).dest.arr) (f' := fun a => (m'.obj a).dest.arr) S.sepD (fun a ha => (S.arrs ha).2.1) (fun a ha => by rw [F.obj a ha]) F.dest.own hu a c h1 h2
  · intro a c h1 h2
    rw [hused] at h1 h2
    exact sep_move (f := fun a => (m.obj a).chunks.arr) (f' := fun a => (m'.obj a).chunks.arr) S.sepC (fun a ha => (S.arrs ha).2.2) (fun a ha => by rw [F.obj a ha]) F.chunks.own hu a c h1 h2
  · exact F.ok
  · rw [F.cache, hcache, S.cache]
  · rw [F.newLines, hnl, S.newLines]
  · intro v l hl
    obtain ⟨hl0, hch⟩ := hlists v l hl
    have ok := S.lists v l hl0
    unfold ListOK at ok ⊢
    rw [F.slices]
    cases hf : l.from_ with
    | none =>
      rw [hf] at ok
      dsimp only at ok ⊢
      obtain ⟨k1, k2, k3⟩ := ok
      refine ⟨F.args.shows k1 (fun e => k2 o hu e.symm), ?_, fun v' l' h1 h2 => k3 v' l' (hlists v' l' h1).1 h2⟩
      intro a ha
      rw [hused] at ha
      by_cases e : a = o
      · subst e
        have := k2 a ha
        have hlt := k1.2.2.1
        rcases F.args.own with k | k <;> omega
      · rw [F.obj a e]; exact k2 a ha
    | some p =>
      obtain ⟨h, lo⟩ := p
      rw [hf] at ok hch
      dsimp only at ok ⊢
      obtain ⟨qh, oh, hi', k1, k2, k3, k4, k5, k6⟩ := ok
      have kh : hold s x (some h) = some qh := k1
      by_cases e : some h = i
      · have hnc : ¬ ch := fun c => hch c (by simp [e])
        rw [← e] at hq hp hi
        have : qh = q := by have := kh.symm.trans hq; exact Option.some.inj this
        subst this
        have : oh = o := by have e1 : m.vars h = some o := hp; rw [k2] at e1; exact Option.some.inj e1
        subst this
        obtain ⟨f1, f2⟩ := F.keep hnc
        have hargs : q'.args = qh.args := by
          have r1 := R.args.read
          have r2 := L.rep.args.read
          rw [← r1, ← r2, f1]
          simp only [Heap.read]
          rw [f2 _ L.rep.args.2.2.1]
        refine ⟨q', oh, hi', hi, by rw [F.vars]; exact k2, k3, by rw [hargs]; exact k4, by rw [f1]; exact k5, by rw [hargs]; exact k6⟩
      · have hoh : oh ≠ o := fun e' => e (S.inj (some h) i o (by rw [kh]; rfl) (by rw [hq]; rfl) (by rw [← e']; exact k2) hp)
        refine ⟨qh, oh, hi', ?_, by rw [F.vars]; exact k2, k3, k4, by rw [F.obj oh hoh]; exact k5, k6⟩
        have := hj (some h) e
        exact this.trans k1

end Mem
end Xsql
