import Verif.Xsql.MemAdd
import Mathlib.Data.List.Nodup
set_option linter.unusedSimpArgs false
set_option linter.unusedVariables false
set_option linter.unusedSectionVars false
/- Buffers: every buffer has its own memory, and the pool hands out only buffers that nobody uses. -/
namespace Xsql
open Heap
variable {α : Type} [Inhabited α]
namespace Mem

/-- The buffers are in order. -/
structure Bufs (m : Mem α) : Prop where
  wf : ∀ b < m.nextBuf, ∃ xs, m.bytes.Shows (m.bufs b) xs
  sep : ∀ b < m.nextBuf, ∀ b' < m.nextBuf, (m.bufs b).arr = (m.bufs b').arr → b = b'
  nodup : m.bufPool.Nodup
  pool : ∀ b ∈ m.bufPool, b < m.nextBuf ∧ (m.bufs b).len = 0

/-- The buffers in use, except `ex`, stay as they are. -/
structure BufFrame (m m' : Mem α) (ex : Nat → Prop) : Prop where
  nextBuf : m.nextBuf ≤ m'.nextBuf
  next : m.bytes.next ≤ m'.bytes.next
  same : ∀ i < m.nextBuf, i ∉ m.bufPool → ¬ ex i → m'.bufs i = m.bufs i ∧ m'.bytes.cell (m.bufs i).arr = m.bytes.cell (m.bufs i).arr
  used : ∀ i < m.nextBuf, i ∉ m.bufPool → ¬ ex i → i ∉ m'.bufPool

theorem BufFrame.refl (m : Mem α) (ex : Nat → Prop) : BufFrame m m ex := ⟨le_refl _, le_refl _, fun _ _ _ _ => ⟨rfl, rfl⟩, fun _ _ h _ => h⟩

theorem BufFrame.trans {m m' m'' : Mem α} {ex ex' ex'' : Nat → Prop} (h : BufFrame m m' ex) (k : BufFrame m' m'' ex')
    (hx : ∀ i < m.nextBuf, i ∉ m.bufPool → ¬ ex'' i → ¬ ex i ∧ ¬ ex' i) : BufFrame m m'' ex'' where
  nextBuf := le_trans h.nextBuf k.nextBuf
  next := le_trans h.next k.next
  same i hi hp he := by
    have hn := h.nextBuf
    obtain ⟨e1, e2⟩ := hx i hi hp he
    obtain ⟨a1, a2⟩ := h.same i hi hp e1
    obtain ⟨b1, b2⟩ := k.same i (by omega) (h.used i hi hp e1) e2
    rw [a1] at b1 b2
    exact ⟨b1, b2.trans a2⟩
  used i hi hp he := by
    have hn := h.nextBuf
    obtain ⟨e1, e2⟩ := hx i hi hp he
    exact k.used i (by omega) (h.used i hi hp e1) e2

theorem BufFrame.shows {m m' : Mem α} {ex : Nat → Prop} (h : BufFrame m m' ex) {i : Nat} (hi : i < m.nextBuf) (hp : i ∉ m.bufPool) (he : ¬ ex i)
    {x : Bytes} (k : m.bytes.Shows (m.bufs i) x) : m'.bytes.Shows (m'.bufs i) x := by
  obtain ⟨a1, a2⟩ := h.same i hi hp he
  obtain ⟨k1, k2, k3, r, k4⟩ := k
  have hn := h.next
  rw [a1]
  exact ⟨k1, k2, by omega, r, by rw [a2, k4]⟩

/-- Everything except buffers is the same. -/
structure Quiet (m m' : Mem α) : Prop where
  args : m'.args = m.args
  dest : m'.dest = m.dest
  chunks : m'.chunks = m.chunks
  obj : m'.obj = m.obj
  nextObj : m'.nextObj = m.nextObj
  pool : m'.pool = m.pool
  cache : m'.cache = m.cache
  newLines : m'.newLines = m.newLines
  vars : m'.vars = m.vars
  slices : m'.slices = m.slices

theorem Quiet.trans {m m' m'' : Mem α} (h : Quiet m m') (k : Quiet m' m'') : Quiet m m'' :=
  ⟨k.args.trans h.args, k.dest.trans h.dest, k.chunks.trans h.chunks, k.obj.trans h.obj, k.nextObj.trans h.nextObj, k.pool.trans h.pool, k.cache.trans h.cache,
    k.newLines.trans h.newLines, k.vars.trans h.vars, k.slices.trans h.slices⟩

theorem Quiet.rep {m m' : Mem α} (h : Quiet m m') {o b : Nat} {q : Stmt α} (k : Rep m o b q) (hb : m'.bytes.Shows (m'.bufs b) q.buf) : Rep m' o b q := by
  constructor
  all_goals (try rw [h.obj])
  all_goals first | (rw [h.args]; exact k.args) | (rw [h.dest]; exact k.dest) | (rw [h.chunks]; exact k.chunks) | exact hb | exact k.name | exact k.dialect | exact k.pos | exact k.sql | exact k.nl | exact k.buf

/-- One buffer in use is written to. -/
theorem write_bufs {m m' : Mem α} (hm : Bufs m) {t : Nat} (ht : t < m.nextBuf) (hp : t ∉ m.bufPool) (hst : Step m.bytes m'.bytes (m.bufs t).arr (m'.bufs t).arr)
    {x : Bytes} (hx : m'.bytes.Shows (m'.bufs t) x) (ho : ∀ i, i ≠ t → m'.bufs i = m.bufs i) (h1 : m'.nextBuf = m.nextBuf) (h2 : m'.bufPool = m.bufPool) :
    Bufs m' ∧ BufFrame m m' (· = t) := by
  have hlt : ∀ b < m.nextBuf, (m.bufs b).arr < m.bytes.next := fun b hb => by obtain ⟨xs, h⟩ := hm.wf b hb; exact h.2.2.1
  have hne : ∀ b < m.nextBuf, b ≠ t → (m.bufs b).arr ≠ (m.bufs t).arr := fun b hb hbt e => hbt (hm.sep b hb t ht e)
  constructor
  · constructor
    · intro b hb
      rw [h1] at hb
      by_cases e : b = t
      · subst e; exact ⟨x, hx⟩
      · obtain ⟨xs, h⟩ := hm.wf b hb
        rw [ho b e]; exact ⟨xs, hst.shows h (hne b hb e)⟩
    · intro b hb b' hb' he
      rw [h1] at hb hb'
      by_cases e : b = t
      · by_cases e' : b' = t
        · omega
        · subst e
          rw [ho b' e'] at he
          have := hne b' hb' e'
          have := hlt b' hb'
          rcases hst.own with k | k <;> omega
      · by_cases e' : b' = t
        · subst e'
          rw [ho b e] at he
          have := hne b hb e
          have := hlt b hb
          rcases hst.own with k | k <;> omega
        · rw [ho b e, ho b' e'] at he
          exact hm.sep b hb b' hb' he
    · rw [h2]; exact hm.nodup
    · intro b hb
      rw [h2] at hb; rw [h1]
      have e : b ≠ t := fun e => hp (e ▸ hb)
      rw [ho b e]; exact hm.pool b hb
  · exact ⟨by omega, hst.next, fun i hi _ he => ⟨ho i he, hst.cell _ (hlt i hi) (hne i hi he)⟩, fun i _ h _ => by rw [h2]; exact h⟩

theorem nodup_eraseIdx {β : Type} {l : List β} (h : l.Nodup) (i : Nat) (hi : i < l.length) : l[i] ∉ l.eraseIdx i := by
  intro hm
  obtain ⟨j, hj, hne, e⟩ := List.mem_eraseIdx_iff_getElem.1 hm
  exact hne (List.Nodup.getElem_inj_iff h |>.1 e)

/-- `getBuffer` gives an empty buffer nobody uses. -/
theorem getBuffer_ok {m : Mem α} (hm : Bufs m) :
    Bufs m.getBuffer.1 ∧ BufFrame m m.getBuffer.1 (fun _ => False) ∧ Quiet m m.getBuffer.1 ∧ m.getBuffer.2 < m.getBuffer.1.nextBuf ∧ m.getBuffer.2 ∉ m.getBuffer.1.bufPool ∧
      m.getBuffer.1.bytes.Shows (m.getBuffer.1.bufs m.getBuffer.2) [] ∧ (∀ i < m.nextBuf, i ∉ m.bufPool → i ≠ m.getBuffer.2) := by
  have hlt : ∀ b < m.nextBuf, (m.bufs b).arr < m.bytes.next := fun b hb => by obtain ⟨xs, h⟩ := hm.wf b hb; exact h.2.2.1
  have fresh : ∀ r : Mem α × Nat, r = ({ m with bytes := m.bytes.alloc [], bufs := fun b => if b = m.nextBuf then { arr := m.bytes.next } else m.bufs b, nextBuf := m.nextBuf + 1, tick := m.tick + 1 }, m.nextBuf) →
      Bufs r.1 ∧ BufFrame m r.1 (fun _ => False) ∧ Quiet m r.1 ∧ r.2 < r.1.nextBuf ∧ r.2 ∉ r.1.bufPool ∧ r.1.bytes.Shows (r.1.bufs r.2) [] ∧ (∀ i < m.nextBuf, i ∉ m.bufPool → i ≠ r.2) := by
    rintro _ rfl
    have hst := alloc_step m.bytes [] (m.bytes.next)
    refine ⟨⟨?_, ?_, hm.nodup, ?_⟩, ⟨by simp, hst.next, ?_, fun i _ h _ => h⟩, ⟨rfl, rfl, rfl, rfl, rfl, rfl, rfl, rfl, rfl, rfl⟩, by simp, ?_, ?_, fun i hi _ => by dsimp only; omega⟩
    · intro b hb
      dsimp only at hb ⊢
      by_cases e : b = m.nextBuf
      · subst e; exact ⟨[], by simp [Shows, alloc]⟩
      · rw [if_neg e]
        obtain ⟨xs, h⟩ := hm.wf b (by omega)
        exact ⟨xs, hst.shows h (by have := h.2.2.1; omega)⟩
    · intro b hb b' hb' he
      dsimp only at hb hb' he
      by_cases e : b = m.nextBuf
      · by_cases e' : b' = m.nextBuf
        · omega
        · have := hlt b' (by omega)
          rw [if_pos e, if_neg e'] at he; dsimp only at he; omega
      · by_cases e' : b' = m.nextBuf
        · have := hlt b (by omega)
          rw [if_neg e, if_pos e'] at he; dsimp only at he; omega
        · rw [if_neg e, if_neg e'] at he
          exact hm.sep b (by omega) b' (by omega) he
    · intro b hb
      obtain ⟨k1, k2⟩ := hm.pool b hb
      dsimp only
      rw [if_neg (by omega)]; exact ⟨by omega, k2⟩
    · intro i hi _ _
      dsimp only
      have := hlt i hi
      rw [if_neg (by omega), alloc_cell, if_neg (by omega)]
      exact ⟨rfl, rfl⟩
    · intro hp; have := (hm.pool _ hp).1; omega
    · simp [Shows, alloc]
  cases hpk : m.pick m.tick with
  | none => exact fresh _ (by simp only [getBuffer, hpk])
  | some i => cases hb : m.bufPool[i]? with
    | none => exact fresh _ (by simp only [getBuffer, hpk, hb])
    | some b =>
      have hg : m.getBuffer = ({ m with bufPool := m.bufPool.eraseIdx i, tick := m.tick + 1 }, b) := by simp only [getBuffer, hpk, hb]
      rw [hg]
      have hmem : b ∈ m.bufPool := List.mem_of_getElem? hb
      have hnot : b ∉ m.bufPool.eraseIdx i := by
        obtain ⟨hi, e⟩ := List.getElem?_eq_some_iff.1 hb
        rw [← e]
        exact nodup_eraseIdx hm.nodup i hi
      have hsub : ∀ x ∈ m.bufPool.eraseIdx i, x ∈ m.bufPool := fun x hx => List.mem_of_mem_eraseIdx hx
      obtain ⟨k1, k2⟩ := hm.pool b hmem
      refine ⟨⟨hm.wf, hm.sep, List.Nodup.eraseIdx i hm.nodup, fun x hx => hm.pool x (hsub x hx)⟩, ⟨le_refl _, le_refl _, fun _ _ _ _ => ⟨rfl, rfl⟩, fun j _ hj _ hx => hj (hsub j hx)⟩,
        ⟨rfl, rfl, rfl, rfl, rfl, rfl, rfl, rfl, rfl, rfl⟩, k1, hnot, ?_, fun j _ hj e => hj (e ▸ hmem)⟩
      obtain ⟨xs, h1, h2, h3, r, h4⟩ := hm.wf b k1
      exact ⟨h1, k2, h3, _, rfl⟩

/-- `putBuffer` of a buffer that is not in the pool. -/
theorem putBuffer_ok {m : Mem α} (hm : Bufs m) {t : Nat} (ht : t < m.nextBuf) (hp : t ∉ m.bufPool) :
    Bufs (m.putBuffer t) ∧ BufFrame m (m.putBuffer t) (· = t) ∧ Quiet m (m.putBuffer t) := by
  refine ⟨⟨?_, ?_, List.nodup_cons.2 ⟨hp, hm.nodup⟩, ?_⟩, ⟨le_refl _, le_refl _, fun i _ _ he => ?_, fun i _ h he => ?_⟩, ⟨rfl, rfl, rfl, rfl, rfl, rfl, rfl, rfl, rfl, rfl⟩⟩
  · intro b hb
    obtain ⟨xs, h⟩ := hm.wf b hb
    simp only [putBuffer]
    by_cases e : b = t
    · subst e; rw [if_pos rfl]; exact ⟨[], h.1, rfl, h.2.2.1, _, rfl⟩
    · rw [if_neg e]; exact ⟨xs, h⟩
  · intro b hb b' hb' he
    simp only [putBuffer] at he
    have : ∀ j, (if j = t then { m.bufs t with len := 0 } else m.bufs j : Slice).arr = (m.bufs j).arr := by intro j; split <;> simp_all
    rw [this, this] at he
    exact hm.sep b hb b' hb' he
  · intro b hb
    simp only [putBuffer, List.mem_cons] at hb ⊢
    by_cases e : b = t
    · subst e; rw [if_pos rfl]; exact ⟨ht, rfl⟩
    · rw [if_neg e]
      exact hm.pool b (by rcases hb with h | h; exact absurd h e; exact h)
  · exact ⟨by simp only [putBuffer]; rw [if_neg he], rfl⟩
  · simp only [putBuffer, List.mem_cons]; rintro (h' | h')
    · exact he h'
    · exact h h'

theorem bufWrite_ok {m : Mem α} (hm : Bufs m) {t : Nat} (ht : t < m.nextBuf) (hp : t ∉ m.bufPool) {x : Bytes} (hx : m.bytes.Shows (m.bufs t) x) (s : Bytes) :
    Bufs (m.bufWrite t s) ∧ BufFrame m (m.bufWrite t s) (· = t) ∧ Quiet m (m.bufWrite t s) ∧ (m.bufWrite t s).bytes.Shows ((m.bufWrite t s).bufs t) (x ++ s) ∧
      (m.bufWrite t s).nextBuf = m.nextBuf ∧ (m.bufWrite t s).bufPool = m.bufPool := by
  obtain ⟨a1, a2, _⟩ := append_spec m.bytes (m.bufs t) x s hx
  have hs : (m.bufWrite t s).bytes.Shows ((m.bufWrite t s).bufs t) (x ++ s) := by simpa [bufWrite] using a1
  obtain ⟨b1, b2⟩ := write_bufs (m' := m.bufWrite t s) hm ht hp (by simpa [bufWrite] using a2) hs (fun i hi => by simp [bufWrite, hi]) rfl rfl
  exact ⟨b1, b2, ⟨rfl, rfl, rfl, rfl, rfl, rfl, rfl, rfl, rfl, rfl⟩, hs, rfl, rfl⟩

theorem bufWrites_ok {t : Nat} (ps : List Bytes) : ∀ {m : Mem α}, Bufs m → t < m.nextBuf → t ∉ m.bufPool → ∀ {x : Bytes}, m.bytes.Shows (m.bufs t) x →
    Bufs (m.bufWrites t ps) ∧ BufFrame m (m.bufWrites t ps) (· = t) ∧ Quiet m (m.bufWrites t ps) ∧ (m.bufWrites t ps).bytes.Shows ((m.bufWrites t ps).bufs t) (x ++ ps.flatten) ∧
      (m.bufWrites t ps).nextBuf = m.nextBuf ∧ (m.bufWrites t ps).bufPool = m.bufPool := by
  induction ps with
  | nil =>
    intro m hm ht hp x hx
    exact ⟨hm, BufFrame.refl .., ⟨rfl, rfl, rfl, rfl, rfl, rfl, rfl, rfl, rfl, rfl⟩, by simpa [bufWrites] using hx, rfl, rfl⟩
  | cons p ps ih =>
    intro m hm ht hp x hx
    obtain ⟨a1, a2, a3, a4, a5, a6⟩ := bufWrite_ok hm ht hp hx p
    obtain ⟨b1, b2, b3, b4, b5, b6⟩ := ih a1 (by rw [a5]; exact ht) (by rw [a6]; exact hp) a4
    refine ⟨b1, a2.trans b2 (fun i _ _ h => ⟨h, h⟩), a3.trans b3, ?_, b5.trans a5, b6.trans a6⟩
    simpa [bufWrites, List.append_assoc] using b4

/-! ### What a builder call may change -/

/-- Only the object `o`, its buffer `b` and unused buffers change; the arguments only if `ch`. -/
structure CallFrame (m m' : Mem α) (o b : Nat) (ch : Prop) : Prop where
  args : Step m.args m'.args (m.obj o).args.arr (m'.obj o).args.arr
  keep : ¬ ch → (m'.obj o).args = (m.obj o).args ∧ ∀ a < m.args.next, m'.args.cell a = m.args.cell a
  dest : Step m.dest m'.dest (m.obj o).dest.arr (m'.obj o).dest.arr
  chunks : Step m.chunks m'.chunks (m.obj o).chunks.arr (m'.obj o).chunks.arr
  obj : ∀ i, i ≠ o → m'.obj i = m.obj i
  bufs : BufFrame m m' (· = b)
  ok : Bufs m'
  own : b ∉ m'.bufPool
  nextObj : m'.nextObj = m.nextObj
  pool : m'.pool = m.pool
  cache : m'.cache = m.cache
  newLines : m'.newLines = m.newLines
  vars : m'.vars = m.vars
  slices : m'.slices = m.slices

theorem Frame.call {m m' : Mem α} {o b : Nat} {ch : Prop} (h : Frame m m' o b ch) (hm : Bufs m) (hb : b < m.nextBuf) (hp : b ∉ m.bufPool)
    {q : Stmt α} (hr : Rep m' o b q) : CallFrame m m' o b ch := by
  have hrest := h.rest
  simp only [Mem.rest, Prod.mk.injEq] at hrest
  obtain ⟨r1, r2, r3, r4, r5, r6, r7, r8, r9, r10⟩ := hrest
  obtain ⟨k1, k2⟩ := write_bufs hm hb hp h.bytes hr.bytes h.bufs r2 r1
  exact ⟨h.args, h.keep, h.dest, h.chunks, h.obj, k2, k1, by rw [r1]; exact hp, r3, r4, r5, r6, r7, r8⟩

theorem inPieces_eq (n : Nat) : (inPieces n).flatten = inText n := by
  have h : ∀ n, ((List.range n).map (fun i => if i + 1 < n then b!"?," else b!"?")).flatten = (if n = 0 then [] else (List.replicate (n - 1) b!"?,").flatten ++ b!"?") := by
    intro n
    cases n with
    | zero => rfl
    | succ k =>
      rw [List.range_succ, List.map_append, List.flatten_append]
      have : (List.range k).map (fun i => if i + 1 < k + 1 then b!"?," else b!"?") = List.replicate k b!"?," := by
        apply List.ext_getElem
        · simp
        · intro i h1 h2
          simp at h1
          simp [h1]
      rw [this]; simp
  simp only [inPieces, inText, ← h]
  simp

theorem addBuffered_ok {m : Mem α} {o b : Nat} {q : Stmt α} (h : Rep m o b q) (hm : Bufs m) (hb : b < m.nextBuf) (hp : b ∉ m.bufPool) (pos : Nat) (ps : List Bytes)
    {s : Slice} {xs : List α} (hs : m.args.Src (m.obj o).args s xs) (sep : Bytes) :
    Rep (m.addBuffered o pos ps s sep) o b (q.add pos [] ps.flatten xs sep) ∧ CallFrame m (m.addBuffered o pos ps s sep) o b (xs ≠ []) := by
  obtain ⟨a1, a2, a3, a4, a5, a6, a7⟩ := getBuffer_ok hm
  simp only [addBuffered]
  generalize hr : m.getBuffer = r at *
  obtain ⟨m1, t⟩ := r
  dsimp only at *
  have hbt : b ≠ t := a7 b hb hp
  obtain ⟨b1, b2, b3, b4, b5, b6⟩ := bufWrites_ok ps a1 a4 a5 a6
  have h1 : Rep m1 o b q := a3.rep h (a2.shows hb hp id h.bytes)
  have hp1 : b ∉ m1.bufPool := a2.used b hb hp id
  have hb1 : b < m1.nextBuf := lt_of_lt_of_le hb a2.nextBuf
  have h2 : Rep (m1.bufWrites t ps) o b q := b3.rep h1 (b2.shows hb1 hp1 hbt h1.bytes)
  have hs2 : (m1.bufWrites t ps).args.Src ((m1.bufWrites t ps).obj o).args s xs := by rw [b3.args, b3.obj, a3.args, a3.obj]; exact hs
  have hp2 : b ∉ (m1.bufWrites t ps).bufPool := by rw [b6]; exact hp1
  have hb2 : b < (m1.bufWrites t ps).nextBuf := by rw [b5]; exact hb1
  have ht2 : t < (m1.bufWrites t ps).nextBuf := by rw [b5]; exact a4
  have htp2 : t ∉ (m1.bufWrites t ps).bufPool := by rw [b6]; exact a5
  have q12 := a3.trans b3
  have f12 : BufFrame m (m1.bufWrites t ps) (fun _ => False) := a2.trans b2 (fun i hi hpi _ => ⟨id, a7 i hi hpi⟩)
  generalize m1.bufWrites t ps = m2 at *
  have hst : StrOK m2 b (.view (m2.bufs t)) := by
    refine ⟨b4.2.2.1, fun e => hbt (b1.sep t ht2 b hb2 e).symm⟩
  have htx : m2.text (.view (m2.bufs t)) = ps.flatten := by simp only [text]; rw [b4.read]; simp
  obtain ⟨c1, c2, _⟩ := addChunk_ok h2 pos [] hst hs2 sep
  rw [htx] at c1
  have c3 := c2.call b1 hb2 hp2 c1
  generalize (m2.addChunk o pos [] (.view (m2.bufs t)) s sep).1 = m3 at *
  have ht3 : t < m3.nextBuf := lt_of_lt_of_le ht2 c3.bufs.nextBuf
  have htp3 : t ∉ m3.bufPool := c3.bufs.used t ht2 htp2 (Ne.symm hbt)
  have hb3 : b < m3.nextBuf := lt_of_lt_of_le hb2 c3.bufs.nextBuf
  obtain ⟨d1, d2, d3⟩ := putBuffer_ok c3.ok ht3 htp3
  refine ⟨d3.rep c1 (d2.shows hb3 c3.own hbt c1.bytes), ?_⟩
  have fo := f12.trans c3.bufs (ex'' := (· = b)) (fun i _ _ h => ⟨id, h⟩)
  have fo2 := fo.trans d2 (ex'' := (· = b)) (fun i hi hpi h => ⟨h, a7 i hi hpi⟩)
  refine ⟨?_, ?_, ?_, ?_, ?_, fo2, d1, d2.used b hb3 c3.own hbt, ?_, ?_, ?_, ?_, ?_, ?_⟩
  · rw [d3.args, d3.obj, ← q12.args, ← q12.obj]; exact c3.args
  · rw [d3.args, d3.obj, ← q12.args, ← q12.obj]; exact c3.keep
  · rw [d3.dest, d3.obj, ← q12.dest, ← q12.obj]; exact c3.dest
  · rw [d3.chunks, d3.obj, ← q12.chunks, ← q12.obj]; exact c3.chunks
  · intro i hi; rw [d3.obj, ← q12.obj]; exact c3.obj i hi
  · rw [d3.nextObj, ← q12.nextObj]; exact c3.nextObj
  · rw [d3.pool, ← q12.pool]; exact c3.pool
  · rw [d3.cache, ← q12.cache]; exact c3.cache
  · rw [d3.newLines, ← q12.newLines]; exact c3.newLines
  · rw [d3.vars, ← q12.vars]; exact c3.vars
  · rw [d3.slices, ← q12.slices]; exact c3.slices

end Mem
end Xsql
