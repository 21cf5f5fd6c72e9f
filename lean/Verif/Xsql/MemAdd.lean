import Verif.Xsql.MemHeap
import Verif.Xsql.WorldLemmas
set_option linter.unusedSimpArgs false
set_option linter.unusedVariables false
set_option linter.unusedSectionVars false
/- `addChunk` on memory does to a statement what it does to the value, and touches nothing else. -/
namespace Xsql
open Heap
variable {α : Type} [Inhabited α]

namespace Mem

/-- The object `o`, with buffer `b`, holds the statement `q`. -/
structure Rep (m : Mem α) (o b : Nat) (q : Stmt α) : Prop where
  name : (m.obj o).name = q.name
  dialect : (m.obj o).dialect = q.dialect
  pos : (m.obj o).pos = q.pos
  sql : (m.obj o).sql = q.sql
  nl : (m.obj o).useNewLines = q.useNewLines
  args : m.args.Shows (m.obj o).args q.args
  dest : m.dest.Shows (m.obj o).dest q.dest
  chunks : m.chunks.Shows (m.obj o).chunks q.chunks
  buf : (m.obj o).buf = some b
  bytes : m.bytes.Shows (m.bufs b) q.buf

/-- The parts of the memory no method of a single statement changes. -/
def rest (m : Mem α) := (m.bufPool, m.nextBuf, m.nextObj, m.pool, m.cache, m.newLines, m.vars, m.slices, m.pick, m.tick)

/-- Only the object `o` and its buffer `b` change; the arguments only if `ch`. -/
structure Frame (m m' : Mem α) (o b : Nat) (ch : Prop) : Prop where
  args : Step m.args m'.args (m.obj o).args.arr (m'.obj o).args.arr
  keep : ¬ ch → (m'.obj o).args = (m.obj o).args ∧ ∀ a < m.args.next, m'.args.cell a = m.args.cell a
  dest : Step m.dest m'.dest (m.obj o).dest.arr (m'.obj o).dest.arr
  chunks : Step m.chunks m'.chunks (m.obj o).chunks.arr (m'.obj o).chunks.arr
  bytes : Step m.bytes m'.bytes (m.bufs b).arr (m'.bufs b).arr
  obj : ∀ i, i ≠ o → m'.obj i = m.obj i
  bufs : ∀ i, i ≠ b → m'.bufs i = m.bufs i
  rest : m'.rest = m.rest

theorem Frame.refl (m : Mem α) (o b : Nat) (ch : Prop) : Frame m m o b ch :=
  ⟨Step.refl .., fun _ => ⟨rfl, fun _ _ => rfl⟩, Step.refl .., Step.refl .., Step.refl .., fun _ _ => rfl, fun _ _ => rfl, rfl⟩

theorem Frame.trans {m m' m'' : Mem α} {o b : Nat} {ch : Prop} (h : Frame m m' o b ch) (k : Frame m' m'' o b ch) : Frame m m'' o b ch where
  args := h.args.trans k.args
  keep hc := by
    obtain ⟨a1, a2⟩ := h.keep hc
    obtain ⟨b1, b2⟩ := k.keep hc
    have hn := h.args.next
    exact ⟨b1.trans a1, fun a ha => (b2 a (by omega)).trans (a2 a ha)⟩
  dest := h.dest.trans k.dest
  chunks := h.chunks.trans k.chunks
  bytes := h.bytes.trans k.bytes
  obj i hi := (k.obj i hi).trans (h.obj i hi)
  bufs i hi := (k.bufs i hi).trans (h.bufs i hi)
  rest := k.rest.trans h.rest

theorem Frame.weaken {m m' : Mem α} {o b : Nat} {ch ch' : Prop} (h : Frame m m' o b ch) (hc : ch → ch') : Frame m m' o b ch' :=
  { h with keep := fun k => h.keep fun c => k (hc c) }

/-- A source of arguments stays one as long as the arguments do not change. -/
theorem Frame.src {m m' : Mem α} {o b : Nat} (h : Frame m m' o b False) {s : Slice} {xs : List α} (k : m.args.Src (m.obj o).args s xs) :
    m'.args.Src (m'.obj o).args s xs := by
  obtain ⟨a1, a2⟩ := h.keep id
  obtain ⟨k1, k2⟩ := k
  refine ⟨k1, fun hx => ?_⟩
  obtain ⟨b1, b2, b3⟩ := k2 hx
  have hn := h.args.next
  rw [a1, a2 _ b1]
  exact ⟨by omega, b2, b3⟩

/-! ### Changing scalar fields -/

theorem setObj_self (m : Mem α) (o : Nat) (x : Obj) : (m.setObj o x).obj o = x := by simp [setObj]

theorem setObj_other (m : Mem α) (o i : Nat) (x : Obj) (h : i ≠ o) : (m.setObj o x).obj i = m.obj i := by simp [setObj, h]

theorem setObj_frame (m : Mem α) (o b : Nat) (x : Obj) (ch : Prop) (h1 : x.args = (m.obj o).args) (h2 : x.dest = (m.obj o).dest)
    (h3 : x.chunks = (m.obj o).chunks) : Frame m (m.setObj o x) o b ch where
  args := by rw [setObj_self, h1]; exact Step.refl ..
  keep _ := by rw [setObj_self, h1]; exact ⟨rfl, fun _ _ => rfl⟩
  dest := by rw [setObj_self, h2]; exact Step.refl ..
  chunks := by rw [setObj_self, h3]; exact Step.refl ..
  bytes := Step.refl ..
  obj i hi := setObj_other _ _ _ _ hi
  bufs _ _ := rfl
  rest := rfl

/-! ### Text -/

/-- A string that stays the same while the buffer `b` is written to. -/
def StrOK (m : Mem α) (b : Nat) : Str → Prop
  | .lit _ => True
  | .view s => s.arr < m.bytes.next ∧ s.arr ≠ (m.bufs b).arr

theorem Frame.str {m m' : Mem α} {o b : Nat} {ch : Prop} (h : Frame m m' o b ch) {e : Str} (k : StrOK m b e) : StrOK m' b e ∧ m'.text e = m.text e := by
  cases e with
  | lit x => exact ⟨trivial, rfl⟩
  | view s =>
    obtain ⟨k1, k2⟩ := k
    have hn := h.bytes.next
    refine ⟨⟨by omega, ?_⟩, ?_⟩
    · rcases h.bytes.own with e | e <;> omega
    · simp only [text, Heap.read, h.bytes.cell _ k1 k2]

theorem bufBytes_eq {m : Mem α} {o b : Nat} {q : Stmt α} (h : Rep m o b q) : m.bufBytes o = q.buf := by
  simp only [bufBytes, h.buf, h.bytes.read]

theorem chunkList_eq {m : Mem α} {o b : Nat} {q : Stmt α} (h : Rep m o b q) : m.chunkList o = q.chunks := h.chunks.read

theorem write_ok {m : Mem α} {o b : Nat} {q : Stmt α} (h : Rep m o b q) (s : Str) (ch : Prop) :
    Rep (m.write o s) o b (q.write (m.text s)) ∧ Frame m (m.write o s) o b ch := by
  obtain ⟨a1, a2, a3, _, _⟩ := append_spec m.bytes (m.bufs b) q.buf (m.text s) h.bytes
  simp only [write, h.buf, bufWrite, Stmt.write]
  generalize hr : m.bytes.append (m.bufs b) (m.text s) = r at *
  constructor
  · exact { h with bytes := by simpa using a1 }
  · exact ⟨Step.refl .., fun _ => ⟨rfl, fun _ _ => rfl⟩, Step.refl .., Step.refl .., by simpa using a2, fun _ _ => rfl, fun i hi => by simp [hi], rfl⟩

/-! ### Chunks -/

theorem insertAt_one {β : Type} (l r : List β) (c : β) : Xsql.insertAt (l ++ r) [c] l.length = l ++ c :: r := by
  simp only [Xsql.insertAt, List.length_singleton, List.length_append]
  by_cases hr : r = []
  · subst hr; simp
  · have : 0 < r.length := List.length_pos_iff.2 hr
    rw [if_pos (by omega), if_pos (by omega)]
    have e1 : (l ++ r ++ [c]).drop l.length = r ++ [c] := by simp
    rw [e1]
    have e2 : goCopy (l ++ r ++ [c]) (l.length + 1) (r ++ [c]) = l ++ r.take 1 ++ r := by
      simp only [goCopy, List.length_append, List.length_singleton]
      rw [List.drop_eq_nil_of_le (by simp)]
      have : l.length + r.length + 1 - (l.length + 1) = r.length := by omega
      rw [this, List.append_assoc l r, List.take_append, List.take_of_length_le (l := l) (by omega)]
      have : l.length + 1 - l.length = 1 := by omega
      rw [this, List.take_append_of_le_length (by omega)]
      simp
    rw [e2]
    have : r.take 1 = [r[0]] := by
      rw [List.take_one]; simp [List.head?_eq_getElem?, List.getElem?_eq_getElem this]
    rw [this, List.append_assoc, goCopy_one _ _ _ (by simp)]
    simp

theorem insertChunk_ok {m : Mem α} {o b : Nat} {q : Stmt α} (h : Rep m o b q) (c : Chunk) (i : Nat) (ch : Prop) :
    Rep (m.insertChunk o c i) o b { q with chunks := Xsql.insertAt q.chunks [c] i } ∧ Frame m (m.insertChunk o c i) o b ch := by
  -- the room
  have key : ∀ r : Heap Chunk × Slice, r.1.Shows r.2 q.chunks → Step m.chunks r.1 (m.obj o).chunks.arr r.2.arr →
      let r' := r.1.append r.2 [c]
      let hp := if i < r'.2.len - 1 then (r'.1.copy (r'.2.from (i + 1)) (r'.2.from i)).store r'.2.arr (r'.2.off + i) [c] else r'.1
      hp.Shows r'.2 (Xsql.insertAt q.chunks [c] i) ∧ Step m.chunks hp (m.obj o).chunks.arr r'.2.arr := by
    intro r hs st
    obtain ⟨a1, a2, a3, _, _⟩ := append_spec r.1 r.2 q.chunks [c] hs
    dsimp only
    generalize hr : r.1.append r.2 [c] = r' at *
    obtain ⟨b1, b2, b3, rst, b4⟩ := a1
    have hl : r'.2.len - 1 = q.chunks.length := by rw [b2]; simp
    simp only [Xsql.insertAt, List.length_singleton, Nat.one_pos, gt_iff_lt, if_true, hl]
    by_cases hi : i < q.chunks.length
    · rw [if_pos hi, if_pos hi]
      have e1 : r'.1.read (r'.2.from i) = (q.chunks ++ [c]).drop i := by
        simp only [Heap.read, Slice.from, b1, b2, b4, Nat.zero_add]
        rw [List.drop_append_of_le_length (by simp; omega), List.take_append_of_le_length (by simp), List.take_of_length_le (by simp)]
      have e3 : (r'.1.copy (r'.2.from (i + 1)) (r'.2.from i)).cell r'.2.arr = goCopy (q.chunks ++ [c]) (i + 1) ((q.chunks ++ [c]).drop i) ++ rst := by
        have := e1
        simp only [Slice.from, b1, Nat.zero_add] at this
        simp only [Heap.copy, store_cell, Slice.from, if_true, b1, b4, Nat.zero_add, this]
        rw [goCopy_append _ _ _ _ (by simp; omega), ← goCopy_take (q.chunks ++ [c]) (i + 1) ((q.chunks ++ [c]).drop i)]
        congr 3; rw [b2]
      have hlen : (goCopy (q.chunks ++ [c]) (i + 1) ((q.chunks ++ [c]).drop i)).length = (q.chunks ++ [c]).length := by
        simp only [goCopy, List.length_append, List.length_take, List.length_drop]; omega
      refine ⟨⟨b1, ?_, b3, rst, ?_⟩, ?_⟩
      · rw [goCopy_length _ _ _ (by rw [hlen]; simp; omega), hlen, b2]
      · simp only [store_cell, if_true, e3, b1, Nat.zero_add]
        rw [goCopy_append _ _ _ _ (by rw [hlen]; simp; omega)]
      · exact st.trans (a2.trans ((store_step ..).trans (store_step ..)))
    · rw [if_neg hi, if_neg hi]
      exact ⟨⟨b1, b2, b3, rst, b4⟩, st.trans a2⟩
  have := key (if m.chunks.cap (m.obj o).chunks = (m.obj o).chunks.len then m.chunks.makeCopy (m.obj o).chunks (m.chunks.cap (m.obj o).chunks * 2) else (m.chunks, (m.obj o).chunks))
    (by split
        · exact (makeCopy_spec _ _ _ _ h.chunks 0).1
        · exact h.chunks)
    (by split
        · exact (makeCopy_spec _ _ _ _ h.chunks _).2
        · exact Step.refl ..)
  obtain ⟨k1, k2⟩ := this
  simp only [insertChunk]
  constructor
  · constructor
    all_goals first
      | (rw [setObj_self]; exact k1)
      | (simp only [setObj_self, setObj, if_true]; first | exact h.name | exact h.dialect | exact h.pos | exact h.sql | exact h.nl | exact h.args | exact h.dest | exact h.buf | exact h.bytes)
  · constructor
    · rw [setObj_self]; exact Step.refl ..
    · intro _; rw [setObj_self]; exact ⟨rfl, fun _ _ => rfl⟩
    · rw [setObj_self]; exact Step.refl ..
    · rw [setObj_self]; exact k2
    · exact Step.refl ..
    · intro j hj; rw [setObj_other _ _ _ _ hj]
    · intro _ _; rfl
    · rfl

/-! ### The loop -/

theorem headUpTo_skip (cs : List Chunk) (c : Chunk) (p : Nat) (h : p < c.pos) : headUpTo p (cs ++ [c]) = headUpTo p cs ∧ tailAbove p (cs ++ [c]) = tailAbove p cs ++ [c] := by
  simp [headUpTo, tailAbove, h]

theorem tailAbove_stop (cs : List Chunk) (c : Chunk) (p : Nat) (h : c.pos ≤ p) : tailAbove p (cs ++ [c]) = [] := by
  have : ¬ p < c.pos := by omega
  simp [tailAbove, this]

theorem head_tail (p : Nat) (cs : List Chunk) : headUpTo p cs ++ tailAbove p cs = cs := by
  simp only [headUpTo, tailAbove]
  rw [← List.reverse_append, List.takeWhile_append_dropWhile, List.reverse_reverse]

theorem findChunk_eq (p : Nat) (l r : List Chunk) (t : Nat) :
    findChunk (l ++ r) p l.length t = match (headUpTo p l).getLast? with
      | none => .at_ 0 (t + argTail p l)
      | some c => if c.pos = p then .same ((headUpTo p l).length - 1) c (t + argTail p l) else .at_ (headUpTo p l).length (t + argTail p l) := by
  induction l using List.reverseRecOn generalizing r t with
  | nil => simp [findChunk, headUpTo, argTail, tailAbove]
  | append_singleton l c ih =>
    have e : (l ++ [c]).length = l.length + 1 := by simp
    have e2 : (l ++ [c] ++ r)[l.length]? = some c := by simp
    rw [e]; simp only [findChunk, e2]
    by_cases h1 : c.pos = p
    · rw [headUpTo_last l c p (by omega)]
      simp [h1, argTail, tailAbove_stop l c p (by omega)]
    · rw [if_neg h1]
      by_cases h2 : c.pos < p
      · rw [headUpTo_last l c p (by omega)]
        simp [h1, h2, argTail, tailAbove_stop l c p (by omega)]
      · rw [if_neg h2]
        obtain ⟨a1, a2⟩ := headUpTo_skip l c p (by omega)
        have := ih (c :: r) (t + c.argLen)
        rw [List.append_assoc, List.singleton_append, this, a1]
        have ht : argTail p (l ++ [c]) = argTail p l + c.argLen := by simp [argTail, a2]
        rw [ht]
        have : t + c.argLen + argTail p l = t + (argTail p l + c.argLen) := by omega
        rw [this]

/-! ### Arguments -/

theorem setArgs_frame {m : Mem α} {o b : Nat} {h' : Heap α} {s' : Slice} {ch : Prop} (hc : ch) (st : Step m.args h' (m.obj o).args.arr s'.arr) :
    Frame m ({ m with args := h' }.setObj o { m.obj o with args := s' }) o b ch := by
  constructor
  · rw [setObj_self]; exact st
  · intro k; exact absurd hc k
  · rw [setObj_self]; exact Step.refl ..
  · rw [setObj_self]; exact Step.refl ..
  · exact Step.refl ..
  · intro i hi; rw [setObj_other _ _ _ _ hi]
  · intro _ _; rfl
  · rfl

theorem invalidate_ok {m : Mem α} {o b : Nat} {q : Stmt α} (h : Rep m o b q) (ch : Prop) : Rep (m.invalidate o) o b q.invalidate ∧ Frame m (m.invalidate o) o b ch := by
  constructor
  · constructor
    all_goals simp only [invalidate, setObj_self, Stmt.invalidate]
    all_goals first | exact h.name | exact h.dialect | exact h.pos | exact h.nl | exact h.args | exact h.dest | exact h.chunks | exact h.buf | exact h.bytes
  · exact setObj_frame _ _ _ _ _ rfl rfl rfl

theorem addArgs_ok {m : Mem α} {o b : Nat} {q : Stmt α} (h : Rep m o b q) {s : Slice} {xs : List α} (hs : m.args.Src (m.obj o).args s xs) (tail : Nat) :
    Rep (m.addArgs o s tail) o b ({ q with args := if xs.length > 0 then Xsql.insertAt q.args xs (q.args.length - tail) else q.args }).invalidate ∧
      Frame m (m.addArgs o s tail) o b (xs ≠ []) := by
  obtain ⟨a1, a2, _⟩ := insertAt_spec m.args (m.obj o).args s q.args xs (q.args.length - tail) h.args hs
  simp only [addArgs, hs.1]
  by_cases hx : xs.length > 0
  · rw [if_pos hx, if_pos hx]
    have hlen : (m.obj o).args.len = q.args.length := h.args.2.1
    rw [hlen]
    generalize hr : m.args.insertAt (m.obj o).args s (q.args.length - tail) = r at *
    have f1 : Frame m ({ m with args := r.1 }.setObj o { m.obj o with args := r.2 }) o b (xs ≠ []) := setArgs_frame (by intro e; simp [e] at hx) a2
    have h1 : Rep ({ m with args := r.1 }.setObj o { m.obj o with args := r.2 }) o b { q with args := Xsql.insertAt q.args xs (q.args.length - tail) } := by
      constructor
      all_goals (try rw [setObj_self])
      all_goals first | exact a1 | exact h.name | exact h.dialect | exact h.pos | exact h.sql | exact h.nl | exact h.dest | exact h.chunks | exact h.buf | exact h.bytes
    obtain ⟨h2, f2⟩ := invalidate_ok h1 (xs ≠ [])
    exact ⟨h2, f1.trans f2⟩
  · rw [if_neg hx, if_neg hx]; exact invalidate_ok h _

/-! ### addChunk -/

theorem newChunk_ok {m : Mem α} {o b : Nat} {q : Stmt α} (h : Rep m o b q) (pos low : Nat) (cl : Bool) (clause : Bytes) {e : Str} (he : StrOK m b e) (n : Nat) (ch : Prop) :
    Rep (m.newChunk o pos low cl clause e n (headUpTo pos q.chunks).length) o b (q.newChunk pos low cl clause (m.text e) n) ∧
      Frame m (m.newChunk o pos low cl clause e n (headUpTo pos q.chunks).length) o b ch := by
  -- the clause
  have hcl : ∃ m1 q1, Rep m1 o b q1 ∧ Frame m m1 o b ch ∧ q1.chunks = q.chunks ∧
      (if cl = true then
        let m := if (m.obj o).useNewLines then m.write o (.lit b!"\n") else m
        let m := m.write o (.lit clause)
        if m.text e ≠ [] then m.write o (.lit b!" ") else m
      else m) = m1 ∧
      (if cl = true then
        let q := if q.useNewLines then q.write b!"\n" else q
        let q := q.write clause
        if m.text e ≠ [] then q.write b!" " else q
      else q) = q1 := by
    cases cl with
    | false => exact ⟨m, q, h, Frame.refl .., rfl, rfl, rfl⟩
    | true =>
      simp only [if_true]
      have s1 : ∃ m1 q1, Rep m1 o b q1 ∧ Frame m m1 o b ch ∧ q1.chunks = q.chunks ∧ (if (m.obj o).useNewLines then m.write o (.lit b!"\n") else m) = m1 ∧ (if q.useNewLines then q.write b!"\n" else q) = q1 := by
        rw [h.nl]
        by_cases hn : q.useNewLines = true
        · simp only [hn, if_true]
          obtain ⟨a, f⟩ := write_ok h (.lit b!"\n") ch
          exact ⟨_, _, a, f, rfl, rfl, rfl⟩
        · simp only [hn, if_false]
          exact ⟨m, q, h, Frame.refl .., rfl, rfl, rfl⟩
      obtain ⟨m1, q1, a1, f1, c1, e1, e1'⟩ := s1
      rw [e1, e1']
      obtain ⟨a2, f2⟩ := write_ok a1 (.lit clause) ch
      have f12 := f1.trans f2
      have ht := (f12.str he).2
      rw [ht]
      by_cases hx : m.text e ≠ []
      · rw [if_pos hx, if_pos hx]
        obtain ⟨a3, f3⟩ := write_ok a2 (.lit b!" ") ch
        exact ⟨_, _, a3, f12.trans f3, c1, rfl, rfl⟩
      · rw [if_neg hx, if_neg hx]
        exact ⟨_, _, a2, f12, c1, rfl, rfl⟩
  obtain ⟨m1, q1, a1, f1, c1, e1, e1'⟩ := hcl
  simp only [newChunk, Stmt.newChunk]
  rw [e1, e1']
  obtain ⟨a2, f2⟩ := write_ok a1 e ch
  have ht1 := (f1.str he)
  have ht2 := (f2.str ht1.1).2
  rw [bufBytes_eq a2, ht2, ht1.2]
  rw [ht1.2] at a2
  obtain ⟨a3, f3⟩ := insertChunk_ok a2 { pos := pos, low := low, high := (q1.write (m.text e)).buf.length, hasExpr := decide (m.text e ≠ []), argLen := n } (headUpTo pos q.chunks).length ch
  refine ⟨?_, f1.trans (f2.trans f3)⟩
  have e3 : Xsql.insertAt (q1.write (m.text e)).chunks [{ pos := pos, low := low, high := (q1.write (m.text e)).buf.length, hasExpr := decide (m.text e ≠ []), argLen := n }] (headUpTo pos q.chunks).length
      = headUpTo pos (q1.write (m.text e)).chunks ++ { pos := pos, low := low, high := (q1.write (m.text e)).buf.length, hasExpr := decide (m.text e ≠ []), argLen := n } :: tailAbove pos (q1.write (m.text e)).chunks := by
    simp only [Stmt.write, c1]
    conv_lhs => arg 1; rw [← head_tail pos q.chunks]
    exact insertAt_one _ _ _
  rw [← e3]; exact a3

theorem setChunk_ok {m : Mem α} {o b : Nat} {q : Stmt α} (h : Rep m o b q) (l r : List Chunk) (c c' : Chunk) (hq : q.chunks = l ++ c :: r) (ch : Prop) :
    Rep (m.setChunk (m.obj o).chunks.arr ((m.obj o).chunks.off + l.length) c') o b { q with chunks := l ++ c' :: r } ∧
      Frame m (m.setChunk (m.obj o).chunks.arr ((m.obj o).chunks.off + l.length) c') o b ch := by
  obtain ⟨a1, a2, a3, rst, a4⟩ := h.chunks
  constructor
  · refine { h with chunks := ⟨a1, by show (m.obj o).chunks.len = _; rw [a2, hq]; simp, a3, rst, ?_⟩ }
    simp only [setChunk, store_cell, if_true, a4, a1, Nat.zero_add, hq]
    rw [goCopy_one _ _ _ (by simp)]
    simp
  · exact ⟨Step.refl .., fun _ => ⟨rfl, fun _ _ => rfl⟩, Step.refl .., store_step .., Step.refl .., fun _ _ => rfl, fun _ _ => rfl, rfl⟩

theorem setPos_ok {m : Mem α} {o b : Nat} {q : Stmt α} (h : Rep m o b q) (p : Nat) (ch : Prop) :
    Rep (m.setObj o { m.obj o with pos := p }) o b { q with pos := p } ∧ Frame m (m.setObj o { m.obj o with pos := p }) o b ch := by
  constructor
  · constructor
    all_goals (try rw [setObj_self])
    all_goals first | rfl | exact h.name | exact h.dialect | exact h.sql | exact h.nl | exact h.args | exact h.dest | exact h.chunks | exact h.buf | exact h.bytes
  · exact setObj_frame _ _ _ _ _ rfl rfl rfl

theorem getLast_split {l : List Chunk} {c : Chunk} (h : l.getLast? = some c) : l = l.dropLast ++ [c] := by
  obtain ⟨ys, rfl⟩ := List.getLast?_eq_some_iff.1 h
  simp

theorem addChunk_ok {m : Mem α} {o b : Nat} {q : Stmt α} (h : Rep m o b q) (pos : Nat) (clause : Bytes) {e : Str} (he : StrOK m b e)
    {s : Slice} {xs : List α} (hs : m.args.Src (m.obj o).args s xs) (sep : Bytes) :
    Rep (m.addChunk o pos clause e s sep).1 o b (q.addChunk pos clause (m.text e) xs sep).1 ∧
      Frame m (m.addChunk o pos clause e s sep).1 o b (xs ≠ []) ∧ (m.addChunk o pos clause e s sep).2 = (q.addChunk pos clause (m.text e) xs sep).2 := by
  obtain ⟨h0, f0⟩ := setPos_ok h pos False
  have he0 := (f0.str he).1
  have ht0 := (f0.str he).2
  have hs0 := f0.src hs
  rw [← ht0]
  have f0 := f0.weaken (ch' := xs ≠ []) False.elim
  have hv : q.addChunk pos clause (m.text e) xs sep = ({ q with pos := pos } : Stmt α).addChunk pos clause (m.text e) xs sep := rfl
  rw [← ht0] at hv
  rw [hv]
  have hp0 : ({ q with pos := pos } : Stmt α).pos = pos := rfl
  simp only [addChunk]
  generalize m.setObj o { m.obj o with pos := pos } = m0 at *
  generalize ({ q with pos := pos } : Stmt α) = q0 at *
  have hq0 : ({ q0 with pos := pos } : Stmt α) = q0 := by rw [← hp0]
  simp only [Stmt.addChunk, hq0]
  have hfind := findChunk_eq pos q0.chunks [] 0
  rw [List.append_nil] at hfind
  have hlc : (m0.obj o).chunks.len = q0.chunks.length := h0.chunks.2.1
  rw [h0.chunks.read, hlc, bufBytes_eq h0, hfind, hs0.1]
  simp only [Nat.zero_add]
  cases hl : (headUpTo pos q0.chunks).getLast? with
  | none =>
    have hnil : headUpTo pos q0.chunks = [] := by simpa using hl
    dsimp only
    obtain ⟨a1, f1⟩ := newChunk_ok h0 pos q0.buf.length (decide (clause ≠ [])) clause he0 xs.length False
    rw [hnil, List.length_nil] at a1 f1
    obtain ⟨a2, f2⟩ := addArgs_ok a1 (f1.src hs0) (argTail pos q0.chunks)
    exact ⟨a2, f0.trans ((f1.weaken False.elim).trans f2), rfl⟩
  | some c =>
    have hsp := getLast_split hl
    have hpos : 0 < (headUpTo pos q0.chunks).length := by rw [hsp]; simp
    dsimp only
    by_cases hp : c.pos = pos
    · rw [if_pos hp, if_pos hp]
      dsimp only
      by_cases hx : m0.text e = []
      · rw [if_pos hx, if_pos hx]
        refine ⟨?_, f0.trans ?_, rfl⟩
        · by_cases hn : xs.length > 0
          · simp only [hn, if_true]
            obtain ⟨b1, _⟩ := copy_spec m0.args (m0.obj o).args s q0.args xs (q0.args.length - argTail pos q0.chunks - c.argLen) (by omega) h0.args hs0
            have : (m0.obj o).args.len = q0.args.length := h0.args.2.1
            rw [this]
            exact { h0 with args := b1, pos := h0.pos.trans hp0 }
          · simp only [hn, if_false]; exact { h0 with pos := h0.pos.trans hp0 }
        · by_cases hn : xs.length > 0
          · simp only [hn, if_true]
            exact ⟨store_step .., fun k => absurd (List.ne_nil_of_length_pos hn) k, Step.refl .., Step.refl .., Step.refl .., fun _ _ => rfl, fun _ _ => rfl, rfl⟩
          · simp only [hn, if_false]; exact Frame.refl ..
      · rw [if_neg hx, if_neg hx]
        obtain ⟨a1, f1⟩ := write_ok h0 (.lit (if c.hasExpr then sep else b!" ")) False
        have he1 := (f1.str he0)
        by_cases hb : c.high = q0.buf.length
        · rw [if_pos hb, if_pos hb]
          obtain ⟨a2, f2⟩ := write_ok a1 e False
          rw [bufBytes_eq a2]
          rw [he1.2] at a2 ⊢
          have hck : (m0.obj o).chunks = (((m0.write o (.lit (if c.hasExpr then sep else b!" "))).write o e).obj o).chunks := by
            simp only [write, h0.buf, bufWrite]
          have hlen : (headUpTo pos q0.chunks).length - 1 = (headUpTo pos q0.chunks).dropLast.length := by simp
          rw [hck, hlen]
          have hqc : ((q0.write (if c.hasExpr then sep else b!" ")).write (m0.text e)).chunks = (headUpTo pos q0.chunks).dropLast ++ c :: tailAbove pos q0.chunks := by
            simp only [Stmt.write]
            conv_lhs => rw [← head_tail pos q0.chunks, hsp]
            simp
          obtain ⟨a3, f3⟩ := setChunk_ok a2 _ _ _ { c with argLen := c.argLen + xs.length, high := ((q0.write (if c.hasExpr then sep else b!" ")).write (m0.text e)).buf.length, hasExpr := true } hqc False
          have f123 := f1.trans (f2.trans f3)
          obtain ⟨a4, f4⟩ := addArgs_ok a3 (f123.src hs0) (argTail pos q0.chunks)
          exact ⟨a4, f0.trans ((f123.weaken False.elim).trans f4), rfl⟩
        · rw [if_neg hb, if_neg hb]
          have hi : (headUpTo pos q0.chunks).length - 1 + 1 = (headUpTo pos q0.chunks).length := by omega
          rw [hi]
          obtain ⟨a2, f2⟩ := newChunk_ok a1 pos q0.buf.length false clause he1.1 xs.length False
          rw [he1.2] at a2
          have f12 := f1.trans f2
          obtain ⟨a4, f4⟩ := addArgs_ok a2 (f12.src hs0) (argTail pos q0.chunks)
          exact ⟨a4, f0.trans ((f12.weaken False.elim).trans f4), rfl⟩
    · rw [if_neg hp, if_neg hp]
      dsimp only
      obtain ⟨a1, f1⟩ := newChunk_ok h0 pos q0.buf.length (decide (clause ≠ [])) clause he0 xs.length False
      obtain ⟨a2, f2⟩ := addArgs_ok a1 (f1.src hs0) (argTail pos q0.chunks)
      exact ⟨a2, f0.trans ((f1.weaken False.elim).trans f2), rfl⟩

end Mem
end Xsql
