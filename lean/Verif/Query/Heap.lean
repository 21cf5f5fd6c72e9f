import Verif.Query.NameProps
import Verif.Xsql.MemHeap
set_option linter.unusedVariables false
set_option linter.unusedSimpArgs false
/-!
Query parameter builders at the level of memory: `args`, `flags` and `nullColumns` are Go slices over arrays that builders and the caller may share.
params.go:69-250.  C104.

Verif/Query/Params.lean has one value per builder; nothing of that is assumed here.  The array `enums` never leaves the builder (params.go:220-239), so it stays a list.
`Xsql.Heap` is the Go language's arrays and slices (`append` included), with any growth policy; array 0 stands for the nil slice.
-/
namespace Query
open Xsql (Heap Slice)

variable {V : Type}

/-- The nil slice. -/
def nilSlice : Slice := { arr := 0, off := 0, len := 0 }

/-- params.go:69-85 `QueryParamsBuilder`, slices as slices. -/
structure HB (V : Type) where
  queryName : Bytes := []
  flags : Slice := nilSlice
  positions : BitVec 64 := 0
  enums : List EnumPos := []
  args : Slice := nilSlice
  hash : Bytes := []
  nullColumns : Slice := nilSlice
  limit : UInt32 := 0
  offset : UInt32 := 0
  cursor : Arg V := .nil

instance : Inhabited (Arg V) := ⟨.nil⟩

/-- The arrays, the builders and the caller's variables of the three slice types. -/
structure HSt (V : Type) where
  args : Heap (Arg V)
  flags : Heap Int32
  cols : Heap Bytes
  b : Nat → HB V := fun _ => {}
  av : Nat → Slice := fun _ => nilSlice
  fv : Nat → Slice := fun _ => nilSlice
  cv : Nat → Slice := fun _ => nilSlice

/-- What a program does with builders and slices. -/
inductive HOp (V : Type) where
  /-- `b := NewQueryParams(name)`. -/
  | new (b : Nat) (name : Bytes)
  /-- `x := []any{…}` (or made with some spare capacity). -/
  | makeArgs (x : Nat) (l : List (Arg V)) (spare : Nat)
  | makeFlags (x : Nat) (l : List Int32) (spare : Nat)
  | makeCols (x : Nat) (l : List Bytes) (spare : Nat)
  | reset (b : Nat)
  | set (b : Nat) (pos : UInt32) (v : Arg V)
  | setEnum (b : Nat) (pos : UInt32) (v : Int32)
  | setPage (b : Nat) (limit offset : UInt32)
  | setCursor (b : Nat) (limit pos : UInt32) (c : Arg V)
  /-- `b.AddArgs(x...)`. -/
  | addArgs (b x : Nat)
  /-- `b.SetFlags(x...)`. -/
  | setFlags (b x : Nat)
  /-- `b.SetNullColums(x)`. -/
  | setNulls (b x : Nat)
  /-- `x := b.Args()`. -/
  | getArgs (x b : Nat)
  /-- `x := b.GetFlags()`. -/
  | getFlags (x b : Nat)
  /-- `x := b.GetNullColumns()`. -/
  | getNulls (x b : Nat)
  | name (b : Nat)
  | isSet (b : Nat) (pos : UInt32)
  | getEnum (b : Nat) (pos : UInt32)
  | page (b : Nat)
  | cursor (b : Nat)
  /-- Look at all elements of a variable. -/
  | readArgs (x : Nat)
  | readFlags (x : Nat)
  | readCols (x : Nat)
  /-- `x[i] = v` of the caller. -/
  | writeArgs (x i : Nat) (v : Arg V)
  | writeFlags (x i : Nat) (v : Int32)
  | writeCols (x i : Nat) (v : Bytes)
  /-- `y := append(x, l...)` of the caller. -/
  | appendArgs (y x : Nat) (l : List (Arg V))
  /-- `y := x[i:j]` of the caller. -/
  | sliceCols (y x i j : Nat)

/-- What the program sees. -/
inductive Out (V : Type) where
  | done
  | panic
  | text (s : Bytes)
  | bool (b : Bool)
  | enum (e : Option Int32)
  | page (l o : UInt32)
  | cursor (l : UInt32) (c : Arg V)
  | args (l : List (Arg V))
  | flags (l : List Int32)
  | cols (l : List Bytes)

namespace HSt

/-- Replace one builder. -/
def setB (s : HSt V) (i : Nat) (x : HB V) : HSt V := { s with b := fun j => if j = i then x else s.b j }

/-- params.go:169, 184, 198, 210: `b.args = append(b.args, l...)`. -/
def appendTo (s : HSt V) (i : Nat) (l : List (Arg V)) : HSt V :=
  let r := s.args.append (s.b i).args l
  { s with args := r.1 }.setB i { s.b i with args := r.2 }

/-- params.go:163-171 `Set`, 173-177 `checkPage`. -/
def set (s : HSt V) (i : Nat) (pos : UInt32) (v : Arg V) : Option (HSt V) :=
  if pos > 63 then none
  else if (s.b i).limit > 0 then none
  else some ((s.setB i { s.b i with positions := (s.b i).positions ||| bit pos }).appendTo i [v])

/-- params.go:94-103 `Reset`. -/
def reset (s : HSt V) (i : Nat) : HSt V :=
  s.setB i { s.b i with positions := 0, flags := nilSlice, enums := [], args := nilSlice, hash := [], limit := 0, offset := 0, cursor := .nil }

/-- params.go:180-186 `SetPage`. -/
def setPage (s : HSt V) (i : Nat) (limit offset : UInt32) : Option (HSt V) :=
  if (s.b i).limit > 0 then none
  else some ((s.setB i { s.b i with limit := coalesce limit defaultPageSize, offset := offset }).appendTo i [.u32 (coalesce limit defaultPageSize), .u32 offset])

/-- params.go:194-200 `SetCursor`. -/
def setCursor (s : HSt V) (i : Nat) (limit pos : UInt32) (c : Arg V) : Option (HSt V) :=
  (s.set i pos c).map fun s =>
    (s.setB i { s.b i with cursor := c, limit := coalesce limit defaultPageSize }).appendTo i [.u32 (coalesce limit defaultPageSize)]

/-- params.go:208-212 `AddArgs`; `v` is the caller's slice. -/
def addArgs (s : HSt V) (i : Nat) (v : Slice) : Option (HSt V) :=
  if (s.b i).limit > 0 then none else some (s.appendTo i (s.args.read v))

/-- params.go:220-228 `SetEnum`. -/
def setEnum (s : HSt V) (i : Nat) (pos : UInt32) (v : Int32) : Option (HSt V) :=
  if pos > 63 then none
  else if (s.b i).limit > 0 then none
  else some (s.setB i { s.b i with positions := (s.b i).positions ||| bit pos, enums := (s.b i).enums ++ [⟨pos, v⟩] })

/-- params.go:108-140: the text computed by `Name`, of a builder whose NULL columns have been sorted. -/
def nameText [DecidableEq V] (s : HSt V) (H : Bytes → UInt64) (i : Nat) : Bytes :=
  (s.b i).queryName ++ b!"_" ++ b!"x" ++ Num.fmtNat 16 (s.b i).positions.toNat ++ (s.b i).enums.flatMap enumText ++ (s.flags.read (s.b i).flags).flatMap flagText
    ++ (if (s.b i).cursor ≠ .nil then b!"_c" else if (s.b i).offset > 0 then b!"_o" else []) ++ nullText H (s.cols.read (s.b i).nullColumns)

/-- params.go:133 `sort.Strings(b.nullColumns)`: in place. -/
def sortNulls (s : HSt V) (i : Nat) : HSt V :=
  if (s.b i).nullColumns.len > 0 then { s with cols := s.cols.store (s.b i).nullColumns.arr (s.b i).nullColumns.off (sortStrings (s.cols.read (s.b i).nullColumns)) } else s

/-- params.go:106-144 `Name`. -/
def name [DecidableEq V] (s : HSt V) (H : Bytes → UInt64) (i : Nat) : HSt V × Bytes :=
  if (s.b i).hash = [] then
    let s := s.sortNulls i
    (s.setB i { s.b i with hash := s.nameText H i }, s.nameText H i)
  else (s, (s.b i).hash)

/-- The result of a method that may panic (each of them panics before it changes anything). -/
def orPanic (s : HSt V) : Option (HSt V) → HSt V × Out V
  | some s' => (s', .done)
  | none => (s, .panic)

/-- One operation. The getters: params.go:153-160, 189-191, 203-205, 215-217, 231-239, 248-250; the setters of slices: 147-150, 242-245. -/
def step [DecidableEq V] (H : Bytes → UInt64) (s : HSt V) : HOp V → HSt V × Out V
  | .new i n => (s.setB i { queryName := n }, .done)
  | .makeArgs x l k => ({ s with args := s.args.alloc (l ++ List.replicate k .nil), av := fun y => if y = x then { arr := s.args.next, off := 0, len := l.length } else s.av y }, .done)
  | .makeFlags x l k => ({ s with flags := s.flags.alloc (l ++ List.replicate k 0), fv := fun y => if y = x then { arr := s.flags.next, off := 0, len := l.length } else s.fv y }, .done)
  | .makeCols x l k => ({ s with cols := s.cols.alloc (l ++ List.replicate k []), cv := fun y => if y = x then { arr := s.cols.next, off := 0, len := l.length } else s.cv y }, .done)
  | .reset i => (s.reset i, .done)
  | .set i pos v => s.orPanic (s.set i pos v)
  | .setEnum i pos v => s.orPanic (s.setEnum i pos v)
  | .setPage i l o => s.orPanic (s.setPage i l o)
  | .setCursor i l pos c => s.orPanic (s.setCursor i l pos c)
  | .addArgs i x => s.orPanic (s.addArgs i (s.av x))
  | .setFlags i x => (s.setB i { s.b i with flags := s.fv x }, .done)
  | .setNulls i x => (s.setB i { s.b i with nullColumns := s.cv x }, .done)
  | .getArgs x i => ({ s with av := fun y => if y = x then (s.b i).args else s.av y }, .done)
  | .getFlags x i => ({ s with fv := fun y => if y = x then (s.b i).flags else s.fv y }, .done)
  | .getNulls x i => ({ s with cv := fun y => if y = x then (s.b i).nullColumns else s.cv y }, .done)
  | .name i => let r := s.name H i; (r.1, .text r.2)
  | .isSet i pos => (s, .bool ((s.b i).positions &&& bit pos != 0))
  | .getEnum i pos => (s, .enum (((s.b i).enums.find? fun e => e.position = pos).map EnumPos.value))
  | .page i => (s, .page (s.b i).limit (s.b i).offset)
  | .cursor i => (s, .cursor (s.b i).limit (s.b i).cursor)
  | .readArgs x => (s, .args (s.args.read (s.av x)))
  | .readFlags x => (s, .flags (s.flags.read (s.fv x)))
  | .readCols x => (s, .cols (s.cols.read (s.cv x)))
  | .writeArgs x i v => if i < (s.av x).len then ({ s with args := s.args.store (s.av x).arr ((s.av x).off + i) [v] }, .done) else (s, .panic)
  | .writeFlags x i v => if i < (s.fv x).len then ({ s with flags := s.flags.store (s.fv x).arr ((s.fv x).off + i) [v] }, .done) else (s, .panic)
  | .writeCols x i v => if i < (s.cv x).len then ({ s with cols := s.cols.store (s.cv x).arr ((s.cv x).off + i) [v] }, .done) else (s, .panic)
  | .appendArgs y x l => let r := s.args.append (s.av x) l; ({ s with args := r.1, av := fun z => if z = y then r.2 else s.av z }, .done)
  | .sliceCols y x i j => if i ≤ j ∧ j ≤ s.cols.cap (s.cv x) then ({ s with cv := fun z => if z = y then (s.cv x).sub i j else s.cv z }, .done) else (s, .panic)

/-- A program: final state and what it saw. -/
def run [DecidableEq V] (H : Bytes → UInt64) (s : HSt V) : List (HOp V) → HSt V × List (Out V)
  | [] => (s, [])
  | o :: os => let r := s.step H o; let r' := r.1.run H os; (r'.1, r.2 :: r'.2)

/-- The start of a program: no builders or slices; `ra`, `rf`, `rc`: how much room the runtime leaves in new arrays. -/
def init (ra rf rc : Nat → Nat) : HSt V := { args := { next := 1, room := ra }, flags := { next := 1, room := rf }, cols := { next := 1, room := rc } }

end HSt

/-! ### Specification: every builder and every variable holds its own value -/

/-- Builders and the caller's variables as values. -/
structure VSt (V : Type) where
  b : Nat → Builder V := fun _ => new []
  av : Nat → List (Arg V) := fun _ => []
  fv : Nat → List Int32 := fun _ => []
  cv : Nat → List Bytes := fun _ => []

namespace VSt

def setB (s : VSt V) (i : Nat) (x : Builder V) : VSt V := { s with b := fun j => if j = i then x else s.b j }

/-- The builder after a method that may panic. -/
def orPanic (s : VSt V) (i : Nat) : Option (Builder V) → VSt V × Out V
  | some x => (s.setB i x, .done)
  | none => (s, .panic)

/-- The same operation on values: assigning, passing and returning a slice copies its elements. -/
def step [DecidableEq V] (H : Bytes → UInt64) (s : VSt V) : HOp V → VSt V × Out V
  | .new i n => (s.setB i (Query.new n), .done)
  | .makeArgs x l _ => ({ s with av := fun y => if y = x then l else s.av y }, .done)
  | .makeFlags x l _ => ({ s with fv := fun y => if y = x then l else s.fv y }, .done)
  | .makeCols x l _ => ({ s with cv := fun y => if y = x then l else s.cv y }, .done)
  | .reset i => (s.setB i (s.b i).reset, .done)
  | .set i pos v => s.orPanic i ((s.b i).set pos v)
  | .setEnum i pos v => s.orPanic i ((s.b i).setEnum pos v)
  | .setPage i l o => s.orPanic i ((s.b i).setPage l o)
  | .setCursor i l pos c => s.orPanic i ((s.b i).setCursor l pos c)
  | .addArgs i x => s.orPanic i ((s.b i).addArgs (s.av x))
  | .setFlags i x => (s.setB i ((s.b i).setFlags (s.fv x)), .done)
  | .setNulls i x => (s.setB i ((s.b i).setNullColumns (s.cv x)), .done)
  | .getArgs x i => ({ s with av := fun y => if y = x then (s.b i).args else s.av y }, .done)
  | .getFlags x i => ({ s with fv := fun y => if y = x then (s.b i).flags else s.fv y }, .done)
  | .getNulls x i => ({ s with cv := fun y => if y = x then (s.b i).nullColumns else s.cv y }, .done)
  | .name i => let r := (s.b i).name H; (s.setB i r.1, .text r.2)
  | .isSet i pos => (s, .bool ((s.b i).isSet pos))
  | .getEnum i pos => (s, .enum ((s.b i).getEnum pos))
  | .page i => (s, .page (s.b i).page.1 (s.b i).page.2)
  | .cursor i => (s, .cursor (s.b i).getCursor.1 (s.b i).getCursor.2)
  | .readArgs x => (s, .args (s.av x))
  | .readFlags x => (s, .flags (s.fv x))
  | .readCols x => (s, .cols (s.cv x))
  | .writeArgs x i v => if i < (s.av x).length then ({ s with av := fun y => if y = x then (s.av x).set i v else s.av y }, .done) else (s, .panic)
  | .writeFlags x i v => if i < (s.fv x).length then ({ s with fv := fun y => if y = x then (s.fv x).set i v else s.fv y }, .done) else (s, .panic)
  | .writeCols x i v => if i < (s.cv x).length then ({ s with cv := fun y => if y = x then (s.cv x).set i v else s.cv y }, .done) else (s, .panic)
  | .appendArgs y x l => ({ s with av := fun z => if z = y then s.av x ++ l else s.av z }, .done)
  | .sliceCols y x i j => if i ≤ j ∧ j ≤ (s.cv x).length then ({ s with cv := fun z => if z = y then ((s.cv x).drop i).take (j - i) else s.cv z }, .done) else (s, .panic)

def run [DecidableEq V] (H : Bytes → UInt64) (s : VSt V) : List (HOp V) → VSt V × List (Out V)
  | [] => (s, [])
  | o :: os => let r := s.step H o; let r' := r.1.run H os; (r'.1, r.2 :: r'.2)

end VSt

/-- The program only makes slices, hands them over and looks at them: it does not write into one, append to one, or cut one. -/
def Spec.handsOff : HOp V → Bool
  | .writeArgs .. => false
  | .writeFlags .. => false
  | .writeCols .. => false
  | .appendArgs .. => false
  | .sliceCols .. => false
  | _ => true

/-- The same answer, except that NULL columns may be listed in another order. -/
def Spec.Same : Out V → Out V → Prop
  | .cols l, .cols l' => l.Perm l'
  | o, o' => o = o'

theorem Spec.Same.rfl' (o : Out V) : Spec.Same o o := by cases o <;> simp [Spec.Same]

/-! ### The invariant -/

/-- Change one place. -/
def upd {β : Type} (f : Nat → β) (i : Nat) (x : β) : Nat → β := fun j => if j = i then x else f j

theorem upd_same {β : Type} (f : Nat → β) (i : Nat) (x : β) : upd f i x i = x := by simp [upd]
theorem upd_other {β : Type} (f : Nat → β) {i j : Nat} (x : β) (h : j ≠ i) : upd f i x j = f j := by simp [upd, h]
theorem upd_self {β : Type} (f : Nat → β) (i : Nat) : upd f i (f i) = f := by funext j; unfold upd; split <;> simp_all
theorem map_upd {β γ : Type} (g : β → γ) (f : Nat → β) (i : Nat) (x : β) : (fun j => g (upd f i x j)) = upd (fun j => g (f j)) i (g x) := by
  funext j; unfold upd; split <;> rfl

/-- Arguments: builders own their arrays, and what the caller got of one is a beginning of it. -/
structure ASim (h : Heap (Arg V)) (ba av : Nat → Slice) (vb va : Nat → List (Arg V)) : Prop where
  pos : 0 < h.next
  nil : h.cell 0 = []
  b : ∀ i, h.Shows (ba i) (vb i)
  own : ∀ i j, i ≠ j → (ba i).arr = (ba j).arr → (ba i).arr = 0
  v : ∀ x, h.Shows (av x) (va x)
  pre : ∀ x i, (av x).arr = (ba i).arr → (av x).len ≤ (ba i).len

/-- Flags: arrays never change. -/
structure FSim (h : Heap Int32) (bf fv : Nat → Slice) (vb vf : Nat → List Int32) : Prop where
  pos : 0 < h.next
  nil : h.cell 0 = []
  b : ∀ i, h.Shows (bf i) (vb i)
  v : ∀ x, h.Shows (fv x) (vf x)

/-- NULL columns: arrays are shared as a whole and change their order only. -/
structure CSim (h : Heap Bytes) (bc cv : Nat → Slice) (vb vc : Nat → List Bytes) : Prop where
  pos : 0 < h.next
  nil : h.cell 0 = []
  size : ∃ size : Nat → Nat, (∀ i, (bc i).len = size (bc i).arr) ∧ (∀ x, (cv x).len = size (cv x).arr)
  b : ∀ i, ∃ l, l.Perm (vb i) ∧ h.Shows (bc i) l
  v : ∀ x, ∃ l, l.Perm (vc x) ∧ h.Shows (cv x) l

/-- The rest of the builders is the same. -/
def RSim (hb : HB V) (vb : Builder V) : Prop :=
  hb.queryName = vb.queryName ∧ hb.positions = vb.positions ∧ hb.enums = vb.enums ∧ hb.hash = vb.hash ∧ hb.limit = vb.limit ∧ hb.offset = vb.offset ∧ hb.cursor = vb.cursor

/-- Memory and values agree. -/
structure HSim (s : HSt V) (v : VSt V) : Prop where
  a : ASim s.args (fun i => (s.b i).args) s.av (fun i => (v.b i).args) v.av
  f : FSim s.flags (fun i => (s.b i).flags) s.fv (fun i => (v.b i).flags) v.fv
  c : CSim s.cols (fun i => (s.b i).nullColumns) s.cv (fun i => (v.b i).nullColumns) v.cv
  r : ∀ i, RSim (s.b i) (v.b i)

theorem shows_nil {β : Type} {h : Heap β} (hp : 0 < h.next) (hn : h.cell 0 = []) : h.Shows nilSlice [] := ⟨rfl, rfl, hp, [], hn⟩

theorem shows_alloc {β : Type} (h : Heap β) (l r : List β) : (h.alloc (l ++ r)).Shows { arr := h.next, off := 0, len := l.length } l :=
  ⟨rfl, rfl, by simp [Heap.alloc], r, by simp [Heap.alloc]⟩

theorem alloc_shows {β : Type} {h : Heap β} {s : Slice} {xs : List β} (l : List β) (k : h.Shows s xs) : (h.alloc l).Shows s xs := by
  obtain ⟨h1, h2, h3, r, h4⟩ := k
  exact ⟨h1, h2, by simp only [Heap.alloc]; omega, r, by simp only [Heap.alloc]; rw [if_neg (by omega), h4]⟩

theorem alloc_nil {β : Type} {h : Heap β} (l : List β) (hp : 0 < h.next) (hn : h.cell 0 = []) : (h.alloc l).cell 0 = [] := by
  simp only [Heap.alloc]; rw [if_neg (by omega), hn]

theorem ASim.append {h : Heap (Arg V)} {ba av : Nat → Slice} {vb va : Nat → List (Arg V)} (S : ASim h ba av vb va) (i : Nat) (l : List (Arg V)) :
    ASim (h.append (ba i) l).1 (upd ba i (h.append (ba i) l).2) av (upd vb i (vb i ++ l)) va := by
  obtain ⟨sp, st, oth, own, inpl⟩ := Heap.append_spec h (ba i) (vb i) l (S.b i)
  generalize hr : h.append (ba i) l = r at sp st oth own inpl
  obtain ⟨h', d'⟩ := r
  dsimp only at sp st oth own inpl ⊢
  have hlen : (ba i).len ≤ d'.len := by rw [(S.b i).2.1, sp.2.1]; simp
  have keep : ∀ {t : Slice} {xs : List (Arg V)}, h.Shows t xs → (t.arr = (ba i).arr → t.len ≤ (ba i).len) → h'.Shows t xs := by
    intro t xs k hk
    by_cases e : t.arr = d'.arr
    · rcases own with o | o
      · obtain ⟨h1, h2, h3, r, h4⟩ := k
        obtain ⟨g1, g2, g3, r', g4⟩ := S.b i
        obtain ⟨c1, c2⟩ := inpl o
        have e' : t.arr = (ba i).arr := by rw [e, o]
        have hk := hk e'
        refine ⟨h1, h2, by have := st.next; omega, (xs ++ r).drop xs.length |>.take 0 |>.append ((h'.cell t.arr).drop xs.length), ?_⟩
        have : (h'.cell t.arr).take xs.length = xs := by
          rw [e', c1, ← e', h4, Xsql.goCopy, List.append_assoc, List.take_append_of_le_length (by rw [List.length_take, List.length_append]; omega), List.take_take,
            Nat.min_eq_left (by omega), List.take_append_of_le_length (le_refl _), List.take_length]
        simp only [List.take_zero, List.nil_append]
        conv => lhs; rw [← List.take_append_drop xs.length (h'.cell t.arr), this]
        rfl
      · exact absurd k.2.2.1 (by omega)
    · obtain ⟨h1, h2, h3, r, h4⟩ := k
      exact ⟨h1, h2, by have := st.next; omega, r, by rw [oth _ e, h4]⟩
  refine ⟨by have := st.next; have := S.pos; omega, ?_, ?_, ?_, fun x => keep (S.v x) (S.pre x i), ?_⟩
  · by_cases e : 0 = d'.arr
    · have hz : d'.arr = (ba i).arr := by
        rcases own with o | o
        · exact o
        · have := S.pos; omega
      obtain ⟨c1, c2⟩ := inpl hz
      rw [← hz, ← e, S.nil] at c1 c2
      rw [c1]
      simp only [List.length_nil] at c2
      simp [Xsql.goCopy]
    · rw [oth 0 e, S.nil]
  · intro j
    by_cases e : j = i
    · subst e; rw [upd_same, upd_same]; exact sp
    · rw [upd_other _ _ e, upd_other _ _ e]
      refine keep (S.b j) fun h0 => ?_
      have h1 := S.own j i e h0
      have h2 := (S.b j)
      obtain ⟨k1, k2, k3, r, k4⟩ := h2
      rw [h1, S.nil] at k4
      have : vb j = [] := by cases hv : vb j with
        | nil => rfl
        | cons a t => rw [hv] at k4; cases k4
      rw [k2, this]; simp
  · intro j k hjk
    have fresh : ∀ j, j ≠ i → (ba j).arr = d'.arr → (ba j).arr = 0 := by
      intro j hj e
      rcases own with o | o
      · exact S.own j i hj (by rw [e, o])
      · exact absurd (S.b j).2.2.1 (by omega)
    by_cases e1 : j = i
    · subst e1
      rw [upd_same, upd_other _ _ (Ne.symm hjk)]
      intro e; rw [e]; exact fresh k (Ne.symm hjk) e.symm
    · rw [upd_other _ _ e1]
      by_cases e2 : k = i
      · subst e2; rw [upd_same]; exact fresh j e1
      · rw [upd_other _ _ e2]; exact S.own j k hjk
  · intro x j
    by_cases e : j = i
    · subst e; rw [upd_same]
      intro he
      rcases own with o | o
      · exact le_trans (S.pre x j (by rw [he, o])) hlen
      · exact absurd (S.v x).2.2.1 (by omega)
    · rw [upd_other _ _ e]; exact S.pre x j

/-- `b.args = nil`. -/
theorem ASim.clear {h : Heap (Arg V)} {ba av : Nat → Slice} {vb va : Nat → List (Arg V)} (S : ASim h ba av vb va) (i : Nat) :
    ASim h (upd ba i nilSlice) av (upd vb i []) va := by
  refine ⟨S.pos, S.nil, ?_, ?_, S.v, ?_⟩
  · intro j
    by_cases e : j = i
    · subst e; rw [upd_same, upd_same]; exact shows_nil S.pos S.nil
    · rw [upd_other _ _ e, upd_other _ _ e]; exact S.b j
  · intro j k hjk
    by_cases e1 : j = i
    · subst e1; rw [upd_same]; intro _; rfl
    · rw [upd_other _ _ e1]
      by_cases e2 : k = i
      · subst e2; rw [upd_same]; exact id
      · rw [upd_other _ _ e2]; exact S.own j k hjk
  · intro x j
    by_cases e : j = i
    · subst e; rw [upd_same]
      intro h0
      obtain ⟨k1, k2, k3, r, k4⟩ := S.v x
      rw [show (av x).arr = 0 from h0, S.nil] at k4
      have : va x = [] := by cases hv : va x with
        | nil => rfl
        | cons a t => rw [hv] at k4; cases k4
      rw [k2, this]; simp
    · rw [upd_other _ _ e]; exact S.pre x j

theorem ASim.make {h : Heap (Arg V)} {ba av : Nat → Slice} {vb va : Nat → List (Arg V)} (S : ASim h ba av vb va) (x : Nat) (l r : List (Arg V)) :
    ASim (h.alloc (l ++ r)) ba (upd av x { arr := h.next, off := 0, len := l.length }) vb (upd va x l) := by
  refine ⟨by simp [Heap.alloc], alloc_nil _ S.pos S.nil, fun i => alloc_shows _ (S.b i), S.own, ?_, ?_⟩
  · intro y
    by_cases e : y = x
    · subst e; rw [upd_same, upd_same]; exact shows_alloc h l r
    · rw [upd_other _ _ e, upd_other _ _ e]; exact alloc_shows _ (S.v y)
  · intro y i
    by_cases e : y = x
    · subst e; rw [upd_same]; intro h0; have := (S.b i).2.2.1; exact absurd h0 (by simp only; omega)
    · rw [upd_other _ _ e]; exact S.pre y i

theorem ASim.get {h : Heap (Arg V)} {ba av : Nat → Slice} {vb va : Nat → List (Arg V)} (S : ASim h ba av vb va) (x i : Nat) :
    ASim h ba (upd av x (ba i)) vb (upd va x (vb i)) := by
  refine ⟨S.pos, S.nil, S.b, S.own, ?_, ?_⟩
  · intro y
    by_cases e : y = x
    · subst e; rw [upd_same, upd_same]; exact S.b i
    · rw [upd_other _ _ e, upd_other _ _ e]; exact S.v y
  · intro y j
    by_cases e : y = x
    · subst e; rw [upd_same]
      intro h0
      by_cases hij : i = j
      · subst hij; exact le_refl _
      · have h1 := S.own i j hij h0
        obtain ⟨k1, k2, k3, r, k4⟩ := S.b i
        rw [h1, S.nil] at k4
        have : vb i = [] := by cases hv : vb i with
          | nil => rfl
          | cons a t => rw [hv] at k4; cases k4
        rw [k2, this]; simp
    · rw [upd_other _ _ e]; exact S.pre y j

/-! #### Flags -/

theorem FSim.put {h : Heap Int32} {bf fv : Nat → Slice} {vb vf : Nat → List Int32} (S : FSim h bf fv vb vf) (i : Nat) {t : Slice} {l : List Int32} (k : h.Shows t l) :
    FSim h (upd bf i t) fv (upd vb i l) vf := by
  refine ⟨S.pos, S.nil, ?_, S.v⟩
  intro j
  by_cases e : j = i
  · subst e; rw [upd_same, upd_same]; exact k
  · rw [upd_other _ _ e, upd_other _ _ e]; exact S.b j

theorem FSim.get {h : Heap Int32} {bf fv : Nat → Slice} {vb vf : Nat → List Int32} (S : FSim h bf fv vb vf) (x i : Nat) :
    FSim h bf (upd fv x (bf i)) vb (upd vf x (vb i)) := by
  refine ⟨S.pos, S.nil, S.b, ?_⟩
  intro y
  by_cases e : y = x
  · subst e; rw [upd_same, upd_same]; exact S.b i
  · rw [upd_other _ _ e, upd_other _ _ e]; exact S.v y

theorem FSim.make {h : Heap Int32} {bf fv : Nat → Slice} {vb vf : Nat → List Int32} (S : FSim h bf fv vb vf) (x : Nat) (l r : List Int32) :
    FSim (h.alloc (l ++ r)) bf (upd fv x { arr := h.next, off := 0, len := l.length }) vb (upd vf x l) := by
  refine ⟨by simp [Heap.alloc], alloc_nil _ S.pos S.nil, fun i => alloc_shows _ (S.b i), ?_⟩
  intro y
  by_cases e : y = x
  · subst e; rw [upd_same, upd_same]; exact shows_alloc h l r
  · rw [upd_other _ _ e, upd_other _ _ e]; exact alloc_shows _ (S.v y)

/-! #### NULL columns -/

theorem CSim.put {h : Heap Bytes} {bc cv : Nat → Slice} {vb vc : Nat → List Bytes} (S : CSim h bc cv vb vc) (i x : Nat) :
    CSim h (upd bc i (cv x)) cv (upd vb i (vc x)) vc := by
  obtain ⟨size, s1, s2⟩ := S.size
  refine ⟨S.pos, S.nil, ⟨size, ?_, s2⟩, ?_, S.v⟩
  · intro j
    by_cases e : j = i
    · subst e; rw [upd_same]; exact s2 x
    · rw [upd_other _ _ e]; exact s1 j
  · intro j
    by_cases e : j = i
    · subst e; rw [upd_same, upd_same]; exact S.v x
    · rw [upd_other _ _ e, upd_other _ _ e]; exact S.b j

theorem CSim.clear {h : Heap Bytes} {bc cv : Nat → Slice} {vb vc : Nat → List Bytes} (S : CSim h bc cv vb vc) (i : Nat) :
    CSim h (upd bc i nilSlice) cv (upd vb i []) vc := by
  obtain ⟨size, s1, s2⟩ := S.size
  have zero : ∀ (t : Slice), (∃ l, (∃ v : List Bytes, l.Perm v) ∧ h.Shows t l) → t.arr = 0 → t.len = 0 := by
    rintro t ⟨l, -, k1, k2, k3, r, k4⟩ h0
    rw [h0, S.nil] at k4
    cases l with
    | nil => simpa using k2
    | cons a l => cases k4
  refine ⟨S.pos, S.nil, ⟨upd size 0 0, ?_, ?_⟩, ?_, S.v⟩
  · intro j
    by_cases e : j = i
    · subst e; rw [upd_same]; show 0 = upd size 0 0 0; rw [upd_same]
    · rw [upd_other _ _ e]
      by_cases h0 : (bc j).arr = 0
      · obtain ⟨l, hl, k⟩ := S.b j
        rw [zero _ ⟨l, ⟨_, hl⟩, k⟩ h0, h0, upd_same]
      · rw [upd_other _ _ h0]; exact s1 j
  · intro x
    by_cases h0 : (cv x).arr = 0
    · obtain ⟨l, hl, k⟩ := S.v x
      rw [zero _ ⟨l, ⟨_, hl⟩, k⟩ h0, h0, upd_same]
    · rw [upd_other _ _ h0]; exact s2 x
  · intro j
    by_cases e : j = i
    · subst e; rw [upd_same, upd_same]; exact ⟨[], .nil, shows_nil S.pos S.nil⟩
    · rw [upd_other _ _ e, upd_other _ _ e]; exact S.b j

theorem CSim.get {h : Heap Bytes} {bc cv : Nat → Slice} {vb vc : Nat → List Bytes} (S : CSim h bc cv vb vc) (x i : Nat) :
    CSim h bc (upd cv x (bc i)) vb (upd vc x (vb i)) := by
  obtain ⟨size, s1, s2⟩ := S.size
  refine ⟨S.pos, S.nil, ⟨size, s1, ?_⟩, S.b, ?_⟩
  · intro y
    by_cases e : y = x
    · subst e; rw [upd_same]; exact s1 i
    · rw [upd_other _ _ e]; exact s2 y
  · intro y
    by_cases e : y = x
    · subst e; rw [upd_same, upd_same]; exact S.b i
    · rw [upd_other _ _ e, upd_other _ _ e]; exact S.v y

theorem CSim.make {h : Heap Bytes} {bc cv : Nat → Slice} {vb vc : Nat → List Bytes} (S : CSim h bc cv vb vc) (x : Nat) (l r : List Bytes) :
    CSim (h.alloc (l ++ r)) bc (upd cv x { arr := h.next, off := 0, len := l.length }) vb (upd vc x l) := by
  obtain ⟨size, s1, s2⟩ := S.size
  refine ⟨by simp [Heap.alloc], alloc_nil _ S.pos S.nil, ⟨upd size h.next l.length, ?_, ?_⟩, ?_, ?_⟩
  · intro j
    obtain ⟨l', -, k⟩ := S.b j
    rw [upd_other _ _ (by have := k.2.2.1; omega)]; exact s1 j
  · intro y
    by_cases e : y = x
    · subst e; rw [upd_same]; show l.length = upd size h.next l.length h.next; rw [upd_same]
    · rw [upd_other _ _ e]
      obtain ⟨l', -, k⟩ := S.v y
      rw [upd_other _ _ (by have := k.2.2.1; omega)]; exact s2 y
  · intro j; obtain ⟨l', hp, k⟩ := S.b j; exact ⟨l', hp, alloc_shows _ k⟩
  · intro y
    by_cases e : y = x
    · subst e; rw [upd_same, upd_same]; exact ⟨l, .refl _, shows_alloc h l r⟩
    · rw [upd_other _ _ e, upd_other _ _ e]
      obtain ⟨l', hp, k⟩ := S.v y; exact ⟨l', hp, alloc_shows _ k⟩

/-- Sorting in place, and in the values of one builder. -/
theorem CSim.sorted {h : Heap Bytes} {bc cv : Nat → Slice} {vb vc : Nat → List Bytes} (S : CSim h bc cv vb vc) (i : Nat) :
    CSim (h.store (bc i).arr (bc i).off (sortStrings (h.read (bc i)))) bc cv (upd vb i (sortStrings (vb i))) vc := by
  obtain ⟨size, s1, s2⟩ := S.size
  obtain ⟨li, pi, ki⟩ := S.b i
  rw [ki.read, ki.1]
  obtain ⟨i1, i2, i3, ri, i4⟩ := ki
  have hlen : (sortStrings li).length = li.length := (sortStrings_perm li).length_eq
  have cell : (h.store (bc i).arr 0 (sortStrings li)).cell (bc i).arr = sortStrings li ++ ri := by
    simp only [Heap.store, if_true]
    rw [i4, Xsql.goCopy, List.take_zero, List.nil_append, Nat.sub_zero, List.take_of_length_le (by rw [List.length_append]; omega), Nat.zero_add, hlen]
    simp
  have keep : ∀ {t : Slice} {v : List Bytes}, t.len = size t.arr → (∃ l, l.Perm v ∧ h.Shows t l) → ∃ l, l.Perm v ∧ (h.store (bc i).arr 0 (sortStrings li)).Shows t l := by
    rintro t v hsz ⟨l, hp, k1, k2, k3, r, k4⟩
    by_cases e : t.arr = (bc i).arr
    · have hl : l.length = li.length := by rw [← k2, ← i2, hsz, s1 i, e]
      have : l = li := by
        rw [e, i4] at k4
        exact (List.append_inj k4.symm hl).1
      subst this
      exact ⟨sortStrings l, (sortStrings_perm l).trans hp, k1, by rw [k2, hlen], k3, ri, by rw [e, cell]⟩
    · exact ⟨l, hp, k1, k2, k3, r, by simp only [Heap.store]; rw [if_neg e, k4]⟩
  refine ⟨S.pos, ?_, ⟨size, s1, s2⟩, ?_, fun x => keep (s2 x) (S.v x)⟩
  · by_cases e : 0 = (bc i).arr
    · have : li ++ ri = [] := by rw [← i4, ← e, S.nil]
      obtain ⟨rfl, rfl⟩ := List.append_eq_nil_iff.1 this
      exact (congrArg (h.store (bc i).arr 0 (sortStrings [])).cell e).trans cell
    · simp only [Heap.store]; rw [if_neg e, S.nil]
  · intro j
    by_cases e : j = i
    · subst e
      rw [upd_same]
      obtain ⟨l, hp, k⟩ := keep (s1 j) (S.b j)
      exact ⟨l, hp.trans (sortStrings_perm _).symm, k⟩
    · rw [upd_other _ _ e]; exact keep (s1 j) (S.b j)

theorem ASim.same {h : Heap (Arg V)} {ba av : Nat → Slice} {vb va : Nat → List (Arg V)} (S : ASim h ba av vb va) (i : Nat) : ASim h (upd ba i (ba i)) av (upd vb i (vb i)) va := by
  rw [upd_self, upd_self]; exact S
theorem FSim.same {h : Heap Int32} {ba av : Nat → Slice} {vb va : Nat → List Int32} (S : FSim h ba av vb va) (i : Nat) : FSim h (upd ba i (ba i)) av (upd vb i (vb i)) va := by
  rw [upd_self, upd_self]; exact S
theorem CSim.same {h : Heap Bytes} {ba av : Nat → Slice} {vb va : Nat → List Bytes} (S : CSim h ba av vb va) (i : Nat) : CSim h (upd ba i (ba i)) av (upd vb i (vb i)) va := by
  rw [upd_self, upd_self]; exact S

/-- One builder replaced. -/
theorem HSim.of {s : HSt V} {v : VSt V} (S : HSim s v) (i : Nat) (x : HB V) (y : Builder V)
    (A : ASim s.args (upd (fun j => (s.b j).args) i x.args) s.av (upd (fun j => (v.b j).args) i y.args) v.av)
    (F : FSim s.flags (upd (fun j => (s.b j).flags) i x.flags) s.fv (upd (fun j => (v.b j).flags) i y.flags) v.fv)
    (C : CSim s.cols (upd (fun j => (s.b j).nullColumns) i x.nullColumns) s.cv (upd (fun j => (v.b j).nullColumns) i y.nullColumns) v.cv)
    (R : RSim x y) : HSim (s.setB i x) (v.setB i y) := by
  refine ⟨?_, ?_, ?_, ?_⟩
  · rw [← map_upd, ← map_upd (g := Builder.args)] at A; exact A
  · rw [← map_upd, ← map_upd (g := Builder.flags)] at F; exact F
  · rw [← map_upd, ← map_upd (g := Builder.nullColumns)] at C; exact C
  · intro j
    show RSim (if j = i then x else s.b j) (if j = i then y else v.b j)
    split
    · exact R
    · exact S.r j

theorem setB_b (v : VSt V) (i : Nat) (y : Builder V) : (v.setB i y).b i = y := by simp [VSt.setB]
theorem setB_setB (v : VSt V) (i : Nat) (y z : Builder V) : (v.setB i y).setB i z = v.setB i z := by
  unfold VSt.setB; congr 1; funext j; dsimp only; split <;> rfl
theorem hsetB_b (s : HSt V) (i : Nat) (y : HB V) : (s.setB i y).b i = y := by simp [HSt.setB]

theorem HSim.appendTo {s : HSt V} {v : VSt V} (S : HSim s v) (i : Nat) (l : List (Arg V)) :
    HSim (s.appendTo i l) (v.setB i { v.b i with args := (v.b i).args ++ l }) := by
  refine ⟨?_, ?_, ?_, ?_⟩
  · have A := S.a.append i l
    rw [← map_upd (g := HB.args) s.b i { s.b i with args := (s.args.append (s.b i).args l).2 }, ← map_upd (g := Builder.args) v.b i { v.b i with args := (v.b i).args ++ l }] at A
    exact A
  · have F := S.f.same i
    rw [← map_upd (g := HB.flags) s.b i { s.b i with args := (s.args.append (s.b i).args l).2 }, ← map_upd (g := Builder.flags) v.b i { v.b i with args := (v.b i).args ++ l }] at F
    exact F
  · have C := S.c.same i
    rw [← map_upd (g := HB.nullColumns) s.b i { s.b i with args := (s.args.append (s.b i).args l).2 }, ← map_upd (g := Builder.nullColumns) v.b i { v.b i with args := (v.b i).args ++ l }] at C
    exact C
  · intro j
    show RSim (if j = i then _ else s.b j) (if j = i then _ else v.b j)
    split
    · exact S.r i
    · exact S.r j

/-- What a step has to preserve. -/
def Agree (p : HSt V × Out V) (q : VSt V × Out V) : Prop := HSim p.1 q.1 ∧ Spec.Same p.2 q.2

theorem agree_panic {s : HSt V} {v : VSt V} (S : HSim s v) (i : Nat) {o : Option (HSt V)} {o' : Option (Builder V)}
    (h : (o = none ∧ o' = none) ∨ ∃ s' y, o = some s' ∧ o' = some y ∧ HSim s' (v.setB i y)) : Agree (s.orPanic o) (v.orPanic i o') := by
  rcases h with ⟨rfl, rfl⟩ | ⟨s', y, rfl, rfl, h⟩
  · exact ⟨S, rfl⟩
  · exact ⟨h, rfl⟩

theorem HSim.set {s : HSt V} {v : VSt V} (S : HSim s v) (i : Nat) (pos : UInt32) (a : Arg V) :
    (s.set i pos a = none ∧ (v.b i).set pos a = none) ∨ ∃ s' y, s.set i pos a = some s' ∧ (v.b i).set pos a = some y ∧ HSim s' (v.setB i y) := by
  obtain ⟨r1, r2, r3, r4, r5, r6, r7⟩ := S.r i
  unfold HSt.set Builder.set
  rw [r5]
  by_cases h1 : pos > 63
  · exact .inl ⟨by rw [if_pos h1], by rw [if_pos h1]⟩
  by_cases h2 : (v.b i).limit > 0
  · exact .inl ⟨by rw [if_neg h1, if_pos h2], by rw [if_neg h1, if_pos h2]⟩
  · refine .inr ⟨_, _, by rw [if_neg h1, if_neg h2], by rw [if_neg h1, if_neg h2], ?_⟩
    have S1 := S.of i { s.b i with positions := (s.b i).positions ||| bit pos } { v.b i with positions := (v.b i).positions ||| bit pos }
      (S.a.same i) (S.f.same i) (S.c.same i) ⟨r1, by simp only [r2], r3, r4, r5, r6, r7⟩
    have S2 := S1.appendTo i [a]
    rw [setB_setB, setB_b] at S2
    exact S2

theorem step_agree [DecidableEq V] (H : Bytes → UInt64) {s : HSt V} {v : VSt V} (S : HSim s v) (o : HOp V) (ho : Spec.handsOff o = true) :
    Agree (s.step H o) (v.step H o) := by
  cases o with
  | new i n => exact ⟨S.of i _ _ (S.a.clear i) (S.f.put i (shows_nil S.f.pos S.f.nil)) (S.c.clear i) ⟨rfl, rfl, rfl, rfl, rfl, rfl, rfl⟩, rfl⟩
  | makeArgs x l k => exact ⟨⟨S.a.make x l _, S.f, S.c, S.r⟩, rfl⟩
  | makeFlags x l k => exact ⟨⟨S.a, S.f.make x l _, S.c, S.r⟩, rfl⟩
  | makeCols x l k => exact ⟨⟨S.a, S.f, S.c.make x l _, S.r⟩, rfl⟩
  | reset i =>
    obtain ⟨r1, r2, r3, r4, r5, r6, r7⟩ := S.r i
    exact ⟨S.of i _ _ (S.a.clear i) (S.f.put i (shows_nil S.f.pos S.f.nil)) (S.c.same i) ⟨r1, rfl, rfl, rfl, rfl, rfl, rfl⟩, rfl⟩
  | set i pos a => exact agree_panic S i (S.set i pos a)
  | setEnum i pos e =>
    refine agree_panic S i ?_
    obtain ⟨r1, r2, r3, r4, r5, r6, r7⟩ := S.r i
    unfold HSt.setEnum Builder.setEnum
    rw [r5]
    by_cases h1 : pos > 63
    · exact .inl ⟨by rw [if_pos h1], by rw [if_pos h1]⟩
    by_cases h2 : (v.b i).limit > 0
    · exact .inl ⟨by rw [if_neg h1, if_pos h2], by rw [if_neg h1, if_pos h2]⟩
    · refine .inr ⟨_, _, by rw [if_neg h1, if_neg h2], by rw [if_neg h1, if_neg h2], ?_⟩
      exact S.of i _ _ (S.a.same i) (S.f.same i) (S.c.same i) ⟨r1, by simp only [r2], by simp only [r3], r4, r5, r6, r7⟩
  | setPage i l o =>
    refine agree_panic S i ?_
    obtain ⟨r1, r2, r3, r4, r5, r6, r7⟩ := S.r i
    unfold HSt.setPage Builder.setPage
    rw [r5]
    by_cases h2 : (v.b i).limit > 0
    · exact .inl ⟨by rw [if_pos h2], by rw [if_pos h2]⟩
    · refine .inr ⟨_, _, by rw [if_neg h2], by rw [if_neg h2], ?_⟩
      have S1 := S.of i { s.b i with limit := coalesce l defaultPageSize, offset := o } { v.b i with limit := coalesce l defaultPageSize, offset := o }
        (S.a.same i) (S.f.same i) (S.c.same i) ⟨r1, r2, r3, r4, rfl, rfl, r7⟩
      have S2 := S1.appendTo i [.u32 (coalesce l defaultPageSize), .u32 o]
      rw [setB_setB, setB_b] at S2
      exact S2
  | setCursor i l pos c =>
    refine agree_panic S i ?_
    unfold HSt.setCursor Builder.setCursor
    rcases S.set i pos c with ⟨h1, h2⟩ | ⟨s', y, h1, h2, S1⟩
    · exact .inl ⟨by rw [h1]; rfl, by rw [h2]; rfl⟩
    · refine .inr ⟨_, _, by rw [h1]; rfl, by rw [h2]; rfl, ?_⟩
      have S2 := S1.of i { s'.b i with cursor := c, limit := coalesce l defaultPageSize } { y with cursor := c, limit := coalesce l defaultPageSize }
        (by have := S1.a.same i; simp only [setB_b] at this ⊢; exact this) (by have := S1.f.same i; simp only [setB_b] at this ⊢; exact this) (by have := S1.c.same i; simp only [setB_b] at this ⊢; exact this)
        (by have := S1.r i; rw [setB_b] at this; obtain ⟨r1, r2, r3, r4, r5, r6, r7⟩ := this; exact ⟨r1, r2, r3, r4, rfl, r6, rfl⟩)
      have S3 := S2.appendTo i [.u32 (coalesce l defaultPageSize)]
      rw [setB_setB, setB_setB, setB_b] at S3
      exact S3
  | addArgs i x =>
    refine agree_panic S i ?_
    obtain ⟨r1, r2, r3, r4, r5, r6, r7⟩ := S.r i
    unfold HSt.addArgs Builder.addArgs
    rw [r5, (S.a.v x).read]
    by_cases h2 : (v.b i).limit > 0
    · exact .inl ⟨by rw [if_pos h2], by rw [if_pos h2]⟩
    · exact .inr ⟨_, _, by rw [if_neg h2], by rw [if_neg h2], S.appendTo i (v.av x)⟩
  | setFlags i x => exact ⟨S.of i _ _ (S.a.same i) (S.f.put i (S.f.v x)) (S.c.same i) (S.r i), rfl⟩
  | setNulls i x => exact ⟨S.of i _ _ (S.a.same i) (S.f.same i) (S.c.put i x) (S.r i), rfl⟩
  | getArgs x i => exact ⟨⟨S.a.get x i, S.f, S.c, S.r⟩, rfl⟩
  | getFlags x i => exact ⟨⟨S.a, S.f.get x i, S.c, S.r⟩, rfl⟩
  | getNulls x i => exact ⟨⟨S.a, S.f, S.c.get x i, S.r⟩, rfl⟩
  | name i =>
    obtain ⟨r1, r2, r3, r4, r5, r6, r7⟩ := S.r i
    simp only [HSt.step, VSt.step, HSt.name, Builder.name]
    rw [r4]
    by_cases h : (v.b i).hash = []
    · rw [if_pos h, if_pos h]
      obtain ⟨l, hp, hl⟩ := S.c.b i
      have hsort : sortStrings l = sortStrings (v.b i).nullColumns :=
        Util.sort_unique leBytes leBytes_trans leBytes_total leBytes_antisymm _ _ ((sortStrings_perm l).trans hp) (Util.sort_sorted leBytes leBytes_trans leBytes_total l)
      have hlen : (s.b i).nullColumns.len = (v.b i).nullColumns.length := by rw [hl.2.1, hp.length_eq]
      have hb : (s.sortNulls i).b = s.b := by unfold HSt.sortNulls; split <;> rfl
      have hf : (s.sortNulls i).flags = s.flags := by unfold HSt.sortNulls; split <;> rfl
      have hr : (s.sortNulls i).cols.read (s.b i).nullColumns = sortStrings (v.b i).nullColumns := by
        unfold HSt.sortNulls
        split
        · rw [hl.read, ← hsort]
          obtain ⟨k1, k2, k3, r, k4⟩ := hl
          have hle : (sortStrings l).length = l.length := (sortStrings_perm l).length_eq
          simp only [Heap.read, Heap.store, if_true, k1, k2, k4, List.drop_zero, Xsql.goCopy, List.take_zero, List.nil_append, Nat.sub_zero]
          have e : List.take (l ++ r).length (sortStrings l) = sortStrings l := List.take_of_length_le (by rw [List.length_append]; omega)
          rw [e, List.take_append_of_le_length (by omega), List.take_of_length_le (by omega)]
        · next h0 =>
          have : (v.b i).nullColumns = [] := List.eq_nil_of_length_eq_zero (by omega)
          rw [this]
          have : l = [] := List.eq_nil_of_length_eq_zero (by rw [hl.2.1] at h0; omega)
          rw [hl.read, this]; rfl
      have htext : (s.sortNulls i).nameText H i = (v.b i).nameText H := by
        unfold HSt.nameText Builder.nameText
        rw [hb, hf, r1, r2, r3, r6, r7, hr, (S.f.b i).read]
      have S1 : HSim (s.sortNulls i) (v.setB i { v.b i with nullColumns := if (v.b i).nullColumns.length > 0 then sortStrings (v.b i).nullColumns else (v.b i).nullColumns }) := by
        unfold HSt.sortNulls
        rw [hlen]
        split
        · next h0 =>
          have C := S.c.sorted i
          refine ⟨?_, ?_, ?_, ?_⟩
          · have A := S.a.same i
            rw [upd_self, ← map_upd (g := Builder.args) v.b i { v.b i with nullColumns := sortStrings (v.b i).nullColumns }] at A; exact A
          · have F := S.f.same i
            rw [upd_self, ← map_upd (g := Builder.flags) v.b i { v.b i with nullColumns := sortStrings (v.b i).nullColumns }] at F; exact F
          · rw [← map_upd (g := Builder.nullColumns) v.b i { v.b i with nullColumns := sortStrings (v.b i).nullColumns }] at C; exact C
          · intro j
            show RSim (s.b j) (if j = i then _ else v.b j)
            split
            · next e => subst e; exact S.r j
            · exact S.r j
        · have : v.setB i (v.b i) = v := by
            unfold VSt.setB; congr 1; funext j; split
            · next e => rw [e]
            · rfl
          rw [show ({ v.b i with nullColumns := (v.b i).nullColumns } : Builder V) = v.b i from rfl, this]; exact S
      have S2 := S1.of i { (s.sortNulls i).b i with hash := (s.sortNulls i).nameText H i }
        { v.b i with hash := (v.b i).nameText H, nullColumns := if (v.b i).nullColumns.length > 0 then sortStrings (v.b i).nullColumns else (v.b i).nullColumns }
        (by have := S1.a.same i; simp only [setB_b] at this ⊢; exact this) (by have := S1.f.same i; simp only [setB_b] at this ⊢; exact this) (by have := S1.c.same i; simp only [setB_b] at this ⊢; exact this)
        (by have := S1.r i; rw [setB_b] at this; obtain ⟨r1, r2, r3, r4, r5, r6, r7⟩ := this; exact ⟨r1, r2, r3, htext, r5, r6, r7⟩)
      rw [setB_setB] at S2
      exact ⟨S2, congrArg Out.text htext⟩
    · rw [if_neg h, if_neg h]
      have : v.setB i (v.b i) = v := by
        unfold VSt.setB; congr 1; funext j; split
        · next e => rw [e]
        · rfl
      exact ⟨by rw [this]; exact S, congrArg Out.text rfl⟩
  | isSet i pos => exact ⟨S, by simp only [HSt.step, VSt.step, Spec.Same, Builder.isSet, (S.r i).2.1]⟩
  | getEnum i pos => exact ⟨S, by simp only [HSt.step, VSt.step, Spec.Same, Builder.getEnum, (S.r i).2.2.1]⟩
  | page i => exact ⟨S, by obtain ⟨r1, r2, r3, r4, r5, r6, r7⟩ := S.r i; simp only [HSt.step, VSt.step, Spec.Same, Builder.page, r5, r6]⟩
  | cursor i => exact ⟨S, by obtain ⟨r1, r2, r3, r4, r5, r6, r7⟩ := S.r i; simp only [HSt.step, VSt.step, Spec.Same, Builder.getCursor, r5, r7]⟩
  | readArgs x => exact ⟨S, by simp only [HSt.step, VSt.step, Spec.Same, (S.a.v x).read]⟩
  | readFlags x => exact ⟨S, by simp only [HSt.step, VSt.step, Spec.Same, (S.f.v x).read]⟩
  | readCols x =>
    obtain ⟨l, hp, hl⟩ := S.c.v x
    exact ⟨S, by simp only [HSt.step, VSt.step, Spec.Same, hl.read]; exact hp⟩
  | writeArgs x i a => cases ho
  | writeFlags x i a => cases ho
  | writeCols x i a => cases ho
  | appendArgs y x l => cases ho
  | sliceCols y x i j => cases ho

theorem init_sim (ra rf rc : Nat → Nat) : HSim (HSt.init ra rf rc : HSt V) {} := by
  refine ⟨⟨Nat.one_pos, rfl, fun _ => shows_nil Nat.one_pos rfl, fun _ _ _ _ => rfl, fun _ => shows_nil Nat.one_pos rfl, fun _ _ _ => le_refl _⟩,
    ⟨Nat.one_pos, rfl, fun _ => shows_nil Nat.one_pos rfl, fun _ => shows_nil Nat.one_pos rfl⟩,
    ⟨Nat.one_pos, rfl, ⟨fun _ => 0, fun _ => rfl, fun _ => rfl⟩, fun _ => ⟨[], .nil, shows_nil Nat.one_pos rfl⟩, fun _ => ⟨[], .nil, shows_nil Nat.one_pos rfl⟩⟩,
    fun _ => ⟨rfl, rfl, rfl, rfl, rfl, rfl, rfl⟩⟩

theorem run_agree [DecidableEq V] (H : Bytes → UInt64) : ∀ (ops : List (HOp V)) {s : HSt V} {v : VSt V}, HSim s v → (∀ o ∈ ops, Spec.handsOff o = true) →
    HSim (s.run H ops).1 (v.run H ops).1 ∧ List.Forall₂ Spec.Same (s.run H ops).2 (v.run H ops).2
  | [], _, _, S, _ => ⟨S, .nil⟩
  | o :: os, s, v, S, h => by
    obtain ⟨h1, h2⟩ := step_agree H S o (h o List.mem_cons_self)
    obtain ⟨h3, h4⟩ := run_agree H os h1 (fun x hx => h x (List.mem_cons_of_mem _ hx))
    exact ⟨h3, .cons h2 h4⟩

/-! ### The theorems -/

/-- **C104**: any number of builders, made and used in any order, that share the caller's slices of flags, NULL columns and arguments in any way, with any growth policy of the runtime: as
long as the program does not itself write into, append to or cut such a slice, everything it sees is what it would see if every builder and every variable had a copy of
its own; NULL columns may be listed in another order. -/
theorem C104_builders_do_not_interfere_partial [DecidableEq V] (H : Bytes → UInt64) (ra rf rc : Nat → Nat) (ops : List (HOp V)) (h : ∀ o ∈ ops, Spec.handsOff o = true) :
    List.Forall₂ Spec.Same ((HSt.init ra rf rc).run H ops).2 ((VSt.run H {} ops).2) :=
  (run_agree H ops (init_sim ra rf rc) h).2

/-- Does the operation assign to an argument variable, a flags variable, a columns variable? -/
def Spec.assigns (x : Nat) : HOp V → Bool
  | .makeArgs y _ _ => y == x
  | .makeFlags y _ _ => y == x
  | .makeCols y _ _ => y == x
  | .getArgs y _ => y == x
  | .getFlags y _ => y == x
  | .getNulls y _ => y == x
  | .appendArgs y _ _ => y == x
  | .sliceCols y _ _ _ => y == x
  | _ => false

theorem hrun_append [DecidableEq V] (H : Bytes → UInt64) (s : HSt V) (a b : List (HOp V)) : (s.run H (a ++ b)).1 = ((s.run H a).1.run H b).1 := by
  induction a generalizing s with
  | nil => rfl
  | cons o os ih => exact ih _

theorem vrun_keeps [DecidableEq V] (H : Bytes → UInt64) (x : Nat) : ∀ (ops : List (HOp V)) (v : VSt V), (∀ o ∈ ops, Spec.handsOff o = true ∧ Spec.assigns x o = false) →
    (v.run H ops).1.av x = v.av x ∧ (v.run H ops).1.fv x = v.fv x ∧ (v.run H ops).1.cv x = v.cv x
  | [], _, _ => ⟨rfl, rfl, rfl⟩
  | o :: os, v, h => by
    obtain ⟨h1, h2, h3⟩ := vrun_keeps H x os (v.step H o).1 (fun y hy => h y (List.mem_cons_of_mem _ hy))
    obtain ⟨k1, k2⟩ := h o List.mem_cons_self
    have key : (v.step H o).1.av x = v.av x ∧ (v.step H o).1.fv x = v.fv x ∧ (v.step H o).1.cv x = v.cv x := by
      have orp : ∀ i (o : Option (Builder V)), (v.orPanic i o).1.av x = v.av x ∧ (v.orPanic i o).1.fv x = v.fv x ∧ (v.orPanic i o).1.cv x = v.cv x := by
        intro i o; cases o <;> exact ⟨rfl, rfl, rfl⟩
      cases o with
      | makeArgs y l k => refine ⟨?_, rfl, rfl⟩; show (if x = y then _ else _) = _; rw [if_neg (fun e => by rw [e] at k2; exact absurd (beq_self_eq_true y) (by rw [show (y == y) = false from k2]; decide))]
      | makeFlags y l k => refine ⟨rfl, ?_, rfl⟩; show (if x = y then _ else _) = _; rw [if_neg (fun e => by rw [e] at k2; exact absurd (beq_self_eq_true y) (by rw [show (y == y) = false from k2]; decide))]
      | makeCols y l k => refine ⟨rfl, rfl, ?_⟩; show (if x = y then _ else _) = _; rw [if_neg (fun e => by rw [e] at k2; exact absurd (beq_self_eq_true y) (by rw [show (y == y) = false from k2]; decide))]
      | getArgs y l => refine ⟨?_, rfl, rfl⟩; show (if x = y then _ else _) = _; rw [if_neg (fun e => by rw [e] at k2; exact absurd (beq_self_eq_true y) (by rw [show (y == y) = false from k2]; decide))]
      | getFlags y l => refine ⟨rfl, ?_, rfl⟩; show (if x = y then _ else _) = _; rw [if_neg (fun e => by rw [e] at k2; exact absurd (beq_self_eq_true y) (by rw [show (y == y) = false from k2]; decide))]
      | getNulls y l => refine ⟨rfl, rfl, ?_⟩; show (if x = y then _ else _) = _; rw [if_neg (fun e => by rw [e] at k2; exact absurd (beq_self_eq_true y) (by rw [show (y == y) = false from k2]; decide))]
      | set i pos a => exact orp _ _
      | setEnum i pos a => exact orp _ _
      | setPage i l o => exact orp _ _
      | setCursor i l pos c => exact orp _ _
      | addArgs i y => exact orp _ _
      | writeArgs y i a => cases k1
      | writeFlags y i a => cases k1
      | writeCols y i a => cases k1
      | appendArgs y z l => cases k1
      | sliceCols y z i j => cases k1
      | _ => exact ⟨rfl, rfl, rfl⟩
    exact ⟨h1.trans key.1, h2.trans key.2.1, h3.trans key.2.2⟩

/-- **C104**: what a program got from `Args`, `GetFlags` or `GetNullColumns`, or made itself and handed over, keeps its elements (NULL columns: up to order) whatever is then called on any
builder, under the same condition. -/
theorem C104_slices_keep_their_elements_partial [DecidableEq V] (H : Bytes → UInt64) (ra rf rc : Nat → Nat) (before after : List (HOp V)) (x : Nat)
    (h : ∀ o ∈ before, Spec.handsOff o = true) (h' : ∀ o ∈ after, Spec.handsOff o = true ∧ Spec.assigns x o = false) :
    let s := ((HSt.init ra rf rc).run H before).1
    let s' := ((HSt.init ra rf rc).run H (before ++ after)).1
    s'.args.read (s'.av x) = s.args.read (s.av x) ∧ s'.flags.read (s'.fv x) = s.flags.read (s.fv x) ∧ (s'.cols.read (s'.cv x)).Perm (s.cols.read (s.cv x)) := by
  intro s s'
  have S : HSim s _ := (run_agree H before (init_sim ra rf rc) h).1
  have S' : HSim s' ((VSt.run H {} before).1.run H after).1 := by
    show HSim ((HSt.init ra rf rc).run H (before ++ after)).1 _
    rw [hrun_append]
    exact (run_agree H after S (fun o ho => (h' o ho).1)).1
  obtain ⟨k1, k2, k3⟩ := vrun_keeps H x after (VSt.run H {} before).1 h'
  obtain ⟨l, hp, hl⟩ := S.c.v x
  obtain ⟨l', hp', hl'⟩ := S'.c.v x
  refine ⟨?_, ?_, ?_⟩
  · rw [(S.a.v x).read, (S'.a.v x).read, k1]
  · rw [(S.f.v x).read, (S'.f.v x).read, k2]
  · rw [hl.read, hl'.read]; rw [k3] at hp'; exact hp'.trans hp.symm

/-! ### What the conditions exclude -/

/-- **C104, appending to what `Args` returned**: two extensions of the arguments of one builder; the second overwrites the first (room for one more element). -/
theorem C104_two_appends_to_args (H : Bytes → UInt64) :
    ((HSt.init (fun _ => 1) (fun _ => 0) (fun _ => 0) : HSt Nat).run H
      [.new 0 b!"q", .set 0 1 (.other 7), .getArgs 0 0, .appendArgs 1 0 [.other 8], .appendArgs 2 0 [.other 9], .readArgs 1]).2.getLast? = some (.args [.other 7, .other 9])
    ∧ (VSt.run H {} [.new 0 b!"q", .set 0 1 (.other 7), .getArgs 0 0, .appendArgs 1 0 [.other 8], .appendArgs 2 0 [.other 9], .readArgs (V := Nat) 1]).2.getLast? = some (.args [.other 7, .other 8]) :=
  ⟨rfl, rfl⟩

/-- **C104, appending and going on**: the builder overwrites what the program appended to its arguments. -/
theorem C104_builder_overwrites_an_appended_argument (H : Bytes → UInt64) :
    ((HSt.init (fun _ => 1) (fun _ => 0) (fun _ => 0) : HSt Nat).run H
      [.new 0 b!"q", .set 0 1 (.other 7), .getArgs 0 0, .appendArgs 1 0 [.other 8], .set 0 2 (.other 9), .readArgs 1]).2.getLast? = some (.args [.other 7, .other 9]) :=
  rfl

/-- **C104, writing into handed-over flags**: they are the builder's flags. -/
theorem C104_written_flags (H : Bytes → UInt64) :
    ((HSt.init (fun _ => 0) (fun _ => 0) (fun _ => 0) : HSt Nat).run H
      [.new 0 b!"q", .makeFlags 0 [1] 0, .setFlags 0 0, .writeFlags 0 0 2, .getFlags 1 0, .readFlags 1]).2.getLast? = some (.flags [2]) :=
  rfl

/-- **C104, overlapping parts of one list of columns**: `Name` of the first builder sorts `id`, `b`, `a` up to the second element in place, and the second builder, which was given the last two, has
other NULL columns afterwards. -/
theorem C104_overlapping_columns (H : Bytes → UInt64) :
    ((HSt.init (fun _ => 0) (fun _ => 0) (fun _ => 0) : HSt Nat).run H
      [.makeCols 0 [b!"id", b!"b", b!"a"] 0, .sliceCols 1 0 0 2, .sliceCols 2 0 1 3, .new 0 b!"q", .setNulls 0 1, .new 1 b!"q", .setNulls 1 2, .getNulls 3 1, .readCols 3, .name 0, .readCols 3]).2.getLast?
      = some (.cols [b!"id", b!"a"])
    ∧ (VSt.run H {} [.makeCols 0 [b!"id", b!"b", b!"a"] 0, .sliceCols 1 0 0 2, .sliceCols 2 0 1 3, .new 0 b!"q", .setNulls 0 1, .new 1 b!"q", .setNulls 1 2, .getNulls 3 1, .readCols 3, .name 0, .readCols (V := Nat) 3]).2.getLast?
      = some (.cols [b!"b", b!"a"]) :=
  ⟨rfl, rfl⟩

/-- A program of the theorems: two builders with the same NULL columns and flags, arguments passed on from one to the other, names taken. -/
def exShared : List (HOp Nat) :=
  [.makeCols 0 [b!"b", b!"a"] 1, .makeFlags 0 [3] 0, .new 0 b!"q", .setNulls 0 0, .setFlags 0 0, .set 0 1 (.other 7), .getArgs 1 0, .new 1 b!"r", .setNulls 1 0, .addArgs 1 1, .name 0, .set 0 2 (.other 8),
    .setPage 1 10 0, .name 1, .getArgs 2 1, .readArgs 1, .readArgs 2, .getNulls 1 1, .readCols 1, .readCols 0]

example : (∀ o ∈ exShared, Spec.handsOff o = true) ∧
    ((HSt.init (fun _ => 3) (fun _ => 0) (fun _ => 0)).run (fun _ => 255) exShared).2.drop 10 =
      [.text b!"q_x2_fx3_nff", .done, .done, .text b!"r_x0_nff", .done, .args [.other 7], .args [.other 7, .u32 10, .u32 0], .done, .cols [b!"a", b!"b"], .cols [b!"a", b!"b"]] := by
  refine ⟨?_, ?_⟩
  · simp [exShared, Spec.handsOff]
  · rfl

/-! ### Two goroutines

`Name` of two builders at the same time, with the same slice of two NULL columns.  `sort.Strings` is an insertion sort for so few elements (slices.insertionSortOrdered): it compares
`data[1] < data[0]` and, if so, executes `data[1], data[0] = data[0], data[1]`: both loads, then two stores.  The hash is computed after that (params.go:134-136).  Several loads are one step here: what happens
with these steps can also happen with smaller ones. -/

/-- Where a goroutine is in `Name`. -/
inductive NamePc where
  | start
  /-- Loaded both elements, about to store the first and then the second. -/
  | swap (x y : Bytes)
  | second (y : Bytes)
  | sorted
  /-- The columns that went into the hash. -/
  | hashed (l : List Bytes)
  deriving DecidableEq, Repr

/-- One step of a goroutine on the shared two elements. -/
def namePcStep : Bytes × Bytes → NamePc → (Bytes × Bytes) × NamePc
  | (a, b), .start => if leBytes a b then ((a, b), .sorted) else ((a, b), .swap b a)
  | (a, b), .swap x y => ((x, b), .second y)
  | (a, b), .second y => ((a, y), .sorted)
  | (a, b), .sorted => ((a, b), .hashed [a, b])
  | m, .hashed l => (m, .hashed l)

/-- Two goroutines, a schedule. -/
def namesRun : Bytes × Bytes → NamePc × NamePc → List Bool → (Bytes × Bytes) × NamePc × NamePc
  | m, p, [] => (m, p)
  | m, (p, q), false :: sch => let r := namePcStep m p; namesRun r.1 (r.2, q) sch
  | m, (p, q), true :: sch => let r := namePcStep m q; namesRun r.1 (p, r.2) sch

/-- **C104, two goroutines**: two requests that use one list of NULL columns, in whatever order it is: one after the other they hash the same columns, both of them; but if the list is not sorted there is a
schedule in which the second hashes one column twice and never the other: its name is the name of another query. -/
theorem C104_concurrent_names (a b : Bytes) (hab : leBytes a b = false) :
    (namesRun (a, b) (.start, .start) [false, false, false, false, true, true]).2 = (.hashed [b, a], .hashed [b, a])
    ∧ (namesRun (a, b) (.start, .start) [true, true, true, true, false, false]).2 = (.hashed [b, a], .hashed [b, a])
    ∧ ∃ sch, (namesRun (a, b) (.start, .start) sch).2 = (.hashed [b, a], .hashed [b, b]) := by
  have hba : leBytes b a = true := by have := leBytes_total a b; rw [hab] at this; simpa using this
  have hbb : leBytes b b = true := by have := leBytes_total b b; simpa using this
  refine ⟨?_, ?_, [false, false, true, true, false, false], ?_⟩
  · simp [namesRun, namePcStep, hab, hba]
  · simp [namesRun, namePcStep, hab, hba]
  · simp [namesRun, namePcStep, hab, hbb]

/-! ### GetQueryParams -/

/-- A value as `GetQueryParams` (params.go:34-44) looks at it: it has a method `QueryParams`, or is parameters itself, or both, or neither. -/
structure Candidate (Q : Type) where
  has : Option Q := none
  is : Option Q := none

/-- params.go:34-44 `GetQueryParams`; `none` is the panic. -/
def getQueryParams {Q : Type} : List (Candidate Q) → Option Q
  | [] => none
  | c :: cs => match c.has with
    | some q => some q
    | none => match c.is with
      | some q => some q
      | none => getQueryParams cs

/-- **C41, finding the parameters among arguments**: the first argument that has or is parameters decides (having them counts first), and the call panics iff there is none. -/
theorem C41_get_query_params {Q : Type} (cs : List (Candidate Q)) :
    (∀ q, getQueryParams cs = some q ↔ ∃ pre c post, cs = pre ++ c :: post ∧ (∀ d ∈ pre, d.has = none ∧ d.is = none) ∧ (c.has = some q ∨ (c.has = none ∧ c.is = some q)))
    ∧ (getQueryParams cs = none ↔ ∀ d ∈ cs, d.has = none ∧ d.is = none) := by
  induction cs with
  | nil =>
    refine ⟨fun q => ⟨fun h => (nomatch h), ?_⟩, by simp [getQueryParams]⟩
    rintro ⟨pre, c, post, h, -⟩
    cases pre <;> cases h
  | cons c cs ih =>
    obtain ⟨ih1, ih2⟩ := ih
    have skip : c.has = none → c.is = none → ∀ q, (∃ pre d post, c :: cs = pre ++ d :: post ∧ (∀ e ∈ pre, e.has = none ∧ e.is = none) ∧ (d.has = some q ∨ (d.has = none ∧ d.is = some q))) ↔
        ∃ pre d post, cs = pre ++ d :: post ∧ (∀ e ∈ pre, e.has = none ∧ e.is = none) ∧ (d.has = some q ∨ (d.has = none ∧ d.is = some q)) := by
      intro n1 n2 q
      constructor
      · rintro ⟨pre, d, post, h, hp, hd⟩
        cases pre with
        | nil => cases h; rw [n1, n2] at hd; rcases hd with h | ⟨_, h⟩ <;> cases h
        | cons e pre => cases h; exact ⟨pre, d, post, rfl, fun x hx => hp x (List.mem_cons_of_mem _ hx), hd⟩
      · rintro ⟨pre, d, post, rfl, hp, hd⟩
        refine ⟨c :: pre, d, post, rfl, fun x hx => ?_, hd⟩
        rcases List.mem_cons.1 hx with rfl | hx
        · exact ⟨n1, n2⟩
        · exact hp x hx
    have first : ∀ q, (∃ pre d post, c :: cs = pre ++ d :: post ∧ (∀ e ∈ pre, e.has = none ∧ e.is = none) ∧ (d.has = some q ∨ (d.has = none ∧ d.is = some q))) →
        ¬ (c.has = none ∧ c.is = none) → c.has = some q ∨ (c.has = none ∧ c.is = some q) := by
      rintro q ⟨pre, d, post, h, hp, hd⟩ hn
      cases pre with
      | nil => cases h; exact hd
      | cons e pre => cases h; exact absurd (hp c List.mem_cons_self) hn
    cases h1 : c.has with
    | some p =>
      have e : getQueryParams (c :: cs) = some p := by simp [getQueryParams, h1]
      rw [e]
      refine ⟨fun q => ⟨fun h => ⟨[], c, cs, rfl, by simp, .inl (by rw [h1, h])⟩, fun h => ?_⟩, ?_⟩
      · rcases first q h (by simp [h1]) with h | ⟨h, _⟩
        · rw [← h, h1]
        · rw [h1] at h; cases h
      · exact ⟨fun h => (nomatch h), fun h => by have := (h c List.mem_cons_self).1; rw [h1] at this; cases this⟩
    | none =>
      cases h2 : c.is with
      | some p =>
        have e : getQueryParams (c :: cs) = some p := by simp [getQueryParams, h1, h2]
        rw [e]
        refine ⟨fun q => ⟨fun h => ⟨[], c, cs, rfl, by simp, .inr ⟨h1, by rw [h2, h]⟩⟩, fun h => ?_⟩, ?_⟩
        · rcases first q h (by simp [h2]) with h | ⟨_, h⟩
          · rw [h1] at h; cases h
          · rw [← h, h2]
        · exact ⟨fun h => (nomatch h), fun h => by have := (h c List.mem_cons_self).2; rw [h2] at this; cases this⟩
      | none =>
        have e : getQueryParams (c :: cs) = getQueryParams cs := by simp [getQueryParams, h1, h2]
        rw [e]
        refine ⟨fun q => by rw [skip h1 h2 q]; exact ih1 q, ?_⟩
        rw [ih2]
        simp [h1, h2]

example : getQueryParams [{}, { is := some 1 }, { has := some 2 }] = some 1 ∧ getQueryParams [{ has := some 2, is := some 3 }] = some 2 ∧ getQueryParams [({} : Candidate Nat)] = none :=
  ⟨rfl, rfl, rfl⟩

end Query
