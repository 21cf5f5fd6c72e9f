import Verif.Xsql.World
/-
xsql at the level of memory: statement objects are pointers, `chunks`, `args` and `dest` are Go slices over arrays that may be
shared, text is written into pooled buffers, `In` and `join` use strings that point into a buffer (cache.go:36-38), and `Close`
puts objects and buffers back into pools from which any later statement may get them.
xsql/pool.go, xsql/util.go, xsql/cache.go (bufToString), xsql/stmt.go (addChunk, In, join, SubQuery, With, Union, Clone, Close, Args, Dest).

Verif/Xsql/World.lean models the same package with one value per statement.  Nothing of that is assumed here: sharing, if there were
any, would show.  How much room `append` leaves in a new array, and which object the buffer pool hands out, is decided by functions
that the theorems leave arbitrary; which statement object the pool hands out is part of the operation, as in World.lean.

Go strings are immutable, so they are values here, except those made by `bufToString` (`Str.view`).
Dereferencing a nil buffer (a statement used after `Close`) panics in Go; here it reads as empty and writes nothing: only programs that
the theorems exclude do that.
-/
namespace Xsql

/-! ### Arrays and slices (the Go language) -/

/-- A Go slice: array, start and length.  The capacity is what is left of the array. -/
structure Slice where
  arr : Nat
  off : Nat := 0
  len : Nat := 0
  deriving DecidableEq, Repr

/-- Go `s[i:]`. -/
def Slice.from (s : Slice) (i : Nat) : Slice := { arr := s.arr, off := s.off + i, len := s.len - i }

/-- Go `s[i:j]`. -/
def Slice.sub (s : Slice) (i j : Nat) : Slice := { arr := s.arr, off := s.off + i, len := j - i }

/-- The arrays of one element type.  `room n` is the spare capacity the runtime gives to array number `n` when `append` makes it. -/
structure Heap (β : Type) where
  cell : Nat → List β := fun _ => []
  next : Nat := 0
  room : Nat → Nat := fun _ => 0

namespace Heap
variable {β : Type}

/-- The elements of a slice. -/
def read (h : Heap β) (s : Slice) : List β := ((h.cell s.arr).drop s.off).take s.len

/-- Go `cap(s)`. -/
def cap (h : Heap β) (s : Slice) : Nat := (h.cell s.arr).length - s.off

/-- A new array. -/
def alloc (h : Heap β) (xs : List β) : Heap β := { h with cell := fun a => if a = h.next then xs else h.cell a, next := h.next + 1 }

/-- Overwrite elements of an array from position `off`. -/
def store (h : Heap β) (arr off : Nat) (xs : List β) : Heap β :=
  { h with cell := fun a => if a = arr then goCopy (h.cell arr) off xs else h.cell a }

/-- Go `append(s, xs...)`: in place if the capacity suffices, otherwise a new array. -/
def append [Inhabited β] (h : Heap β) (s : Slice) (xs : List β) : Heap β × Slice :=
  if s.len + xs.length ≤ h.cap s then (h.store s.arr (s.off + s.len) xs, { s with len := s.len + xs.length })
  else (h.alloc (h.read s ++ xs ++ List.replicate (h.room h.next) default), { arr := h.next, off := 0, len := s.len + xs.length })

/-- Go `copy(dst, src)` (correct for overlapping slices: the elements are those before the call). -/
def copy (h : Heap β) (dst src : Slice) : Heap β := h.store dst.arr dst.off ((h.read src).take dst.len)

/-- Go `make([]T, len, cap)` filled with `copy(new, s)` where `len = len(s)`. -/
def makeCopy [Inhabited β] (h : Heap β) (s : Slice) (cap : Nat) : Heap β × Slice :=
  (h.alloc (h.read s ++ List.replicate (cap - s.len) default), { arr := h.next, off := 0, len := s.len })

/-- util.go:3-15 `insertAt`, statement by statement. -/
def insertAt [Inhabited β] (h : Heap β) (dest src : Slice) (index : Nat) : Heap β × Slice :=
  if src.len > 0 then
    let oldLen := dest.len
    let r := h.append dest (h.read src)
    let h := r.1
    let dest := r.2
    if index < oldLen then
      let h := h.copy (dest.from (index + src.len)) (dest.from index)
      let h := h.copy (dest.from index) src
      (h, dest)
    else (h, dest)
  else (h, dest)

end Heap

instance : Inhabited Chunk := ⟨{ pos := 0, low := 0, high := 0, hasExpr := false, argLen := 0 }⟩

/-! ### Objects -/

/-- stmt.go:477-487 `Stmt`: the object a statement pointer points to. -/
structure Obj where
  name : Bytes := []
  dialect : Dia := .default
  pos : Nat := 0
  chunks : Slice
  buf : Option Nat := none
  sql : Bytes := []
  args : Slice
  dest : Slice
  useNewLines : Bool := false

/-- A string: a value, or the contents of a buffer (cache.go:36-38 `bufToString`). -/
inductive Str where
  | lit (b : Bytes)
  | view (s : Slice)

/-- The memory of the process.  `any` values are elements of `α`; its default stands for `nil`. -/
structure Mem (α : Type) where
  args : Heap α := {}
  dest : Heap Nat := {}
  chunks : Heap Chunk := {}
  bytes : Heap UInt8 := {}
  /-- `bytebufferpool.ByteBuffer` objects: the slice `B`. -/
  bufs : Nat → Slice := fun _ => { arr := 0 }
  nextBuf : Nat := 0
  /-- `bytebufferpool`'s pool. -/
  bufPool : List Nat := []
  obj : Nat → Obj := fun _ => { chunks := { arr := 0 }, args := { arr := 0 }, dest := { arr := 0 } }
  nextObj : Nat := 0
  /-- pool.go:10 `stmtPool`. -/
  pool : List Nat := []
  /-- dialect.go:85 `cache`. -/
  cache : Dia → Bytes → Option Bytes := fun _ _ => none
  /-- dialect.go:86 `useNewLines`. -/
  newLines : Dia → Bool := fun _ => true
  /-- The program's statement variables: pointers, not cleared by `Close`. -/
  vars : Nat → Option Nat := fun _ => none
  /-- The program's variables of type `[]any`. -/
  slices : Nat → Slice := fun _ => { arr := 0 }
  /-- Which pooled buffer the pool hands out at its `n`-th use (none: a new one). -/
  pick : Nat → Option Nat := fun _ => none
  tick : Nat := 0

variable {α : Type} [Inhabited α]

namespace Mem

/-- Update one object. -/
def setObj (m : Mem α) (o : Nat) (x : Obj) : Mem α := { m with obj := fun i => if i = o then x else m.obj i }

/-- The bytes of a string. -/
def text (m : Mem α) : Str → Bytes
  | .lit b => b
  | .view s => m.bytes.read s

/-! ### Buffers (package bytebufferpool, as its documentation says) and pool.go:52-58 -/

/-- pool.go:52-54 `getBuffer`: a pooled buffer, whichever the pool likes, or a new empty one. -/
def getBuffer (m : Mem α) : Mem α × Nat :=
  let fresh : Mem α × Nat :=
    ({ m with bytes := m.bytes.alloc [], bufs := fun b => if b = m.nextBuf then { arr := m.bytes.next } else m.bufs b, nextBuf := m.nextBuf + 1, tick := m.tick + 1 }, m.nextBuf)
  match m.pick m.tick with
  | none => fresh
  | some i => match m.bufPool[i]? with
    | some b => ({ m with bufPool := m.bufPool.eraseIdx i, tick := m.tick + 1 }, b)
    | none => fresh

/-- pool.go:56-58 `putBuffer`: the buffer is emptied, keeping its memory, and given back. -/
def putBuffer (m : Mem α) (b : Nat) : Mem α :=
  { m with bufs := fun i => if i = b then { m.bufs b with len := 0 } else m.bufs i, bufPool := b :: m.bufPool }

/-- `ByteBuffer.Write`, `WriteString`: `b.B = append(b.B, p...)`. -/
def bufWrite (m : Mem α) (b : Nat) (s : Bytes) : Mem α :=
  let r := m.bytes.append (m.bufs b) s
  { m with bytes := r.1, bufs := fun i => if i = b then r.2 else m.bufs i }

/-- stmt.go:513-518 `WriteString`. -/
def write (m : Mem α) (o : Nat) (s : Str) : Mem α := match (m.obj o).buf with
  | some b => m.bufWrite b (m.text s)
  | none => m

/-- `q.buf.B`. -/
def bufBytes (m : Mem α) (o : Nat) : Bytes := match (m.obj o).buf with
  | some b => m.bytes.read (m.bufs b)
  | none => []

/-! ### Statement objects, pool.go -/

/-- pool.go:13-17 `newStmt`: `chunks` with room for eight, nil `args` and `dest` (a nil slice is one over an array without room). -/
def newStmt (m : Mem α) : Mem α × Nat :=
  ({ m with
      chunks := m.chunks.alloc (List.replicate 8 default), args := m.args.alloc [], dest := m.dest.alloc [],
      obj := fun i => if i = m.nextObj then { chunks := { arr := m.chunks.next }, args := { arr := m.args.next }, dest := { arr := m.dest.next } } else m.obj i,
      nextObj := m.nextObj + 1 }, m.nextObj)

/-- `stmtPool.Get()`. -/
def takeStmt (m : Mem α) (pick : Option Nat) : Mem α × Nat := match pick with
  | none => m.newStmt
  | some i => match m.pool[i]? with
    | some o => ({ m with pool := m.pool.eraseIdx i }, o)
    | none => m.newStmt

/-- pool.go:19-27 `getStmt`. -/
def getStmt (m : Mem α) (d : Dia) (pick : Option Nat) : Mem α × Nat :=
  let r := m.takeStmt pick
  let o := r.2
  let r := r.1.getBuffer
  let m := r.1
  (m.setObj o { m.obj o with dialect := d, buf := some r.2, name := [], sql := [], useNewLines := m.newLines d }, o)

/-- pool.go:29-49 `reuseStmt` (stmt.go:993-995 `Close`). -/
def reuse (m : Mem α) (o : Nat) : Mem α :=
  let x := m.obj o
  let m := { m with
    args := if x.args.len > 0 then m.args.store x.args.arr x.args.off (List.replicate x.args.len default) else m.args,
    dest := if x.dest.len > 0 then m.dest.store x.dest.arr x.dest.off (List.replicate x.dest.len default) else m.dest }
  let m := match x.buf with
    | some b => m.putBuffer b
    | none => m
  let m := m.setObj o { x with
    chunks := { x.chunks with len := 0 }, args := { x.args with len := 0 }, dest := { x.dest with len := 0 }, buf := none, sql := [], name := [] }
  { m with pool := o :: m.pool }

/-! ### addChunk, stmt.go:1058-1156 -/

/-- How the loop of stmt.go:1072-1113 ends: at a chunk with the same position, or at an index to insert at. -/
inductive Found where
  | same (i : Nat) (c : Chunk) (argTail : Nat)
  | at_ (i : Nat) (argTail : Nat)

/-- stmt.go:1072-1113: the loop `for i := index - 1; i >= 0; i--`; the first argument is `i + 1`. -/
def findChunk (cs : List Chunk) (pos : Nat) : Nat → Nat → Found
  | 0, tail => .at_ 0 tail
  | i + 1, tail => match cs[i]? with
    | none => .at_ 0 tail
    | some c =>
      if c.pos = pos then .same i c tail
      else if c.pos < pos then .at_ (i + 1) tail
      else findChunk cs pos i (tail + c.argLen)

/-- stmt.go:981-985 `Invalidate`. -/
def invalidate (m : Mem α) (o : Nat) : Mem α := m.setObj o { m.obj o with sql := [] }

/-- Write to `chunks[i]` (through a pointer into the array). -/
def setChunk (m : Mem α) (arr i : Nat) (c : Chunk) : Mem α := { m with chunks := m.chunks.store arr i [c] }

/-- stmt.go:1149-1153: the arguments are inserted, the text memo dropped. -/
def addArgs (m : Mem α) (o : Nat) (args : Slice) (argTail : Nat) : Mem α :=
  let m := if args.len > 0 then
      let x := m.obj o
      let r := m.args.insertAt x.args args (x.args.len - argTail)
      let m := { m with args := r.1 }
      m.setObj o { m.obj o with args := r.2 }
    else m
  m.invalidate o

/-- stmt.go:1128-1146: the new chunk is inserted at `index`, after making room if there is none. -/
def insertChunk (m : Mem α) (o : Nat) (c : Chunk) (index : Nat) : Mem α :=
  let x := m.obj o
  let r := if m.chunks.cap x.chunks = x.chunks.len then m.chunks.makeCopy x.chunks (m.chunks.cap x.chunks * 2) else (m.chunks, x.chunks)
  let r := r.1.append r.2 [c]
  let h := r.1
  let s := r.2
  let h := if index < s.len - 1 then (h.copy (s.from (index + 1)) (s.from index)).store s.arr (s.off + index) [c] else h
  { m with chunks := h }.setObj o { x with chunks := s }

/-- stmt.go:1115-1147: a new chunk. -/
def newChunk (m : Mem α) (o pos bufLow : Nat) (addClause : Bool) (clause : Bytes) (expr : Str) (argLen index : Nat) : Mem α :=
  let m := if addClause then
      let m := if (m.obj o).useNewLines then m.write o (.lit b!"\n") else m
      let m := m.write o (.lit clause)
      if m.text expr ≠ [] then m.write o (.lit b!" ") else m
    else m
  let m := m.write o expr
  m.insertChunk o { pos := pos, low := bufLow, high := (m.bufBytes o).length, hasExpr := decide (m.text expr ≠ []), argLen := argLen } index

/-- stmt.go:1058-1156 `addChunk`. -/
def addChunk (m : Mem α) (o pos : Nat) (clause : Bytes) (expr : Str) (args : Slice) (sep : Bytes) : Mem α × Nat :=
  let m := m.setObj o { m.obj o with pos := pos }
  let bufLow := (m.bufBytes o).length
  let x := m.obj o
  match findChunk (m.chunks.read x.chunks) pos x.chunks.len 0 with
  | .same i c tail =>
    if m.text expr = [] then
      (if args.len > 0 then { m with args := m.args.copy (x.args.from (x.args.len - tail - c.argLen)) args } else m, i)
    else
      let m := m.write o (.lit (if c.hasExpr then sep else b!" "))
      if c.high = bufLow then
        let m := m.write o expr
        let m := m.setChunk x.chunks.arr (x.chunks.off + i) { c with argLen := c.argLen + args.len, high := (m.bufBytes o).length, hasExpr := true }
        (m.addArgs o args tail, i)
      else ((m.newChunk o pos bufLow false clause expr args.len (i + 1)).addArgs o args tail, i + 1)
  | .at_ i tail => ((m.newChunk o pos bufLow (decide (clause ≠ [])) clause expr args.len i).addArgs o args tail, i)

/-- `addChunk` when the index is ignored. -/
def add (m : Mem α) (o pos : Nat) (clause expr : Bytes) (args : Slice) (sep : Bytes) : Mem α :=
  (m.addChunk o pos clause (.lit expr) args sep).1

/-- No arguments: a nil slice. -/
def noArgs : Slice := { arr := 0 }

/-- An array the compiler makes for the values listed in a call (Go: `f(x, y)` for a variadic `f`, `[]any{x}`). -/
def listed (m : Mem α) (xs : List α) : Mem α × Slice := ({ m with args := m.args.alloc xs }, { arr := m.args.next, len := xs.length })

/-! ### Methods that use a temporary buffer -/

/-- The pieces written one after the other. -/
def bufWrites (m : Mem α) (b : Nat) : List Bytes → Mem α
  | [] => m
  | p :: ps => (m.bufWrite b p).bufWrites b ps

/-- stmt.go:716-726: the pieces of `IN (?,?)`. -/
def inPieces (n : Nat) : List Bytes := b!"IN (" :: (List.range n).map (fun i => if i + 1 < n then b!"?," else b!"?") ++ [b!")"]

/-- stmt.go:715-730, 1042-1054: the expression is put together in a buffer from the pool, used through `bufToString`, and the buffer
given back afterwards. -/
def addBuffered (m : Mem α) (o pos : Nat) (pieces : List Bytes) (args : Slice) (sep : Bytes) : Mem α :=
  let r := m.getBuffer
  let b := r.2
  let m := r.1.bufWrites b pieces
  let m := (m.addChunk o pos [] (.view (m.bufs b)) args sep).1
  m.putBuffer b

/-- stmt.go:714-731 `In`. -/
def in_ (m : Mem α) (o : Nat) (args : Slice) : Mem α := m.addBuffered o posWhere (inPieces args.len) args b!" "

/-- stmt.go:1041-1055 `join`. -/
def join (m : Mem α) (o : Nat) (k : JoinKind) (table on : Bytes) : Mem α :=
  m.addBuffered o posFrom [k.text, table, b!" ON (", on, b!")"] noArgs b!" "

/-! ### The other builder methods: `args` is the slice a variadic method receives -/

/-- The chunks as values. -/
def chunkList (m : Mem α) (o : Nat) : List Chunk := m.chunks.read (m.obj o).chunks

/-- stmt.go:585-594 `To`; the destinations are listed in the call. -/
def to (m : Mem α) (o : Nat) (ds : List Nat) : Mem α :=
  if ds.length > 0 then
    let m := { m with dest := m.dest.alloc ds }
    let x := m.obj o
    let r := m.dest.insertAt x.dest { arr := m.dest.next - 1, len := ds.length } x.dest.len
    { m with dest := r.1 }.setObj o { x with dest := r.2 }
  else m

/-- stmt.go:619-626 `InsertInto`. -/
def insertInto (m : Mem α) (o : Nat) (t : Bytes) : Mem α :=
  let m := m.add o posInsert b!"INSERT INTO" t noArgs b!", "
  let m := m.add o (posInsertFields - 1) b!"(" [] noArgs []
  let m := m.add o (posValues - 1) b!") VALUES (" [] noArgs []
  let m := m.add o (posValues + 1) b!")" [] noArgs []
  m.setObj o { m.obj o with pos := posInsertFields }

/-- stmt.go:671-688 `SetExpr`. -/
def setExpr (m : Mem α) (o : Nat) (field expr : Bytes) (args : Slice) : Mem α :=
  let p := setMode (m.chunkList o)
  if p = posInsert then
    let m := m.add o posInsertFields [] field noArgs b!", "
    m.add o posValues [] expr args b!", "
  else if p = posUpdate then m.add o posSet b!"SET" (field ++ b!"=" ++ expr) args b!", "
  else m

/-- stmt.go:1174-1197 `NewRow`. -/
def newRow (m : Mem α) (o : Nat) : Mem α :=
  if rowFirst (m.chunkList o) then m else m.add o posValues [] b!" " noArgs b!" ), ("

/-- stmt.go:1228-1247 `newRow.SetExpr`. -/
def rowSetExpr (m : Mem α) (o : Nat) (r : RowH) (field expr : Bytes) (args : Slice) : Mem α :=
  if r.first then
    let m := m.add o posInsertFields [] field noArgs b!", "
    m.add o posValues [] expr args b!", "
  else m.add o posValues [] expr args (if r.notEmpty then b!", " else [])

/-- A builder call that involves no other statement.  The arguments of a variadic method are in `args`; stmt.go:552-907, 1174-1247,
each with the constants of its method (see Verif/Xsql/Model.lean for the lines). -/
def callWith (m : Mem α) (o : Nat) (args : Slice) : Call α → Mem α
  | .verb v _ => m.add o posSelect v [] args b!", "
  | .select e _ => m.add o posSelect b!"SELECT" e args b!", "
  | .returning e => m.add o posReturning b!"RETURNING" e noArgs b!", "
  | .toDest ds => m.to o ds
  | .update t => m.add o posUpdate b!"UPDATE" t noArgs b!", "
  | .insertInto t => m.insertInto o t
  | .deleteFrom t => m.add o posDelete b!"DELETE FROM" t noArgs b!", "
  | .setExpr f e _ => m.setExpr o f e args
  | .from_ e _ => m.add o posFrom b!"FROM" e args b!", "
  | .where_ e _ => m.add o posWhere b!"WHERE" e args b!" AND "
  | .in_ _ => m.in_ o args
  | .join k t on => m.join o k t on
  | .orderBy es => m.add o posOrderBy b!"ORDER BY" (joinBytes b!", " es) noArgs b!", "
  | .groupBy e => m.add o posGroupBy b!"GROUP BY" e noArgs b!", "
  | .having e _ => m.add o posHaving b!"HAVING" e args b!" AND "
  | .limit x => let r := m.listed [x]; r.1.add o posLimit b!"LIMIT ?" [] r.2 []
  | .offset x => let r := m.listed [x]; r.1.add o posOffset b!"OFFSET ?" [] r.2 []
  | .expr e _ => m.add o (m.obj o).pos [] e args b!", "
  | .clause e _ => m.add o (clausePos (m.chunkList o)) e [] args b!", "
  | .newRow => m.newRow o
  | .rowSetExpr r f e _ => m.rowSetExpr o r f e args
  | .subQuery .. | .with_ .. | .union .. => m

end Mem

/-- The arguments listed in a call of a variadic method. -/
def Call.listed : Call α → List α
  | .verb _ as | .select _ as | .setExpr _ _ as | .from_ _ as | .where_ _ as | .in_ as | .having _ as | .expr _ as | .clause _ as | .rowSetExpr _ _ _ as => as
  | _ => []

namespace Mem

/-- A builder call with its arguments listed. -/
def call (m : Mem α) (o : Nat) (c : Call α) : Mem α := let r := m.listed c.listed; r.1.callWith o r.2 c

/-! ### String, SubQuery, With, Union, Clone -/

/-- stmt.go:914: the cache key. -/
def key (m : Mem α) (o : Nat) : Bytes := if (m.obj o).name ≠ [] then (m.obj o).name else m.bufBytes o

/-- stmt.go:916-938: the text of the statement. -/
def render (m : Mem α) (o : Nat) : Bytes :=
  trim (renderLoop (decide ((m.obj o).dialect = .postgres)) (m.bufBytes o) (m.chunkList o) true 0 1 [])

/-- stmt.go:910-944 `String`; the text is left in the object. -/
def str (m : Mem α) (o : Nat) : Mem α :=
  let x := m.obj o
  if x.sql ≠ [] then m
  else match m.cache x.dialect (m.key o) with
    | some s => m.setObj o { x with sql := s }
    | none =>
      let s := m.render o
      { m with cache := fun d k => if d = x.dialect ∧ k = m.key o then some s else m.cache d k }.setObj o { x with sql := s }

/-- stmt.go:842-845, 879-882. -/
def noDialect (m : Mem α) (p : Nat) : Mem α :=
  if (m.obj p).dialect = .default then m else m.setObj p { m.obj p with dialect := .default, sql := [] }

/-- stmt.go:849, 885: `chunk.bufHigh = n` through a pointer into the array. -/
def setHighAt (m : Mem α) (arr at_ n : Nat) : Mem α := match (m.chunks.cell arr)[at_]? with
  | some c => m.setChunk arr at_ { c with high := n }
  | none => m

/-- stmt.go:840-851, 877-887: after `addChunk`, with a pointer to the chunk `index`: the text of the inner statement and `suf` are
written (`Union` writes no suffix: it is empty), the end of the chunk is set through the pointer, the inner statement is closed. -/
def finishSub (m : Mem α) (o p index : Nat) (suf : Bytes) : Mem α :=
  let arr := (m.obj o).chunks.arr
  let at_ := (m.obj o).chunks.off + index
  let m := (m.noDialect p).str p
  let m := m.write o (.lit (m.obj p).sql)
  let m := m.write o (.lit suf)
  (m.setHighAt arr at_ (m.bufBytes o).length).reuse p

/-- stmt.go:834-854 `SubQuery`; `p` is the inner statement, its `args` slice is passed as it is. -/
def subQuery (m : Mem α) (o p : Nat) (pre suf : Bytes) : Mem α :=
  let delim := if (m.obj o).pos = posWhere then b!" AND " else b!", "
  let r := m.addChunk o (m.obj o).pos [] (.lit pre) (m.obj p).args delim
  r.1.finishSub o p r.2 suf

/-- stmt.go:813-816 `With`. -/
def with_ (m : Mem α) (o p : Nat) (name : Bytes) : Mem α :=
  let m := m.add o posWith b!"WITH" [] noArgs []
  m.subQuery o p (name ++ b!" AS (") b!")"

/-- stmt.go:863-890 `Union`. -/
def union (m : Mem α) (o p : Nat) (all : Bool) : Mem α :=
  let r := m.addChunk o (unionPos (m.chunkList o)) (if all then b!"UNION ALL " else b!"UNION ") (.lit []) (m.obj p).args []
  r.1.finishSub o p r.2 []

/-- An embedding. -/
def embed (m : Mem α) (o p : Nat) : Embed → Mem α
  | .subQuery pre suf => m.subQuery o p pre suf
  | .with_ n => m.with_ o p n
  | .union all => m.union o p all

/-- stmt.go:998-1012 `Clone`. -/
def clone (m : Mem α) (o : Nat) (pick : Option Nat) : Mem α × Nat :=
  let r := m.getStmt (m.obj o).dialect pick
  let m := r.1
  let n := r.2
  let x := m.obj n
  let q := m.obj o
  let rc := if m.chunks.cap x.chunks < q.chunks.len then m.chunks.makeCopy q.chunks (q.chunks.len + 2) else m.chunks.append x.chunks (m.chunks.read q.chunks)
  let ra := m.args.insertAt x.args q.args 0
  let rd := m.dest.insertAt x.dest q.dest 0
  let m := { m with chunks := rc.1, args := ra.1, dest := rd.1 }.setObj n { x with chunks := rc.2, args := ra.2, dest := rd.2 }
  let m := m.write n (.lit (m.bufBytes o))
  (m.setObj n { m.obj n with sql := q.sql }, n)

end Mem

/-! ### Programs -/

/-- Operations of a program: those of World.lean, and the program's own slices of arguments. -/
inductive MOp (α : Type) where
  /-- An operation of World.lean; the arguments of a call are listed in the call. -/
  | base (o : Op α)
  /-- `h.M(..., v...)`: the slice `v` is handed over as the argument list; the arguments listed in `c` are not used. -/
  | callFrom (h : Nat) (c : Call α) (v : Nat)
  /-- `v = []any{x, y}`. -/
  | mkSlice (v : Nat) (xs : List α)
  /-- `v[i] = x`. -/
  | setElem (v i : Nat) (x : α)
  /-- `v = h.Args()[lo:hi]`. -/
  | args (h v lo hi : Nat)
  /-- The program looks at the elements of `v`. -/
  | look (v : Nat)
  /-- The program looks at `h.Dest()`. -/
  | dest (h : Nat)

/-- What the program sees. -/
inductive Out (α : Type) where
  | nothing
  | text (s : Bytes)
  | values (xs : List α)
  | dests (xs : List Nat)
  deriving DecidableEq

namespace Mem

/-- Apply to the statement in a variable. -/
def onVar (m : Mem α) (h : Nat) (f : Mem α → Nat → Mem α) : Mem α := match m.vars h with
  | some o => f m o
  | none => m

/-- Assign a statement variable. -/
def setVar (m : Mem α) (h o : Nat) : Mem α := { m with vars := fun i => if i = h then some o else m.vars i }

/-- Assign a slice variable. -/
def setSlice (m : Mem α) (v : Nat) (s : Slice) : Mem α := { m with slices := fun i => if i = v then s else m.slices i }

/-- One operation of World.lean on memory. -/
def baseStep (m : Mem α) : Op α → Mem α × Out α
  | .open h d pick => let r := m.getStmt d pick; (r.1.setVar h r.2, .nothing)
  | .call h c => (m.onVar h fun m o => m.call o c, .nothing)
  | .embed h g e => (m.onVar h fun m o => m.onVar g fun m p => m.embed o p e, .nothing)
  | .str h => match m.vars h with
    | some o => let m := m.str o; (m, .text (m.obj o).sql)
    | none => (m, .nothing)
  | .setName h n => (m.onVar h fun m o => m.setObj o { m.obj o with name := n }, .nothing)
  | .invalidate h => (m.onVar h fun m o => m.invalidate o, .nothing)
  | .stmtNewLines h b => (m.onVar h fun m o => m.setObj o { m.obj o with useNewLines := b }, .nothing)
  | .newLines d b => ({ m with newLines := fun d' => if d' = d then b else m.newLines d' }, .nothing)
  | .close h => (m.onVar h fun m o => m.reuse o, .nothing)
  | .clone h g pick => (m.onVar h fun m o => let r := m.clone o pick; r.1.setVar g r.2, .nothing)
  | .put d k s => ({ m with cache := fun d' k' => if d' = d ∧ k' = k then some s else m.cache d' k' }, .nothing)

/-- One operation of a program on memory. -/
def step (m : Mem α) : MOp α → Mem α × Out α
  | .base o => m.baseStep o
  | .callFrom h c v => (m.onVar h fun m o => m.callWith o (m.slices v) c, .nothing)
  | .mkSlice v xs => let r := m.listed xs; (r.1.setSlice v r.2, .nothing)
  | .setElem v i x => ({ m with args := m.args.store (m.slices v).arr ((m.slices v).off + i) [x] }, .nothing)
  -- stmt.go:957-959 `Args`
  | .args h v lo hi => (m.onVar h fun m o => m.setSlice v ((m.obj o).args.sub lo hi), .nothing)
  | .look v => (m, .values (m.args.read (m.slices v)))
  -- stmt.go:972-974 `Dest`
  | .dest h => (m, match m.vars h with | some o => .dests (m.dest.read (m.obj o).dest) | none => .nothing)

/-- A program: what it sees, in order. -/
def run (m : Mem α) : List (MOp α) → Mem α × List (Out α)
  | [] => (m, [])
  | o :: os => let r := m.step o; let r' := r.1.run os; (r'.1, r.2 :: r'.2)

/-- The memory before anything happened; growth of arrays and the buffer pool's choices are arbitrary. -/
def init (roomA roomD roomC roomB : Nat → Nat) (pick : Nat → Option Nat) : Mem α :=
  { args := { room := roomA }, dest := { room := roomD }, chunks := { room := roomC }, bytes := { room := roomB }, pick := pick }

end Mem
end Xsql
