import Verif.Num
/-
Model of xsql/stmt.go, xsql/util.go, xsql/dialect.go (writePg): one SQL statement builder.
The process-wide parts (caches, statement pool, Clone) are in Verif/Xsql/World.lean.

SQL arguments (`any` values) are elements of an arbitrary type `α`; destinations (`To` pointers)
are identified by a number.  Builder methods mutate `*Stmt`; here they return the new value.
-/
namespace Xsql

/-! ### Positions, stmt.go:1256-1280 (`iota * 100`) -/
/-- stmt.go:1260. -/ def posStart : Nat := 100
/-- stmt.go:1261. -/ def posWith : Nat := 200
/-- stmt.go:1262. -/ def posInsert : Nat := 300
/-- stmt.go:1263. -/ def posInsertFields : Nat := 400
/-- stmt.go:1264. -/ def posValues : Nat := 500
/-- stmt.go:1265. -/ def posDelete : Nat := 600
/-- stmt.go:1266. -/ def posUpdate : Nat := 700
/-- stmt.go:1267. -/ def posSet : Nat := 800
/-- stmt.go:1268. -/ def posSelect : Nat := 900
/-- stmt.go:1269 (unused by the builder). -/ def posInto : Nat := 1000
/-- stmt.go:1270. -/ def posFrom : Nat := 1100
/-- stmt.go:1271. -/ def posWhere : Nat := 1200
/-- stmt.go:1272. -/ def posGroupBy : Nat := 1300
/-- stmt.go:1273. -/ def posHaving : Nat := 1400
/-- stmt.go:1274. -/ def posUnion : Nat := 1500
/-- stmt.go:1275. -/ def posOrderBy : Nat := 1600
/-- stmt.go:1276. -/ def posLimit : Nat := 1700
/-- stmt.go:1277. -/ def posOffset : Nat := 1800
/-- stmt.go:1278. -/ def posReturning : Nat := 1900

/-- stmt.go:446-452 `stmtChunk`. -/
structure Chunk where
  pos : Nat
  low : Nat
  high : Nat
  hasExpr : Bool
  argLen : Nat
  deriving DecidableEq, Repr

/-- dialect.go:91-95: the three dialects of the package. -/
inductive Dia where
  | default | postgres | sqlserver
  deriving DecidableEq, Repr

/-- stmt.go:477-487 `Stmt`. -/
structure Stmt (α : Type) where
  name : Bytes := []
  dialect : Dia := .default
  pos : Nat := 0
  chunks : List Chunk := []
  buf : Bytes := []
  sql : Bytes := []
  args : List α := []
  dest : List Nat := []
  useNewLines : Bool := true
  deriving DecidableEq, Repr

variable {α : Type}

/-- Go `copy(dst[off:], src)`: overwrite as many elements as fit. -/
def goCopy {β : Type} (dst : List β) (off : Nat) (src : List β) : List β :=
  dst.take off ++ src.take (dst.length - off) ++ dst.drop (off + src.length)

/-- util.go:3-15 `insertAt`, statement by statement. -/
def insertAt {β : Type} (dest src : List β) (index : Nat) : List β :=
  if src.length > 0 then
    let oldLen := dest.length
    let dest := dest ++ src
    if index < oldLen then
      let dest := goCopy dest (index + src.length) (dest.drop index)
      goCopy dest index src
    else dest
  else dest

/-- Go slice `b[lo:hi]`. -/
def slice (b : Bytes) (lo hi : Nat) : Bytes := (b.drop lo).take (hi - lo)

/-- stmt.go:513-518 `WriteString`. -/
def Stmt.write (q : Stmt α) (s : Bytes) : Stmt α := { q with buf := q.buf ++ s }

/-- stmt.go:981-985 `Invalidate`. -/
def Stmt.invalidate (q : Stmt α) : Stmt α := { q with sql := [] }

/-- stmt.go:1072-1113, the part of the chunk list the backward loop skips (chunks with a greater
position). -/
def tailAbove (pos : Nat) (cs : List Chunk) : List Chunk :=
  (cs.reverse.takeWhile fun c => pos < c.pos).reverse

/-- stmt.go:1072-1113, the rest: the loop stops at its last element (if any). -/
def headUpTo (pos : Nat) (cs : List Chunk) : List Chunk :=
  (cs.reverse.dropWhile fun c => pos < c.pos).reverse

/-- stmt.go:1111: `argTail`, the number of arguments of the skipped chunks. -/
def argTail (pos : Nat) (cs : List Chunk) : Nat := ((tailAbove pos cs).map Chunk.argLen).sum

/-- stmt.go:1115-1147: append text for a new chunk and insert the chunk after `headUpTo`.
`q` is the statement at that point (separator possibly already written), `bufLow` the buffer
length at the start of `addChunk`.  (Lines 1128-1132, capacity growth, have no visible effect.) -/
def Stmt.newChunk (q : Stmt α) (pos bufLow : Nat) (addClause : Bool) (clause expr : Bytes) (argLen : Nat) : Stmt α :=
  let q := if addClause then
      let q := if q.useNewLines then q.write b!"\n" else q
      let q := q.write clause
      if expr ≠ [] then q.write b!" " else q
    else q
  let q := q.write expr
  let c : Chunk := { pos := pos, low := bufLow, high := q.buf.length, hasExpr := decide (expr ≠ []), argLen := argLen }
  { q with chunks := headUpTo pos q.chunks ++ c :: tailAbove pos q.chunks }

/-- stmt.go:1058-1156 `addChunk`; returns the statement and the index of the chunk. -/
def Stmt.addChunk (q : Stmt α) (pos : Nat) (clause expr : Bytes) (args : List α) (sep : Bytes) : Stmt α × Nat :=
  let q := { q with pos := pos }
  let bufLow := q.buf.length
  let pre := headUpTo pos q.chunks
  let tail := argTail pos q.chunks
  -- lines 1149-1155
  let fin (q : Stmt α) : Stmt α :=
    ({ q with args := if args.length > 0 then insertAt q.args args (q.args.length - tail) else q.args }).invalidate
  match pre.getLast? with
  | none => (fin (q.newChunk pos bufLow (decide (clause ≠ [])) clause expr args.length), 0)
  | some c =>
    if c.pos = pos then
      if expr = [] then
        -- lines 1079-1085: no Invalidate
        ({ q with args := if args.length > 0 then goCopy q.args (q.args.length - tail - c.argLen) args else q.args },
          pre.length - 1)
      else
        let q := q.write (if c.hasExpr then sep else b!" ")
        if c.high = bufLow then
          -- lines 1092-1099: extend the chunk in place
          let q := q.write expr
          let c' : Chunk := { c with argLen := c.argLen + args.length, high := q.buf.length, hasExpr := true }
          (fin { q with chunks := pre.dropLast ++ c' :: tailAbove pos q.chunks }, pre.length - 1)
        else
          (fin (q.newChunk pos bufLow false clause expr args.length), pre.length)
    else
      (fin (q.newChunk pos bufLow (decide (clause ≠ [])) clause expr args.length), pre.length)

/-- `addChunk` when the index is ignored. -/
def Stmt.add (q : Stmt α) (pos : Nat) (clause expr : Bytes) (args : List α) (sep : Bytes) : Stmt α :=
  (q.addChunk pos clause expr args sep).1

/-! ### Builder methods -/

/-- dialect.go:133-137 `New` (on the statement from the pool). -/
def Stmt.verb (q : Stmt α) (v : Bytes) (args : List α) : Stmt α := q.add posSelect v [] args b!", "

/-- stmt.go:552-555. -/
def Stmt.select (q : Stmt α) (expr : Bytes) (args : List α) : Stmt α := q.add posSelect b!"SELECT" expr args b!", "
/-- stmt.go:558-561. -/
def Stmt.returning (q : Stmt α) (expr : Bytes) : Stmt α := q.add posReturning b!"RETURNING" expr [] b!", "
/-- stmt.go:585-594. -/
def Stmt.to (q : Stmt α) (ds : List Nat) : Stmt α :=
  if ds.length > 0 then { q with dest := insertAt q.dest ds q.dest.length } else q
/-- stmt.go:605-608. -/
def Stmt.update (q : Stmt α) (t : Bytes) : Stmt α := q.add posUpdate b!"UPDATE" t [] b!", "
/-- stmt.go:619-626. -/
def Stmt.insertInto (q : Stmt α) (t : Bytes) : Stmt α :=
  let q := q.add posInsert b!"INSERT INTO" t [] b!", "
  let q := q.add (posInsertFields - 1) b!"(" [] [] []
  let q := q.add (posValues - 1) b!") VALUES (" [] [] []
  let q := q.add (posValues + 1) b!")" [] [] []
  { q with pos := posInsertFields }
/-- stmt.go:633-636. -/
def Stmt.deleteFrom (q : Stmt α) (t : Bytes) : Stmt α := q.add posDelete b!"DELETE FROM" t [] b!", "

/-- stmt.go:672-678: the first INSERT or UPDATE chunk decides what `Set` means. -/
def setMode (cs : List Chunk) : Nat :=
  match cs.find? fun c => c.pos = posInsert || c.pos = posUpdate with
  | some c => c.pos
  | none => 0

/-- stmt.go:671-688. -/
def Stmt.setExpr (q : Stmt α) (field expr : Bytes) (args : List α) : Stmt α :=
  let p := setMode q.chunks
  if p = posInsert then
    let q := q.add posInsertFields [] field [] b!", "
    q.add posValues [] expr args b!", "
  else if p = posUpdate then q.add posSet b!"SET" (field ++ b!"=" ++ expr) args b!", "
  else q
/-- stmt.go:661-663. -/
def Stmt.set (q : Stmt α) (field : Bytes) (v : α) : Stmt α := q.setExpr field b!"?" [v]

/-- stmt.go:691-694. -/
def Stmt.from_ (q : Stmt α) (expr : Bytes) (args : List α) : Stmt α := q.add posFrom b!"FROM" expr args b!", "
/-- stmt.go:704-707. -/
def Stmt.where_ (q : Stmt α) (expr : Bytes) (args : List α) : Stmt α := q.add posWhere b!"WHERE" expr args b!" AND "

/-- stmt.go:715-726: the text `IN (?,?,...)` for `n` arguments. -/
def inText (n : Nat) : Bytes :=
  b!"IN (" ++ (if n = 0 then [] else (List.replicate (n - 1) b!"?,").flatten ++ b!"?") ++ b!")"
/-- stmt.go:714-731. -/
def Stmt.in_ (q : Stmt α) (args : List α) : Stmt α := q.add posWhere [] (inText args.length) args b!" "

/-- stmt.go:736-763: which join. -/
inductive JoinKind where
  | inner | left | right | full
  deriving DecidableEq, Repr
/-- stmt.go:737, 745, 753, 761. -/
def JoinKind.text : JoinKind → Bytes
  | .inner => b!"JOIN "
  | .left => b!"LEFT JOIN "
  | .right => b!"RIGHT JOIN "
  | .full => b!"FULL JOIN "
/-- stmt.go:1042-1049. -/
def joinText (k : JoinKind) (table on : Bytes) : Bytes := k.text ++ table ++ b!" ON (" ++ on ++ b!")"
/-- stmt.go:736-763, 1041-1055. -/
def Stmt.join (q : Stmt α) (k : JoinKind) (table on : Bytes) : Stmt α := q.add posFrom [] (joinText k table on) [] b!" "

/-- Go `strings.Join(parts, sep)` (standard library). -/
def joinBytes (sep : Bytes) : List Bytes → Bytes
  | [] => []
  | [p] => p
  | p :: ps => p ++ sep ++ joinBytes sep ps

/-- stmt.go:766-769. -/
def Stmt.orderBy (q : Stmt α) (es : List Bytes) : Stmt α := q.add posOrderBy b!"ORDER BY" (joinBytes b!", " es) [] b!", "
/-- stmt.go:772-775. -/
def Stmt.groupBy (q : Stmt α) (expr : Bytes) : Stmt α := q.add posGroupBy b!"GROUP BY" expr [] b!", "
/-- stmt.go:778-781. -/
def Stmt.having (q : Stmt α) (expr : Bytes) (args : List α) : Stmt α := q.add posHaving b!"HAVING" expr args b!" AND "
/-- stmt.go:784-787. -/
def Stmt.limit (q : Stmt α) (x : α) : Stmt α := q.add posLimit b!"LIMIT ?" [] [x] []
/-- stmt.go:790-793. -/
def Stmt.offset (q : Stmt α) (x : α) : Stmt α := q.add posOffset b!"OFFSET ?" [] [x] []

/-- Go `int` multiplication wraps at 64 bits. -/
def wrap64 (i : Int) : Int := i.bmod (2 ^ 64)

/-- stmt.go:796-808. `ofInt` turns a Go `int` into an argument. -/
def Stmt.paginate (ofInt : Int → α) (q : Stmt α) (page size : Int) : Stmt α :=
  let page := if page < 1 then 1 else page
  let size := if size < 1 then 1 else size
  let q := if page > 1 then q.offset (ofInt (wrap64 ((page - 1) * size))) else q
  q.limit (ofInt size)

/-- stmt.go:823-826. -/
def Stmt.expr (q : Stmt α) (e : Bytes) (args : List α) : Stmt α := q.add q.pos [] e args b!", "

/-- stmt.go:901-904: position of the next `Clause`. -/
def clausePos (cs : List Chunk) : Nat := match cs.getLast? with
  | some c => c.pos + 10
  | none => posStart

/-- stmt.go:900-907. -/
def Stmt.clause (q : Stmt α) (e : Bytes) (args : List α) : Stmt α := q.add (clausePos q.chunks) e [] args b!", "

/-- Overwrite `chunks[i].bufHigh` (stmt.go:849, 885). -/
def setHigh (cs : List Chunk) (i high : Nat) : List Chunk := cs.modify i fun c => { c with high := high }

/-- stmt.go:834-854 `SubQuery`, given the inner statement's `String()` (under NoDialect) and
arguments; evaluating and closing the inner statement is in World.lean. -/
def Stmt.subQuery (q : Stmt α) (pre suf : Bytes) (subSql : Bytes) (subArgs : List α) : Stmt α :=
  let delim := if q.pos = posWhere then b!" AND " else b!", "
  let r := q.addChunk q.pos [] pre subArgs delim
  let q := (r.1.write subSql).write suf
  { q with chunks := setHigh q.chunks r.2 q.buf.length }

/-- stmt.go:813-816 `With`. -/
def Stmt.with_ (q : Stmt α) (name : Bytes) (subSql : Bytes) (subArgs : List α) : Stmt α :=
  let q := q.add posWith b!"WITH" [] [] []
  q.subQuery (name ++ b!" AS (") b!")" subSql subArgs

/-- stmt.go:865-871: position of the next `Union`. -/
def unionPos (cs : List Chunk) : Nat := match cs.getLast? with
  | some c => if c.pos ≥ posUnion then c.pos + 1 else posUnion
  | none => posUnion

/-- stmt.go:863-890 `Union`. -/
def Stmt.union (q : Stmt α) (all : Bool) (subSql : Bytes) (subArgs : List α) : Stmt α :=
  let r := q.addChunk (unionPos q.chunks) (if all then b!"UNION ALL " else b!"UNION ") [] subArgs []
  let q := r.1.write subSql
  { q with chunks := setHigh q.chunks r.2 q.buf.length }

/-- stmt.go:506-510 `newRow`, without the statement pointer. -/
structure RowH where
  first : Bool
  notEmpty : Bool
  deriving DecidableEq, Repr

/-- stmt.go:1175-1189: is there no VALUES yet?  The backward loop of lines 1178-1189 stops at the first chunk with
position at most `posValues`. -/
def rowFirst (cs : List Chunk) : Bool := match (headUpTo posValues cs).getLast? with
  | some c => decide (c.pos ≠ posValues)
  | none => true

/-- stmt.go:1174-1197 `NewRow`. -/
def Stmt.newRow (q : Stmt α) : Stmt α × RowH :=
  let first := rowFirst q.chunks
  let q := if first then q else q.add posValues [] b!" " [] b!" ), ("
  (q, { first := first, notEmpty := false })

/-- stmt.go:1228-1247 `newRow.SetExpr`. -/
def Stmt.rowSetExpr (q : Stmt α) (r : RowH) (field expr : Bytes) (args : List α) : Stmt α × RowH :=
  let q := if r.first then
      let q := q.add posInsertFields [] field [] b!", "
      q.add posValues [] expr args b!", "
    else q.add posValues [] expr args (if r.notEmpty then b!", " else [])
  (q, { r with notEmpty := true })
/-- stmt.go:1218-1220. -/
def Stmt.rowSet (q : Stmt α) (r : RowH) (field : Bytes) (v : α) : Stmt α × RowH := q.rowSetExpr r field b!"?" [v]

/-- A struct field as `Bind` sees it: an embedded struct or a field with its `db` tag and address. -/
inductive Field where
  | embedded (fs : List Field)
  | plain (tag : Bytes) (addr : Nat)

/-- stmt.go:1032-1033: `strings.Split(tag, ",")[0]`. -/
def tagName (tag : Bytes) : Bytes := tag.takeWhile (· ≠ 44)

mutual
/-- stmt.go:1020-1038 `Bind`: one field. -/
def Stmt.bindField (q : Stmt α) : Field → Stmt α
  | .embedded fs => Stmt.bind q fs
  | .plain tag addr => if tag ≠ [] then (q.select (tagName tag) []).to [addr] else q
/-- stmt.go:1020-1038 `Bind`. -/
def Stmt.bind (q : Stmt α) : List Field → Stmt α
  | [] => q
  | f :: fs => Stmt.bind (Stmt.bindField q f) fs
end

/-! ### Rendering -/

/-- dialect.go:184-221 `writePg`, the loop with its indices: `i` is the loop variable `pos`, `start`
the first byte not yet copied, `out` the output so far.  `fuel` counts the remaining iterations. -/
def writePgLoop (s : Bytes) : (fuel i start argNo : Nat) → (out : Bytes) → Nat × Bytes
  | 0, _, start, argNo, out => (argNo, if start < s.length then out ++ slice s start s.length else out)
  | fuel + 1, i, start, argNo, out =>
    if start > i then writePgLoop s fuel (i + 1) start argNo out
    else match s[i]? with
      | some 92 => -- '\\'
        if i < s.length - 1 ∧ s[i + 1]? = some 63 then
          writePgLoop s fuel (i + 1) (i + 2) argNo (out ++ slice s start i ++ b!"?")
        else writePgLoop s fuel (i + 1) start argNo out
      | some 63 => -- '?'
        writePgLoop s fuel (i + 1) (i + 1) (argNo + 1) (out ++ slice s start i ++ b!"$" ++ Num.dec argNo)
      | _ => writePgLoop s fuel (i + 1) start argNo out

/-- dialect.go:184-221 `writePg` (writes to a strings.Builder never fail). -/
def writePg (argNo : Nat) (s : Bytes) : Nat × Bytes := writePgLoop s s.length 0 0 argNo []

/-- stmt.go:920-936: the loop over chunks. `first` is `n == 0`, `prev` the previous position. -/
def renderLoop (pg : Bool) (buf : Bytes) : List Chunk → (first : Bool) → (prev argNo : Nat) → (out : Bytes) → Bytes
  | [], _, _, _, out => out
  | c :: cs, first, prev, argNo, out =>
    let out := if !first && decide (c.pos > prev) then out ++ b!" " else out
    let s := slice buf c.low c.high
    if c.argLen > 0 ∧ pg = true then
      let r := writePg argNo s
      renderLoop pg buf cs false c.pos r.1 (out ++ r.2)
    else renderLoop pg buf cs false c.pos argNo (out ++ s)

/-- The cut set `"\n\r\t "` of stmt.go:938. -/
def isCut (c : UInt8) : Bool := c == 10 || c == 13 || c == 9 || c == 32

/-- Go `strings.Trim(s, "\n\r\t ")` (standard library). -/
def trim (s : Bytes) : Bytes := ((s.dropWhile isCut).reverse.dropWhile isCut).reverse

/-- stmt.go:920-938: the text `String()` computes when nothing is cached. -/
def Stmt.render (q : Stmt α) : Bytes :=
  trim (renderLoop (decide (q.dialect = .postgres)) q.buf q.chunks true 0 1 [])

end Xsql
