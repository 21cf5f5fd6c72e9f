import Verif.Xsql.Model
/-
What a statement built with the xsql builder is supposed to be, independently of chunks, buffers
and offsets: a list of clauses in canonical order, each clause a list of tokens, every placeholder
token carrying the argument that was supplied for it by the call that wrote it.
-/
namespace Xsql

/-- A piece of SQL text: an ordinary byte, an escaped question mark `\?`, or a placeholder together
with the argument it stands for. -/
inductive Tok (α : Type) where
  | lit (b : UInt8)
  | esc
  | ph (a : α)
  deriving DecidableEq, Repr

variable {α : Type}

/-- The text as written by the user: placeholders are `?`. -/
def Tok.raw : Tok α → Bytes
  | .lit b => [b]
  | .esc => [92, 63]
  | .ph _ => [63]

/-- Text of a token list. -/
def raw (ts : List (Tok α)) : Bytes := ts.flatMap Tok.raw

/-- The arguments of a token list, in text order. -/
def vals (ts : List (Tok α)) : List α := ts.filterMap fun | .ph a => some a | _ => none

/-- The text for Postgres: the placeholders become `$n`, `$n+1`, ... in text order, escaped question
marks lose their backslash. -/
def numbered : Nat → List (Tok α) → Bytes
  | _, [] => []
  | n, .lit b :: ts => b :: numbered n ts
  | n, .esc :: ts => 63 :: numbered n ts
  | n, .ph _ :: ts => b!"$" ++ Num.dec n ++ numbered (n + 1) ts

/-- Lexing of user text: `?` is a placeholder, `\?` an escaped question mark, the rest are bytes. -/
def tokenize : Bytes → List (Tok Unit)
  | [] => []
  | [b] => if b = 63 then [.ph ()] else [.lit b]
  | b :: c :: s =>
    if b = 63 then .ph () :: tokenize (c :: s)
    else if b = 92 ∧ c = 63 then .esc :: tokenize s
    else .lit b :: tokenize (c :: s)

/-- Hand out arguments to placeholders from left to right; `none` unless the numbers agree. -/
def assign : List (Tok Unit) → List α → Option (List (Tok α))
  | [], [] => some []
  | [], _ :: _ => none
  | .lit b :: ts, as => (assign ts as).map (.lit b :: ·)
  | .esc :: ts, as => (assign ts as).map (.esc :: ·)
  | .ph _ :: _, [] => none
  | .ph _ :: ts, a :: as => (assign ts as).map (.ph a :: ·)

/-- A fragment of text with its arguments; `none` if the numbers of placeholders and arguments
differ. -/
def bindArgs (s : Bytes) (as : List α) : Option (List (Tok α)) := assign (tokenize s) as

/-- `lits s`: a text without placeholders, byte by byte. -/
def lits (s : Bytes) : List (Tok α) := s.map .lit

/-- The tokens of a fragment; only meaningful for balanced fragments (see `FragOK`). -/
def bound (s : Bytes) (as : List α) : List (Tok α) := (bindArgs s as).getD []

/-- A clause: its place in the canonical order, its tokens, and whether it already has an
expression after the keyword. -/
structure Clause (α : Type) where
  pos : Nat
  toks : List (Tok α)
  hasExpr : Bool
  deriving DecidableEq, Repr

/-- Contribution of one builder call to one clause. -/
structure Frag (α : Type) where
  pos : Nat
  kw : Bytes
  expr : Bytes
  args : List α
  sep : Bytes
  deriving DecidableEq, Repr

/-- Tokens of a clause that is started by the fragment. -/
def Frag.start (nl : Bool) (f : Frag α) : List (Tok α) :=
  bound ((if f.kw = [] then [] else (if nl then b!"\n" else []) ++ f.kw ++ (if f.expr = [] then [] else b!" ")) ++ f.expr) f.args

/-- A fragment added to a clause that is already there: with an expression, it is appended after the
separator; without one, only the arguments of the clause are replaced (`LIMIT ?`). -/
def Clause.extend (c : Clause α) (f : Frag α) : Clause α :=
  if f.expr = [] then
    if f.args = [] then c else { c with toks := bound (raw c.toks) f.args }
  else { pos := c.pos, toks := c.toks ++ lits (if c.hasExpr then f.sep else b!" ") ++ bound f.expr f.args, hasExpr := true }

/-- Add a fragment to a document (a list of clauses in ascending position order). -/
def addFrag (nl : Bool) (d : List (Clause α)) (f : Frag α) : List (Clause α) :=
  d.filter (fun c => c.pos < f.pos) ++
  (match d.find? (fun c => c.pos = f.pos) with
    | some c => c.extend f
    | none => { pos := f.pos, toks := f.start nl, hasExpr := decide (f.expr ≠ []) }) ::
  d.filter (fun c => f.pos < c.pos)

/-- The whole document as tokens: the clauses, separated by one space. -/
def docToks : List (Clause α) → List (Tok α)
  | [] => []
  | [c] => c.toks
  | c :: cs => c.toks ++ .lit 32 :: docToks cs

/-- The bytes removed at both ends of the text: line feed, carriage return, tab and space. -/
def blanks : Bytes := [10, 13, 9, 32]

/-- White space. -/
def Tok.cut : Tok α → Bool
  | .lit b => blanks.contains b
  | _ => false

/-- Remove white space at both ends. -/
def trimToks (ts : List (Tok α)) : List (Tok α) := ((ts.dropWhile Tok.cut).reverse.dropWhile Tok.cut).reverse

/-! ### The builder calls and their meaning on documents -/

/-- The methods of the builder interface (stmt.go:11-444) that change a statement. -/
inductive Call (α : Type) where
  | verb (v : Bytes) (args : List α)
  | select (e : Bytes) (args : List α)
  | returning (e : Bytes)
  | toDest (ds : List Nat)
  | update (t : Bytes)
  | insertInto (t : Bytes)
  | deleteFrom (t : Bytes)
  | setExpr (field e : Bytes) (args : List α)
  | from_ (e : Bytes) (args : List α)
  | where_ (e : Bytes) (args : List α)
  | in_ (args : List α)
  | join (k : JoinKind) (table on : Bytes)
  | orderBy (es : List Bytes)
  | groupBy (e : Bytes)
  | having (e : Bytes) (args : List α)
  | limit (x : α)
  | offset (x : α)
  | expr (e : Bytes) (args : List α)
  | clause (e : Bytes) (args : List α)
  | subQuery (pre suf sql : Bytes) (args : List α)
  | with_ (name sql : Bytes) (args : List α)
  | union (all : Bool) (sql : Bytes) (args : List α)
  | newRow
  | rowSetExpr (r : RowH) (field e : Bytes) (args : List α)

/-- A call on the model of the implementation. -/
def Stmt.call (q : Stmt α) : Call α → Stmt α
  | .verb v as => q.verb v as
  | .select e as => q.select e as
  | .returning e => q.returning e
  | .toDest ds => q.to ds
  | .update t => q.update t
  | .insertInto t => q.insertInto t
  | .deleteFrom t => q.deleteFrom t
  | .setExpr f e as => q.setExpr f e as
  | .from_ e as => q.from_ e as
  | .where_ e as => q.where_ e as
  | .in_ as => q.in_ as
  | .join k t o => q.join k t o
  | .orderBy es => q.orderBy es
  | .groupBy e => q.groupBy e
  | .having e as => q.having e as
  | .limit x => q.limit x
  | .offset x => q.offset x
  | .expr e as => q.expr e as
  | .clause e as => q.clause e as
  | .subQuery pre suf s as => q.subQuery pre suf s as
  | .with_ n s as => q.with_ n s as
  | .union all s as => q.union all s as
  | .newRow => q.newRow.1
  | .rowSetExpr r f e as => (q.rowSetExpr r f e as).1

/-- Specification state: the document, the clause `Expr` and `SubQuery` apply to, the line mode. -/
structure SpecState (α : Type) where
  doc : List (Clause α) := []
  cur : Nat := 0
  nl : Bool := true
  dest : List Nat := []

/-- Is there a clause at this position? -/
def SpecState.has (s : SpecState α) (p : Nat) : Bool := s.doc.any fun c => c.pos = p

/-- Position of the last clause, if any. -/
def SpecState.lastPos (s : SpecState α) : Option Nat := s.doc.getLast?.map Clause.pos

/-- The position of the next `Clause` call. -/
def SpecState.clausePos (s : SpecState α) : Nat := match s.lastPos with | some p => p + 10 | none => posStart

/-- The position of the next `Union` call. -/
def SpecState.unionPos (s : SpecState α) : Nat :=
  match s.lastPos with | some p => if posUnion ≤ p then p + 1 else posUnion | none => posUnion

/-- The keyword of a join. -/
def joinWord : JoinKind → Bytes
  | .inner => b!"JOIN"
  | .left => b!"LEFT JOIN"
  | .right => b!"RIGHT JOIN"
  | .full => b!"FULL JOIN"

/-- `IN (?,?,...,?)` with `n` placeholders. -/
def inList (n : Nat) : Bytes := b!"IN (" ++ joinBytes b!"," (List.replicate n b!"?") ++ b!")"

/-- The fragments a call contributes, as a function of what is already in the document. -/
def SpecState.frags (s : SpecState α) : Call α → List (Frag α)
  | .verb v as => [⟨posSelect, v, [], as, b!", "⟩]
  | .select e as => [⟨posSelect, b!"SELECT", e, as, b!", "⟩]
  | .returning e => [⟨posReturning, b!"RETURNING", e, [], b!", "⟩]
  | .toDest _ => []
  | .update t => [⟨posUpdate, b!"UPDATE", t, [], b!", "⟩]
  | .insertInto t => [⟨posInsert, b!"INSERT INTO", t, [], b!", "⟩, ⟨399, b!"(", [], [], []⟩,
      ⟨499, b!") VALUES (", [], [], []⟩, ⟨501, b!")", [], [], []⟩]
  | .deleteFrom t => [⟨posDelete, b!"DELETE FROM", t, [], b!", "⟩]
  | .setExpr f e as =>
    if s.has posInsert then [⟨posInsertFields, [], f, [], b!", "⟩, ⟨posValues, [], e, as, b!", "⟩]
    else if s.has posUpdate then [⟨posSet, b!"SET", f ++ b!"=" ++ e, as, b!", "⟩]
    else []
  | .from_ e as => [⟨posFrom, b!"FROM", e, as, b!", "⟩]
  | .where_ e as => [⟨posWhere, b!"WHERE", e, as, b!" AND "⟩]
  | .in_ as => [⟨posWhere, [], inList as.length, as, b!" "⟩]
  | .join k t o => [⟨posFrom, [], joinWord k ++ b!" " ++ t ++ b!" ON (" ++ o ++ b!")", [], b!" "⟩]
  | .orderBy es => [⟨posOrderBy, b!"ORDER BY", joinBytes b!", " es, [], b!", "⟩]
  | .groupBy e => [⟨posGroupBy, b!"GROUP BY", e, [], b!", "⟩]
  | .having e as => [⟨posHaving, b!"HAVING", e, as, b!" AND "⟩]
  | .limit x => [⟨posLimit, b!"LIMIT ?", [], [x], []⟩]
  | .offset x => [⟨posOffset, b!"OFFSET ?", [], [x], []⟩]
  | .expr e as => [⟨s.cur, [], e, as, b!", "⟩]
  | .clause e as => [⟨s.clausePos, e, [], as, b!", "⟩]
  | .subQuery pre suf q as =>
    [⟨s.cur, [], pre ++ q ++ suf, as, if s.cur = posWhere then b!" AND " else b!", "⟩]
  | .with_ n q as => [⟨posWith, b!"WITH", [], [], []⟩, ⟨posWith, [], n ++ b!" AS (" ++ q ++ b!")", as, b!", "⟩]
  | .union all q as =>
    [⟨s.unionPos, (if all then b!"UNION ALL " else b!"UNION ") ++ q, [], as, []⟩]
  | .newRow => if s.has posValues then [⟨posValues, [], b!" ", [], b!" ), ("⟩] else []
  | .rowSetExpr r f e as =>
    if r.first then [⟨posInsertFields, [], f, [], b!", "⟩, ⟨posValues, [], e, as, b!", "⟩]
    else [⟨posValues, [], e, as, if r.notEmpty then b!", " else []⟩]

/-- One call on the specification. -/
def SpecState.call (s : SpecState α) (c : Call α) : SpecState α :=
  { s with
    doc := (s.frags c).foldl (addFrag s.nl) s.doc
    cur := match c with
      | .insertInto _ => posInsertFields
      | _ => ((s.frags c).getLast?.map Frag.pos).getD s.cur
    dest := match c with
      | .toDest ds => s.dest ++ ds
      | _ => s.dest }

/-! ### The calls the specification is claimed for -/

/-- A fragment is usable if its placeholders match its arguments, it does not end in a backslash
(which would swallow what the builder appends), and it uses the escape `\?` only together with
arguments (otherwise the escape is removed or not depending on its neighbours). -/
def FragOK (s : Bytes) (as : List α) : Prop :=
  (bindArgs s as).isSome ∧ s.getLast? ≠ some 92 ∧ (as = [] → Tok.esc ∉ tokenize s)

/-- `LIMIT` and `OFFSET` hold one replaceable argument; nothing may be appended to them. -/
def single (p : Nat) : Prop := p = posLimit ∨ p = posOffset

instance (p : Nat) : Decidable (single p) := by unfold single; infer_instance

/-- Which calls are claimed: every text comes with matching arguments; `New` starts a statement;
`Expr`, `SubQuery`, `Clause` and `Union` are not applied to a `LIMIT` or `OFFSET` clause, and the
prefix of `SubQuery` is not empty. -/
def CallOK (s : SpecState α) : Call α → Prop
  | .verb v as => FragOK v as ∧ s.has posSelect = false
  | .select e as | .from_ e as | .where_ e as | .having e as => FragOK e as
  | .returning e | .groupBy e => FragOK (α := α) e []
  | .update t | .insertInto t | .deleteFrom t => FragOK (α := α) t []
  | .setExpr f e as | .rowSetExpr _ f e as => FragOK (α := α) f [] ∧ FragOK e as
  | .join _ t o => FragOK (α := α) t [] ∧ FragOK (α := α) o []
  | .orderBy es => ∀ e ∈ es, FragOK (α := α) e []
  | .toDest _ | .in_ _ | .limit _ | .offset _ | .newRow => True
  | .expr e as => FragOK e as ∧ ¬ single s.cur
  | .clause e as => FragOK e as ∧ ¬ single s.clausePos
  | .subQuery pre suf q as => pre ≠ [] ∧ FragOK (pre ++ q ++ suf) as ∧ ¬ single s.cur
  | .with_ n q as => FragOK (n ++ b!" AS (" ++ q ++ b!")") as
  | .union _ q as => FragOK q as ∧ ¬ single s.unionPos

/-- All calls of a sequence are claimed, each in the state it is made in. -/
def CallsOK : SpecState α → List (Call α) → Prop
  | _, [] => True
  | s, c :: cs => CallOK s c ∧ CallsOK (s.call c) cs

/-- A new statement of a dialect: nothing in it; `cur` is whatever the recycled object remembered. -/
def SpecState.fresh (nl : Bool) (cur : Nat) : SpecState α := { doc := [], cur := cur, nl := nl, dest := [] }

/-- A statement just obtained from a dialect (pool.go:19-27): empty, except that the field `pos` of the
recycled object is not reset. -/
def newStmt (d : Dia) (nl : Bool) (stale : Nat) : Stmt α := { dialect := d, useNewLines := nl, pos := stale }

/-- The statement built by a sequence of calls. -/
def build (d : Dia) (nl : Bool) (stale : Nat) (cs : List (Call α)) : Stmt α := cs.foldl Stmt.call (newStmt d nl stale)

/-- The specified outcome of a sequence of calls. -/
def spec (nl : Bool) (stale : Nat) (cs : List (Call α)) : SpecState α := cs.foldl SpecState.call (SpecState.fresh nl stale)

/-- The clause positions of the named builder methods, in canonical SQL order: WITH, INSERT INTO,
`(`, columns, `) VALUES (`, values, `)`, DELETE FROM, UPDATE, SET, SELECT, FROM, WHERE, GROUP BY, HAVING,
ORDER BY, LIMIT, OFFSET, RETURNING. -/
def canonical : List Nat :=
  [200, 300, 399, 400, 499, 500, 501, 600, 700, 800, 900, 1100, 1200, 1300, 1400, 1600, 1700, 1800, 1900]

/-- The methods tied to a named clause, independent of what is already in the statement. -/
def Call.plain : Call α → Bool
  | .verb .. | .setExpr .. | .expr .. | .clause .. | .subQuery .. | .union .. | .newRow => false
  | _ => true

/-- What a plain call contributes. -/
def Call.parts (c : Call α) : List (Frag α) := SpecState.frags {} c

end Xsql
