import Verif.Num
import Verif.Util
/-
Model of params.go: the query parameter builder.
-/
namespace Query

/-- An argument of type `any`, as far as the code looks into it (params.go:253-264 `PageParam`): an `int`, a `uint32`, a
`sql.NamedArg`, `nil`, or anything else. -/
inductive Arg (V : Type) where
  | nil
  | int (i : Int)
  | u32 (n : UInt32)
  | named (name : Bytes) (v : Arg V)
  | other (v : V)
  deriving DecidableEq, Repr

variable {V : Type}

/-- params.go:253-264 `PageParam`; `none` is the panic.  `uint32(p)` keeps the low 32 bits of an int. -/
def pageParam : Arg V → Option UInt32
  | .int i => some (UInt32.ofNat (i % 2 ^ 32).toNat)
  | .u32 n => some n
  | .named _ v => pageParam v
  | _ => none

/-- query.go:13 `DefaultPageSize`. -/
def defaultPageSize : UInt32 := 500

/-- `values.NumbersCoalesce(a, b)`: the first non-zero (library). -/
def coalesce (a b : UInt32) : UInt32 := if a ≠ 0 then a else b

/-- params.go:63-66 `enumPosition`. -/
structure EnumPos where
  position : UInt32
  value : Int32
  deriving DecidableEq, Repr

/-- params.go:69-85 `QueryParamsBuilder`. -/
structure Builder (V : Type) where
  queryName : Bytes
  flags : List Int32 := []
  positions : BitVec 64 := 0
  enums : List EnumPos := []
  args : List (Arg V) := []
  hash : Bytes := []
  nullColumns : List Bytes := []
  limit : UInt32 := 0
  offset : UInt32 := 0
  cursor : Arg V := .nil
  deriving DecidableEq

/-- params.go:88-92 `NewQueryParams`. -/
def new (name : Bytes) : Builder V := { queryName := name }

/-- params.go:94-103 `Reset`: everything except the name and `nullColumns`. -/
def Builder.reset (b : Builder V) : Builder V :=
  { b with positions := 0, flags := [], enums := [], args := [], hash := [], limit := 0, offset := 0, cursor := .nil }

/-- params.go:215-217: `1 << pos` in 64 bits (0 from 64 on). -/
def bit (pos : UInt32) : BitVec 64 := 1#64 <<< pos.toNat

/-- params.go:163-171 `Set` (`none` is a panic), with `checkPage`, params.go:173-177. -/
def Builder.set (b : Builder V) (pos : UInt32) (v : Arg V) : Option (Builder V) :=
  if pos > 63 then none
  else if b.limit > 0 then none
  else some { b with positions := b.positions ||| bit pos, args := b.args ++ [v] }

/-- params.go:180-186 `SetPage`. -/
def Builder.setPage (b : Builder V) (limit offset : UInt32) : Option (Builder V) :=
  if b.limit > 0 then none
  else
    let l := coalesce limit defaultPageSize
    some { b with limit := l, offset := offset, args := b.args ++ [.u32 l, .u32 offset] }

/-- params.go:194-200 `SetCursor`. -/
def Builder.setCursor (b : Builder V) (limit pos : UInt32) (cursor : Arg V) : Option (Builder V) :=
  (b.set pos cursor).map fun b =>
    let l := coalesce limit defaultPageSize
    { b with cursor := cursor, limit := l, args := b.args ++ [.u32 l] }

/-- params.go:208-212 `AddArgs`. -/
def Builder.addArgs (b : Builder V) (vs : List (Arg V)) : Option (Builder V) :=
  if b.limit > 0 then none else some { b with args := b.args ++ vs }

/-- params.go:220-228 `SetEnum`. -/
def Builder.setEnum (b : Builder V) (pos : UInt32) (v : Int32) : Option (Builder V) :=
  if pos > 63 then none
  else if b.limit > 0 then none
  else some { b with positions := b.positions ||| bit pos, enums := b.enums ++ [⟨pos, v⟩] }

/-- params.go:242-245 `SetFlags`. -/
def Builder.setFlags (b : Builder V) (fs : List Int32) : Builder V := { b with flags := fs }

/-- params.go:147-150 `SetNullColums`. -/
def Builder.setNullColumns (b : Builder V) (cs : List Bytes) : Builder V := { b with nullColumns := cs }

/-- params.go:215-217 `IsSet`. -/
def Builder.isSet (b : Builder V) (pos : UInt32) : Bool := b.positions &&& bit pos != 0

/-- params.go:231-239 `GetEnum`. -/
def Builder.getEnum (b : Builder V) (pos : UInt32) : Option Int32 := (b.enums.find? fun e => e.position = pos).map EnumPos.value

/-- params.go:189-191 `Page`. -/
def Builder.page (b : Builder V) : UInt32 × UInt32 := (b.limit, b.offset)

/-- params.go:203-205 `Cursor`. -/
def Builder.getCursor (b : Builder V) : UInt32 × Arg V := (b.limit, b.cursor)

/-- Lexicographic comparison of byte strings (Go's `<` on strings). -/
def leBytes : Bytes → Bytes → Bool
  | [], _ => true
  | _ :: _, [] => false
  | a :: as, b :: bs => if a = b then leBytes as bs else a < b

/-- `sort.Strings`: a sorted list is determined by its elements (`Util.sort_unique`), so any sorting algorithm gives this one. -/
def sortStrings (cs : List Bytes) : List Bytes := Util.sort leBytes cs

/-- params.go:115-120: one enum in the name.  `uint64(e.value)` sign-extends the int32. -/
def enumText (e : EnumPos) : Bytes := b!"_" ++ Num.fmtNat 10 e.position.toNat ++ b!"x" ++ Num.fmtNat 16 (e.value.toInt % 2 ^ 64).toNat

/-- params.go:121-124: one flag in the name. -/
def flagText (f : Int32) : Bytes := b!"_fx" ++ Num.fmtInt 16 f.toInt

/-- params.go:131-139, for columns already sorted.  `H` is murmur3's 64-bit sum of the bytes written (library, an arbitrary function here). -/
def nullText (H : Bytes → UInt64) (sorted : List Bytes) : Bytes :=
  if sorted.length > 0 then b!"_n" ++ Num.fmtNat 16 (H sorted.flatten).toNat else []

/-- params.go:108-141: the text computed by `Name`. -/
def Builder.nameText [DecidableEq V] (H : Bytes → UInt64) (b : Builder V) : Bytes :=
  b.queryName ++ b!"_" ++ b!"x" ++ Num.fmtNat 16 b.positions.toNat ++ b.enums.flatMap enumText ++ b.flags.flatMap flagText
    ++ (if b.cursor ≠ .nil then b!"_c" else if b.offset > 0 then b!"_o" else []) ++ nullText H (sortStrings b.nullColumns)

/-- params.go:106-144 `Name`: computed once, then remembered; computing sorts `nullColumns` in place. -/
def Builder.name [DecidableEq V] (H : Bytes → UInt64) (b : Builder V) : Builder V × Bytes :=
  if b.hash = [] then
    let n := b.nameText H
    let cs := if b.nullColumns.length > 0 then sortStrings b.nullColumns else b.nullColumns
    ({ b with hash := n, nullColumns := cs }, n)
  else (b, b.hash)

/-- The methods that change a builder. -/
inductive POp (V : Type) where
  | reset
  | set (pos : UInt32) (v : Arg V)
  | setEnum (pos : UInt32) (v : Int32)
  | setFlags (fs : List Int32)
  | setNullColumns (cs : List Bytes)
  | setPage (limit offset : UInt32)
  | setCursor (limit pos : UInt32) (cursor : Arg V)
  | addArgs (vs : List (Arg V))
  | name

/-- One method call; `none` is a panic. -/
def Builder.step [DecidableEq V] (H : Bytes → UInt64) (b : Builder V) : POp V → Option (Builder V)
  | .reset => some b.reset
  | .set pos v => b.set pos v
  | .setEnum pos v => b.setEnum pos v
  | .setFlags fs => some (b.setFlags fs)
  | .setNullColumns cs => some (b.setNullColumns cs)
  | .setPage l o => b.setPage l o
  | .setCursor l pos c => b.setCursor l pos c
  | .addArgs vs => b.addArgs vs
  | .name => some (b.name H).1

/-- A history of method calls. -/
def Builder.run [DecidableEq V] (H : Bytes → UInt64) (b : Builder V) (ops : List (POp V)) : Option (Builder V) :=
  ops.foldlM (fun b o => b.step H o) b

end Query
