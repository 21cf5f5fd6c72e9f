import Verif.Num
/-!
Model of `xdb.ID` (id.go).  An ID is a struct holding one pointer to a mutable cell, so the model
keeps a heap of cells, and an ID is an optional address.  Copying an ID copies the address.
-/
namespace Types

/-- What a database driver hands to `Scan` and what `Value` hands to a driver (`driver.Value`,
plus the extra Go types the `Scan` methods of this package test for).  `other` stands for every
dynamic type not named here (floats, times, structs). -/
inductive DV where
  | null
  | i64 (x : Int64)
  | u64 (x : UInt64)
  | int (x : Int64)
  | uint (x : UInt64)
  | i32 (x : Int32)
  | u32 (x : UInt32)
  | bool (b : Bool)
  | bytes (b : Bytes)
  | text (s : Bytes)
  | other (tag : Nat)
  deriving DecidableEq, Repr

/-- id.go:414-417, `idptr`. -/
structure Cell where
  id : UInt64
  str : Bytes
  deriving DecidableEq, Repr

/-- The cells allocated so far; the address of a cell is its index. -/
abbrev Heap := List Cell

/-- id.go:14-16, `ID`: a pointer, possibly nil. -/
abbrev ID := Option Nat

/-- Dereference. -/
def cellAt (h : Heap) (v : ID) : Option Cell :=
  match v with
  | none => none
  | some p => h[p]?

/-- `&idptr{…}`: a fresh cell. -/
def alloc (h : Heap) (c : Cell) : Heap × ID := (h ++ [c], some h.length)

/-- id.go:419-424 `idptr.val`, and id.go:118-120 `ID.UInt64`. -/
def val (h : Heap) (v : ID) : UInt64 :=
  match cellAt h v with
  | none => 0
  | some c => c.id

/-- id.go:103-115 `Invalid`, `IsZero`, `Valid`. -/
def invalid (h : Heap) (v : ID) : Bool := val h v == 0
def isZero (h : Heap) (v : ID) : Bool := val h v == 0
def valid (h : Heap) (v : ID) : Bool := val h v != 0

/-- types.go:130-132 `IDString`: `strconv.FormatUint(id, 10)`. -/
def idString (n : UInt64) : Bytes := Num.dec n.toNat

/-- types.go:121-127 `ParseUint`: `strconv.ParseUint(val, 10, 64)`. -/
def parseU64 (s : Bytes) : Option UInt64 :=
  match Num.parseUint 64 s with
  | some n => some (UInt64.ofNat n)
  | none => none

/-- id.go:19-25 `NewID`. -/
def newID (h : Heap) (n : UInt64) : Heap × ID := if n > 0 then alloc h ⟨n, []⟩ else (h, none)

/-- id.go:426-434 `idptr.String`, id.go:83-85 `ID.String`: caches the text in the cell. -/
def idStr (h : Heap) (v : ID) : Heap × Bytes :=
  match v with
  | none => (h, [])
  | some p =>
    match h[p]? with
    | none => (h, [])
    | some c =>
      if c.id != 0 && c.str.isEmpty then (h.set p { c with str := idString c.id }, idString c.id)
      else (h, c.str)

/-- id.go:437-442, 98-100 `QuotedString`. -/
def quotedString (h : Heap) (v : ID) : Heap × Bytes :=
  match v with
  | none => (h, [])
  | some _ => ((idStr h v).1, b!"\"" ++ (idStr h v).2 ++ b!"\"")

/-- id.go:89-95 `UnderscoreString`. -/
def underscoreString (h : Heap) (v : ID) : Heap × Bytes :=
  if (idStr h v).2.isEmpty then ((idStr h v).1, []) else ((idStr h v).1, b!"_" ++ (idStr h v).2)

/-- id.go:123-130 `Reset`: overwrites the cell in place. -/
def reset (h : Heap) (v : ID) : Heap × ID :=
  match v with
  | none => alloc h ⟨0, []⟩
  | some p => (h.set p ⟨0, []⟩, some p)

/-- id.go:133-149 `Set`: the Boolean is `err == nil`. -/
def set (h : Heap) (v : ID) (s : Bytes) : Heap × ID × Bool :=
  if s = b!"" ∨ s = b!"0" then (h, v, false)
  else
    match parseU64 s with
    | none => (h, v, false)
    | some n =>
      if n = 0 then (h, v, false)
      else
        match v with
        | none => ((alloc h ⟨n, []⟩).1, (alloc h ⟨n, []⟩).2, true)
        | some p => (h.set p ⟨n, []⟩, some p, true)

/-- id.go:37-40 `ParseID` as the gc compiler orders it: the call to `Set` first, then the read of
the local variable.  The Boolean is `err == nil`. -/
def parseID (h : Heap) (s : Bytes) : Heap × ID × Bool := set h none s

/-- id.go:37-40 `ParseID` under the other evaluation order the Go specification allows for
`return id, id.Set(val)`: the local variable (still nil) is read before the call. -/
def parseIDReadFirst (h : Heap) (s : Bytes) : Heap × ID × Bool := ((set h none s).1, none, (set h none s).2.2)

/-- id.go:28-34 `MustID`; `none` is a panic. -/
def mustID (h : Heap) (s : Bytes) : Option (Heap × ID) :=
  if (set h none s).2.2 then some ((set h none s).1, (set h none s).2.1) else none

/-- id.go:43-47 `TryParseID`. -/
def tryParseID (h : Heap) (s : Bytes) : Heap × ID := ((set h none s).1, (set h none s).2.1)

/-- `strings.Trim(s, "\"")` (standard library): removes all leading and trailing quotes. -/
def trimQuotes (s : Bytes) : Bytes :=
  ((s.dropWhile (· == 34)).reverse.dropWhile (· == 34)).reverse

/-- id.go:50-52 `MarshalJSON`. -/
def marshalJSON (h : Heap) (v : ID) : Bytes := Num.dec (val h v).toNat

/-- id.go:55-68 `UnmarshalJSON`: the destination gets a new pointer; the text is kept as given. -/
def unmarshalJSON (h : Heap) (v : ID) (data : Bytes) : Heap × ID × Bool :=
  if trimQuotes data = b!"" ∨ trimQuotes data = b!"0" then ((newID h 0).1, (newID h 0).2, true)
  else
    match parseU64 (trimQuotes data) with
    | none => (h, v, false)
    | some n => ((alloc h ⟨n, trimQuotes data⟩).1, (alloc h ⟨n, trimQuotes data⟩).2, true)

/-- id.go:70-72 `MarshalYAML`. -/
def marshalYAML (h : Heap) (v : ID) : UInt64 := val h v

/-- id.go:74-81 `UnmarshalYAML`; `r` is the outcome of the decoder's callback (`none`: error). -/
def unmarshalYAML (h : Heap) (v : ID) (r : Option UInt64) : Heap × ID × Bool :=
  match r with
  | none => (h, v, false)
  | some n => ((newID h n).1, (newID h n).2, true)

/-- id.go:152-174 `Scan`. -/
def scan (h : Heap) (v : ID) (d : DV) : Heap × ID × Bool :=
  match d with
  | .null => (h, v, true)
  | .u64 n => ((newID h n).1, (newID h n).2, true)
  | .i64 n => ((newID h n.toUInt64).1, (newID h n.toUInt64).2, true)
  | .int n => ((newID h n.toUInt64).1, (newID h n.toUInt64).2, true)
  | .uint n => ((newID h n).1, (newID h n).2, true)
  | _ => (h, v, false)

/-- id.go:177-186 `Value`. -/
def value (h : Heap) (v : ID) : DV := if val h v = 0 then .null else .i64 (val h v).toInt64

/-! ### Programs that use several ID variables -/

/-- Variables are numbered; the initial ones are zero IDs (nil pointers). -/
structure World where
  heap : Heap
  vars : Nat → ID

/-- One statement of a client. -/
inductive Op where
  | new (x : Nat) (n : UInt64)            -- `x = NewID(n)`
  | parse (x : Nat) (s : Bytes)           -- `x, err = ParseID(s)`
  | copy (x y : Nat)                      -- `x = y`
  | set (x : Nat) (s : Bytes)             -- `x.Set(s)`
  | reset (x : Nat)                       -- `x.Reset()`
  | scan (x : Nat) (d : DV)               -- `x.Scan(d)`
  | json (x : Nat) (data : Bytes)         -- `x.UnmarshalJSON(data)`
  | yaml (x : Nat) (r : Option UInt64)    -- `x.UnmarshalYAML(…)`
  | str (x : Nat)                         -- `x.String()`
  deriving DecidableEq, Repr

/-- Assignment to a variable. -/
def World.put (w : World) (x : Nat) (r : Heap × ID) : World :=
  { heap := r.1, vars := fun z => if z = x then r.2 else w.vars z }

def step (w : World) : Op → World
  | .new x n => w.put x (newID w.heap n)
  | .parse x s => w.put x ((parseID w.heap s).1, (parseID w.heap s).2.1)
  | .copy x y => w.put x (w.heap, w.vars y)
  | .set x s => w.put x ((set w.heap (w.vars x) s).1, (set w.heap (w.vars x) s).2.1)
  | .reset x => w.put x (reset w.heap (w.vars x))
  | .scan x d => w.put x ((scan w.heap (w.vars x) d).1, (scan w.heap (w.vars x) d).2.1)
  | .json x d => w.put x ((unmarshalJSON w.heap (w.vars x) d).1, (unmarshalJSON w.heap (w.vars x) d).2.1)
  | .yaml x r => w.put x ((unmarshalYAML w.heap (w.vars x) r).1, (unmarshalYAML w.heap (w.vars x) r).2.1)
  | .str x => { w with heap := (idStr w.heap (w.vars x)).1 }

def World.init : World := ⟨[], fun _ => none⟩

/-- Run a program. -/
def run (ops : List Op) : World := ops.foldl step World.init

/-- What `x.UInt64()` and `x.String()` show. -/
def World.num (w : World) (x : Nat) : UInt64 := val w.heap (w.vars x)
def World.text (w : World) (x : Nat) : Bytes := (idStr w.heap (w.vars x)).2

end Types
