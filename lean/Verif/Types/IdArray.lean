import Verif.Types.Id
import Verif.Util
/-!
Model of `xdb.IDArray` (id.go:189-347).

An element is represented by its number: every operation below reads its elements through `UInt64()` (or through
`String()`, whose relation to the number is C12), and the sharing of ID cells is the subject of C13.
A Go slice is a window on a backing array, so the model has a memory of backing arrays: this is what makes the
in-place effects of `append` and `sort.Slice` visible.
-/
namespace Types

/-- The backing arrays allocated so far; the length of an array is its capacity. -/
abbrev Mem := List (List UInt64)

/-- A slice starting at the beginning of its backing array (`arr = none`: the nil slice).
All slices made by the functions below have this shape; slicing expressions are not modelled. -/
structure Slice where
  arr : Option Nat
  len : Nat
  deriving DecidableEq, Repr

def nilSlice : Slice := ⟨none, 0⟩

def arrayOf (m : Mem) (s : Slice) : List UInt64 :=
  match s.arr with
  | none => []
  | some a => m[a]?.getD []

/-- The elements a slice shows. -/
def read (m : Mem) (s : Slice) : List UInt64 := (arrayOf m s).take s.len

/-- A slice that fits its backing array. -/
def SliceOk (m : Mem) (s : Slice) : Prop :=
  s.len ≤ (arrayOf m s).length ∧ ∀ a, s.arr = some a → a < m.length

/-- Go's built-in `append(s, x)` for one element: in place when there is capacity, else a new array with
some extra capacity `g len` chosen by the runtime. -/
def append1 (g : Nat → Nat) (m : Mem) (s : Slice) (x : UInt64) : Mem × Slice :=
  if s.len < (arrayOf m s).length then
    match s.arr with
    | none => (m, s)
    | some a => (m.set a ((arrayOf m s).set s.len x), ⟨some a, s.len + 1⟩)
  else (m ++ [read m s ++ x :: List.replicate (g s.len) 0], ⟨some m.length, s.len + 1⟩)

/-- id.go:280-287 `Add`. -/
def add (g : Nat → Nat) (m : Mem) (s : Slice) (x : UInt64) : Mem × Slice :=
  if x ∈ read m s then (m, s) else append1 g m s x

/-- The loop of id.go:294-296: `range other` reads element `i` of the live memory at each iteration. -/
def concatLoop (g : Nat → Nat) (other : Slice) : Nat → Nat → Mem × Slice → Mem × Slice
  | 0, _, r => r
  | f + 1, i, r => concatLoop g other f (i + 1) (add g r.1 r.2 ((read r.1 other).getD i 0))

/-- id.go:290-298 `Concat`: the longer operand is added to the shorter one. -/
def concat (g : Nat → Nat) (m : Mem) (n other : Slice) : Mem × Slice :=
  if other.len < n.len then concatLoop g n n.len 0 (m, other) else concatLoop g other other.len 0 (m, n)

/-- id.go:192-198 `NewIDArray`. -/
def newIDArray (g : Nat → Nat) (m : Mem) (vals : List UInt64) : Mem × Slice :=
  vals.foldl (fun r v => add g r.1 r.2 v) (m, nilSlice)

/-- id.go:201-210 `IDArrayFromStrings`: invalid texts are skipped. -/
def idArrayFromStrings (g : Nat → Nat) (m : Mem) (vals : List Bytes) : Mem × Slice :=
  vals.foldl (fun r s => if (parseID [] s).2.2 then add g r.1 r.2 (val (parseID [] s).1 (parseID [] s).2.1) else r) (m, nilSlice)

/-- id.go:301-310 `Sort`: in place; `sort.Slice` may be any sorting algorithm (see `Util.sort_unique`). -/
def sortIDs (m : Mem) (s : Slice) : Mem × Slice :=
  if s.len < 2 then (m, s)
  else
    match s.arr with
    | none => (m, s)
    | some a => (m.set a (Util.sort (fun x y => decide (x ≤ y)) (read m s) ++ (arrayOf m s).drop s.len), s)

/-- id.go:331-338 `Contains`. -/
def containsID (l : List UInt64) (x : UInt64) : Bool := l.any (· == x)

/-- id.go:341-348 `Overlaps`. -/
def overlaps (l o : List UInt64) : Bool := l.any (containsID o)

/-- id.go:257-263 `Strings` (`String()` of an element; the texts of elements are those of C12). -/
def strings (l : List UInt64) : List Bytes := l.map fun n => (idStr (newID [] n).1 (newID [] n).2).2

/-- `strings.Join(parts, ",")` (standard library). -/
def joinComma : List Bytes → Bytes
  | [] => []
  | [s] => s
  | s :: t :: rest => s ++ c!"," :: joinComma (t :: rest)

/-- id.go:266-268 `IDArray.String`. -/
def arrayString (l : List UInt64) : Bytes := joinComma (strings l)

/-- id.go:313-328 `Int64Array` (both forms). -/
def int64Array (l : List UInt64) : List Int64 := l.map (·.toInt64)

/-- `pq.Int64Array.Value` (third party) for a non-empty array. -/
def pqValue (l : List Int64) : DV := .text (b!"{" ++ joinComma (l.map fun x => Num.fmtInt 10 x.toInt) ++ b!"}")

/-- id.go:238-254 `IDArray.Value`. -/
def arrayValue (l : List UInt64) : DV := if l = [] then .null else pqValue (int64Array l)

/-- Split at commas. -/
def splitComma : Bytes → List Bytes
  | [] => [[]]
  | c :: cs => if c = c!"," then [] :: splitComma cs else
    match splitComma cs with
    | p :: ps => (c :: p) :: ps
    | [] => [[c]]

/-- Every element by `strconv.ParseInt(…, 10, 64)`; one failure fails all. -/
def parseInts : List Bytes → Option (List Int64)
  | [] => some []
  | s :: ss =>
    match Num.parseInt 64 s with
    | none => none
    | some i =>
      match parseInts ss with
      | none => none
      | some r => some (Int64.ofInt i :: r)

/-- `pq.Int64Array.Scan` of text (third party): `{` elements separated by commas `}`.
Simplification: quoted elements, which PostgreSQL never prints for integer arrays, are rejected. -/
def pqScan (s : Bytes) : Option (List Int64) :=
  match s with
  | [] => none
  | c :: rest =>
    if c ≠ c!"{" ∨ rest.getLast? ≠ some c!"}" then none
    else if rest.dropLast = [] then some []
    else parseInts (splitComma rest.dropLast)

/-- id.go:213-235 `IDArray.Scan`: the destination is reset first; the result is the new contents and `err == nil`. -/
def arrayScan (d : DV) : List UInt64 × Bool :=
  match d with
  | .null => ([], true)
  | .text s | .bytes s =>
    match pqScan s with
    | none => ([], false)
    | some l => (l.map (·.toUInt64), true)
  | _ => ([], false)

end Types
