import Verif.Types.Id
import Verif.Query.Params
import Verif.Util
/-!
Model of `Strings`, `Metadata` and `KVSet` (types.go:139-308).

`encoding/json` is a parameter (`Json`): the theorems hold for every codec that satisfies the stated contract, and
`Verif/Types/JsonLite.lean` exhibits one.
-/
namespace Types

/-- The two functions of `encoding/json` used here, for one Go type. -/
structure Json (α : Type) where
  enc : α → Bytes
  dec : Bytes → Option α

/-! #### Strings -/

/-- Join with single spaces. -/
def joinSpace : List Bytes → Bytes
  | [] => []
  | [s] => s
  | s :: t :: rest => s ++ c!" " :: joinSpace (t :: rest)

/-- `fmt.Sprint(value)` (standard library): a string verbatim; a byte slice as a bracketed list of decimal numbers;
integers in decimal; `sp` prints the types outside the model. -/
def sprint (sp : Nat → Bytes) (d : DV) : Bytes :=
  match d with
  | .null => b!"<nil>"
  | .text s => s
  | .bytes s => b!"[" ++ joinSpace (s.map fun b => Num.dec b.toNat) ++ b!"]"
  | .i64 n => Num.fmtInt 10 n.toInt
  | .int n => Num.fmtInt 10 n.toInt
  | .u64 n => Num.dec n.toNat
  | .uint n => Num.dec n.toNat
  | .i32 n => Num.fmtInt 10 n.toInt
  | .u32 n => Num.dec n.toNat
  | .bool b => if b then b!"true" else b!"false"
  | .other t => sp t

/-- types.go:143-154 `Strings.Scan` (`none` is the nil slice).  On a decoding error the destination is modelled as unchanged
(the code may have overwritten part of it). -/
def stringsScan (j : Json (Option (List Bytes))) (sp : Nat → Bytes) (old : Option (List Bytes)) (d : DV) : Option (List Bytes) × Bool :=
  match d with
  | .null => (none, true)
  | d =>
    if (sprint sp d).isEmpty then (some [], true)
    else
      match j.dec (sprint sp d) with
      | none => (old, false)
      | some l => (l, true)

/-- types.go:157-166 `Strings.Value`; encoding a list of strings does not fail. -/
def stringsValue (j : Json (Option (List Bytes))) (l : Option (List Bytes)) : DV :=
  match l with
  | none => .null
  | some _ => .text (j.enc l)

/-! #### Maps -/

/-- A Go map with string keys: nil, or its entries (in some order, one per key). -/
abbrev GoMap (V : Type) := Option (List (Bytes × V))

variable {V : Type}

/-- The entries of a map (none for nil). -/
def entries (m : GoMap V) : List (Bytes × V) := m.getD []

/-- `m[k]`. -/
def get (m : GoMap V) (k : Bytes) : Option V := (entries m).lookup k

/-- `m[k] = v` on the entries. -/
def putEntry (l : List (Bytes × V)) (k : Bytes) (v : V) : List (Bytes × V) :=
  match l with
  | [] => [(k, v)]
  | (k', v') :: l => if k' = k then (k, v) :: l else (k', v') :: putEntry l k v

/-- types.go:213-222 `Metadata.Merge`, types.go:264-272 `KVSet.Merge`: `m` is ranged over in the order given. -/
def mergeMap (n : GoMap V) (m : List (Bytes × V)) : GoMap V :=
  some (m.foldl (fun l e => putEntry l e.1 e.2) (entries n))

/-- types.go:225-246 `Metadata.Scan`, types.go:275-296 `KVSet.Scan`: decoding adds the decoded entries to the map the
destination already holds (documented behaviour of `json.Unmarshal`); JSON `null` (`some none`) makes it nil.  On a decoding
error the destination is modelled as unchanged (the code may have added some entries). -/
def mapScan (j : Json (GoMap V)) (old : GoMap V) (d : DV) : GoMap V × Bool :=
  match d with
  | .null => (none, true)
  | .bytes s | .text s =>
    if s.isEmpty then (some [], true)
    else
      match j.dec s with
      | none => (old, false)
      | some none => (none, true)
      | some (some l) => (mergeMap old l, true)
  | _ => (old, false)

/-- types.go:249-258 `Metadata.Value`, types.go:299-308 `KVSet.Value`. -/
def mapValue (j : Json (GoMap V)) (m : GoMap V) : DV := if (entries m).isEmpty then .null else .text (j.enc m)

/-- types.go:178-183, 192-197 `OrderedKeys`, `RangeOrdered` (helper library `x/maps`: keys in increasing order). -/
def orderedEntries (m : GoMap V) : List (Bytes × V) := Util.sort (fun a b => Query.leBytes a.1 b.1) (entries m)

/-- types.go:200-210 `OrderedPairs` (nil for a nil map). -/
def orderedPairs (m : GoMap Bytes) : Option (List Bytes) :=
  match m with
  | none => none
  | some _ => some ((orderedEntries m).flatMap fun e => [e.1, e.2])

end Types
