import Verif.Types.GoJsonStr
import Verif.Types.Maps
set_option linter.unusedSimpArgs false
set_option linter.unusedVariables false
/-!
Go's `encoding/json` (standard library: scanner.go, decode.go, encode.go, of the version in go.mod, without the `jsonv2` experiment) as far as `Strings`, `Metadata` and `KVSet` use it
(types.go:143-166, 225-258, 275-308).
-/
namespace Types.GoJson

/-- A JSON value.  A number is its text. -/
inductive JV where
  | null
  | bool (b : Bool)
  | num (s : Bytes)
  | str (s : Bytes)
  | arr (l : List JV)
  | obj (l : List (Bytes × JV))

/-! ### The grammar (scanner.go) -/

/-- scanner.go `isSpace`. -/
def isSpace (b : UInt8) : Bool := b == 32 || b == 9 || b == 13 || b == 10

/-- Skip white space. -/
def skip : Bytes → Bytes
  | [] => []
  | b :: r => if isSpace b then skip r else b :: r

def isDigit (b : UInt8) : Bool := 48 ≤ b.toNat && b.toNat ≤ 57

/-- Skip digits. -/
def digits : Bytes → Bytes
  | [] => []
  | b :: r => if isDigit b then digits r else b :: r

/-- At least one digit. -/
def digits1 : Bytes → Option Bytes
  | [] => none
  | b :: r => if isDigit b then some (digits r) else none

/-- scanner.go `stateE`, `stateESign`, `stateE0`: the exponent, if there is one. -/
def exponent : Bytes → Option Bytes
  | [] => some []
  | b :: r =>
    if b = c!"e" ∨ b = c!"E" then
      match r with
      | [] => none
      | s :: r' => if s = c!"+" ∨ s = c!"-" then digits1 r' else digits1 r
    else some (b :: r)

/-- scanner.go `stateDot`, `stateDot0`: the fraction, if there is one, and the exponent. -/
def fraction : Bytes → Option Bytes
  | [] => some []
  | b :: r => if b = c!"." then (digits1 r).bind exponent else exponent (b :: r)

/-- scanner.go `state0`, `state1`: a number without its sign; what follows it. -/
def unsigned : Bytes → Option Bytes
  | [] => none
  | b :: r => if b = c!"0" then fraction r else if isDigit b then fraction (digits r) else none

/-- A number. -/
def number : Bytes → Option Bytes
  | [] => none
  | b :: r => if b = c!"-" then unsigned r else unsigned (b :: r)

/-- The rest after a fixed word. -/
def word (w s : Bytes) : Option Bytes := if w.isPrefixOf s then some (s.drop w.length) else none

/-- A value that is not an array or an object, starting with `b`. -/
def scalar (b : UInt8) (r : Bytes) : Option (JV × Bytes) :=
  if b = c!"\"" then (readStr (r.length + 1) r).map fun x => (.str x.1, x.2)
  else if b = c!"t" then (word b!"rue" r).map fun x => (.bool true, x)
  else if b = c!"f" then (word b!"alse" r).map fun x => (.bool false, x)
  else if b = c!"n" then (word b!"ull" r).map fun x => (.null, x)
  else (number (b :: r)).map fun x => (.num ((b :: r).take ((b :: r).length - x.length)), x)

/-- scanner.go `maxNestingDepth`. -/
def maxDepth : Nat := 10000

/-- A name and the colon after it. -/
def name (s : Bytes) : Option (Bytes × Bytes) :=
  match skip s with
  | [] => none
  | b :: r =>
    if b = c!"\"" then
      match readStr (r.length + 1) r with
      | none => none
      | some (k, r1) =>
        match skip r1 with
        | [] => none
        | b1 :: r2 => if b1 = c!":" then some (k, r2) else none
    else none

mutual
/-- A value, with `d` arrays and objects around it; what follows it. -/
def value : Nat → Nat → Bytes → Option (JV × Bytes)
  | 0, _, _ => none
  | f + 1, d, s =>
    match skip s with
    | [] => none
    | b :: r =>
      if b = c!"[" then
        if maxDepth ≤ d then none
        else if (skip r).head? = some c!"]" then some (.arr [], (skip r).tail)
        else (elems f (d + 1) r).map fun x => (.arr x.1, x.2)
      else if b = c!"{" then
        if maxDepth ≤ d then none
        else if (skip r).head? = some c!"}" then some (.obj [], (skip r).tail)
        else (members f (d + 1) r).map fun x => (.obj x.1, x.2)
      else scalar b r
/-- The elements of an array, up to and including its closing bracket. -/
def elems : Nat → Nat → Bytes → Option (List JV × Bytes)
  | 0, _, _ => none
  | f + 1, d, s =>
    match value f d s with
    | none => none
    | some (v, r) =>
      match skip r with
      | [] => none
      | b :: r' =>
        if b = c!"]" then some ([v], r')
        else if b = c!"," then (elems f d r').map fun x => (v :: x.1, x.2)
        else none
/-- The members of an object, up to and including its closing brace. -/
def members : Nat → Nat → Bytes → Option (List (Bytes × JV) × Bytes)
  | 0, _, _ => none
  | f + 1, d, s =>
    match name s with
    | none => none
    | some (k, r0) =>
      match value f d r0 with
      | none => none
      | some (v, r) =>
        match skip r with
        | [] => none
        | b :: r' =>
          if b = c!"}" then some ([(k, v)], r')
          else if b = c!"," then (members f d r').map fun x => ((k, v) :: x.1, x.2)
          else none
end

/-- decode.go `checkValid` and the parse that follows it: the whole text is one value, with white space around it. -/
def parse (s : Bytes) : Option JV :=
  match value (2 * s.length + 1) 0 s with
  | none => none
  | some (v, r) => if (skip r).isEmpty then some v else none

/-! ### Writing (encode.go) -/

/-- Comma-separated. -/
def commas : List Bytes → Bytes
  | [] => []
  | [x] => x
  | x :: y :: l => x ++ c!"," :: commas (y :: l)

/-- encode.go `sliceEncoder`, `arrayEncoder` for `[]string`. -/
def encStrs : Option (List Bytes) → Bytes
  | none => b!"null"
  | some l => c!"[" :: (commas (l.map quote) ++ [c!"]"])

/-- encode.go `mapEncoder`: the keys in increasing order. -/
def encMap (e : V → Bytes) : GoMap V → Bytes
  | none => b!"null"
  | some l => c!"{" :: (commas ((orderedEntries (some l)).map fun x => quote x.1 ++ c!":" :: e x.2) ++ [c!"}"])

/-! ### Storing into a fresh destination (decode.go `array`, `object`, `literalStore`) -/

/-- Into a fresh string; `false`: an `UnmarshalTypeError` was recorded. -/
def storeStr : JV → Bytes × Bool
  | .str s => (s, true)
  | .null => ([], true)
  | _ => ([], false)

/-- Into a fresh `[]string`. -/
def storeStrs : JV → Option (List Bytes) × Bool
  | .null => (none, true)
  | .arr l => (some (l.map fun v => (storeStr v).1), l.all fun v => (storeStr v).2)
  | _ => (none, false)

/-- Into a fresh map: members are put one after the other. -/
def storeMap (e : JV → V × Bool) : JV → GoMap V × Bool
  | .null => (none, true)
  | .obj l => (some (l.foldl (fun m x => putEntry m x.1 (e x.2).1) []), l.all fun x => (e x.2).2)
  | _ => (none, false)

/-- `json.Unmarshal` into a fresh destination. -/
def unmarshal (e : JV → α × Bool) (s : Bytes) : Option α :=
  match parse s with
  | none => none
  | some v => if (e v).2 then some (e v).1 else none

/-- `encoding/json` for `Strings`. -/
def strings : Json (Option (List Bytes)) := ⟨encStrs, unmarshal storeStrs⟩
/-- `encoding/json` for `Metadata`. -/
def metadata : Json (GoMap Bytes) := ⟨encMap quote, unmarshal (storeMap storeStr)⟩
/-- `encoding/json` for `KVSet`. -/
def kvset : Json (GoMap (Option (List Bytes))) := ⟨encMap encStrs, unmarshal (storeMap storeStrs)⟩

end Types.GoJson
