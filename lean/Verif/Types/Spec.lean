import Verif.Types.Id
/-! Specification vocabulary for the ID properties, independent of the model's functions. -/
namespace Types.Spec

/-- `s` is a non-empty string of ASCII decimal digits. -/
def Digits (s : Bytes) : Prop := s ≠ [] ∧ ∀ c ∈ s, 48 ≤ c.toNat ∧ c.toNat ≤ 57

/-- The number a digit string denotes. -/
def number (s : Bytes) : Nat := s.foldl (fun a c => a * 10 + (c.toNat - 48)) 0

/-- `s` is the canonical decimal text of `n`: it denotes `n` and has no superfluous leading zero. -/
def Canonical (s : Bytes) (n : Nat) : Prop := Digits s ∧ number s = n ∧ (s.head? = some 48 → s = [48])

end Types.Spec

namespace Types.Spec

instance (s : Bytes) : Decidable (Digits s) := inferInstanceAs (Decidable (_ ∧ _))

/-- The 64-bit number a text denotes, if it is a decimal text in range. -/
def num64 (s : Bytes) : Option UInt64 :=
  if Digits s ∧ number s < 2 ^ 64 then some (UInt64.ofNat (number s)) else none

/-- Programs over IDs as pure values: every variable holds its own number, and a statement
changes the variable it names and no other. -/
def valueStep (m : Nat → UInt64) (o : Op) : Nat → UInt64 :=
  let put (x : Nat) (v : UInt64) : Nat → UInt64 := fun z => if z = x then v else m z
  match o with
  | .new x n => put x n
  | .parse x s => put x ((num64 s).getD 0)
  | .copy x y => put x (m y)
  | .set x s => match num64 s with
    | some n => if n = 0 then m else put x n
    | none => m
  | .reset x => put x 0
  | .scan x d => match d with
    | .u64 n | .uint n => put x n
    | .i64 n | .int n => put x n.toUInt64
    | _ => m
  | .json x d => if trimQuotes d = [] then put x 0 else match num64 (trimQuotes d) with
    | some n => put x n
    | none => m
  | .yaml x r => match r with
    | some n => put x n
    | none => m
  | .str _ => m

/-- The pure-value result of a program. -/
def valueRun (ops : List Op) : Nat → UInt64 := ops.foldl valueStep (fun _ => 0)

/-- Programs that never call `Set` or `Reset` on a variable that took part in a copy since it was
last given a fresh ID (`tied` is the set of variables that may share storage). -/
def Untied : (Nat → Bool) → List Op → Prop
  | _, [] => True
  | tied, .copy x y :: ops => Untied (fun z => if z = x ∨ z = y then true else tied z) ops
  | tied, .new x _ :: ops => Untied (fun z => if z = x then false else tied z) ops
  | tied, .parse x _ :: ops => Untied (fun z => if z = x then false else tied z) ops
  | tied, .set x _ :: ops => tied x = false ∧ Untied tied ops
  | tied, .reset x :: ops => tied x = false ∧ Untied tied ops
  | tied, _ :: ops => Untied tied ops

/-- The JSON texts used by a program are canonical decimal numbers, quoted or not (or empty). -/
def CanonicalJson : Op → Prop
  | .json _ d => trimQuotes d = [] ∨ ∀ n, num64 (trimQuotes d) = some n → Canonical (trimQuotes d) n.toNat
  | _ => True

end Types.Spec
