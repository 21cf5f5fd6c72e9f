/-
Shared vocabulary of the model.

Go strings and byte slices are lists of bytes.  The macro `b!"text"` expands a string literal
into the explicit list of its UTF-8 bytes, so that the kernel can compute with it.
-/

/-- A Go `string` or `[]byte`: a finite sequence of bytes. -/
abbrev Bytes := List UInt8

/-- `b!"abc"` is the byte list `[97, 98, 99]`. -/
syntax:max "b!" noWs str : term

open Lean in
macro_rules
  | `(b!$s) => do
    let bs := s.getString.toUTF8.toList
    let ts ← bs.mapM fun b => `(($(Syntax.mkNumLit (toString b.toNat)) : UInt8))
    let ts := ts.toArray
    `(([$ts,*] : List UInt8))

/-- `c!"x"` is the byte of the one-character literal. -/
syntax:max "c!" noWs str : term

open Lean in
macro_rules
  | `(c!$s) => do
    match s.getString.toUTF8.toList with
    | [b] => `(($(Syntax.mkNumLit (toString b.toNat)) : UInt8))
    | _ => Macro.throwError "one byte expected"

example : b!"abc" ++ b!"" = [97, 98, 99] := by decide
example : c!"?" = 63 := rfl
example : b!"SELECT x" ≠ b!"SELECT y" := by decide

/-- Lift a Boolean check over a list (avoids deciding over the whole element type). -/
theorem forall_mem_of_all {α : Type _} {p : α → Prop} [DecidablePred p] {l : List α}
    (h : l.all (fun x => decide (p x)) = true) : ∀ x ∈ l, p x :=
  fun x hx => of_decide_eq_true (List.all_eq_true.1 h x hx)
