import Verif.Xsql.World
import Verif.Xsql.Spec
/-
What programs using the package are supposed to see, without caches and memos.
-/
namespace Xsql
variable {α : Type}

/-- `String()` without any cache: the text of the statement itself. -/
def World.ownText (w : World α) (q : Stmt α) : World α × Stmt α := (w, { q with sql := q.render })

/-- A program run without query cache and without memoised text. -/
def World.pureRun (w : World α) (os : List (Op α)) : World α × List (Option Bytes) := w.runBy World.ownText os

/-- The statements whose text is computed by an operation (for an embedded statement: in the neutral dialect). -/
def World.evaluates (w : World α) : Op α → List (Stmt α)
  | .str h => (w.live h).toList
  | .embed h g _ => match w.live h, w.live g with
    | some _, some p => if h = g then [] else [p.noDialect]
    | _, _ => []
  | _ => []

/-- All statements whose text is computed during a (cache-free) run. -/
def World.evaluated (w : World α) : List (Op α) → List (Stmt α)
  | [] => []
  | o :: os => w.evaluates o ++ (w.stepBy World.ownText o).1.evaluated os

/-- The texts stored explicitly with `PutCachedQuery`. -/
def puts (os : List (Op α)) : List (Dia × Bytes × Bytes) := os.filterMap fun | .put d k s => some (d, k, s) | _ => none

/-- Everything that supplies a text for a key: (dialect, key, text). -/
def World.supplied (w : World α) (os : List (Op α)) : List (Dia × Bytes × Bytes) :=
  (w.evaluated os).map (fun q => (q.dialect, q.key, q.render)) ++ puts os

/-- No two different texts for one key of one dialect. -/
def Unambiguous (es : List (Dia × Bytes × Bytes)) : Prop :=
  ∀ e ∈ es, ∀ e' ∈ es, e.1 = e'.1 → e.2.1 = e'.2.1 → e.2.2 = e'.2.2

/-- `SubQuery` with an empty prefix is excluded (it corrupts the statement, see C29). -/
def Op.sound : Op α → Bool
  | .call _ (.subQuery pre ..) => decide (pre ≠ [])
  | .embed _ _ (.subQuery pre _) => decide (pre ≠ [])
  | _ => true

/-- The variable an operation changes, other than by giving it a text: `none` if it changes no statement variable. -/
def Op.touches (o : Op α) (x : Nat) : Prop := match o with
  | .open h _ _ | .call h _ | .str h | .setName h _ | .invalidate h | .stmtNewLines h _ | .close h => x = h
  | .embed h g _ => x = h ∨ x = g
  | .clone _ g _ => x = g
  | .newLines .. | .put .. => False

instance (o : Op α) (x : Nat) : Decidable (o.touches x) := by unfold Op.touches; split <;> infer_instance

/-- The builder call an operation makes on variable `x`; the embedding of another statement passes its text. -/
def World.callMade (w : World α) (x : Nat) : Op α → List (Call α)
  | .call h c => if h = x then [c] else []
  | .embed h g e => match w.live h, w.live g with
    | some _, some p => if h = x ∧ h ≠ g then [e.toCall (w.str p.noDialect).2.sql p.args] else []
    | _, _ => []
  | _ => []

/-- The builder calls made on variable `x` during a run. -/
def World.callsMade (w : World α) (x : Nat) : List (Op α) → List (Call α)
  | [] => []
  | o :: os => w.callMade x o ++ (w.step o).1.callsMade x os

/-- The operation only adds to the statement in `x` (a builder call or the embedding of another statement), or leaves it alone. -/
def Op.builds (o : Op α) (x : Nat) : Prop := match o with
  | .call _ _ => True
  | .embed _ g _ => x ≠ g
  | o => ¬ o.touches x

/-- The calls with which a dialect starts a statement (dialect.go:132-182: New, With, From, Select, Update, InsertInto, DeleteFrom). -/
def Call.starts : Call α → Bool
  | .verb .. | .with_ .. | .from_ .. | .select .. | .update .. | .insertInto .. | .deleteFrom .. => true
  | _ => false

/-- The calls that apply to the current clause. -/
def Call.usesPos : Call α → Bool
  | .expr .. | .subQuery .. => true
  | _ => false

/-- The calls that always select a clause. -/
def Call.setsPos : Call α → Bool
  | .expr .. | .subQuery .. | .toDest .. | .setExpr .. | .newRow => false
  | _ => true

/-- No `Expr` or `SubQuery` before a call that selects a clause. -/
def posFirst : List (Call α) → Bool
  | [] => true
  | c :: cs => !c.usesPos && (c.setsPos || posFirst cs)

/-- Does the action store a text for the key explicitly? -/
def Act.putsKey (d : Dia) (k : Bytes) : Act α → Bool
  | .op (.put d' k' _) => decide (d' = d ∧ k' = k)
  | .op _ => false
  | .getOrCreate _ _ create _ => create.any fun | .put d' k' _ => decide (d' = d ∧ k' = k) | _ => false

/-- Every line break in the text follows a space, given the byte before the text. -/
def breaksOK : UInt8 → Bytes → Bool
  | _, [] => true
  | p, b :: s => (b != 10 || p == 32) && breaksOK b s

/-- A text whose line breaks follow a space, not starting with a line break and not ending with a space (the form of the texts
`String()` returns and of ordinary one-line fragments). -/
def Tidy (s : Bytes) : Prop := breaksOK 0 s = true ∧ s.getLast? ≠ some 32

instance (s : Bytes) : Decidable (Tidy s) := by unfold Tidy; infer_instance

/-- Fragments written in clause order: none belongs before a clause that is already there, a new clause starts with a keyword,
texts are tidy. -/
def FragsInOrder : List (Clause α) → List (Frag α) → Prop
  | _, [] => True
  | d, f :: fs => (∀ c ∈ d, c.pos ≤ f.pos) ∧ ((∀ c ∈ d, c.pos ≠ f.pos) → f.kw ≠ []) ∧ Tidy f.kw ∧ Tidy f.expr ∧ (10 : UInt8) ∉ f.sep ∧
      FragsInOrder (addFrag true d f) fs

/-- Calls made in clause order. -/
def CallsInOrder : SpecState α → List (Call α) → Prop
  | _, [] => True
  | s, c :: cs => FragsInOrder s.doc (s.frags c) ∧ CallsInOrder (s.call c) cs

end Xsql
