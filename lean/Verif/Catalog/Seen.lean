import Verif.Schema.Spec
set_option linter.unusedVariables false
/-! What a caller sees of a reported table, apart from its indexes. -/
namespace Catalog.Seen

/-- A column as a caller sees it, apart from its indexes and references. -/
structure Col where
  name : Bytes
  type : Bytes
  udt : Bytes
  nullable : Bool
  maxLength : Nat
  position : Nat
  deriving DecidableEq, Repr

/-- What a reported column says. -/
def seen (c : Schema.Column) : Col := ⟨c.name, c.type, c.udtType, c.nullable, c.maxLength.toNat, c.position.toNat⟩

/-- A table as a caller sees it, apart from indexes. -/
structure Tab where
  schema : Bytes
  name : Bytes
  type : Bytes
  isView : Bool
  columns : List (Option Col)
  deriving DecidableEq, Repr

/-- What a reported table says. -/
def tab (v : Schema.Spec.TableView) : Tab := ⟨v.schema, v.name, v.type, v.isView, v.columns.map (fun c => c.map seen)⟩

/-- `strings.EqualFold` as far as the values of `is_nullable` need it. -/
structure Folds (eqFold : Bytes → Bytes → Bool) : Prop where
  yes : eqFold b!"YES" b!"YES" = true
  no1 : eqFold b!"YES" b!"NO" = false
  no2 : eqFold b!"TRUE" b!"NO" = false
  no3 : eqFold b!"NULL" b!"NO" = false

end Catalog.Seen
