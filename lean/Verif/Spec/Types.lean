import Verif.Model.Types
/-
Independent specification for the type algebra: the generalisation order of value types, written down as a table of
"every value of the left type can be held by the right type" edges. Only the enumeration of type codes is used.
-/
namespace BX.Spec
open XBT

/-- The types a stored value or symbol can have. `UNKNOWN` and `LAST` are markers, not value types. -/
def ValueType (t : XBT) : Prop := t ≠ UNKNOWN ∧ t ≠ LAST
instance (t : XBT) : Decidable (ValueType t) := inferInstanceAs (Decidable (_ ∧ _))

/-- Immediate generalisations between numeric types. -/
def widens : XBT → List XBT
  | INT32 => [INT32_DECI, INT32_CENTI, INT32_MILI, INT32_MICRO, INT32_NANO, INT64, FLOAT, DOUBLE]
  | INT32_DECI => [INT32_CENTI, INT32_MILI, INT32_MICRO, INT32_NANO]
  | INT32_CENTI => [INT32_MILI, INT32_MICRO, INT32_NANO]
  | INT32_MILI => [INT32_MICRO, INT32_NANO]
  | INT32_MICRO => [INT32_NANO]
  | INT64 => [DOUBLE]
  | FLOAT => [DOUBLE]
  | _ => []

/-- `Below a b`: a symbol of type `b` is declared at least as generally as one of type `a`. The empty value is below
everything; above all specific types is VARIANT, above it plain text, above it updatable text. -/
def Below (a b : XBT) : Bool :=
  a == b || a == NULL || (widens a).contains b
  || (b == VARIANT && a != STRING && a != BLOB_STRING)
  || (b == STRING && a != BLOB_STRING)
  || b == BLOB_STRING

/-- `j` is the least upper bound of `a` and `b` among value types. -/
def IsLub (a b j : XBT) : Prop :=
  ValueType j ∧ Below a j ∧ Below b j ∧ ∀ u, ValueType u → Below a u → Below b u → Below j u

end BX.Spec
