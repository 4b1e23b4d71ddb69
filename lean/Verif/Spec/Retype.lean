import Verif.Spec.Session
import Verif.Spec.Attrs
/-
Types whose values may be exchanged for each other.
-/
namespace BX.Spec
open BX XBT

/-- numbers, times and addresses of four bytes -/
def fourBytes : List XBT := [INT32, UINT32, INT32_DECI, INT32_CENTI, INT32_MILI, INT32_MICRO, INT32_NANO, FLOAT, UNIX_TIME, IPv4]
/-- numbers and times of eight bytes -/
def eightBytes : List XBT := [INT64, UINT64, DOUBLE, UNIX_TIME64_MSEC]
/-- values with their own length -/
def ownLength : List XBT := [BLOB, HEX, BLOB_STRING]

/-- values of the two types have the same form -/
def SameForm (a b : XBT) : Prop := (a ∈ fourBytes ∧ b ∈ fourBytes) ∨ (a ∈ eightBytes ∧ b ∈ eightBytes) ∨ (a ∈ ownLength ∧ b ∈ ownLength)

end BX.Spec
