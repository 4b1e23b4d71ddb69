import Verif.Spec.Attrs
/-
What searching for a child by the value of an attribute means, without any memory.
-/
namespace BX.Spec
open BX XBT

/-- the sizes of the values of the types that can be searched for by comparing bytes -/
def searchSize : XBT → Option Nat
  | INT32 | INT32_DECI | INT32_CENTI | INT32_MILI | INT32_MICRO | INT32_NANO | UNIX_DATE | UINT32 | UNIX_TIME | IPv4 => some 4
  | INT64 | UINT64 | UNIX_TIME64_MSEC => some 8
  | GUID | IPv6 => some 16
  | _ => none

/-- the bytes are a value of the type: a text with its end, or a number or address of the right size -/
def FitsType (t : XBT) (v : List UInt8) : Prop := (t = STRING ∧ (0 : UInt8) ∈ v) ∨ searchSize t = some v.length

/-- the two values are the same: the texts up to their ends, all bytes of others -/
def sameValue (t : XBT) (v w : List UInt8) : Bool := if t = STRING then v.takeWhile (· ≠ 0) == w.takeWhile (· ≠ 0) else v == w

/-- `c` has an attribute `id` with the value `w` -/
def Doc.hasAttr (D : Doc) (c : Nat) (id : Int) (t : XBT) (w : List UInt8) : Bool := (D.forest.at' (.attrs c)).any fun a => D.id a = id && sameValue t (D.val a) w

/-- the first child of `p` with the identification `tag` and an attribute `id` with the value `w` -/
def Doc.childWith (D : Doc) (p : Nat) (tag id : Int) (t : XBT) (w : List UInt8) : Option Nat := (D.forest.at' (.kids p)).find? fun c => D.id c = tag && D.hasAttr c id t w

end BX.Spec
