import Verif.Model.Create
/-
Appending an element whose value is refused. Models src/bin_xml_creator.cpp:497-532 with the early return of `WriteNode`, 864-870.
-/
namespace BX
open XBT

/-- where `XBT_FromString` leaves the write pointer, and what it has written, when it refuses a text, bin_xml_types.cpp:503-656: most types are aligned first, digits of a GUID or
digest before the wrong one are stored -/
def refusedTail (s : CStr) (t : XBT) (wp : Nat) : Nat × Nat × List UInt8 :=
  match t with
  | GUID => (aa wp + (scanHex s 16).1, aa wp, (scanHex s 16).2)
  | SHA1 => (aa wp + (scanHex s 20).1, aa wp, (scanHex s 20).2)
  | IPv4 | UNIX_TIME | UNIX_TIME64_MSEC | UNIX_DATE => (aa wp, wp, [])
  | _ => (wp, wp, [])

/-- `WriteNode` up to the refused text `s`, bin_xml_creator.cpp:815-870: the name and the counts are written and the type, but not the length, attributes and children. The new
memory and write pointer. -/
def writeRefused (c : Ctx) (name : BStr) (s : CStr) (params : List (BStr × SVal)) (children : List Elem) (m : Mem) (wp : Nat) : Out (Mem × Nat) :=
  if params.length > 32767 ∨ children.length > 2147483647 then .ub
  else do
    let x := aa wp
    let m ← put c.limit m x (headBytes (c.tags.find (some name)) params.length children.length)
    let va := x + 12 + 8 * params.length + 4 * children.length
    let m ← put c.limit m va [(detect s).code]
    let r := refusedTail s (detect s) (va + 1)
    let m ← put c.limit m r.2.1 r.2.2
    return (m, r.1)

/-- `Append`, bin_xml_creator.cpp:497-532, for any element: the result of `WriteNode` is not looked at, so an element whose value is refused is written as far as it got. Elements
with a refused value further down are not modelled (`fail`; the reference to them is computed from a null pointer). -/
def appendCall (c : Ctx) (m0 : Mem) (f : Img) (e : Elem) : Out Img :=
  match e with
  | .mk name (.text s) params children =>
    match fromString c.flt s (detect s) (aa (aa (f.size % 16)) + 12 + 8 * params.length + 4 * children.length + 1) c.limit with
    | .fail => do
      let fileAlign := f.size % 16
      let r ← writeRefused c name s params children m0 (aa fileAlign)
      let size := r.2 - fileAlign
      return ⟨memPut f.mem f.size (slice r.1 fileAlign size), f.size + size⟩
    | _ => append c m0 f e
  | _ => append c m0 f e

end BX
