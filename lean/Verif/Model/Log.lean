import Verif.Model.Source
import Verif.Model.Retype
/-
Batches of elements appended to a file that was made from a writable document. Models src/bin_write_plugin.cpp:2286-2306 and the state of
the creator after src/bin_xml_creator.cpp:371-465.
-/
namespace BX
open XBT

/-- the creator after `Make_xb`: the tables of symbols it has copied from the document, bin_xml_creator.cpp:445-465, and the size of its
buffer, 396. (The tables there point to the names in the document; names of a document are never moved or changed.) -/
def Pool.creator (flt : CStr → List UInt8) (P : Pool) : Out Ctx := do
  let ts ← P.symbolOps true (P.symbolCount true).toNat 0
  let ps ← P.symbolOps false (P.symbolCount false).toNat 0
  return ⟨regAll ts, regAll ps, flt, 1024 + P.fileSize * 4⟩

/-- the loop of `BW_plugin::Write`, bin_write_plugin.cpp:2293-2303, with the file `f`: the element is appended (`Append` gets it through the
interface of sources), marked as written, and its successor is next. A null pointer (1153) is a failure. `bufs` are the contents of the creator's buffer; `deep`
and the first number bound loops. -/
def Pool.writeLoop (c : Ctx) (bufs : Nat → Mem) (list : Int) (deep : Nat) : Nat → Pool → Img → Int → Out (Pool × Img)
  | 0, _, _, _ => .ub
  | n+1, P, f, e => do
    let s ← P.source deep e
    let g ← append c (bufs n) f s
    let P ← P.setWritten e
    let nx ← P.eNext e
    if ¬(0 ≤ nx ∧ nx + 24 ≤ P.fileSize) then .fail
    else if nx = list then return (P, g)
    else Pool.writeLoop c bufs list deep n P g nx

/-- `BW_plugin::Write`, bin_write_plugin.cpp:2286-2305, for a plugin with a creator whose source it is -/
def Pool.write (c : Ctx) (bufs : Nat → Mem) (deep fuel : Nat) (P : Pool) (f : Img) (list : Int) : Out (Pool × Img) :=
  Pool.writeLoop c bufs list deep fuel P f list

end BX
