import Verif.Model.Session
import Verif.Model.Value
/-
Changing the type of an element, elements made of a text of any type, and the check of a table of symbols. Models src/bin_write_plugin.cpp:190-222 (`retype`), 1583-1597 (`checkTable`),
1782-1793 (`tagAny`).
-/
namespace BX
open XBT

/-- the macros that ask for the size of a type, bin_xml_types.h:67-72, for the byte stored in an element -/
def codeIs (p : XBT → Bool) (c : UInt8) : Bool := (ofCode c).any p

/-- `BW_element::retype`, bin_write_plugin.cpp:190-220; the result tells whether it is the element (and not a null pointer) -/
def Pool.retype (P : Pool) (e : Int) (t : XBT) : Out (Pool × Bool) := do
  let c ← P.eType e
  if c = t.code then return (P, true)
  else if (is4 t && codeIs is4 c) || (!is4 t && is8 t && codeIs is8 c) || (!is4 t && !is8 t && isVarsize t && codeIs isVarsize c) then do
    let P ← P.wr (e + 7) [t.code]
    return (P, true)
  else return (P, false)

/-- `element->flags |= BIN_WRITTEN`, bin_write_plugin.cpp:2298 -/
def Pool.setWritten (P : Pool) (e : Int) : Out Pool := do
  let fl ← P.eFlags e
  P.wr (e + 6) [fl ||| 4]

/-- `BW_pool::tagAny`, bin_write_plugin.cpp:1782-1793: `none` is the null pointer -/
def Pool.tagAny (E : Env) (flt : CStr → List UInt8) (P : Pool) (id : Int) (t : XBT) (s : CStr) (size : Nat) : Out (Pool × Option Nat) := do
  let r ← P.newElement E t size
  match r.2 with
  | none => return (r.1, none)
  | some o => do
    let P ← r.1.initElem o id t 1
    match fromString flt s t (o + 24) (o + 24 + size) with
    | .ub => .ub
    | .fail => return (P, none)
    | .ok w => do
      let P ← P.wr w.start (w.bytes ++ List.replicate w.scratch 0)
      return (P, some o)

/-- the loop of `checkTable`, bin_write_plugin.cpp:1589-1595; `n` entries are left -/
def Pool.checkTableLoop (P : Pool) (T : Tab16) : Nat → Nat → Out Bool
  | 0, _ => return true
  | n+1, i => do
    let x ← P.img.i32 (T.index + 4 * i)
    if x = 0 then P.checkTableLoop T n (i + 1)
    else if ¬ x ≥ T.names then return false
    else if ¬ x < T.names then return false
    else P.checkTableLoop T n (i + 1)

/-- `BW_pool::checkTable`, bin_write_plugin.cpp:1583-1597 (the second argument is not used); a failed assertion gives false -/
def Pool.checkTable (P : Pool) (T : Tab16) : Out Bool :=
  if T.maxId < 0 then return true
  else if ¬ T.index ≥ poolHeader then return false
  else P.checkTableLoop T (T.maxId + 1).toNat 0

end BX
