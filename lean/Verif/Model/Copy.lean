import Verif.Model.Attrs
/-
Copying elements of a file into a writable document. Models parts of src/bin_write_plugin.cpp.
-/
namespace BX
open XBT

/-- `BW_plugin::tag`, bin_write_plugin.cpp:2368-2381: an element without a value -/
def Pool.plainTag (E : Env) (P : Pool) (id : Int) : Out (Pool × Option Nat) := do
  let r ← P.makeSpace E 0x4000
  if r.2 then r.1.make E id NULL 0 1 0 [] else return (r.1, none)

/-- the conversion and the second half of `tagData`, bin_write_plugin.cpp:2612-2631, like `Pool.attrData` -/
def Pool.tagTyped (flt : CStr → List UInt8) (P : Pool) (id : Int) (d : Data) : Out (Pool × Option Nat) := do
  let t ← P.symType true id
  if t = some d.type then P.makeData id d.type 1 d.bytes
  else if d.type = STRING then
    match t with
    | none => return (P, none)
    | some t =>
      if (cPrefix d.bytes).length = d.bytes.length then .ub
      else
        match fromString flt (toC (cPrefix d.bytes)) t 0 (d.bytes.length + 64) with
        | .ok w => P.makeData id t 1 w.bytes
        | .fail => return (P, none)
        | .ub => .ub
  else return (P, none)

/-- `BW_plugin::tagData`, bin_write_plugin.cpp:2604-2632 -/
def Pool.tagData (E : Env) (flt : CStr → List UInt8) (P : Pool) (id : Int) (d : Data) : Out (Pool × Option Nat) := do
  let r ← P.makeSpace E (0x4000 + 8 + d.bytes.length)
  if r.2 = false then return (r.1, none)
  else if d.type = NULL then r.1.plainTag E id
  else r.1.tagTyped flt id d

/-- `attrCopy`, bin_write_plugin.cpp:666-671, of the attribute `a` of the item `x` of the file `f` -/
def Pool.attrCopy (flt : CStr → List UInt8) (f : Img) (P : Pool) (dst x a : Int) : Out (Pool × Bool) := do
  let d ← f.pGetData x a
  let id ← f.pName a
  P.attrData flt dst id d.type d.bytes

/-- the loop over the attributes in `CopyAll`, bin_write_plugin.cpp:2754-2758: `n` are left, the next is the `i`-th. A missing attribute is
a null pointer that is used. -/
def Pool.copyAttrs (flt : CStr → List UInt8) (f : Img) (dst x : Int) : Nat → Int → Pool → Out (Pool × Bool)
  | 0, _, P => return (P, true)
  | n+1, i, P => do
    let a ← f.getParamByIndex x i
    match a with
    | none => .ub
    | some a => do
      let r ← P.attrCopy flt f dst x a
      if r.2 then r.1.copyAttrs flt f dst x n (i + 1) else return (r.1, false)

/-- the checks of `CopyAll`, bin_write_plugin.cpp:2749-2752 -/
def Pool.copyChecks (f : Img) (P : Pool) (dst x : Int) : Out Bool := do
  let c ← P.eChild dst
  let a ← P.eAttr dst
  let id ← P.eId dst
  let nm ← f.name x
  return decide (c = 0 ∧ a = 0 ∧ id = nm)

/-- `dst->add(child2)` for the result of the recursive call, bin_write_plugin.cpp:2763-2764: a null pointer is ignored by `add` -/
def Pool.addCopied (dst : Int) (o : Nat) (r : Pool × Bool) : Out Pool :=
  if r.2 then r.1.add dst (some (o : Int)) else .ok r.1

mutual
/-- `BW_plugin::CopyAll`, bin_write_plugin.cpp:2745-2767, for a destination that is not a null pointer. `true`: it returned `dst`. -/
def Pool.copyAll (E : Env) (flt : CStr → List UInt8) (f : Img) : Nat → Int → Int → Pool → Out (Pool × Bool)
  | 0, _, _, _ => .ub
  | fuel+1, dst, x, P => do
    let ok ← P.copyChecks f dst x
    if ok = false then return (P, false)
    else do
      let n ← f.paramcount x
      let r ← P.copyAttrs flt f dst x n.toNat 0
      if r.2 = false then return (r.1, false)
      else do
        let m ← f.childcount x
        let Q ← Pool.copyKids E flt f fuel dst x m.toNat 0 r.1
        return (Q, true)
/-- the loop over the children in `CopyAll`, bin_write_plugin.cpp:2759-2765. A missing child is a null pointer that is used. -/
def Pool.copyKids (E : Env) (flt : CStr → List UInt8) (f : Img) : Nat → Int → Int → Nat → Int → Pool → Out Pool
  | 0, _, _, _, _, _ => .ub
  | _+1, _, _, 0, _, P => return P
  | fuel+1, dst, x, n+1, i, P => do
    let c ← f.getChildByIndex x i
    match c with
    | none => .ub
    | some y => do
      let d ← f.getData y
      let id ← f.name y
      let r ← P.tagData E flt id d
      match r.2 with
      | none => Pool.copyKids E flt f fuel dst x n (i + 1) r.1
      | some o => do
        let s ← Pool.copyAll E flt f fuel o y r.1
        let Q ← Pool.addCopied dst o s
        Pool.copyKids E flt f fuel dst x n (i + 1) Q
end

end BX
