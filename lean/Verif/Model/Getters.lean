import Verif.Model.Image
/-
The integer getters of the reader and the visits of all items below an item. Models src/bin_xml.cpp:113-146, 291-336, 398-474.
The getters return pointers: into the file, or to variables of the library that all later calls share.
-/
namespace BX
open XBT

/-- the variables the getters point to: `s_int32_value` and `s_int64_value`, bin_xml.cpp:113 and 133, and the variables `p_result` of
`XML_Item::getIntPtr`, line 445 (initialized by its first use: `none` before it), and of `XML_Item::getInt64Ptr`, line 470 -/
structure Statics where
  s32 : Int := -1
  s64 : Int := -1
  item32 : Option Int := none
  item64 : Int := 0
deriving DecidableEq, Repr

/-- a pointer a getter returns: to an address of the file or to one of the variables -/
inductive IPtr where
  | file (a : Int)
  | s32
  | s64
  | item32
  | item64
deriving DecidableEq, Repr

/-- `*p` for a pointer to a 32-bit number -/
def IPtr.read32 (f : Img) (s : Statics) : IPtr → Out Int
  | .file a => f.i32 a
  | .s32 => return s.s32
  | .item32 => match s.item32 with | some v => return v | none => .ub
  | _ => .ub

/-- `*p` for a pointer to a 64-bit number -/
def IPtr.read64 (f : Img) (s : Statics) : IPtr → Out Int
  | .file a => do let l ← f.rd a 8; return ofU 64 (rdN l)
  | .s64 => return s.s64
  | .item64 => return s.item64
  | _ => .ub

/-- `XML_Param_Description::getInt32Ptr`, bin_xml.cpp:114-126, with the type `INT32` that `getIntPtr` asks for, lines 128-131; `p` is the
description (`none`: null pointer) of a parameter of the item at `x` -/
def Img.pGetIntPtr (f : Img) (s : Statics) (x : Int) (p : Option Int) : Out (Statics × Option IPtr) :=
  match p with
  | none => return (s, none)
  | some p => do
    let t ← f.pType p
    if t = INT32.code then return (s, some (.file (p + 4)))
    else if t = STRING.code then do
      let d ← f.pData p
      let w ← f.str (x + d)
      let v ← atoi (toC w)
      return ({ s with s32 := v }, some .s32)
    else return (s, none)

/-- `XML_Param_Description::getInt64Ptr`, bin_xml.cpp:134-146 -/
def Img.pGetInt64Ptr (f : Img) (s : Statics) (x : Int) (p : Option Int) : Out (Statics × Option IPtr) :=
  match p with
  | none => return (s, none)
  | some p => do
    let t ← f.pType p
    if t = INT64.code then return (s, some (.file (p + 4)))
    else if t = STRING.code then do
      let d ← f.pData p
      let w ← f.str (x + d)
      match scanInt64 (toC w) with
      | .ok (v, _) => return ({ s with s64 := v }, some .s64)
      | .fail => return (s, none)
      | .ub => .ub
    else return (s, none)

/-- `XML_Item::getInt`, bin_xml.cpp:398-421 -/
def Img.getInt (f : Img) (x : Int) : Out Int :=
  if x % 4 ≠ 0 then .fail
  else do
    let va ← f.valueAt x
    let c ← f.u8 va
    if c = INT32.code then f.i32 (aaI (va + 1))
    else if c = STRING.code then do
      let w ← f.str (va + 1)
      atoi (toC w)
    else return INT32_NULL

/-- `XML_Item::getIntPtr`, bin_xml.cpp:423-447: the variable is initialized only when the line is reached for the first time -/
def Img.getIntPtr (f : Img) (s : Statics) (x : Int) : Out (Statics × Option IPtr) :=
  if x % 4 ≠ 0 then .fail
  else do
    let va ← f.valueAt x
    let c ← f.u8 va
    if c = INT32.code then return (s, some (.file (aaI (va + 1))))
    else if c = STRING.code then
      match s.item32 with
      | some _ => return (s, some .item32)
      | none => do
        let w ← f.str (va + 1)
        let v ← atoi (toC w)
        return ({ s with item32 := some v }, some .item32)
    else return (s, none)

/-- `XML_Item::getInt64Ptr`, bin_xml.cpp:449-474 -/
def Img.getInt64Ptr (f : Img) (s : Statics) (x : Int) : Out (Statics × Option IPtr) :=
  if x % 4 ≠ 0 then .fail
  else do
    let va ← f.valueAt x
    let c ← f.u8 va
    if c = INT64.code then return (s, some (.file (aa8I (va + 1))))
    else if c = STRING.code then do
      let w ← f.str (va + 1)
      match scanInt64 (toC w) with
      | .ok (v, _) => return ({ s with item64 := v }, some .item64)
      | .fail => return (s, none)
      | .ub => .ub
    else return (s, none)

/-! ### visits of all items below an item -/

/-- one call of the function given to a visit: the item, its depth and (for the third visit) the array of the items above -/
structure Visit where
  item : Int
  deep : Nat
  above : List Int := []
deriving DecidableEq, Repr

mutual
/-- `ForAllChildrenRecursively`, bin_xml.cpp:291-304: the calls of the function, in order. `fuel` bounds the depth of the recursion (its end
stands for the overflow of the stack). -/
def Img.forAll (f : Img) : Nat → Int → Nat → Out (List Visit)
  | 0, _, _ => .ub
  | fuel + 1, x, deep => do
    let cc ← f.childcount x
    f.forAllFrom fuel x deep cc.toNat 0
/-- the loop, lines 295-303: `n` children are left, from the `i`-th on -/
def Img.forAllFrom (f : Img) : Nat → Int → Nat → Nat → Nat → Out (List Visit)
  | _, _, _, 0, _ => return []
  | fuel, x, deep, n + 1, i => do
    let ca ← f.childrenAt x
    let r ← f.i32 (ca + 4 * i)
    let below ← f.forAll fuel (x + r) (deep + 1)
    let rest ← f.forAllFrom fuel x deep n (i + 1)
    return { item := x + r, deep := deep } :: below ++ rest
end

mutual
/-- `ForAllChildrenRecursively_PostOrder`, bin_xml.cpp:306-318 -/
def Img.forAllPost (f : Img) : Nat → Int → Nat → Out (List Visit)
  | 0, _, _ => .ub
  | fuel + 1, x, deep => do
    let cc ← f.childcount x
    f.forAllPostFrom fuel x deep cc.toNat 0
/-- the loop, lines 310-317 -/
def Img.forAllPostFrom (f : Img) : Nat → Int → Nat → Nat → Nat → Out (List Visit)
  | _, _, _, 0, _ => return []
  | fuel, x, deep, n + 1, i => do
    let ca ← f.childrenAt x
    let r ← f.i32 (ca + 4 * i)
    let below ← f.forAllPost fuel (x + r) (deep + 1)
    let rest ← f.forAllPostFrom fuel x deep n (i + 1)
    return below ++ { item := x + r, deep := deep } :: rest
end

/-- `XML_MAX_DEEP`, bin_xml.h:27 -/
def XML_MAX_DEEP : Nat := 1024

mutual
/-- `ForAllChildrenRecursively_PostOrderA`, bin_xml.cpp:320-336, with an array `A` of `XML_MAX_DEEP` items; the calls and the array
afterwards. The function sees the whole array. -/
def Img.forAllPostA (f : Img) : Nat → Int → Nat → List Int → Out (List Visit × List Int)
  | 0, _, _, _ => .ub
  | fuel + 1, x, deep, A => do
    let A := if deep < XML_MAX_DEEP then A.set deep x else A
    let cc ← f.childcount x
    f.forAllPostAFrom fuel x deep cc.toNat 0 A
/-- the loop, lines 328-335 -/
def Img.forAllPostAFrom (f : Img) : Nat → Int → Nat → Nat → Nat → List Int → Out (List Visit × List Int)
  | _, _, _, 0, _, A => return ([], A)
  | fuel, x, deep, n + 1, i, A => do
    let ca ← f.childrenAt x
    let r ← f.i32 (ca + 4 * i)
    let (below, A) ← f.forAllPostA fuel (x + r) (deep + 1) A
    let (rest, B) ← f.forAllPostAFrom fuel x deep n (i + 1) A
    return (below ++ { item := x + r, deep := deep, above := A } :: rest, B)
end
end BX
