import Verif.Model.Session
import Verif.Model.Value
/-
Attributes of the elements of a writable document: writing, reading, and searching for an element by an attribute. Models parts of
src/bin_write_plugin.cpp.
-/
namespace BX
open XBT

/-- the argument of a call that writes an attribute. Pointers are the memory behind them (`none` is a null pointer), floating point numbers
are their bits, ranges are their bytes. -/
inductive AttrArg where
  /-- `attrNull`, bin_write_plugin.cpp:223-244 -/
  | null
  /-- `attrStr`, bin_write_plugin.cpp:246-274 -/
  | str (value : Option (List UInt8))
  /-- `attrStr2`, bin_write_plugin.cpp:276-306 -/
  | str2 (range : Option (List UInt8))
  /-- `attrHexStr`, bin_write_plugin.cpp:308-314 -/
  | hexStr (value : Option (List UInt8))
  /-- `attrBLOB`, bin_write_plugin.cpp:316-345, for sizes that are not negative -/
  | blob (value : Option (List UInt8)) (size : Nat)
  /-- `attrHEX`, bin_write_plugin.cpp:347-376, for sizes that are not negative -/
  | hex (value : Option (List UInt8)) (size : Nat)
  /-- `attrInt32`, bin_write_plugin.cpp:379-400 -/
  | int32 (v : Int)
  /-- `attrUInt32`, bin_write_plugin.cpp:402-423 -/
  | uint32 (v : Int)
  /-- `attrInt64`, bin_write_plugin.cpp:425-448 -/
  | int64 (v : Int)
  /-- `attrUInt64`, bin_write_plugin.cpp:450-472 -/
  | uint64 (v : Int)
  /-- `attrFloat`, bin_write_plugin.cpp:474-492 -/
  | float (bits : Int)
  /-- `attrDouble`, bin_write_plugin.cpp:494-512 -/
  | double (bits : Int)
  /-- `attrGUID`, bin_write_plugin.cpp:514-532 -/
  | guid (value : List UInt8)
  /-- `attrSHA1`, bin_write_plugin.cpp:534-552 -/
  | sha1 (value : List UInt8)
  /-- `attrTime`, bin_write_plugin.cpp:554-579 -/
  | time (v : Int)
  /-- `attrTime64`, bin_write_plugin.cpp:581-607 -/
  | time64 (v : Int)
  /-- `attrIPv4`, bin_write_plugin.cpp:609-614 -/
  | ipv4
  /-- `attrIPv6`, bin_write_plugin.cpp:616-621 -/
  | ipv6

/-- null pointers to texts: nothing is added and the call succeeds, bin_write_plugin.cpp:249, 279-280, 311 -/
def AttrArg.nothing : AttrArg → Bool
  | .str none | .str2 none | .hexStr none => true
  | _ => false

/-- the check of the type of the attribute, bin_write_plugin.cpp:228-230, 253-257, 284-288, 312, 322-324, 353-355, 386, 408, 431-434, 456-458, 480,
500, 520, 540, 560-562, 587-589, 612, 619; `XBT_VARIANT` is never implemented -/
def AttrArg.accepts : AttrArg → XBT → Bool
  | .null, t => t == NULL
  | .str _, t => t == STRING
  | .str2 _, t => t == STRING
  | .blob _ _, t => t == BLOB
  | .hex _ _, t => t == HEX
  | .int32 _, t => t == INT32
  | .uint32 _, t => t == UINT32
  | .int64 _, t => is8 t
  | .uint64 _, t => t == UINT64
  | .float _, t => t == FLOAT
  | .double _, t => t == DOUBLE
  | .guid _, t => t == GUID
  | .sha1 _, t => t == SHA1
  | .time _, t => t == UNIX_TIME
  | .time64 _, t => t == UNIX_TIME64_MSEC
  | .hexStr _, _ | .ipv4, _ | .ipv6, _ => false

/-- the size given to `new_element`: the length of a text, the size of a block, otherwise 0 -/
def AttrArg.size : AttrArg → Nat
  | .str (some m) => (cPrefix m).length
  | .str2 (some m) => m.length
  | .blob _ n | .hex _ n => n
  | _ => 0

/-- the bytes stored behind the element (for blocks: behind their length). Reading beyond the given memory is undefined. -/
def AttrArg.bytes : AttrArg → Out (List UInt8)
  | .null => .ok []
  | .str (some m) => if (cPrefix m).length = m.length then .ub else .ok (cPrefix m ++ [0])
  | .str2 (some m) => .ok (cPrefix m ++ List.replicate (m.length - (cPrefix m).length) 0 ++ [0])
  | .blob (some m) n | .hex (some m) n => if m.length < n then .ub else .ok (m.take n)
  | .blob none n | .hex none n => .ok (List.replicate n 0)
  | .int32 v | .uint32 v | .float v | .time v => .ok (le32 v)
  | .int64 v | .uint64 v | .double v | .time64 v => .ok (le64 v)
  | .guid m => if m.length < 16 then .ub else .ok (m.take 16)
  | .sha1 m => if m.length < 24 then .ub else .ok (m.take 24)
  | .str none | .str2 none | .hexStr _ | .ipv4 | .ipv6 => .ok []

/-- the calls `p->attr...(id, ...)`, bin_write_plugin.cpp:223-621: the type of the attribute is checked, a new element is made and added
to the attributes. `true`: the call returned `p`; `false`: it returned a null pointer. -/
def Pool.attr (E : Env) (P : Pool) (p id : Int) (w : AttrArg) : Out (Pool × Bool) :=
  if w.nothing then return (P, true)
  else do
    let t ← P.symType false id
    match t with
    | none => return (P, false)
    | some t =>
      if w.accepts t then do
        let bs ← w.bytes
        let r ← P.make E id t w.size 0 (if isVarsize t then 4 else 0) bs
        match r.2 with
        | none => return (r.1, false)
        | some o => do
          let P ← r.1.add p (some (o : Int))
          return (P, true)
      else return (P, false)

/-- several calls on the same element -/
def Pool.attrs (E : Env) (P : Pool) (p : Int) : List (Int × AttrArg) → Out (Pool × List Bool)
  | [] => return (P, [])
  | (id, w) :: ws => do
    let r ← P.attr E p id w
    let s ← r.1.attrs E p ws
    return (s.1, r.2 :: s.2)

/-- the second half of `attrData`: `allocate8`, `init`, the value and `add`, bin_write_plugin.cpp:640-647, 653-660 -/
def Pool.attrBytes (P : Pool) (p id : Int) (t : XBT) (bs : List UInt8) : Out (Pool × Bool) := do
  let r ← P.makeData id t 0 bs
  match r.2 with
  | none => return (r.1, false)
  | some o => do
    let P ← r.1.add p (some (o : Int))
    return (P, true)

/-- `attrData`, bin_write_plugin.cpp:623-664, of data of type `dt` and the bytes `bs`. A text is converted to the type of the attribute in a
buffer of its own, whose address counts as 0 because `alloca` aligns it; a text without end is undefined. -/
def Pool.attrData (flt : CStr → List UInt8) (P : Pool) (p id : Int) (dt : XBT) (bs : List UInt8) : Out (Pool × Bool) := do
  let t ← P.symType false id
  if dt = STRING ∧ t ≠ some STRING then
    match t with
    | none => return (P, false)
    | some t =>
      if (cPrefix bs).length = bs.length then .ub
      else
        match fromString flt (toC (cPrefix bs)) t 0 (bs.length + 64) with
        | .ok w => P.attrBytes p id t w.bytes
        | .fail => return (P, false)
        | .ub => .ub
  else if t = some dt then P.attrBytes p id dt bs
  else return (P, false)

/-! ### reading -/

/-- `XML_Binary_Data_Ref`: the type and where the value and its content are -/
structure DataRef where
  type : Option XBT
  data : Int
  size : Int
  content : Int
  contentSize : Int
deriving DecidableEq

/-- `BW_element::getData`, bin_write_plugin.cpp:1001-1025; a type byte that is no type falls through all checks -/
def Pool.getData (P : Pool) (e : Int) : Out DataRef := do
  let c ← P.eType e
  match ofCode c with
  | none => return ⟨none, e + 24, -1, e + 24, -1⟩
  | some t =>
    if t = STRING then do
      let s ← P.img.str (e + 24)
      return ⟨some t, e + 24, 1 + s.length, e + 24, 1 + s.length⟩
    else if is4 t then return ⟨some t, e + 24, 4, e + 24, 4⟩
    else if isVarsize t then do
      let n ← P.img.i32 (e + 24)
      if isI32 (4 + n) then return ⟨some t, e + 24, 4 + n, e + 28, n⟩ else .ub
    else return ⟨some t, e + 24, fixedSize t, e + 24, fixedSize t⟩

/-- the typed accessors of an element -/
inductive Getter where
  | int32
  | float
  | time
  | int64
  | uint64
  | guid
  | str
deriving DecidableEq

/-- `BW_element::getSymbolType`, bin_write_plugin.h:180 -/
def Pool.elemSymType (P : Pool) (e : Int) : Out (Option XBT) := do
  let fl ← P.eFlags e
  let id ← P.eId e
  P.symType (fl &&& 1 ≠ 0) id

/-- `getInt32`, `getFloat`, `getTime`, `getInt64`, `getUInt64`, `getGUID`, `getStr`, bin_write_plugin.cpp:899-999: the address they return -/
def Pool.getPtr (P : Pool) (e : Int) (g : Getter) : Out (Option Int) := do
  let st ← P.elemSymType e
  let c ← P.eType e
  match g with
  | .int32 => return if (st.map is4).getD false then some (e + 24) else none
  | .float => return if st = some FLOAT then some (e + 24) else none
  | .time => return if st = some UNIX_TIME then some (e + 24) else none
  | .int64 => return if st = some INT64 ∨ ofCode c = some INT64 ∨ ofCode c = some UNIX_TIME64_MSEC then some (e + 24) else none
  | .uint64 => return if st = some UINT64 then some (e + 24) else none
  | .guid => return if st = some GUID then some (e + 24) else none
  | .str => return if ofCode c = some STRING then some (e + 24) else if ofCode c = some BLOB_STRING then some (e + 28) else none

/-! ### searching -/

/-- the memory behind an address, as far as the file reaches -/
def Pool.behind (P : Pool) (a : Nat) : List UInt8 := slice P.mem a (P.fileSize - a)

/-- the comparison of one attribute in `findChildByParam`, bin_write_plugin.cpp:1104-1107: sizes of the attribute are those of its type with
size 0 -/
def Pool.attrEquals (fcmp : Nat → List UInt8 → List UInt8 → Int) (P : Pool) (a : Int) (vt : XBT) (data : List UInt8) (dsize : Nat) : Out Bool := do
  let c ← P.eType a
  match ofCode c with
  | none => .ub
  | some t =>
    if size2 t 0 < 0 then .ub
    else return decide (compareV fcmp t (P.behind (a.toNat + 24)) (size2 t 0).toNat vt data dsize = 0)

/-- the tests of bin_write_plugin.cpp:1095 and 1102: the second condition is only looked at when the first holds -/
def andThen (c : Bool) (x : Out Bool) : Out Bool := if c then x else .ok false

/-- the inner loop of `findChildByParam`, bin_write_plugin.cpp:1098-1114, with `first` = `child->first_attribute` -/
def Pool.hasParamLoop (fcmp : Nat → List UInt8 → List UInt8 → Int) (P : Pool) (p first id : Int) (vt : XBT) (data : List UInt8) (dsize : Nat) : Nat → Int → Out Bool
  | 0, _ => .ub
  | fuel+1, a => do
    let i ← P.eId a
    let eq ← andThen (i = id) (P.attrEquals fcmp a vt data dsize)
    if eq then return true
    else do
      let nx ← P.eNext a
      if nx = first then return false
      else do
        let b ← P.bwe p nx
        P.hasParamLoop fcmp p first id vt data dsize fuel b

/-- an element has an attribute `id` of the given value, bin_write_plugin.cpp:1095-1115; `BWE` is the one of the parent `p` -/
def Pool.hasParam (fcmp : Nat → List UInt8 → List UInt8 → Int) (P : Pool) (p child id : Int) (vt : XBT) (data : List UInt8) (dsize fuel : Nat) : Out Bool := do
  let first ← P.eAttr child
  if first = 0 then return false
  else do
    let a ← P.bwe p first
    P.hasParamLoop fcmp p first id vt data dsize fuel a

/-- the outer loop of `findChildByParam`, bin_write_plugin.cpp:1093-1119 -/
def Pool.findByLoop (fcmp : Nat → List UInt8 → List UInt8 → Int) (P : Pool) (p first tag id : Int) (vt : XBT) (data : List UInt8) (dsize n : Nat) : Nat → Int → Out (Option Int)
  | 0, _ => .ub
  | fuel+1, c => do
    let i ← P.eId c
    let eq ← andThen (i = tag) (P.hasParam fcmp p c id vt data dsize n)
    if eq then return some c
    else do
      let nx ← P.eNext c
      if nx = first then return none
      else do
        let b ← P.bwe p nx
        P.findByLoop fcmp p first tag id vt data dsize n fuel b

/-- `findChildByParam`, bin_write_plugin.cpp:1085-1122 -/
def Pool.findByParam (fcmp : Nat → List UInt8 → List UInt8 → Int) (P : Pool) (p tag id : Int) (vt : XBT) (data : List UInt8) (dsize fuel : Nat) : Out (Option Int) := do
  let first ← P.eChild p
  if first = 0 then return none
  else do
    let c ← P.bwe p first
    P.findByLoop fcmp p first tag id vt data dsize fuel fuel c

end BX
