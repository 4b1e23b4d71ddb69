import Verif.Model.Symbols
/-
Reading a binary document (.xb). Models src/bin_xml.cpp:25-109, 186-289, 338-396, 476-522, 642-716, 751-827, 884-918 and
include/binary_xml/bin_xml.h:33-72, 91-97, 143-188.
The mapped file starts at a page boundary, so the alignment of a pointer is the alignment of its offset in the file.
-/
namespace BX
open XBT

instance : Monad Out where
  pure := Out.ok
  bind := Out.bind
@[simp] theorem Out.ok_bind {α β : Type} (a : α) (f : α → Out β) : (Out.ok a >>= f) = f a := rfl
@[simp] theorem Out.fail_bind {α β : Type} (f : α → Out β) : ((Out.fail : Out α) >>= f) = .fail := rfl
@[simp] theorem Out.ub_bind {α β : Type} (f : α → Out β) : ((Out.ub : Out α) >>= f) = .ub := rfl
@[simp] theorem Out.pure_eq {α : Type} (a : α) : (pure a : Out α) = .ok a := rfl

/-- A mapped file: `XB_reader::doc` is address 0, `XB_reader::size` its size. Reading outside is undefined. -/
structure Img where
  mem : Mem
  size : Nat

/-- `n` bytes of memory from address `a` -/
def slice (m : Mem) (a n : Nat) : List UInt8 := (List.range n).map fun i => m (a + i)

/-- read `n` bytes at `a` -/
def Img.rd (f : Img) (a : Int) (n : Nat) : Out (List UInt8) :=
  if 0 ≤ a ∧ a + n ≤ f.size then .ok (slice f.mem a.toNat n) else .ub
/-- `*(uint8_t*)a` -/
def Img.u8 (f : Img) (a : Int) : Out UInt8 := do let l ← f.rd a 1; return l.headD 0
/-- `*(int16_t*)a` -/
def Img.i16 (f : Img) (a : Int) : Out Int := do let l ← f.rd a 2; return ofU 16 (rdN l)
/-- `*(int32_t*)a` -/
def Img.i32 (f : Img) (a : Int) : Out Int := do let l ← f.rd a 4; return ofU 32 (rdN l)
/-- the C string at `a` -/
def Img.str (f : Img) (a : Int) : Out BStr :=
  if 0 ≤ a then
    let l := slice f.mem a.toNat (f.size - a.toNat)
    let s := l.takeWhile (· ≠ 0)
    if s.length = l.length then .ub else .ok s
  else .ub
/-- `strnlen(a,max)` for a positive `max` -/
def Img.strnlen (f : Img) (a : Int) (max : Nat) : Out Nat :=
  if 0 ≤ a then
    let l := (slice f.mem a.toNat (f.size - a.toNat)).take max
    let s := l.takeWhile (· ≠ 0)
    if s.length < l.length then .ok s.length
    else if l.length = max then .ok max
    else .ub
  else .ub

/-- `AA` on a (possibly negative) offset -/
def aaI (a : Int) : Int := (a + 3) / 4 * 4
/-- `AA8` -/
def aa8I (a : Int) : Int := (a + 7) / 8 * 8

/-! ### items, bin_xml.h:91-97, 143-149 -/

/-- `XML_Item::name` -/
def Img.name (f : Img) (x : Int) : Out Int := f.i16 x
/-- `XML_Item::paramcount` -/
def Img.paramcount (f : Img) (x : Int) : Out Int := f.i16 (x + 2)
/-- `XML_Item::childcount` -/
def Img.childcount (f : Img) (x : Int) : Out Int := f.i32 (x + 4)
/-- `XML_Item::length` -/
def Img.length (f : Img) (x : Int) : Out Int := f.i32 (x + 8)

/-- `getParamByIndex`, bin_xml.cpp:212-219: address of the description (`none`: null pointer) -/
def Img.getParamByIndex (f : Img) (x : Int) (i : Int) : Out (Option Int) :=
  if i < 0 then return none
  else do
    let pc ← f.paramcount x
    if i ≥ pc then return none else return some (x + 12 + 8 * i)

/-- the loop of `getParamByName`, bin_xml.cpp:226-227; `n` parameters are left -/
def Img.findParam (f : Img) (code : Int) : Nat → Int → Out (Option Int)
  | 0, _ => return none
  | n+1, p => do
    let nm ← f.i16 p
    if nm = code then return some p else f.findParam code n (p + 8)

/-- `getParamByName`, bin_xml.cpp:221-229 -/
def Img.getParamByName (f : Img) (x : Int) (code : Int) : Out (Option Int) := do
  let pc ← f.paramcount x
  f.findParam code pc.toNat (x + 12)

/-- address of the children array, bin_xml.cpp:231-236 (if there are children) -/
def Img.childrenAt (f : Img) (x : Int) : Out Int := do
  let pc ← f.paramcount x
  return x + 12 + 8 * pc

/-- `getChildByIndex`, bin_xml.cpp:238-244 -/
def Img.getChildByIndex (f : Img) (x : Int) (i : Int) : Out (Option Int) := do
  let cc ← f.childcount x
  if i < 0 ∨ i ≥ cc then return none
  else do
    let ca ← f.childrenAt x
    let r ← f.i32 (ca + 4 * i)
    return some (x + r)

/-- the loop of `getChildByName`, bin_xml.cpp:251-255; `n` children are left -/
def Img.findChild (f : Img) (x code : Int) : Nat → Int → Out (Option Int)
  | 0, _ => return none
  | n+1, ca => do
    let r ← f.i32 ca
    let nm ← f.name (x + r)
    if nm = code then return some (x + r) else f.findChild x code n (ca + 4)

/-- `getChildByName`, bin_xml.cpp:246-257 -/
def Img.getChildByName (f : Img) (x : Int) (code : Int) : Out (Option Int) := do
  let cc ← f.childcount x
  if cc = 0 then return none
  else do
    let ca ← f.childrenAt x
    f.findChild x code cc.toNat ca

/-- `getNextChild`, bin_xml.cpp:259-289: the returned item and the new value of the iterator -/
def Img.getNextChild (f : Img) (x : Int) (i : Int) : Out (Option Int × Int) :=
  let appended (i : Int) : Out (Option Int × Int) :=
    let offset := aaI (-i)
    if offset + 12 > f.size then return (none, i)
    else do
      let len ← f.length offset
      if offset + len > f.size then return (none, i)
      else return (some offset, -(aaI (offset + len)))
  do
    let cc ← f.childcount x
    if i ≥ cc then return (none, i)
    else if i ≥ 0 then do
      let ca ← f.childrenAt x
      let r ← f.i32 (ca + 4 * i)
      let nm ← f.name (x + r)
      if nm ≠ -9 then return (some (x + r), i + 1)
      else do
        let len ← f.length 0
        appended (-len)
    else appended i

/-! ### values -/

/-- where the value of an item starts (its type byte), bin_xml.cpp:343-346 and the same lines in the other getters -/
def Img.valueAt (f : Img) (x : Int) : Out Int := do
  let pc ← f.paramcount x
  let cc ← f.childcount x
  return x + 12 + pc * 8 + cc * 4

/-- a typed block of bytes: `XML_Binary_Data_Ref` with the bytes it refers to -/
structure Data where
  type : XBT
  bytes : List UInt8
deriving DecidableEq, Repr

/-- content of a value of type `t` whose first byte is at `p`: size rules of `getData`, bin_xml.cpp:193-206 and 489-520.
`fail` is the failed assertion `size >= 0`. -/
def Img.content (f : Img) (t : XBT) (p : Int) : Out Data :=
  if is4 t then do let b ← f.rd p 4; return ⟨t, b⟩
  else if is8 t then do let b ← f.rd p 8; return ⟨t, b⟩
  else if t = STRING then do let s ← f.str p; return ⟨t, s ++ [0]⟩
  else if isVarsize t then do
    let n ← f.i32 p
    if 4 + n < 0 then .fail else do let b ← f.rd p (4 + n).toNat; return ⟨t, b⟩
  else if fixedSize t < 0 then .fail
  else do let b ← f.rd p (fixedSize t).toNat; return ⟨t, b⟩

/-- `XML_Item::getData`, bin_xml.cpp:476-522 -/
def Img.getData (f : Img) (x : Int) : Out Data := do
  let va ← f.valueAt x
  let c ← f.u8 va
  match ofCode c with
  | none => .fail
  | some t =>
    if is4 t then f.content t (aaI (va + 1))
    else if is8 t then f.content t (aa8I (va + 1))
    else if t = STRING then f.content t (va + 1)
    else f.content t (aaI (va + 1))

/-- the type and the bytes of the value `XML_Item::getString` and `getStringChunk` print, bin_xml.cpp:338-369: the pointer is
aligned by the type in `XBT_ToString`, bin_xml_types.cpp:700-706 (and 804-810); a date has four bytes there -/
def Img.rawValue (f : Img) (x : Int) : Out Data := do
  let va ← f.valueAt x
  let c ← f.u8 va
  match ofCode c with
  | none => .fail
  | some t =>
    let p := if xalign t = 4 then aaI (va + 1) else if xalign t = 8 then aa8I (va + 1) else va + 1
    if t = UNIX_DATE then do let b ← f.rd p 4; return ⟨t, b⟩ else f.content t p

/-- `XML_Item::getString` of a string value, bin_xml.cpp:338-353 (`none`: the value has another type) -/
def Img.getText (f : Img) (x : Int) : Out (Option BStr) := do
  let va ← f.valueAt x
  let c ← f.u8 va
  if c = STRING.code then do let s ← f.str (va + 1); return some s else return none

/-- `XML_Param_Description::name` -/
def Img.pName (f : Img) (p : Int) : Out Int := f.i16 p
/-- `XML_Param_Description::type` -/
def Img.pType (f : Img) (p : Int) : Out UInt8 := f.u8 (p + 2)
/-- `XML_Param_Description::data` -/
def Img.pData (f : Img) (p : Int) : Out Int := f.i32 (p + 4)

/-- `XML_Param_Description::getData`, bin_xml.cpp:186-208 -/
def Img.pGetData (f : Img) (x p : Int) : Out Data := do
  let c ← f.pType p
  match ofCode c with
  | none => .fail
  | some t =>
    if is4 t then f.content t (p + 4)
    else do
      let d ← f.pData p
      f.content t (x + d)

/-- bytes as the text functions see them -/
def toC (s : BStr) : CStr := s.map fun b => Char.ofNat b.toNat

/-- `INT32_NULL`, bin_xml.h:39 -/
def INT32_NULL : Int := -134217728

/-- `XML_Param_Description::getInt`, bin_xml.h:151-157 (`none`: null pointer) -/
def Img.pGetInt (f : Img) (x : Int) (p : Option Int) : Out Int :=
  match p with
  | none => return INT32_NULL
  | some p => do
    let t ← f.pType p
    if t = INT32.code then f.pData p
    else if t = STRING.code then do
      let d ← f.pData p
      let s ← f.str (x + d)
      atoi (toC s)
    else return INT32_NULL

/-- `XML_Item::getBinary`, bin_xml.cpp:371-396: address and size (`none`: null pointer) -/
def Img.getBinary (f : Img) (x : Int) : Out (Option (Int × Int)) := do
  let va ← f.valueAt x
  let c ← f.u8 va
  if c = BLOB.code then do
    let p := aaI (va + 1)
    let n ← f.i32 p
    return some (p + 4, n)
  else if c = STRING.code then do
    let s ← f.str (va + 1)
    return some (va + 1, s.length)
  else return none

/-! ### symbol tables, bin_xml.h:170-188 -/

/-- `_XB_symbol_table` after `Load` (`refs`/`types` are the addresses of the arrays, unused when `count = 0`) -/
structure RTab where
  x : Int := 0
  count : Int := 0
  refs : Option Int := none
  typeCount : Int := 0
deriving DecidableEq, Repr

/-- the loop of `Load`, bin_xml.cpp:671-679: symbols `s..`; `n` are left -/
def Img.loadLoop (f : Img) (x refs A0 A1 : Int) : Nat → Int → Out Bool
  | 0, _ => return true
  | n+1, s => do
    let r ← f.i32 (refs + 4 * s)
    let value := x + r
    if value < A0 then return false
    else if value ≥ A1 then return false
    else do
      let len ← f.strnlen value (A1 - value).toNat
      if len = (A1 - value).toNat then return false
      else f.loadLoop x refs A0 A1 n (s + 1)

/-- `_XB_symbol_table::Load`, bin_xml.cpp:642-681; `fail` is `false` -/
def Img.load (f : Img) (x : Int) : Out RTab := do
  let pc ← f.getParamByName x (-5)
  let count ← f.pGetInt x pc
  if count = INT32_NULL then .fail
  else if count = 0 then return { x := x }
  else do
    let pt ← f.getParamByName x (-7)
    let tc ← f.pGetInt x pt
    let tc := if tc = INT32_NULL then 0 else tc
    let b ← f.getBinary x
    match b with
    | none => .fail
    | some (refs, size) =>
      let A0 := refs + 4 * count + tc
      let A1 := refs + size
      if A0 > A1 then .fail
      else do
        let okk ← f.loadLoop x refs A0 A1 count.toNat 0
        if okk then return { x := x, count := count, refs := some refs, typeCount := tc } else .fail

/-- `XTNR2str`, bin_xml.cpp:884-900 -/
def xtnr2str (n : Int) : BStr :=
  if n = -1 then b8 "NULL"
  else if n = -2 then b8 "meta_root"
  else if n = -3 then b8 "tag_symbols"
  else if n = -4 then b8 "param_symbols"
  else if n = -5 then b8 "hash_index"
  else if n = -6 then b8 "payload"
  else if n = -7 then b8 "reference"
  else if n = -8 then b8 "processed"
  else if n = -9 then b8 "et-tecera"
  else if n = -10 then b8 "transaction"
  else b8 "__reserved__"

/-- `XPNR2str`, bin_xml.cpp:902-918 -/
def xpnr2str (n : Int) : BStr :=
  if n = -1 then b8 "NULL"
  else if n = -2 then b8 "name"
  else if n = -3 then b8 "hash"
  else if n = -4 then b8 "modified"
  else if n = -5 then b8 "count"
  else if n = -6 then b8 "version"
  else if n = -7 then b8 "type_count"
  else if n = -8 then b8 "id"
  else if n = -9 then b8 "author"
  else if n = -10 then b8 "time_ms"
  else b8 "__reserved__"

/-- `_XB_symbol_table::getSymbol`, bin_xml.cpp:683-688 (used for tags and for parameters) -/
def Img.getSymbol (f : Img) (t : RTab) (id : Int) : Out BStr :=
  if id < 0 then return xtnr2str id
  else if id ≥ t.count then return b8 "__out_of_range__"
  else match t.refs with
    | none => .ub
    | some refs => do
      let r ← f.i32 (refs + 4 * id)
      f.str (t.x + r)

/-- `_XB_symbol_table::getType`, bin_xml.cpp:690-696 -/
def Img.getType (f : Img) (t : RTab) (id : Int) : Out UInt8 :=
  if id < 0 then return 0
  else if id ≥ t.typeCount then return 0
  else match t.refs with
    | none => return 0
    | some refs => f.u8 (refs + 4 * t.count + id)

/-- the binary search of `getID`, bin_xml.cpp:701-714, where reading an entry may be undefined; `hi` is `E+1` -/
def bsearchO (cmp : Nat → Out Int) (B hi : Nat) : Out Int :=
  if h : B < hi then
    let M := (B + hi - 1) / 2
    match cmp M with
    | .ok c => if c < 0 then bsearchO cmp B M else if c > 0 then bsearchO cmp (M + 1) hi else .ok M
    | .fail => .fail
    | .ub => .ub
  else .ok (-1)
termination_by hi - B
decreasing_by all_goals omega

/-- `_XB_symbol_table::getID`, bin_xml.cpp:699-716 -/
def Img.getID (f : Img) (t : RTab) (name : BStr) : Out Int :=
  bsearchO (fun M => do let s ← f.getSymbol t M; return strcmpB name s) 0 t.count.toNat

/-! ### Check and Initialize -/

/-- types stored in the description itself, bin_xml.cpp:61-65 -/
def inlineCodes : List UInt8 := [NULL.code, INT32.code, FLOAT.code, UNIX_TIME.code, IPv4.code]

/-- the loop over parameters of `Check`, bin_xml.cpp:53-97: `some b` is `return b`, `none` the end of the loop.
`n` parameters are left, `p` is the address of the next description. -/
def Img.checkParams (f : Img) (x len pcount : Int) : Nat → Int → Out (Option Bool)
  | 0, _ => return none
  | n+1, p => do
    let nm ← f.pName p
    let c ← f.pType p
    if nm ≤ -11 then return some false
    else if nm ≥ pcount then return some false
    else if c ≥ LAST.code then return some false
    else if c ∈ inlineCodes then f.checkParams x len pcount n (p + 8)
    else do
      let d ← f.pData p
      if d < 0 then return some false
      else if d ≥ len then return some false
      else if c = STRING.code then do
        let k ← f.strnlen (x + d) (len - d).toNat
        return some (decide (k < (len - d).toNat))
      else if c = INT64.code ∨ c = UINT64.code ∨ c = UNIX_TIME64_MSEC.code ∨ c = DOUBLE.code then
        return some (decide (d + 8 ≤ toU 32 len))
      else if c = SHA1.code then return some (decide (d + 24 ≤ toU 32 len))
      else if c = GUID.code then return some (decide (d + 16 ≤ toU 32 len))
      else if c = IPv6.code then return some (decide (d + 16 ≤ toU 32 len))
      else return some false

/-- the loop over children of `Check`, bin_xml.cpp:100-106: `chk` is the check of one child, `n` children are left -/
def Img.checkChildren (f : Img) (chk : Int → Out Bool) (x : Int) : Nat → Int → Out Bool
  | 0, _ => return true
  | n+1, i => do
    let ch ← f.getChildByIndex x i
    match ch with
    | none => return false
    | some y => do
      let r ← chk y
      if r then f.checkChildren chk x n (i + 1) else return false

/-- `XML_Item::Check`, bin_xml.cpp:25-109. `tcount`/`pcount` are the numbers of symbols loaded so far. `fuel` bounds the depth
of the recursion; running out of it stands for the stack overflow of an endless recursion. -/
def Img.check (f : Img) (tcount pcount : Int) (recursive : Bool) : Nat → Int → Out Bool
  | 0, _ => .ub
  | fuel+1, x =>
    if x < 0 then return false
    else if x + 12 > f.size then return false
    else do
      let len ← f.length x
      if x + len > f.size then return false
      else if x % 4 ≠ 0 then return false
      else do
        let nm ← f.name x
        let pc ← f.paramcount x
        let cc ← f.childcount x
        if nm ≤ -11 then return false
        else if nm ≥ tcount then return false
        else if toU 64 (12 + pc * 8 + cc * 4) > toU 32 len then return false
        else do
          let r ← f.checkParams x len pcount pc.toNat (x + 12)
          match r with
          | some b => return b
          | none => if recursive then f.checkChildren (Img.check f tcount pcount recursive fuel) x cc.toNat 0 else return true

/-- an opened document -/
structure Rd where
  tags : RTab
  params : RTab
  root : Option Int
deriving DecidableEq, Repr

/-- `X->Check(this,false)` for a pointer that may be null; anything but `true` ends `Initialize` with `false` -/
def Img.checkPtr (f : Img) (tcount pcount : Int) (recursive : Bool) (fuel : Nat) : Option Int → Out Int
  | none => .fail
  | some x => do
    let r ← f.check tcount pcount recursive fuel x
    if r then return x else .fail

/-- `XB_reader::Initialize` after opening and mapping the file, bin_xml.cpp:797-826 (the conversion of other formats is not
part of it). Failed assertions count as failure. -/
def Img.initialize (f : Img) (fuel : Nat) : Out Rd :=
  if f.size ≤ 12 then .fail
  else do
    let nm ← f.name 0
    if nm ≠ -2 then .fail
    else do
      let _ ← f.checkPtr 0 0 false fuel (some 0)
      let p ← f.getChildByName 0 (-3)
      let x ← f.checkPtr 0 0 false fuel p
      let tags ← f.load x
      let p ← f.getChildByName 0 (-4)
      let x ← f.checkPtr tags.count 0 false fuel p
      let params ← f.load x
      let _ ← f.checkPtr tags.count params.count true fuel (some 0)
      let p ← f.getChildByName 0 (-6)
      match p with
      | none => return ⟨tags, params, none⟩
      | some x => do
        let r ← f.getChildByIndex x 0
        return ⟨tags, params, r⟩

end BX
