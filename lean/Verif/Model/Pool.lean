import Verif.Model.Create
/-
The writable document: a pool of memory mapped from a file, with elements linked in rings. Models src/bin_write_plugin.cpp (the pool,
its elements and the calls making and changing them) and include/binary_xml/bin_write_plugin.h.

A pool is the bytes of the mapped file (address 0 is the start of `BW_pool`) and the fields of its header (bytes 0 to 91), kept
apart from the bytes. Reading or writing outside of the file is undefined. A pointer to an element is its offset, `none` the null
pointer. Error messages are not modelled; `assert` is compiled out, `ASSERT_NO_...` returns.
-/
namespace BX
open XBT

/-- `BW_symbol_table_16B`, bin_write_plugin.h:80-94; `fast` is the bit `BW_SYMBOLS_FAST_REG` of `flags` -/
structure Tab16 where
  maxId : Int
  names : Nat
  index : Nat
  fast : Bool
deriving DecidableEq

/-- `BW_pool`, bin_write_plugin.h:96-116; `size`, `master_xb_size` and the identification are not modelled -/
structure Pool where
  mem : Mem
  fileSize : Nat
  mmapSize : Nat
  root : Nat
  alloc : Nat
  limit : Nat
  tags : Tab16
  params : Tab16

/-- `sizeof(BW_pool)` -/
def poolHeader : Nat := 92

/-- what is outside of the pool: the registry finds the plugin of this pool (see C40), and whether `ftruncate` to a size succeeds -/
structure Env where
  plugin : Bool
  trunc : Nat → Bool

/-- the readable memory -/
def Pool.img (P : Pool) : Img := ⟨P.mem, P.fileSize⟩
/-- writing into the file -/
def Pool.wr (P : Pool) (a : Int) (bs : List UInt8) : Out Pool :=
  if a < 0 then .ub else do let m ← put P.fileSize P.mem a.toNat bs; return { P with mem := m }

/-- `InitEmptyFile`, bin_write_plugin.cpp:1926-1954: the content of a fresh pool, mapped for `maxSize` bytes -/
def Pool.empty (maxSize : Nat) : Pool :=
  ⟨fun _ => 0, 0x4000, maxSize, 0, poolHeader, 0x4000, ⟨-1, 0, 0, false⟩, ⟨-1, 0, 0, false⟩⟩

/-- `BW_pool::allocate`, bin_write_plugin.cpp:1630-1644 -/
def Pool.allocate (P : Pool) (size : Int) : Out (Pool × Option Nat) :=
  if size ≤ 0 then .ok (P, none)
  else if INT_MAX < size + 3 then .ub
  else
    let s := aa size.toNat
    if INT_MAX < (P.alloc + s : Nat) then .ub
    else if P.limit < P.alloc + s then .ok (P, none)
    else do
      let m ← put P.fileSize P.mem P.alloc (List.replicate s 0)
      return ({ P with mem := m, alloc := P.alloc + s }, some P.alloc)

/-- `BW_pool::allocate8`, bin_write_plugin.cpp:1646-1661 -/
def Pool.allocate8 (P : Pool) (size : Int) : Out (Pool × Option Nat) :=
  if size ≤ 0 then .ok (P, none)
  else if INT_MAX < (P.alloc : Int) + 7 ∨ INT_MAX < size + 7 then .ub
  else
    let P := { P with alloc := aa8 P.alloc }
    let s := aa8 size.toNat
    if INT_MAX < (P.alloc + s : Nat) then .ub
    else if P.limit < P.alloc + s then .ok (P, none)
    else do
      let m ← put P.fileSize P.mem P.alloc (List.replicate s 0)
      return ({ P with mem := m, alloc := P.alloc + s }, some P.alloc)

/-- `BW_plugin::makeSpace`, bin_write_plugin.cpp:1988-2003; the new part of the file is filled with zeros -/
def Pool.makeSpace (E : Env) (P : Pool) (size : Nat) : Out (Pool × Bool) :=
  if INT_MAX < ((P.alloc + 4095 + size : Nat) : Int) then .ub
  else
    let new := (P.alloc + 4095 + size) / 4096 * 4096
    if P.mmapSize < new then .ok (P, false)
    else if new ≤ P.fileSize then .ok (P, true)
    else if E.trunc new = false then .ok (P, false)
    else .ok ({ P with mem := fun i => if P.fileSize ≤ i ∧ i < new then 0 else P.mem i, fileSize := new, limit := new }, true)

/-- `align == 8 ? allocate8(size) : allocate(size)`, bin_write_plugin.cpp:1674, 1680 -/
def Pool.allocFor (P : Pool) (t : XBT) (size : Int) : Out (Pool × Option Nat) :=
  if xalign t = 8 then P.allocate8 size else P.allocate size

/-- the allocation in `new_element`, with a second attempt after the file has grown, bin_write_plugin.cpp:1674-1683 -/
def Pool.allocGrow (E : Env) (P : Pool) (t : XBT) (size : Nat) : Out (Pool × Option Nat) := do
  let r ← P.allocFor t size
  match r.2 with
  | some o => return (r.1, some o)
  | none =>
    if E.plugin = false then return (r.1, none)
    else do
      let s ← r.1.makeSpace E size
      if s.2 = false then return (s.1, none) else s.1.allocFor t size

/-- `BW_pool::new_element`, bin_write_plugin.cpp:1663-1690 -/
def Pool.newElement (E : Env) (P : Pool) (t : XBT) (size : Nat) : Out (Pool × Option Nat) :=
  if size2 t size < 0 then .ok (P, none)
  else do
    let r ← P.allocGrow E t (24 + (size2 t size).toNat)
    match r.2 with
    | none => return (r.1, none)
    | some o => do
      let P ← r.1.wr (o + 7) [t.code]
      let P ← P.wr (o + 12) (le32 o)
      let P ← P.wr (o + 8) (le32 o)
      let P ← P.wr o (le32 o)
      if isVarsize t then do
        let P ← P.wr (o + 24) (le32 (size2 t size - 4))
        return (P, some o)
      else return (P, some o)

/-- `BW_element::init`, bin_write_plugin.cpp:57-86; `flags` is 1 for a tag, 0 for an attribute -/
def Pool.initElem (P : Pool) (o : Nat) (id : Int) (t : XBT) (flags : UInt8) : Out Pool :=
  P.wr o (le32 o ++ leN 2 (toU 16 id) ++ [flags, t.code] ++ le32 o ++ le32 o ++ le32 0 ++ le32 0)

/-- making an element with its value, as all of `tag`, `tagStr`, …, `attrNull`, `attrStr`, … do it (for example
bin_write_plugin.cpp:336-349): `new_element`, `init`, and the value `bs` stored `off` bytes (0, or 4 behind the length of a `BLOB`)
behind the element. The call of `makeSpace` in advance and the check of the registered type are separate. -/
def Pool.make (E : Env) (P : Pool) (id : Int) (t : XBT) (size : Nat) (flags : UInt8) (off : Nat) (bs : List UInt8) : Out (Pool × Option Nat) := do
  let r ← P.newElement E t size
  match r.2 with
  | none => return (r.1, none)
  | some o => do
    let P ← r.1.initElem o id t flags
    let P ← P.wr (o + 24 + off) bs
    return (P, some o)

/-! ### fields of an element, bin_write_plugin.h:151-176 -/
def Pool.eOffset (P : Pool) (o : Int) : Out Int := P.img.i32 o
def Pool.eId (P : Pool) (o : Int) : Out Int := P.img.i16 (o + 4)
def Pool.eFlags (P : Pool) (o : Int) : Out UInt8 := P.img.u8 (o + 6)
def Pool.eType (P : Pool) (o : Int) : Out UInt8 := P.img.u8 (o + 7)
def Pool.eNext (P : Pool) (o : Int) : Out Int := P.img.i32 (o + 8)
def Pool.ePrev (P : Pool) (o : Int) : Out Int := P.img.i32 (o + 12)
def Pool.eChild (P : Pool) (o : Int) : Out Int := P.img.i32 (o + 16)
def Pool.eAttr (P : Pool) (o : Int) : Out Int := P.img.i32 (o + 20)

/-- `BW_element::BWE` of the element at `o`, bin_write_plugin.cpp:93-96 -/
def Pool.bwe (P : Pool) (o x : Int) : Out Int := do
  let off ← P.eOffset o
  return o - off + x

/-- the field holding the list an element with these flags belongs to: `first_child` or `first_attribute` -/
def listField (flags : UInt8) : Nat := if flags &&& 1 ≠ 0 then 16 else 20

/-- `BW_element::join`, bin_write_plugin.cpp:103-128; `fail` is a violated assertion -/
def Pool.join (P : Pool) (a b : Int) : Out Pool := do
  let ap ← P.ePrev a
  let bp ← P.ePrev b
  let ao ← P.eOffset a
  let bo ← P.eOffset b
  if ap = 0 ∨ bp = 0 ∨ ao = 0 ∨ bo = 0 then .fail
  else do
    let P ← P.wr (a + 12) (le32 bp)
    let P ← P.wr (b + 12) (le32 ap)
    let x ← P.bwe a bp
    let P ← P.wr (x + 8) (le32 ao)
    let y ← P.bwe a ap
    P.wr (y + 8) (le32 bo)

/-- `BW_element::add`, bin_write_plugin.cpp:130-141; the result of `join` is not used -/
def Pool.add (P : Pool) (p : Int) (tag : Option Int) : Out Pool :=
  match tag with
  | none => return P
  | some t => do
    let fl ← P.eFlags t
    let first ← P.img.i32 (p + listField fl)
    if first = 0 then do
      let off ← P.eOffset t
      P.wr (p + listField fl) (le32 off)
    else do
      let h ← P.bwe p first
      match P.join h t with
      | .fail => return P
      | r => r

/-- the new first element when `tag`, the first of a list, is removed, bin_write_plugin.cpp:150-156 -/
def Pool.removeHead (P : Pool) (p : Int) (field : Nat) (t off first : Int) : Out Pool :=
  if first = off then do
    let nx ← P.eNext t
    let pv ← P.ePrev t
    P.wr (p + field) (le32 (if nx = off ∧ pv = off then 0 else nx))
  else return P

/-- `BW_element::remove`, bin_write_plugin.cpp:143-162 -/
def Pool.remove (P : Pool) (p : Int) (tag : Option Int) : Out Pool :=
  match tag with
  | none => return P
  | some t => do
    let fl ← P.eFlags t
    let first ← P.img.i32 (p + listField fl)
    if first = 0 then return P
    else do
      let off ← P.eOffset t
      let P ← P.removeHead p (listField fl) t off first
      let pv ← P.ePrev t
      let nx ← P.eNext t
      let x ← P.bwe p pv
      let P ← P.wr (x + 8) (le32 nx)
      let nx ← P.eNext t
      let pv ← P.ePrev t
      let y ← P.bwe p nx
      let P ← P.wr (y + 12) (le32 pv)
      let P ← P.wr (t + 12) (le32 off)
      let P ← P.wr (t + 8) (le32 off)
      let fl ← P.eFlags t
      P.wr (t + 6) [fl ||| 8]

/-- the last lines of `replace`, bin_write_plugin.cpp:182-185: a list beginning with `oldOff` begins with `newOff` -/
def Pool.replaceHead (P : Pool) (p : Int) (field : Nat) (oldOff newOff : Int) : Out Pool := do
  let first ← P.img.i32 (p + field)
  if first = oldOff then P.wr (p + field) (le32 newOff) else return P

/-- `BW_element::replace`, bin_write_plugin.cpp:164-188; both elements are of one pool; `fail` is a violated assertion -/
def Pool.replace (P : Pool) (p old new : Int) : Out Pool := do
  let no ← P.eOffset new
  let nn ← P.eNext new
  let np ← P.ePrev new
  if nn ≠ no ∨ np ≠ no then .fail
  else do
    let on ← P.eNext old
    let P ← P.wr (new + 8) (le32 on)
    let op ← P.ePrev old
    let P ← P.wr (new + 12) (le32 op)
    let nn ← P.eNext new
    let x ← P.bwe p nn
    let P ← P.wr (x + 12) (le32 no)
    let np ← P.ePrev new
    let y ← P.bwe p np
    let P ← P.wr (y + 8) (le32 no)
    let fl ← P.eFlags old
    let P ← P.wr (old + 6) [fl ||| 8]
    let oo ← P.eOffset old
    let P ← P.wr (old + 12) (le32 oo)
    let P ← P.wr (old + 8) (le32 oo)
    let P ← P.replaceHead p 16 oo no
    P.replaceHead p 20 oo no

/-! ### enumeration -/

/-- `BW_element::NextChild`, bin_write_plugin.cpp:689-707: the element (or null) and the new value of `offset` -/
def Pool.nextChild (P : Pool) (p offset : Int) : Out (Option Int × Int) := do
  let fc ← P.eChild p
  if offset = 0 then
    if fc = 0 then return (none, offset) else do
      let x ← P.bwe p fc
      return (some x, fc)
  else do
    let prev ← P.bwe p offset
    let nx ← P.eNext prev
    if nx = fc then return (none, offset)
    else do
      let x ← P.bwe p nx
      return (some x, nx)

/-- `BW_element::PrevChild`, bin_write_plugin.cpp:709-723 -/
def Pool.prevChild (P : Pool) (p offset : Int) : Out (Option Int × Int) := do
  let fc ← P.eChild p
  if offset = 0 then
    if fc = 0 then return (none, offset) else do
      let first ← P.bwe p fc
      let pv ← P.ePrev first
      let x ← P.bwe p pv
      return (some x, pv)
  else if offset = fc then return (none, offset)
  else do
    let e ← P.bwe p offset
    let pv ← P.ePrev e
    let x ← P.bwe p pv
    return (some x, pv)

/-- the loop `BW_FOREACH2`, bin_write_plugin.h:239: the elements visited from `offset` on; running out of `fuel` stands for a loop
that does not end -/
def Pool.forwards (P : Pool) (p : Int) : Nat → Int → Out (List Int)
  | 0, _ => .ub
  | fuel+1, offset => do
    let r ← P.nextChild p offset
    match r.1 with
    | none => return []
    | some x => do
      let rest ← P.forwards p fuel r.2
      return x :: rest

/-- the loop `BW_FOREACH2_REV`, bin_write_plugin.h:240 -/
def Pool.backwards (P : Pool) (p : Int) : Nat → Int → Out (List Int)
  | 0, _ => .ub
  | fuel+1, offset => do
    let r ← P.prevChild p offset
    match r.1 with
    | none => return []
    | some x => do
      let rest ← P.backwards p fuel r.2
      return x :: rest

/-- the loop `for(;;) { visit(A); if (A->next == first) break; A = BWE(A->next); }` used by `attrGet`, `tagGet`, `findChildByTag`,
`findAttr`, `findChildByParam`, `ForAllChildren` and `ForAllBinParams`: the elements visited. `BWE` is that of element `p`. -/
def Pool.ringLoop (P : Pool) (p first : Int) : Nat → Int → Out (List Int)
  | 0, _ => .ub
  | fuel+1, a => do
    let nx ← P.eNext a
    if nx = first then return [a]
    else do
      let b ← P.bwe p nx
      let rest ← P.ringLoop p first fuel b
      return a :: rest

/-- the elements of the list at `field` (16: children, 20: attributes) of `p` in the order of that loop -/
def Pool.listAt (P : Pool) (p : Int) (field : Nat) (fuel : Nat) : Out (List Int) := do
  let first ← P.img.i32 (p + field)
  if first = 0 then return []
  else do
    let a ← P.bwe p first
    P.ringLoop p first fuel a

/-- the loop of `attrGet`, `tagGet` …: the first element with the identification `id` -/
def Pool.findLoop (P : Pool) (p first id : Int) : Nat → Int → Out (Option Int)
  | 0, _ => .ub
  | fuel+1, a => do
    let i ← P.eId a
    if i = id then return some a
    else do
      let nx ← P.eNext a
      if nx = first then return none
      else do
        let b ← P.bwe p nx
        P.findLoop p first id fuel b

/-- `attrGet` (`field` 20), bin_write_plugin.cpp:673-687, `findAttr`, 1124-1141, `tagGet` (`field` 16), 727-741,
`findChildByTag`, 1065-1083 -/
def Pool.find (P : Pool) (p : Int) (field : Nat) (id : Int) (fuel : Nat) : Out (Option Int) := do
  let first ← P.img.i32 (p + field)
  if first = 0 then return none
  else do
    let a ← P.bwe p first
    P.findLoop p first id fuel a

end BX
