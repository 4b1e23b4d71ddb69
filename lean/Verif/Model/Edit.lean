import Verif.Model.Copy
/-
Making elements with a value of a given type, and changing values of the children of an element. Models parts of src/bin_write_plugin.cpp.
-/
namespace BX
open XBT

/-- the argument of a call that makes an element. Pointers are the memory behind them (`none` is a null pointer), floating point numbers are
their bits. -/
inductive TagArg where
  /-- `tagStr`, bin_write_plugin.cpp:2383-2402 -/
  | str (value : Option (List UInt8))
  /-- `tagHexStr`, bin_write_plugin.cpp:2404-2408 -/
  | hexStr
  /-- `tagBLOB`, bin_write_plugin.cpp:2410-2428, for sizes that are not negative -/
  | blob (value : Option (List UInt8)) (size : Nat)
  /-- `tagHEX`, bin_write_plugin.cpp:2430-2448, for sizes that are not negative -/
  | hex (value : Option (List UInt8)) (size : Nat)
  /-- `tagInt32`, bin_write_plugin.cpp:2451-2465 -/
  | int32 (v : Int)
  /-- `tagUInt32`, bin_write_plugin.cpp:2467-2471 -/
  | uint32
  /-- `tagInt64`, bin_write_plugin.cpp:2473-2487 -/
  | int64 (v : Int)
  /-- `tagUInt64`, bin_write_plugin.cpp:2490-2494 -/
  | uint64
  /-- `tagFloat`, bin_write_plugin.cpp:2496-2510 -/
  | float (bits : Int)
  /-- `tagDouble`, bin_write_plugin.cpp:2512-2516 -/
  | double
  /-- `tagGUID`, bin_write_plugin.cpp:2518-2532 -/
  | guid (value : List UInt8)
  /-- `tagSHA1`, bin_write_plugin.cpp:2534-2548 -/
  | sha1 (value : List UInt8)
  /-- `tagTime`, bin_write_plugin.cpp:2552-2566 -/
  | time (v : Int)
  /-- `tagTime64`, bin_write_plugin.cpp:2568-2587 -/
  | time64 (v : Int)
  /-- `tagIPv4`, bin_write_plugin.cpp:2592-2596 -/
  | ipv4
  /-- `tagIPv6`, bin_write_plugin.cpp:2598-2602 -/
  | ipv6

/-- the type of the element made where the tag has type `t`, or `none` when the check of the type fails, bin_write_plugin.cpp:2385-2387, 2413, 2433,
2454, 2476, 2499, 2521, 2537, 2555, 2571; `NOT_IMPLEMENTED` is false -/
def TagArg.typeFor : TagArg → XBT → Option XBT
  | .str _, t => if t = STRING ∨ t = VARIANT then some STRING else if t = BLOB_STRING then some BLOB_STRING else none
  | .blob _ _, t => if t = BLOB ∨ t = VARIANT then some BLOB else none
  | .hex _ _, t => if t = HEX then some HEX else none
  | .int32 _, t => if is4 t ∨ t = VARIANT then some t else none
  | .int64 _, t => if t = INT64 ∨ t = VARIANT then some INT64 else none
  | .float _, t => if t = FLOAT then some FLOAT else none
  | .guid _, t => if t = GUID then some GUID else none
  | .sha1 _, t => if t = SHA1 then some SHA1 else none
  | .time _, t => if t = UNIX_TIME ∨ t = VARIANT then some UNIX_TIME else none
  | .time64 _, t => if t = UNIX_TIME64_MSEC ∨ t = VARIANT then some UNIX_TIME64_MSEC else none
  | .hexStr, _ | .uint32, _ | .uint64, _ | .double, _ | .ipv4, _ | .ipv6, _ => none

/-- the size given to `new_element`: the length of a text, the size of a block, otherwise 0 -/
def TagArg.size : TagArg → Nat
  | .str (some m) => (cPrefix m).length
  | .blob _ n | .hex _ n => n
  | _ => 0

/-- the space asked for in advance, bin_write_plugin.cpp:2390, 2415, 2435, 2456, 2478, 2501, 2523, 2539, 2557, 2579 -/
def TagArg.space : TagArg → Nat
  | .str (some m) => 0x4000 + 2 * (cPrefix m).length
  | .blob _ n | .hex _ n => 0x4000 + n + 4
  | .int64 _ | .time64 _ => 0x4000 + 8
  | _ => 0x4000 + 4

/-- the calls that are not implemented and return a null pointer -/
def TagArg.missing : TagArg → Bool
  | .hexStr | .uint32 | .uint64 | .double | .ipv4 | .ipv6 => true
  | _ => false

/-- the bytes stored behind the element (for types of variable size: behind their length). Reading beyond the given memory, or through a null
pointer, is undefined. -/
def TagArg.bytes : TagArg → Out (List UInt8)
  | .str (some m) => if (cPrefix m).length = m.length then .ub else .ok (cPrefix m ++ [0])
  | .str none => .ub
  | .blob (some m) n | .hex (some m) n => if m.length < n then .ub else .ok (m.take n)
  | .blob none n | .hex none n => .ok (List.replicate n 0)
  | .int32 v | .float v | .time v => .ok (le32 v)
  | .int64 v | .time64 v => .ok (le64 v)
  | .guid m => if m.length < 16 then .ub else .ok (m.take 16)
  | .sha1 m => if m.length < 20 then .ub else .ok (m.take 20)
  | .hexStr | .uint32 | .uint64 | .double | .ipv4 | .ipv6 => .ok []

/-- the calls `W.tag...(id, ...)` of the plugin, bin_write_plugin.cpp:2383-2602: the type of the tag is checked, space is asked for, a new element
is made. `none` is a null pointer. `tagBLOB` and `tagHEX` store the length that `new_element` has stored once more, which changes nothing.
Simplified: an argument that cannot be read is undefined even when there is no space for the element. -/
def Pool.tagArg (E : Env) (P : Pool) (id : Int) (w : TagArg) : Out (Pool × Option Nat) :=
  if w.missing then return (P, none)
  else do
    let t ← P.symType true id
    match t.bind w.typeFor with
    | none => return (P, none)
    | some t => do
      let bs ← w.bytes
      let r ← P.makeSpace E w.space
      if r.2 then r.1.make E id t w.size 1 (if isVarsize t then 4 else 0) bs else return (r.1, none)

/-! ### values of children -/

/-- the argument of a call `tag`, `tagSetInt32`, `tagSetInt64`, `tagSetString`, `tagSetTime` or `tagSetSHA1` of an element -/
inductive SetArg where
  | plain
  | int32 (v : Int)
  | int64 (v : Int)
  | str (value : Option (List UInt8))
  | time (v : Int)
  | sha1 (value : Option (List UInt8))

/-- the check of the type of the tag in `BW_pool::tag...`, bin_write_plugin.cpp:1708, 1718, 1731, 1744, 1758, 1771 -/
def SetArg.accepts : SetArg → XBT → Bool
  | .plain, t => t == NULL
  | .int32 _, t => is4 t
  | .int64 _, t => is8 t
  | .str _, t => t == STRING
  | .time _, t => t == UNIX_TIME
  | .sha1 _, t => t == SHA1

/-- the size given to `new_element`; for a text it is one more than its length -/
def SetArg.size : SetArg → Nat
  | .str (some m) => (cPrefix m).length + 1
  | .int64 _ => 8
  | _ => 0

/-- the bytes stored behind the element -/
def SetArg.bytes : SetArg → Out (List UInt8)
  | .plain => .ok []
  | .int32 v | .time v => .ok (le32 v)
  | .int64 v => .ok (le64 v)
  | .str (some m) => if (cPrefix m).length = m.length then .ub else .ok (cPrefix m ++ [0])
  | .sha1 (some m) => if m.length < 20 then .ub else .ok (m.take 20)
  | .str none | .sha1 none => .ub

/-- `BW_pool::tag`, `tagInt32`, `tagInt64`, `tagString`, `tagTime`, `tagSHA1`, bin_write_plugin.cpp:1706-1780. Simplified: an argument that cannot
be read is undefined even when there is no space for the element. -/
def Pool.poolTag (E : Env) (P : Pool) (id : Int) (w : SetArg) : Out (Pool × Option Nat) := do
  let t ← P.symType true id
  match t with
  | none => return (P, none)
  | some t =>
    if w.accepts t then do
      let bs ← w.bytes
      P.make E id t w.size 1 0 bs
    else return (P, none)

/-- the branch that makes a new element, for example bin_write_plugin.cpp:773-777: `add` ignores a null pointer -/
def Pool.tagNew (E : Env) (P : Pool) (p id : Int) (w : SetArg) : Out (Pool × Option Int) := do
  let r ← P.poolTag E id w
  let Q ← r.1.add p (r.2.map Int.ofNat)
  return (Q, r.2.map Int.ofNat)

/-- the branch that replaces the child `c`, for example bin_write_plugin.cpp:787-790: `replace` uses a null pointer, a violated assertion in it has
no effect; the old child is returned -/
def Pool.tagReplace (E : Env) (P : Pool) (p id c : Int) (w : SetArg) : Out (Pool × Option Int) := do
  let r ← P.poolTag E id w
  match r.2 with
  | none => .ub
  | some n =>
    match r.1.replace p c n with
    | .ok Q => return (Q, some c)
    | .fail => return (r.1, some c)
    | .ub => .ub

/-- a value of a child is overwritten -/
def Pool.tagWrite (P : Pool) (c : Int) (bs : List UInt8) : Out (Pool × Option Int) := do
  let Q ← P.wr (c + 24) bs
  return (Q, some c)

/-- the child `c` exists: `tag`, bin_write_plugin.cpp:761, `tagSetInt32`, 779-793, `tagSetInt64`, 807-821, `tagSetString`, 835-855,
`tagSetTime`, 862-866, `tagSetSHA1`, 880-887 -/
def Pool.tagExisting (E : Env) (P : Pool) (p id c : Int) (w : SetArg) : Out (Pool × Option Int) := do
  let t ← P.eType c
  match w with
  | .plain => return (P, some c)
  | .int32 v => if t = INT32.code then P.tagWrite c (le32 v) else P.tagReplace E p id c w
  | .int64 v => if t = INT64.code then P.tagWrite c (le64 v) else P.tagReplace E p id c w
  | .str v =>
    if t = STRING.code then do
      let old ← P.img.str (c + 24)
      match v with
      | none => .ub
      | some m =>
        if (cPrefix m).length = m.length then .ub
        else if ((cPrefix m).length + 1 + 3) / 4 ≤ (old.length + 1 + 3) / 4 then P.tagWrite c (cPrefix m ++ [0])
        else P.tagReplace E p id c w
    else P.tagReplace E p id c w
  | .time v => P.tagWrite c (le64 v)
  | .sha1 v =>
    if t = SHA1.code then
      match v with
      | none => P.tagWrite c (List.replicate 20 0)
      | some m => if m.length < 20 then .ub else P.tagWrite c (m.take 20)
    else return (P, none)

/-- the calls `p->tag(id)` and `p->tagSet...(id, ...)`, bin_write_plugin.cpp:757-895 -/
def Pool.tagSet (E : Env) (P : Pool) (p id : Int) (w : SetArg) (fuel : Nat) : Out (Pool × Option Int) := do
  let c ← P.find p 16 id fuel
  match c with
  | none => P.tagNew E p id w
  | some c => P.tagExisting E p id c w

/-! ### changing the text of an element -/

/-- the end of `setStr`, bin_write_plugin.cpp:1049-1060, for a text that does not fit: the attributes are taken away, the element is removed from
the parent, a new one is made and added, and gets the attributes. A null pointer from `tagStr` is used. -/
def Pool.setStrNew (E : Env) (P : Pool) (e p : Int) (m : List UInt8) : Out (Pool × Bool) := do
  let fa ← P.eAttr e
  let P ← P.wr (e + 20) (le32 0)
  let P ← P.remove p (some e)
  let id ← P.eId e
  let r ← P.tagArg E id (.str (some m))
  match r.2 with
  | none => .ub
  | some n => do
    let P ← r.1.add p (some (n : Int))
    let P ← P.wr (n + 20) (le32 fa)
    return (P, true)

/-- `BW_element::setStr`, bin_write_plugin.cpp:1027-1063, of the element `e` with parent `p`: `true` when the text has changed. `strcmp` with a null
pointer is undefined. -/
def Pool.setStr (E : Env) (P : Pool) (e p : Int) (value : Option (List UInt8)) : Out (Pool × Bool) := do
  let d ← P.getData e
  if d.type ≠ some STRING ∧ d.type ≠ some BLOB_STRING then return (P, false)
  else
    match value with
    | none => .ub
    | some m => do
      let old ← P.img.str d.content
      if (cPrefix m).length = m.length then .ub
      else if old = cPrefix m then return (P, false)
      else if ((cPrefix m).length : Int) + 1 ≤ d.contentSize then do
        let P ← P.wr d.content (cPrefix m ++ [0])
        return (P, true)
      else P.setStrNew E e p m

end BX
