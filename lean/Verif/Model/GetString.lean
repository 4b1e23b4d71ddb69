import Verif.Model.Dump
/-
Texts given as pointers: `getString` of items and attributes. Models XBT_ToString, src/bin_xml_types.cpp:700-798, and src/bin_xml.cpp:149-161 and 338-353.
-/
namespace BX
open XBT

/-- the types that are printed into one of the buffers of `XBT_ToString`, bin_xml_types.cpp:717-738 -/
def buffered (t : XBT) : Bool :=
  match t with
  | GUID | INT32 | INT32_DECI | INT32_CENTI | INT32_MILI | INT32_MICRO | INT32_NANO | UINT32 | INT64 | UINT64 | FLOAT | UNIX_TIME | UNIX_DATE | UNIX_TIME64_MSEC | SHA1 => true
  | _ => false

/-- the new content of the buffer `b`, bin_xml_types.cpp:719, 741 and 989-995: a GUID is printed by `GUID2Str`, everything else by `XBT_ToStringChunk`, which leaves the
buffer alone for a date without a text (its returned length is not looked at). A date longer than the buffer would be written behind it. -/
def bufferPut (gm : Gm) (ftx : List UInt8 → CStr) (d : Data) (b : CStr) : Out CStr :=
  match d.type with
  | GUID => .ok (bufPut b 0 (guid2Str (d.bytes.take 16) ++ ['\x00']))
  | UNIX_DATE =>
    let b0 := bufPut b (b.length - 1) ['\x00']
    match unixDate2Str (rdI32 d.bytes) with
    | .ok s => if s.length + 1 ≤ b.length then .ok (bufPut b0 0 (s ++ ['\x00'])) else .ub
    | .fail => .ok b0
    | .ub => .ub
  | _ => do
    let r ← chunkOnce gm ftx d 0 b
    return r.2.2

/-- the lines of `XBT_HEX`, bin_xml_types.cpp:777-787; `n` bounds their number -/
def hexRows : Nat → List UInt8 → CStr
  | 0, _ => []
  | n + 1, bs => if bs = [] then [] else hex2Str (bs.take 16) ++ '\n' :: hexRows n (bs.drop 16)

/-- `XBT_ToString`, bin_xml_types.cpp:700-798, for the value of a type with the given bytes: the text at the returned pointer (`none`: a null pointer) and the buffers after
it. A BLOB_STRING of no bytes is read behind its end (`ub`). Simplification: the memory of `XBT_Buffer` (C48) is not part of the state, and it is always available. -/
def Texts.toStr (gm : Gm) (ftx : List UInt8 → CStr) (st : Texts) (d : Data) : Out (Option CStr × Texts) :=
  match d.type with
  | NULL => .ok (none, st)
  | STRING => .ok (some (toC (cPrefix d.bytes)), st)
  | BLOB_STRING =>
    if rdU32 d.bytes = 0 then .ub
    else if d.bytes.getD (4 + rdU32 d.bytes - 1) 1 = 0 then .ok (some (toC (cPrefix (d.bytes.drop 4))), st)
    else .ok (some [], st)
  | BLOB => if rdU32 d.bytes = 0 then .ok (none, st) else .ok (some (base64Encode (d.bytes.drop 4) (rdU32 d.bytes / 3 * 4 + 5)).1, st)
  | HEX => if rdU32 d.bytes = 0 then .ok (none, st) else .ok (some (hexRows (d.bytes.drop 4).length (d.bytes.drop 4)), st)
  | t =>
    if buffered t then do
      let b ← bufferPut gm ftx d (st.bufs.getD st.idx [])
      return (some (bufText b), ⟨st.bufs.set st.idx b, if st.idx + 1 ≥ 64 then 0 else st.idx + 1⟩)
    else .ok (none, st)

/-- `XML_Item::getString`, bin_xml.cpp:338-353 -/
def Img.itemString (gm : Gm) (ftx : List UInt8 → CStr) (f : Img) (x : Int) (st : Texts) : Out (Option CStr × Texts) := do
  let d ← f.rawValue x
  st.toStr gm ftx d

/-- `XML_Param_Description::getString` of the attribute at `p` of the item at `x`, bin_xml.cpp:149-161 -/
def Img.attrString (gm : Gm) (ftx : List UInt8 → CStr) (f : Img) (x p : Int) (st : Texts) : Out (Option CStr × Texts) := do
  let d ← f.pRawValue x p
  st.toStr gm ftx d

end BX
