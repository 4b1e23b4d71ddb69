import Verif.Model.Image
import Verif.Model.ToText
/-
Printing an element tree as text. Models XML_Item::write, src/bin_xml.cpp:524-601, getStringChunk, src/bin_xml.cpp:172-184 and 355-369, and the
dispatch of XBT_ToStringChunk, src/bin_xml_types.cpp:800-1081.
-/
namespace BX
open XBT

/-- what one call of `XBT_ToStringChunk(type,data,offset,buffer,4097)` does for a stored value, bin_xml_types.cpp:800-1081: the returned length, the new
offset and the new content of the buffer (`b` is the old one). The digits of 64 bit numbers are made at the end of the buffer and moved to its front without a terminator, lines 916-936 and
940-966. GUIDs and digests are printed as a whole by the first call. The types of the `default` branch stop at its assertion. A text that does not end inside the value is not followed (`ub`). -/
def chunkOnce (gm : Gm) (flt : List UInt8 → CStr) (d : Data) (offset : Nat) (b : CStr) : Out (Nat × Nat × CStr) :=
  let k := b.length - 1
  let b0 := bufPut b k ['\x00']
  let digits (s : CStr) : CStr := bufPut (bufPut (bufPut b0 (k - 1) ['\x00']) (k - 1 - s.length) s) 0 s
  let once (s : CStr) (b' : CStr) : Out (Nat × Nat × CStr) := if offset > 0 then .ok (0, offset, b0) else .ok (s.length, 4, b')
  match d.type with
  | NULL => .ok (0, offset, b0)
  | STRING =>
    if (cPrefix d.bytes).length = d.bytes.length then .ub
    else do
      let r ← chunkStr (toC (cPrefix d.bytes)) offset b.length
      return (r.1, r.2.1, if r.1 = 0 then b0 else r.2.2 ++ List.replicate (b.length - r.2.2.length) '\x00')
  | BLOB_STRING =>
    if (cPrefix (d.bytes.drop 4)).length = (d.bytes.drop 4).length then .ub
    else do
      let r ← chunkStr (toC (cPrefix (d.bytes.drop 4))) offset b.length
      return (r.1, r.2.1, if r.1 = 0 then b0 else r.2.2 ++ List.replicate (b.length - r.2.2.length) '\x00')
  | BLOB => chunkBlob (d.bytes.drop 4) offset b
  | HEX =>
    let r := chunkHex (d.bytes.drop 4) offset
    .ok (r.1, r.2.1, bufPut b0 0 r.2.2)
  | INT64 => do
    let s ← printInt64Chunk (rdI64 d.bytes)
    if rdI64 d.bytes = 0 ∨ rdI64 d.bytes = -576460752303423488 then once s (bufPut b0 0 (s ++ ['\x00'])) else once s (digits s)
  | UINT64 =>
    let s := printUInt64Chunk (rdU64 d.bytes)
    if rdU64 d.bytes = 0 then once s (bufPut b0 0 (s ++ ['\x00'])) else once s (digits s)
  | t => do
    let s ← chunkText gm flt t d.bytes
    once s (bufPut b0 0 (s ++ ['\x00']))

/-- the loops over the chunks of a value, bin_xml.cpp:541-547, 576-582, 588-595: `os << buffer` prints the buffer up to its first NUL. `fuel` bounds the number of chunks. -/
def printLoop (gm : Gm) (flt : List UInt8 → CStr) (d : Data) : Nat → Nat → CStr → Out CStr
  | 0, _, _ => .ub
  | fuel+1, offset, b => do
    let r ← chunkOnce gm flt d offset b
    if r.1 = 0 then return []
    else do
      let s ← printLoop gm flt d fuel r.2.1 r.2.2
      return bufText r.2.2 ++ s

/-- the type and the bytes of an attribute that `XML_Param_Description::getStringChunk` prints, bin_xml.cpp:172-184: like `getData`, but the pointer is aligned by the type in
`XBT_ToStringChunk`, bin_xml_types.cpp:805-813, and a date has four bytes -/
def Img.pRawValue (f : Img) (x p : Int) : Out Data := do
  let c ← f.pType p
  match ofCode c with
  | none => .fail
  | some t => do
    let d ← f.pData p
    let a := if is4 t then p + 4 else x + d
    let q := if xalign t = 4 then aaI a else if xalign t = 8 then aa8I a else a
    if t = UNIX_DATE then do let b ← f.rd q 4; return ⟨t, b⟩ else f.content t q

/-- what the dump needs to know besides the file: the calendar and floating point functions of the C library, and what the local buffers contain before they are written (`junk x i` for
attribute `i` of the item at `x`, `junk x (-1)` for its value) -/
structure DumpEnv where
  gm : Gm
  flt : List UInt8 → CStr
  junk : Int → Int → CStr

/-- the loop over attributes, bin_xml.cpp:535-554; `n` attributes are left, `i` is the index of the next one -/
def Img.writeParams (f : Img) (v : DumpEnv) (r : Rd) (x : Int) (fuel : Nat) : Nat → Int → Out CStr
  | 0, _ => return []
  | n+1, i => do
    let a ← f.getParamByIndex x i
    match a with
    | none => .ub
    | some a => do
      let id ← f.pName a
      let nm ← f.getSymbol r.params id
      let d ← f.pRawValue x a
      let s ← printLoop v.gm v.flt d fuel 0 (v.junk x i)
      let rest ← f.writeParams v r x fuel n (i + 1)
      return ' ' :: toC nm ++ '=' :: '"' :: s ++ '"' :: rest

/-- the loop over children, bin_xml.cpp:559-566: `w` prints one of them, `fuel` bounds their number -/
def Img.writeKids (f : Img) (w : Int → Out CStr) (x : Int) : Nat → Int → Out CStr
  | 0, _ => .ub
  | fuel+1, idx => do
    let r ← f.getNextChild x idx
    match r.1 with
    | none => return []
    | some y => do
      let s ← w y
      let rest ← f.writeKids w x fuel r.2
      return s ++ rest

/-- `TAB`, bin_xml.cpp:533 -/
def tabs (deep : Nat) : CStr := List.replicate deep '\t'

/-- `XML_Item::write`, bin_xml.cpp:524-601 (without the messages of verbose readers). `fuel` bounds the depth of the recursion and the loops. -/
def Img.write (f : Img) (v : DumpEnv) (r : Rd) : Nat → Int → Nat → Out CStr
  | 0, _, _ => .ub
  | fuel+1, x, deep => do
    let id ← f.name x
    let nm ← f.getSymbol r.tags id
    let pc ← f.paramcount x
    let ps ← f.writeParams v r x fuel pc.toNat 0
    let cc ← f.childcount x
    let head := tabs deep ++ '<' :: toC nm ++ ps
    let close := '<' :: '/' :: toC nm ++ ['>', '\n']
    if cc > 0 then do
      let kids ← f.writeKids (fun y => Img.write f v r fuel y (deep + 1)) x fuel 0
      let d ← f.rawValue x
      let s ← printLoop v.gm v.flt d fuel 0 (v.junk x (-1))
      return head ++ '>' :: '\n' :: kids ++ tabs deep ++ s ++ '\n' :: tabs deep ++ close
    else do
      let d ← f.rawValue x
      let c ← chunkOnce v.gm v.flt d 0 (v.junk x (-1))
      if c.1 = 0 then return head ++ ['/', '>', '\n']
      else do
        let s ← printLoop v.gm v.flt d fuel 0 (v.junk x (-1))
        return head ++ '>' :: s ++ close

end BX
