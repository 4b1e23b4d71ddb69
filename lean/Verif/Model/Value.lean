import Verif.Model.Dates
import Verif.Model.Base64
/-
Binary values: conversion from text, copying, comparison, and the text buffers used for printing.
Models src/bin_xml_types.cpp:258-307, 439-470, 503-656, 700-830, 1012-1031, 1083-1115, 1231-1247.
-/
namespace BX
open XBT

/-! ### XBT_FromString -/

/-- Effect of a successful `XBT_FromString`: the value is written at `start` (after alignment), the write pointer ends
behind it, and the `scratch` bytes following it have been zeroed (only `XBT_HEX`, whose `ScanHex` clears all the room). -/
structure Wr where
  start : Nat
  bytes : List UInt8
  scratch : Nat := 0
deriving DecidableEq, Repr

/-- bytes of a C string including the terminator -/
def cBytes (s : CStr) : List UInt8 := s.map (fun c => UInt8.ofNat c.toNat) ++ [0]

/-- `XBT_FromString(src,type,&wp,limit)`, bin_xml_types.cpp:503-656, at address `wp`. `flt` is `(float)atof(src)` as the
four stored bytes (floating point is not modelled). Only `XBT_HEX` looks at `limit`: when it is not behind the size field,
`ScanHex`'s `memset` gets a negative size (undefined). -/
def fromString (flt : CStr → List UInt8) (src : CStr) (t : XBT) (wp limit : Nat) : Out Wr :=
  match t with
  | NULL => if src = [] then .ok ⟨wp, [], 0⟩ else .fail
  | INT32 => (atoi src).bind fun v => .ok ⟨aa wp, le32 v, 0⟩
  | INT32_DECI => (str2dec src 1).bind fun v => .ok ⟨aa wp, le32 v, 0⟩
  | INT32_CENTI => (str2dec src 2).bind fun v => .ok ⟨aa wp, le32 v, 0⟩
  | INT32_MILI => (str2dec src 3).bind fun v => .ok ⟨aa wp, le32 v, 0⟩
  | INT32_MICRO => (str2dec src 6).bind fun v => .ok ⟨aa wp, le32 v, 0⟩
  | INT32_NANO => (str2dec src 9).bind fun v => .ok ⟨aa wp, le32 v, 0⟩
  | IPv4 => (scanIPv4 src).bind fun v => .ok ⟨aa wp, leN 4 v.1, 0⟩
  | INT64 => (scanInt64 src).bind fun v => .ok ⟨aa8 wp, le64 v.1, 0⟩
  | UINT64 => (scanUInt64 src).bind fun v => .ok ⟨aa8 wp, leN 8 v.1, 0⟩
  | STRING => .ok ⟨wp, cBytes src, 0⟩
  | GUID =>
    let r := scanHex src 16
    if r.1 = 16 then .ok ⟨aa wp, r.2, 0⟩ else .fail
  | SHA1 =>
    let r := scanHex src 20
    if r.1 = 20 then .ok ⟨aa wp, r.2, 0⟩ else .fail
  | HEX =>
    if limit < aa wp + 4 then .ub else
    let room := limit - (aa wp + 4)
    let r := scanHex src room
    .ok ⟨aa wp, leN 4 r.1 ++ r.2.take r.1, room - r.1⟩
  | FLOAT => .ok ⟨aa wp, flt src, 0⟩
  | UNIX_TIME => (scanUnixTime src).bind fun v => .ok ⟨aa wp, leN 4 v.1, 0⟩
  | UNIX_TIME64_MSEC => (scanUnixTime64msec src).bind fun v => .ok ⟨aa wp, le64 v, 0⟩
  | UNIX_DATE => (scanUnixDate src).bind fun v => .ok ⟨aa wp, le32 v.1, 0⟩
  | _ => .fail

/-! ### XBT_Compare -/

/-- sign of a comparison -/
def sgnCmp (lt gt : Bool) : Int := if lt then -1 else if gt then 1 else 0

/-- `memcmp` on two equally long byte blocks (sign only) -/
def memcmpB : List UInt8 → List UInt8 → Int
  | a :: as, b :: bs => if a.toNat < b.toNat then -1 else if b.toNat < a.toNat then 1 else memcmpB as bs
  | _, _ => 0

/-- `strcmp` on byte strings (contents before the terminator, sign only): the missing byte is the terminating zero -/
def strcmpB : List UInt8 → List UInt8 → Int
  | [], [] => 0
  | [], b :: _ => if 0 < b.toNat then -1 else 0
  | a :: _, [] => if 0 < a.toNat then 1 else 0
  | a :: as, b :: bs => if a.toNat < b.toNat then -1 else if b.toNat < a.toNat then 1 else strcmpB as bs

/-- C string at the beginning of a memory block -/
def cPrefix (m : List UInt8) : List UInt8 := m.takeWhile (· ≠ 0)

/-- `INT_NULL_VALUE` -/
def INT_NULL_VALUE : Int := -2147483648

/-- `RETURN_COMPARE_OF_TYPE`, bin_xml_types.cpp:260-264, for an integer reading of the bytes -/
def cmpAs (rd : List UInt8 → Int) (size : Nat) (A B : List UInt8) (asz bsz : Nat) : Int :=
  if asz ≠ size ∨ bsz ≠ size then INT_NULL_VALUE
  else sgnCmp (rd A < rd B) (rd A > rd B)

/-- `XBT_Compare`, bin_xml_types.cpp:258-307. `A`/`B` are the memory at the value pointers; `fcmp n` is the comparison of
floating point numbers of `n` bytes (not modelled). `memcmp` looks at the given sizes. -/
def compareV (fcmp : Nat → List UInt8 → List UInt8 → Int) (at_ : XBT) (A : List UInt8) (asz : Nat)
    (bt : XBT) (B : List UInt8) (bsz : Nat) : Int :=
  if at_ = bt then
    match at_ with
    | INT32 | INT32_DECI | INT32_CENTI | INT32_MILI | INT32_MICRO | INT32_NANO | UNIX_DATE => cmpAs rdI32 4 A B asz bsz
    | UINT32 | UNIX_TIME => cmpAs (fun m => (rdU32 m : Int)) 4 A B asz bsz
    | UNIX_TIME64_MSEC | INT64 => cmpAs rdI64 8 A B asz bsz
    | UINT64 => cmpAs (fun m => (rdU64 m : Int)) 8 A B asz bsz
    | FLOAT => if asz ≠ 4 ∨ bsz ≠ 4 then INT_NULL_VALUE else fcmp 4 A B
    | DOUBLE => if asz ≠ 8 ∨ bsz ≠ 8 then INT_NULL_VALUE else fcmp 8 A B
    | STRING | BLOB_STRING => strcmpB (cPrefix A) (cPrefix B)
    | HEX | GUID | SHA1 | IPv4 | IPv6 => if asz = bsz then memcmpB (A.take asz) (B.take bsz) else INT_NULL_VALUE
    | _ => INT_NULL_VALUE
  else if asz = bsz then memcmpB (A.take asz) (B.take bsz)
  else INT_NULL_VALUE

/-! ### XBT_Copy -/

/-- byte-addressed memory -/
abbrev Mem := Nat → UInt8

/-- `memcpy(dst,src,n)` from a source block given by its bytes -/
def memPut (m : Mem) (dst : Nat) (bs : List UInt8) : Mem :=
  fun a => if dst ≤ a ∧ a < dst + bs.length then bs.getD (a - dst) 0 else m a

/-- `XBT_Copy(src,type,size,&wp,limit)`, bin_xml_types.cpp:439-470: `src` is the readable memory at the source pointer.
Returns the new memory and write pointer. A negative `value_size` (failed assertion in `XBT_Size2`) given to `memcpy` and
reading or `strcpy`-ing beyond the given source bytes is undefined. -/
def xbtCopy (m : Mem) (src : List UInt8) (t : XBT) (size wp limit : Nat) : Out (Mem × Int) :=
  let value_size := size2 t size
  let align_size := xalign t
  if (limit : Int) - wp < value_size + align_size then .fail
  else if t = STRING then
    let s := cPrefix src
    if s.length = src.length then .ub   -- no terminator in the readable source
    else .ok (memPut m wp (s ++ [0]), (wp : Int) + value_size)
  else if align_size = 4 ∨ align_size = 8 then
    let wp' := if align_size = 4 then aa wp else aa8 wp
    if value_size < 0 ∨ src.length < value_size.toNat then .ub
    else .ok (memPut m wp' (src.take value_size.toNat), (wp' : Int) + value_size)
  else .ok (m, (wp : Int) + value_size)

/-! ### XBT_Buffer -/

/-- `g_output_buffer`, `g_output_buffer_size`, bin_xml_types.cpp:1229-1230. A pointer is the number of the block, `none` the
null pointer; `blocks` are the sizes of all blocks ever allocated, `freed` the released ones. -/
structure OutBuf where
  buffer : Option Nat := none
  size : Int := 0
  blocks : List Nat := []
  freed : List Nat := []

/-- `XBT_Free`, bin_xml_types.cpp:1241-1247 -/
def OutBuf.free (st : OutBuf) : OutBuf :=
  match st.buffer with
  | none => st
  | some b => { st with buffer := none, size := 0, freed := b :: st.freed }

/-- `XBT_Buffer(size)`, bin_xml_types.cpp:1231-1239: the returned pointer and the new state (`int` overflow of the block
size is undefined; `new` is assumed to succeed). -/
def OutBuf.get (st : OutBuf) (size : Int) : Out (Option Nat × OutBuf) :=
  if size ≤ st.size then .ok (st.buffer, st)
  else
    let st := st.free
    let n := size / 4096 * 4096 + 8192
    if n ≤ INT_MAX then
      .ok (some st.blocks.length, { st with buffer := some st.blocks.length, size := n, blocks := st.blocks ++ [n.toNat] })
    else .ub

/-- one call -/
inductive BufOp where
  | get (size : Int)
  | free

/-- one call with its effect on the state -/
def OutBuf.step (st : OutBuf) : BufOp → Out OutBuf
  | .get n => (st.get n).bind fun r => .ok r.2
  | .free => .ok st.free

/-- a history of calls -/
def OutBuf.run (st : OutBuf) : List BufOp → Out OutBuf
  | [] => .ok st
  | op :: ops => (st.step op).bind fun st => st.run ops

/-! ### Text buffers of XBT_ToString -/

/-- writing `s` at position `pos` of a buffer -/
def bufPut (b : CStr) (pos : Nat) (s : CStr) : CStr := b.take pos ++ s ++ b.drop (pos + s.length)
/-- `strlen`/text of a buffer: everything before the first NUL -/
def bufText (b : CStr) : CStr := b.takeWhile (· ≠ '\x00')

/-- the fixed-size values printed through the rotating buffers of `XBT_ToString` (integers, fixed point, digests) -/
inductive Small where
  | int32 (v : Int)
  | decimal (k : Nat) (v : Int)
  | uint32 (n : Nat)
  | int64 (v : Int)
  | uint64 (n : Nat)
  | sha1 (bs : List UInt8)
  | guid (bs : List UInt8)

/-- `XBT_ToStringChunk` (offset 0) resp. `GUID2Str` into a buffer, bin_xml_types.cpp:800-966, 1069-1076, 717-723:
the new buffer content. `b` has `dst_size` characters; the last one is cleared first (line 816, not for GUID).
For INT64/UINT64 the digits are produced at the end of the buffer, before a NUL in its last but one position, and then
moved to the front *without* the terminator. -/
def Small.put (v : Small) (b : CStr) : Out CStr :=
  let k := b.length - 1
  let b0 := bufPut b k ['\x00']
  let digits (s : CStr) : CStr :=
    let b1 := bufPut b0 (k - 1) ['\x00']
    let b2 := bufPut b1 (k - 1 - s.length) s
    bufPut b2 0 s
  match v with
  | .int32 v => .ok (bufPut b0 0 (printInt v ++ ['\x00']))
  | .decimal n v => (printDecimal n v).bind fun s => .ok (bufPut b0 0 (s ++ ['\x00']))
  | .uint32 n => .ok (bufPut b0 0 (dec n ++ ['\x00']))
  | .int64 v =>
    if v = 0 then .ok (bufPut b0 0 ['0', '\x00'])
    else (printInt64Chunk v).bind fun s =>
      .ok (if v = -576460752303423488 then bufPut b0 0 (s ++ ['\x00']) else digits s)
  | .uint64 n => .ok (if n = 0 then bufPut b0 0 ['0', '\x00'] else digits (printUInt64Chunk n))
  | .sha1 bs => .ok (bufPut b0 0 (hex2Str bs ++ ['\x00']))
  | .guid bs => .ok (bufPut b 0 (guid2Str bs ++ ['\x00']))

/-- `static char buffers[MAX_REETRANT_BUFFERS][256+1]; static int buffer_idx`, bin_xml_types.cpp:708-709 -/
structure Texts where
  bufs : List CStr
  idx : Nat

/-- program start: everything is zero -/
def Texts.init : Texts := ⟨List.replicate 64 (List.replicate 257 '\x00'), 0⟩

/-- `XBT_ToString` for such a value, bin_xml_types.cpp:717-745: the index of the buffer whose address is returned and the
new state. -/
def Texts.toString (st : Texts) (v : Small) : Out (Nat × Texts) :=
  (v.put (st.bufs.getD st.idx [])).bind fun b =>
  .ok (st.idx, ⟨st.bufs.set st.idx b, if st.idx + 1 ≥ 64 then 0 else st.idx + 1⟩)

/-- the C string the caller sees at a returned buffer -/
def Texts.text (st : Texts) (i : Nat) : CStr := bufText (st.bufs.getD i [])

/-! ### Chunked printing and streams -/

/-- one call of `XBT_ToStringChunk` for STRING / BLOB_STRING, bin_xml_types.cpp:821-844, with a buffer of `dstSize` bytes:
returned length, new offset, text in the buffer. `fail` is the failed assertion (buffer of 256 bytes or less). `strncpy`
pads the whole buffer with NULs, so its old content does not matter. -/
def chunkStr (s : CStr) (offset dstSize : Nat) : Out (Nat × Nat × CStr) :=
  if dstSize ≤ 256 then .fail
  else
    let k := dstSize - 1
    if s.length ≤ offset then .ok (0, offset, [])
    else
      let out := (s.drop offset).take k
      .ok (out.length, offset + out.length, out)

/-- one call of `XBT_ToStringChunk` for BLOB, bin_xml_types.cpp:1012-1031. `b` is the previous content of the buffer of
`b.length` bytes. -/
def chunkBlob (data : List UInt8) (offset : Nat) (b : CStr) : Out (Nat × Nat × CStr) :=
  if b.length ≤ 256 then .fail
  else
    let k := b.length - 1
    let b := bufPut b k ['\x00']
    if data.length ≤ offset then .ok (0, offset, bufPut b 0 ['\x00'])
    else
      let maxChunk := (k - 1) / 4 * 3
      let left := data.length - offset
      let chunk := if left > maxChunk then maxChunk else left
      let e := base64Encode ((data.drop offset).take chunk) k
      let b' := bufPut b 0 (e.1 ++ (if e.2 then ['\x00'] else []))
      .ok ((bufText b').length, offset + chunk, b')

/-- one call of `XBT_ToStringChunk` for HEX, bin_xml_types.cpp:1032-1055: returned length and the characters put into the
buffer (line of digits, line feed, NUL; the NUL is counted in the returned length). -/
def chunkHex (data : List UInt8) (offset : Nat) : Nat × Nat × CStr :=
  if data.length ≤ offset then (0, offset, ['\x00'])
  else
    let line := (data.drop offset).take 16
    let h := hex2Str line
    (h.length + 2, offset + line.length, h ++ ['\n', '\x00'])

/-- escaping of one character, bin_xml_types.cpp:1108-1112 -/
def escChar (c : Char) : CStr :=
  if c = '<' then "&lt;".toList
  else if c = '>' then "&gt;".toList
  else if c = '&' then "&amp;".toList
  else if c = '"' then "&quot;".toList
  else [c]

/-- the inner loop of `XBT_ToXMLStream`, bin_xml_types.cpp:1106-1113 -/
def escText (s : CStr) : CStr := s.flatMap escChar

/-- `XBT_ToXMLStream` for a STRING, bin_xml_types.cpp:1097-1115: the whole loop over chunks of a 4097-byte buffer.
`fuel` counts iterations; `none` means it was not enough. -/
def xmlStreamStr (s : CStr) : Nat → Nat → Option CStr
  | 0, _ => none
  | fuel+1, offset =>
    match chunkStr s offset 4097 with
    | .ok (len, offset', buf) =>
      if len = 0 then some []
      else (xmlStreamStr s fuel offset').map (fun r => escText (buf.take len) ++ r)
    | _ => none

/-- `XBT_ToStringStream` for a STRING, bin_xml_types.cpp:1083-1095, with a buffer of `dstSize` bytes (there 4097) -/
def stringStreamStr (s : CStr) (dstSize : Nat) : Nat → Nat → Option CStr
  | 0, _ => none
  | fuel+1, offset =>
    match chunkStr s offset dstSize with
    | .ok (len, offset', buf) =>
      if len = 0 then some []
      else (stringStreamStr s dstSize fuel offset').map (fun r => buf.take len ++ r)
    | _ => none

/-- `XBT_ToStringStream` for a BLOB, bin_xml_types.cpp:1083-1095. The buffer is a local array: `b` is its initial
(arbitrary) content; its length is the buffer size (there 4097 bytes). -/
def stringStreamBlob (data : List UInt8) : Nat → Nat → CStr → Option CStr
  | 0, _, _ => none
  | fuel+1, offset, b =>
    match chunkBlob data offset b with
    | .ok (len, offset', b') =>
      if len = 0 then some []
      else (stringStreamBlob data fuel offset' b').map (fun r => bufText (bufPut b' len ['\x00']) ++ r)
    | _ => none

/-- `XBT_ToXMLStream` for a HEX value, bin_xml_types.cpp:1097-1115 -/
def xmlStreamHex (data : List UInt8) : Nat → Nat → Option CStr
  | 0, _ => none
  | fuel+1, offset =>
    let r := chunkHex data offset
    if r.1 = 0 then some []
    else (xmlStreamHex data fuel r.2.1).map (fun t => escText (r.2.2.take r.1) ++ t)

end BX
