import Verif.Model.Image
/-
Writing a binary document (.xb). Models src/bin_xml_creator.cpp:371-443, 497-532, 556-577, 665-994 and the parts of the
source interface it uses (include/binary_xml/bin_xml_creator.h:40-90, src/bin_write_plugin.cpp:2790-2809).
Addresses are offsets in the buffer `data`, which malloc returns aligned to 16.
-/
namespace BX
open XBT

/-- a value offered by a source: none (null pointer), a text (`getNodeValue`, `ForAllParams`), or binary data of a known type
(`getNodeBinValue`, `ForAllBinParams`) with the readable bytes at the pointer -/
inductive SVal where
  | none
  | text (s : CStr)
  | bin (t : XBT) (src : List UInt8)
deriving DecidableEq, Repr

/-- an element of the source: name, value, attributes, children (all in the order of the source's iteration) -/
inductive Elem where
  | mk (name : BStr) (value : SVal) (params : List (BStr × SVal)) (children : List Elem)

def Elem.name : Elem → BStr | .mk n _ _ _ => n
def Elem.value : Elem → SVal | .mk _ v _ _ => v
def Elem.params : Elem → List (BStr × SVal) | .mk _ _ p _ => p
def Elem.children : Elem → List Elem | .mk _ _ _ c => c

/-- what the writer knows: both symbol tables, `(float)atof`, and `data_size_allocated` -/
structure Ctx where
  tags : SymTab
  params : SymTab
  flt : CStr → List UInt8
  limit : Nat

/-- writing bytes into the buffer; outside of it is undefined -/
def put (limit : Nat) (m : Mem) (a : Nat) (bs : List UInt8) : Out Mem :=
  if a + bs.length ≤ limit then .ok (memPut m a bs) else .ub

/-- `XBT_Copy` to the buffer, bin_xml_types.cpp:439-470; a string longer than the announced size may leave the buffer -/
def copyTo (limit : Nat) (m : Mem) (src : List UInt8) (t : XBT) (size wp : Nat) : Out (Mem × Nat) := do
  let r ← xbtCopy m src t size wp limit
  if t = STRING ∧ limit < wp + (cPrefix src).length + 1 then .ub
  else return (r.1, r.2.toNat)

/-- the size reported by `BW_plugin::getNodeBinValue`, bin_write_plugin.cpp:2796-2807 -/
def binSize (t : XBT) (src : List UInt8) : Nat :=
  if t = BLOB ∨ t = HEX then (rdI32 src).toNat
  else if t = STRING then (cPrefix src).length
  else 0

/-- storing the node value, bin_xml_creator.cpp:846-873; `fail` is `return nullptr` -/
def writeValue (c : Ctx) (m : Mem) (wp : Nat) : SVal → Out (Mem × Nat)
  | .none => do
    let m ← put c.limit m wp [NULL.code]
    return (m, wp + 1)
  | .text s => do
    let t := detect s
    let m ← put c.limit m wp [t.code]
    let w ← fromString c.flt s t (wp + 1) c.limit
    let m ← put c.limit m w.start (w.bytes ++ List.replicate w.scratch 0)
    return (m, w.start + w.bytes.length)
  | .bin t src =>
    if t = NULL then do
      let m ← put c.limit m wp [NULL.code]
      return (m, wp + 1)
    else do
      let m ← put c.limit m wp [t.code]
      copyTo c.limit m src t (binSize t src) (wp + 1)

/-- `XStoreParamsEvent` for a text kept as a string, bin_xml_creator.cpp:980-985 -/
def writeParamStr (c : Ctx) (x pd : Nat) (v : CStr) (m : Mem) (wp : Nat) : Out (Mem × Nat) := do
  let m ← put c.limit m (pd + 2) [STRING.code]
  let m ← put c.limit m (pd + 4) (le32 ((wp : Int) - x))
  let m ← put c.limit m wp (cBytes v)
  return (m, wp + v.length + 1)

/-- `XStoreParamsEvent`, bin_xml_creator.cpp:953-989, and `XStoreBinParamsEvent`, 900-951, with the description at `pd`.
`XBT_Size2(XBT_HEX,0)` is 4, so a text looking like hexadecimal digits is converted in place too, over everything behind it.
The failed assertion behind `XBT_Copy` (no room) is only logged there, the attribute then refers to unwritten bytes; the
model reports the conversion as failed. -/
def writeParam (c : Ctx) (x pd : Nat) (p : BStr × SVal) (m : Mem) (wp : Nat) : Out (Mem × Nat) := do
  let id := c.params.find (some p.1)
  let m ← put c.limit m pd (leN 2 (toU 16 id))
  match p.2 with
  | .none => do
    let m ← put c.limit m (pd + 2) [NULL.code]
    let m ← put c.limit m (pd + 4) (le32 0)
    return (m, wp)
  | .text v =>
    if v = [] then do
      let m ← put c.limit m (pd + 2) [NULL.code]
      let m ← put c.limit m (pd + 4) (le32 0)
      return (m, wp)
    else
      let t := detect2 v (if 0 ≤ id then c.params.type id.toNat else UNKNOWN)
      if size2 t 0 = 4 then
        match fromString c.flt v t (pd + 4) c.limit with
        | .ok w => do
          let m ← put c.limit m w.start (w.bytes ++ List.replicate w.scratch 0)
          let m ← put c.limit m (pd + 2) [t.code]
          return (m, wp)
        | .fail => writeParamStr c x pd v m wp
        | .ub => .ub
      else writeParamStr c x pd v m wp
  | .bin t src =>
    if t = NULL then do
      let m ← put c.limit m (pd + 2) [NULL.code]
      let m ← put c.limit m (pd + 4) (le32 0)
      return (m, wp)
    else
      let outside (size : Nat) : Out (Mem × Nat) := do
        let wp := if xalign t = 4 then aa wp else if xalign t = 8 then aa8 wp else wp
        let m ← put c.limit m (pd + 2) [t.code]
        let m ← put c.limit m (pd + 4) (le32 ((wp : Int) - x))
        copyTo c.limit m src t size wp
      if isVarsize t then outside (rdI32 src).toNat
      else if t ≠ STRING ∧ size2 t 0 ≤ 4 then
        match copyTo c.limit m src t 0 (pd + 4) with
        | .ok r => do
          let m ← put c.limit r.1 (pd + 2) [t.code]
          return (m, wp)
        | .fail => outside 0
        | .ub => .ub
      else outside 0

/-- `ForAllParams(XStoreParamsEvent, …)`: one description after the other -/
def writeParams (c : Ctx) (x : Nat) : List (BStr × SVal) → Nat → Mem → Nat → Out (Mem × Nat)
  | [], _, m, wp => .ok (m, wp)
  | p :: ps, pd, m, wp => do
    let r ← writeParam c x pd p m wp
    writeParams c x ps (pd + 8) r.1 r.2

/-- the header fields written at once, bin_xml_creator.cpp:825-833 (the counters are incremented one by one there) -/
def headBytes (name paramcount childcount : Int) : List UInt8 := leN 2 (toU 16 name) ++ leN 2 (toU 16 paramcount) ++ le32 childcount

mutual
/-- `WriteNode`, bin_xml_creator.cpp:815-883: new memory, new write pointer, address of the node. More than 32767 attributes
(the counter wraps and pointers go backwards) is reported as undefined. -/
def writeNode (c : Ctx) : Elem → Mem → Nat → Out (Mem × Nat × Nat)
  | .mk name value params children, m, wp => do
    let x := aa wp
    if params.length > 32767 ∨ children.length > 2147483647 then .ub
    else do
      let m ← put c.limit m x (headBytes (c.tags.find (some name)) params.length children.length)
      let pa := x + 12
      let ca := pa + 8 * params.length
      let va := ca + 4 * children.length
      let r ← writeValue c m va value
      let r ← writeParams c x params pa r.1 r.2
      let r ← writeChildren c x children ca r.1 r.2
      let m ← put c.limit r.1 (x + 8) (le32 ((r.2 : Int) - x))
      return (m, r.2, x)
/-- `ForAllChildren(XStoreChildrenEvent, …)`, bin_xml_creator.cpp:877, 990-994 -/
def writeChildren (c : Ctx) (x : Nat) : List Elem → Nat → Mem → Nat → Out (Mem × Nat)
  | [], _, m, wp => .ok (m, wp)
  | e :: es, ca, m, wp => do
    let r ← writeNode c e m wp
    let m ← put c.limit r.1 ca (le32 ((r.2.2 : Int) - x))
    writeChildren c x es (ca + 4) m r.2.1
end

/-- one parameter description with inline data or an offset: name, type and data (the `reserved` byte is not written) -/
def putDesc (limit : Nat) (m : Mem) (pd : Nat) (name : Int) (t : XBT) (data : Int) : Out Mem := do
  let m ← put limit m pd (leN 2 (toU 16 name))
  let m ← put limit m (pd + 2) [t.code]
  put limit m (pd + 4) (le32 data)

/-- the loop of `WriteChildSymbols`, bin_xml_creator.cpp:759-766: `ra`/`ta` are the next places in the reference and type
arrays -/
def writeSyms (limit : Nat) (x : Nat) : SymTab → Nat → Nat → Mem → Nat → Out (Mem × Nat)
  | [], _, _, m, wp => .ok (m, wp)
  | e :: es, ra, ta, m, wp => do
    let m ← put limit m ra (le32 ((wp : Int) - x))
    let m ← put limit m ta [e.2.code]
    let m ← put limit m wp (e.1 ++ [0])
    writeSyms limit x es (ra + 4) (ta + 1) m (wp + e.1.length + 1)

/-- `WriteChildSymbols`, bin_xml_creator.cpp:721-779 -/
def writeSymbols (limit : Nat) (tag : Int) (t : SymTab) (m : Mem) (wp : Nat) : Out (Mem × Nat × Nat) := do
  let x := aa wp
  let m ← put limit m x (headBytes tag 2 0)
  let m ← putDesc limit m (x + 12) (-5) INT32 t.length
  let m ← putDesc limit m (x + 20) (-7) INT32 t.length
  let m ← put limit m (x + 28) [BLOB.code]
  let sa := aa (x + 29)
  let begin_ := sa + 4
  let r ← writeSyms limit x t begin_ (begin_ + 4 * t.length) m (begin_ + 5 * t.length)
  let m ← put limit r.1 sa (le32 ((r.2 : Int) - begin_))
  let wp := aa r.2
  let m ← put limit m (x + 8) (le32 ((wp : Int) - x))
  return (m, wp, x)

/-- `WritePayloadContainer`, bin_xml_creator.cpp:790-813 -/
def writePayload (c : Ctx) (e : Elem) (m : Mem) (wp : Nat) : Out (Mem × Nat × Nat) := do
  let x := aa wp
  let m ← put c.limit m x (headBytes (-6) 0 1)
  let m ← put c.limit m (x + 16) [NULL.code]
  let r ← writeNode c e m (x + 17)
  let m ← put c.limit r.1 (x + 12) (le32 ((r.2.2 : Int) - x))
  let m ← put c.limit m (x + 8) (le32 ((r.2.1 : Int) - x))
  return (m, r.2.1, x)

/-- `FillData`, bin_xml_creator.cpp:665-719. `filename` is `src->getFilename()`, `mtime` `file_gettime(filename)`.
New memory and `X->length`. -/
def fillData (c : Ctx) (filename : BStr) (mtime : Int) (e : Elem) (m : Mem) : Out (Mem × Nat) := do
  let m ← put c.limit m 0 (headBytes (-2) 4 3)
  let m ← put c.limit m 56 [NULL.code]
  let m ← putDesc c.limit m 12 (-6) INT32 0x100
  let m ← putDesc c.limit m 20 (-2) STRING 57
  let m ← put c.limit m 57 (filename ++ [0])
  let wp := aa (57 + filename.length + 1)
  let m ← putDesc c.limit m 28 (-3) SHA1 wp
  let m ← put c.limit m wp (List.replicate 20 0xa1)
  let wp := wp + 20
  let m ← putDesc c.limit m 36 (-4) UNIX_TIME mtime
  let r ← writeSymbols c.limit (-3) c.tags m wp
  let m ← put c.limit r.1 44 (le32 r.2.2)
  let r ← writeSymbols c.limit (-4) c.params m r.2.1
  let m ← put c.limit r.1 48 (le32 r.2.2)
  let r ← writePayload c e m r.2.1
  let m ← put c.limit r.1 52 (le32 r.2.2)
  let m ← put c.limit m 8 (le32 r.2.1)
  return (m, r.2.1)

mutual
/-- registrations of tag names in the order of `ForAllChildrenRecursively(SecondPassEvent, …)`, bin_xml_creator.cpp:556-564
with a text source (`getNodeValue`) -/
def tagOps : Elem → List RegOp
  | .mk name value _ children =>
    (.text name (match value with | .text s => some s | _ => none)) :: tagOpsL children
def tagOpsL : List Elem → List RegOp
  | [] => []
  | e :: es => tagOps e ++ tagOpsL es
end

/-- registration of one attribute, bin_xml_creator.cpp:566-576 -/
def paramOp (p : BStr × SVal) : RegOp :=
  match p.2 with
  | .none => .text p.1 none
  | .text s => .text p.1 (some s)
  | .bin t _ => .typed p.1 t

mutual
/-- registrations of attribute names, bin_xml_creator.cpp:561-562 -/
def paramOps : Elem → List RegOp
  | .mk _ _ params children => params.map paramOp ++ paramOpsL children
def paramOpsL : List Elem → List RegOp
  | [] => []
  | e :: es => paramOps e ++ paramOpsL es
end

/-- `Make_xb` (unpacked), bin_xml_creator.cpp:371-443: symbol tables made by the given registrations, buffer of `1024 + 4*filesize` bytes
with arbitrary content `m0`, contents, file of `AA(length)` bytes -/
def makeXbWith (flt : CStr → List UInt8) (ts ps : List RegOp) (filename : BStr) (mtime : Int) (filesize : Nat) (m0 : Mem) (e : Elem) : Out Img := do
  let c : Ctx := ⟨regAll ts, regAll ps, flt, 1024 + filesize * 4⟩
  let r ← fillData c filename mtime e m0
  return ⟨r.1, aa r.2⟩

/-- `Make_xb` of a source without symbol tables: `MakeSymbolTable`, bin_xml_creator.cpp:466-495 -/
def makeXb (flt : CStr → List UInt8) (filename : BStr) (mtime : Int) (filesize : Nat) (m0 : Mem) (e : Elem) : Out Img :=
  makeXbWith flt (tagOps e) (paramOps e) filename mtime filesize m0 e

/-- `Append`, bin_xml_creator.cpp:497-532: the file `f` gets the bytes of the new element. `m0` is the content of the creator's
buffer, `c` its tables; `write` is complete. The result of `WriteNode` is not looked at there: when the conversion of a value
fails, an element without length is written; the model reports the call as failed. -/
def append (c : Ctx) (m0 : Mem) (f : Img) (e : Elem) : Out Img := do
  let fileAlign := f.size % 16
  let r ← writeNode c e m0 (aa fileAlign)
  let size := r.2.1 - fileAlign
  return ⟨memPut f.mem f.size (slice r.1 fileAlign size), f.size + size⟩

end BX
