import Verif.Model.Session
import Verif.Model.Register
import Verif.Model.Create
import Verif.Model.Open
/-
Making a writable document of a text source. Models src/bin_xml_creator.cpp:592-654, 997-1146 and src/bin_xml_types.cpp:658-698.

A failed `ASSERT_NO_EXIT_1` ends the process: `fail`. A source with binary attributes is not modelled any further (`fail`): what it offers
as the text of an attribute is not part of `Elem`.
-/
namespace BX
open XBT

/-- `XBT_SizeFromString`, bin_xml_types.cpp:658-698, of a text (`none`: a null pointer); -1 where it is not implemented -/
def sizeFromString (src : Option CStr) (t : XBT) : Out Int :=
  match t with
  | NULL => return 0
  | INT32 | INT32_DECI | INT32_CENTI | INT32_MILI | INT32_MICRO | INT32_NANO | FLOAT | UNIX_DATE | UNIX_TIME | IPv4 | UINT32 => return 4
  | INT64 | DOUBLE | UNIX_TIME64_MSEC | UINT64 => return 8
  | SHA1 => return 20
  | GUID | IPv6 => return 16
  | STRING =>
    match src with
    | none => .ub
    | some s => return s.length
  | BLOB_STRING =>
    match src with
    | none => .ub
    | some s => return blobStringSize s.length
  | HEX =>
    match src with
    | none => .ub
    | some s => return (s.length + 1) / 2
  | _ => return -1

/-- one element or attribute made of a text, bin_xml_creator.cpp:1054-1086: how much room its value needs, room, the element, its identification and
flags, and the converted value. Every conversion but that of `XBT_NULL` reads the text, a null pointer is undefined behaviour. -/
def Pool.storeText (E : Env) (flt : CStr → List UInt8) (P : Pool) (id : Int) (t : XBT) (v : Option CStr) (flags : UInt8) : Out (Pool × Nat) := do
  let size ← sizeFromString v t
  if size < 0 ∨ size2 t size.toNat < 0 then .fail
  else do
    let r ← P.makeSpace E (24 + (size2 t size.toNat).toNat + 8)
    if r.2 = false then .fail
    else do
      let r ← r.1.newElement E t size.toNat
      match r.2 with
      | none => .fail
      | some o => do
        let P ← r.1.wr (o + 4) (leN 2 (toU 16 id))
        let P ← P.wr (o + 6) [flags]
        match v with
        | none => if t = NULL then return (P, o) else .ub
        | some s => do
          let w ← fromString flt s t (o + 24) (o + 24 + (size2 t size.toNat).toNat)
          let P ← P.wr w.start (w.bytes ++ List.replicate w.scratch 0)
          return (P, o)

/-- the text of a value (`none`: a null pointer) -/
def SVal.asText : SVal → Option CStr
  | .text s => some s
  | _ => Option.none

/-- `XBWStoreParamsEvent`, bin_xml_creator.cpp:1107-1127, for the attributes of the element at `p`, one after the other. An attribute
whose name is not in the table is left out (1026). -/
def Pool.storeParams (E : Env) (c : Ctx) (p : Nat) : List (BStr × SVal) → Pool → Out Pool
  | [], P => return P
  | (name, v) :: as, P =>
    let id := c.params.find (some name)
    match v with
    | .bin _ _ => .fail
    | v =>
      if id < 0 then P.storeParams E c p as
      else do
        let r ← P.storeText E c.flt id (c.params.type id.toNat) v.asText 0
        let P ← r.1.add p (some (r.2 : Int))
        P.storeParams E c p as

mutual
/-- `XStore2XBWEvent` of an element, bin_xml_creator.cpp:997-1105. An element whose name is not in the table (1041), or whose value is binary
(1088-1090), is left out with all that is below it. -/
def storeXbw (E : Env) (c : Ctx) : Elem → Pool → Out (Pool × Option Nat)
  | .mk name v params children, P =>
    let id := c.tags.find (some name)
    if id < 0 then return (P, none)
    else
      match v with
      | .bin _ _ => return (P, none)
      | v => do
        let r ← P.storeText E c.flt id (c.tags.type id.toNat) v.asText 1
        let P ← r.1.storeParams E c r.2 params
        let P ← storeXbwAll E c r.2 children P
        return (P, some r.2)
/-- `XBWStoreChildrenEvent`, bin_xml_creator.cpp:1129-1146, for the children of the element at `p`, one after the other -/
def storeXbwAll (E : Env) (c : Ctx) (p : Nat) : List Elem → Pool → Out Pool
  | [], P => return P
  | e :: es, P => do
    let r ← storeXbw E c e P
    match r.2 with
    | none => storeXbwAll E c p es r.1
    | some o => do
      let P ← r.1.add p (some (o : Int))
      storeXbwAll E c p es P
end

/-- the symbols of one table are registered with their positions, bin_xml_creator.cpp:625-630; the results are ignored -/
def Plug.registerTable (tags : Bool) : SymTab → Nat → Plug → Out Plug
  | [], _, g => return g
  | s :: t, i, g => do
    let r ← g.registerId tags i s.1 s.2
    r.1.registerTable tags t (i + 1)

/-- `Make_xbw`, bin_xml_creator.cpp:592-654, of a source of `filesize` bytes into a file that was `f`, and its result; no document: the file could not be opened.
The symbol tables are those of `MakeSymbolTable` (447-495). -/
def makeXbw (E : Env) (flt : CStr → List UInt8) (filesize : Nat) (f : Img) (e : Elem) : Out (Option Pool × Bool) := do
  let c : Ctx := ⟨regAll (tagOps e), regAll (paramOps e), flt, 0⟩
  let g ← openFile E true (max 0x40000 ((filesize / 4096 + 1) * 65536)) f
  match g with
  | none => return (none, false)
  | some g => do
    let g ← g.registerTable true c.tags 0
    let g ← g.registerTable false c.params 0
    let r ← g.allRegistered E
    if r.2 = false then return (some r.1.pool, false)
    else do
      let s ← storeXbw E c e r.1.pool
      match s.2 with
      | none => return (some s.1, false)
      | some o => do
        let P ← s.1.setRoot (some (o : Int))
        return (some P, true)

end BX
