import Verif.Model.Create
import Verif.Model.Jsmn
/-
Converting a JSON file to a binary document (.xb): `Make_xb` with a `Bin_json_plugin` as source. Models src/bin_xml_creator.cpp:371-443, 467-495, 556-564, 665-719, 790-883 as they run with
src/bin_json_plugin.cpp:107-335, include/binary_xml/bin_xml_creator.h:51 (`ForAllBinParams`) and src/bin_xml_creator.cpp:93-98 (`getNodeBinValue`).

The names and values that the plugin gives are texts in one buffer, `last_str`: each call writes over the text of the call before. `SecondPassEvent` asks for a name and for a value in the arguments
of one call, bin_xml_creator.cpp:560, so both are the text of whichever was asked for last; the order is left to the compiler and is a parameter here.
-/
namespace BX
open XBT

/-- is the name given by `getNodeName` (if any) a literal, bin_json_plugin.cpp:223, and not a text in `last_str`? -/
def JDoc.nameFixed (d : JDoc) (x : Nat) : Out Bool := do
  let t ← d.tok x
  if t.parent < 0 ∨ t.parent ≥ d.toks.length then return false
  else do
    let p ← d.tok t.parent
    if p.type = .array then
      if p.parent < 0 ∨ p.parent ≥ d.toks.length then return false
      else do
        let p2 ← d.tok p.parent
        return p2.type ≠ .string
    else return false

/-- what one call of `SecondPassEvent` registers, bin_xml_creator.cpp:556-564: nothing for a null name (1202). `nameFirst`: the compiler asks for the name before the value. `ForAllParams` of the plugin
calls nothing, bin_json_plugin.cpp:332-335. -/
def JDoc.regOf (d : JDoc) (nameFirst : Bool) (x : Nat) : Out (List RegOp) := do
  let n ← d.getNodeName x
  let b ← d.nameFixed x
  let v ← d.getNodeValue x
  match n, v with
  | none, _ => return []
  | some n, none => return [.text n none]
  | some n, some v =>
    if b then return [.text n (some (toC v))]
    else if nameFirst then return [.text v (some (toC v))]
    else return [.text n (some (toC n))]

/-- `ForAllChildrenRecursively(SecondPassEvent, …)`, bin_xml_creator.cpp:479, for the elements it calls back with -/
def JDoc.regsOf (d : JDoc) (nameFirst : Bool) : List Nat → Out (List RegOp)
  | [] => return []
  | x :: xs => do
    let a ← d.regOf nameFirst x
    let b ← d.regsOf nameFirst xs
    return a ++ b

/-- a value of the plugin as the creator stores it, bin_xml_creator.cpp:846-873: `getNodeBinValue` does not know a type, so `getNodeValue` is used -/
def jsonVal : Option BStr → SVal
  | none => .none
  | some s => .text (toC s)

mutual
/-- `WriteNode` of an element of the plugin, bin_xml_creator.cpp:815-883; there are no attributes. `fuel` bounds the depth of the recursion. -/
def JDoc.writeNode (d : JDoc) (c : Ctx) : Nat → Nat → Mem → Nat → Out (Mem × Nat × Nat)
  | 0, _, _, _ => .ub
  | fuel+1, e, m, wp => do
    let x := aa wp
    let n ← d.getNodeName e
    let hs ← d.children e
    let v ← d.getNodeValue e
    if hs.length > 2147483647 then .ub
    else do
      let m ← put c.limit m x (headBytes (c.tags.find n) 0 hs.length)
      let ca := x + 12
      let va := ca + 4 * hs.length
      let r ← writeValue c m va (jsonVal v)
      let r ← d.writeChildren c x fuel hs ca r.1 r.2
      let m ← put c.limit r.1 (x + 8) (le32 ((r.2 : Int) - x))
      return (m, r.2, x)
/-- `ForAllChildren(XStoreChildrenEvent, …)`, bin_xml_creator.cpp:877, 990-994 -/
def JDoc.writeChildren (d : JDoc) (c : Ctx) (x : Nat) : Nat → List Nat → Nat → Mem → Nat → Out (Mem × Nat)
  | 0, _, _, _, _ => .ub
  | _+1, [], _, m, wp => .ok (m, wp)
  | fuel+1, e :: es, ca, m, wp => do
    let r ← d.writeNode c fuel e m wp
    let m ← put c.limit r.1 ca (le32 ((r.2.2 : Int) - x))
    d.writeChildren c x fuel es (ca + 4) m r.2.1
end

/-- `WritePayloadContainer`, bin_xml_creator.cpp:790-813 -/
def JDoc.writePayload (d : JDoc) (c : Ctx) (fuel : Nat) (m : Mem) (wp : Nat) : Out (Mem × Nat × Nat) := do
  let x := aa wp
  let m ← put c.limit m x (headBytes (-6) 0 1)
  let m ← put c.limit m (x + 16) [NULL.code]
  let r ← d.writeNode c fuel JDoc.root m (x + 17)
  let m ← put c.limit r.1 (x + 12) (le32 ((r.2.2 : Int) - x))
  let m ← put c.limit m (x + 8) (le32 ((r.2.1 : Int) - x))
  return (m, r.2.1, x)

/-- `FillData`, bin_xml_creator.cpp:665-719 -/
def JDoc.fillData (d : JDoc) (c : Ctx) (fuel : Nat) (filename : BStr) (mtime : Int) (m : Mem) : Out (Mem × Nat) := do
  let m ← put c.limit m 0 (headBytes (-2) 4 3)
  let m ← put c.limit m 56 [NULL.code]
  let m ← putDesc c.limit m 12 (-6) INT32 0x100
  let m ← putDesc c.limit m 20 (-2) STRING 57
  let m ← put c.limit m 57 (filename ++ [0])
  let wp := aa (57 + filename.length + 1)
  let m ← putDesc c.limit m 28 (-3) SHA1 wp
  let m ← put c.limit m wp (List.replicate 20 0xa1)
  let wp := wp + 20
  let m ← putDesc c.limit m 36 (-4) UNIX_TIME mtime
  let r ← writeSymbols c.limit (-3) c.tags m wp
  let m ← put c.limit r.1 44 (le32 r.2.2)
  let r ← writeSymbols c.limit (-4) c.params m r.2.1
  let m ← put c.limit r.1 48 (le32 r.2.2)
  let r ← d.writePayload c fuel m r.2.1
  let m ← put c.limit r.1 52 (le32 r.2.2)
  let m ← put c.limit m 8 (le32 r.2.1)
  return (m, r.2.1)

/-- `Make_xb` (unpacked) of a JSON file with the text `js`, bin_xml_creator.cpp:371-443: an empty file is refused (100-106), the buffer has `1024 + 4*filesize` bytes with the content `m0`; `tot` is
what the memory of the tokens contains. -/
def jsonToXb (flt : CStr → List UInt8) (nameFirst : Bool) (tot : Nat → Int) (filename : BStr) (mtime : Int) (m0 : Mem) (js : List UInt8) : Out Img :=
  if js = [] then .fail
  else do
    let d ← jsonInit tot js
    let l ← d.walk (2 * d.toks.length + 2) JDoc.root 0
    let ts ← d.regsOf nameFirst (l.map (·.1))
    let c : Ctx := ⟨regAll ts, [], flt, 1024 + js.length * 4⟩
    let r ← d.fillData c (2 * d.toks.length + 2) filename mtime m0
    return ⟨r.1, aa r.2⟩

end BX
