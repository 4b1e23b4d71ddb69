import Verif.Model.Image
import Verif.Model.ToText
/-
The texts of items and attributes of a file. Models src/bin_xml.cpp:172-184 and 355-369.
-/
namespace BX
open XBT

/-- the text of a value whose type and bytes are known: all chunks of `XBT_ToStringChunk`, bin_xml_types.cpp:800-1081, one after another. (A string is given
in pieces that together are the string, `C11_string`; every other value is one piece, `chunkText`.) -/
def valueText (gm : Gm) (ftx : List UInt8 → CStr) (d : Data) : Out CStr :=
  if d.type = STRING then .ok (toC (cPrefix d.bytes)) else chunkText gm ftx d.type d.bytes

/-- the text of an item, `XML_Item::getStringChunk`, bin_xml.cpp:355-369 -/
def Img.itemText (gm : Gm) (ftx : List UInt8 → CStr) (f : Img) (x : Int) : Out CStr := do
  let d ← f.rawValue x
  valueText gm ftx d

/-- the text of the attribute at `p` of the item at `x`, `XML_Param_Description::getStringChunk`, bin_xml.cpp:172-184: a value of four bytes is the data
field itself, others are at their distance from the item; the address is aligned by the type in `XBT_ToStringChunk`, bin_xml_types.cpp:804-810. A type
that does not exist is an assertion there. -/
def Img.attrText (gm : Gm) (ftx : List UInt8 → CStr) (f : Img) (x p : Int) : Out CStr := do
  let c ← f.pType p
  match ofCode c with
  | none => .fail
  | some t => do
    let a ← if is4 t then pure (p + 4) else do let d ← f.pData p; pure (x + d)
    let a := if xalign t = 4 then aaI a else if xalign t = 8 then aa8I a else a
    let d ← f.content t a
    valueText gm ftx d

end BX
