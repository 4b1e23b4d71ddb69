import Verif.Model.Utils
import Verif.Model.Image
/-
The names of files in conversions. Models `Bin_src_plugin_selector`, src/bin_xml_packer.cpp:64-78, `Bin_xml_packer::Convert` and `GetXB`, 338-378, the constructors of the creator
with names, src/bin_xml_creator.cpp:258-305 (the part about names), `setFilename`, 61-66, and `DoAll`, 360-369. (The third constructor, 307-330, reads the member it should set, before it
is set; it is not modelled.)
-/
namespace BX

/-- the kinds of sources -/
inductive SrcKind where
  | xml | json | xbw
deriving DecidableEq, Repr

/-- the kinds of files that are made, bin_xml_creator.h -/
inductive Target where
  | xb | xbw
deriving DecidableEq, Repr

/-- `strrchr(s,'.')`: the text from the last dot on -/
def lastDot (s : CStr) : Option CStr := if '.' ∈ s then some ('.' :: (s.reverse.takeWhile (· != '.')).reverse) else none

/-- `Bin_src_plugin_selector`, bin_xml_packer.cpp:64-78; `w`: the library is built with BIN_WRITE_PLUGIN -/
def selectPlugin (w : Bool) (filename : CStr) : Option SrcKind :=
  match lastDot filename with
  | none => none
  | some dot =>
    if dot = ".xml".toList ∨ dot = ".xsd".toList ∨ dot = ".wsdl".toList then some .xml
    else if dot = ".json".toList then some .json
    else if w ∧ dot = ".xbw".toList then some .xbw
    else none

/-- the name that the source uses, bin_xml_creator.cpp:30-43, 61-66 -/
def sourceName (filename : CStr) : Out CStr := changeExt filename none none

/-- the name of the file that is made, bin_xml_creator.cpp:264-268, 290-294 -/
def dstName (dst : CStr) (target : Target) : Out CStr := changeExt dst (some (if target = .xb then ".xb".toList else ".xbw".toList)) none

/-- `DoAll`, bin_xml_creator.cpp:360-369: what is made; an empty name is refused -/
def doAllKind (dst : CStr) : Out Target :=
  if dst.length = 0 then .fail
  else if cAt dst (dst.length - 1) = 'w' then return .xbw
  else return .xb

/-- what a conversion does: the kind and the name of the file that is read, the kind and the name of the file that is made -/
structure Conversion where
  kind : SrcKind
  source : CStr
  target : Target
  made : CStr
deriving DecidableEq, Repr

/-- a creator made of two names and its `DoAll`, bin_xml_creator.cpp:258-282, 360-373 and bin_xml_packer.cpp:312-322, 338-342; if there is no source, `Initialize` is called for a null pointer
(373, 594) -/
def convertNames (w : Bool) (src dst : CStr) (target : Target) : Out Conversion := do
  let made ← dstName dst target
  let kind ← doAllKind made
  match selectPlugin w src with
  | none => .ub
  | some k => do
    let source ← sourceName src
    return ⟨k, source, kind, made⟩

/-- what a call of `GetXB` does: the name stored in `xb_filename` and the conversion that is made; `none`: it is refused -/
def getXB (w : Bool) (xml : CStr) : Out (Option (CStr × Conversion)) :=
  match lastDot xml with
  | none => return none
  | some dot =>
    if dot ≠ ".wsdl".toList ∧ dot ≠ ".xml".toList ∧ dot ≠ ".xsd".toList then return none
    else do
      let len := if dot = ".wsdl".toList then xml.length - 1 else xml.length
      let name := (xml.take (len - 1)).set (len - 2) 'b'
      let c ← convertNames w xml name .xb
      return some (name, c)

end BX
