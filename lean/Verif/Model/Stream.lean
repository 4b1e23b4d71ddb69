import Verif.Model.Source
import Verif.Model.Dump
/-
Printing a source as XML. Models `operator<<` of a source, `s_On2Stream`, `s_OnBinParam2Stream` and `s_OnParam2Stream`, src/bin_xml_creator.cpp:150-252, and
XBT_ToXMLStream, src/bin_xml_types.cpp:1097-1115. Printing does not change the source, so the model first asks for everything (`SNode`) and then prints it.
-/
namespace BX
open XBT

/-- `XBT_ToXMLStream`, bin_xml_types.cpp:1097-1115, from the offset on; `b` is the content of its local buffer of 4097 bytes. Unlike the dump of a file (Model/Dump.lean) it prints as many
characters of the buffer as the call returned. `fuel` bounds the number of chunks. -/
def xmlLoop (gm : Gm) (flt : List UInt8 → CStr) (d : Data) : Nat → Nat → CStr → Out CStr
  | 0, _, _ => .ub
  | fuel+1, offset, b => do
    let r ← chunkOnce gm flt d offset b
    if r.1 = 0 then return []
    else do
      let s ← xmlLoop gm flt d fuel r.2.1 r.2.2
      return escText (r.2.2.take r.1) ++ s

/-- what a source gives for an attribute: a typed value (`ForAllBinParams`), with what the local buffer of `XBT_ToXMLStream` contains before the call, or a text (`ForAllParams`; `none` is a null
pointer) -/
inductive SAttr where
  | bin (d : Data) (junk : CStr)
  | text (s : Option CStr)

/-- what a source gives for an element: its name, attributes, the type and the value of `getNodeBinValue` (`none` is a null pointer; with what the buffer of `XBT_ToXMLStream` contains), and its
children -/
inductive SNode where
  | mk (name : BStr) (attrs : List (BStr × SAttr)) (type : XBT) (value : Option (Data × CStr)) (kids : List SNode)

/-- the functions of the C library that are used (as in `DumpEnv`) and a bound of the loops -/
structure StreamEnv where
  gm : Gm
  flt : List UInt8 → CStr
  fuel : Nat

/-- the values printed by `s_OnBinParam2Stream`, bin_xml_creator.cpp:160-168, and `s_OnParam2Stream`, 168-182, which uses the pointer without looking at it -/
def SAttr.stream (v : StreamEnv) : SAttr → Out CStr
  | .bin d junk => xmlLoop v.gm v.flt d v.fuel 0 junk
  | .text none => .ub
  | .text (some s) => return escText s

/-- the attributes, bin_xml_creator.cpp:203-207 -/
def streamAttrs (v : StreamEnv) : List (BStr × SAttr) → Out CStr
  | [] => return []
  | a :: as => do
    let s ← a.2.stream v
    let r ← streamAttrs v as
    return ' ' :: toC a.1 ++ '=' :: '"' :: s ++ '"' :: r

mutual
/-- `s_On2Stream`, bin_xml_creator.cpp:187-246, with the context's `deep` and `sibling_count`: the text and the new `sibling_count`. The first child finishes the tag of its parent. A null
pointer with a type that is not `XBT_NULL` is printed as a value of that type without bytes. -/
def SNode.stream (v : StreamEnv) : SNode → Nat → Nat → Out (CStr × Nat)
  | .mk name attrs type value kids, deep, siblings => do
    let as ← streamAttrs v attrs
    let ks ← streamKids v kids (deep + 1) 0
    let head := (if deep > 0 ∧ siblings = 0 then ['>', '\n'] else []) ++ tabs deep ++ '<' :: toC name ++ as ++ ks.1
    let close := '<' :: '/' :: toC name ++ ['>', '\n']
    if ks.2 = 0 then
      match value with
      | none => return (head ++ ['/', '>', '\n'], siblings + 1)
      | some d => do
        let s ← xmlLoop v.gm v.flt d.1 v.fuel 0 d.2
        return (head ++ '>' :: s ++ close, siblings + 1)
    else if type = NULL then return (head ++ tabs deep ++ close, siblings + 1)
    else do
      let s ← xmlLoop v.gm v.flt (match value with | none => ⟨type, []⟩ | some d => d.1) v.fuel 0 (match value with | none => [] | some d => d.2)
      return (head ++ tabs (deep + 1) ++ s ++ '\n' :: tabs deep ++ close, siblings + 1)
/-- the calls of it by `ForAllChildren` -/
def streamKids (v : StreamEnv) : List SNode → Nat → Nat → Out (CStr × Nat)
  | [], _, siblings => return ([], siblings)
  | k :: ks, deep, siblings => do
    let a ← k.stream v deep siblings
    let b ← streamKids v ks deep a.2
    return (a.1 ++ b.1, b.2)
end

/-- `operator<<` of a source, bin_xml_creator.cpp:246-252 -/
def SNode.print (v : StreamEnv) (n : SNode) : Out CStr := do
  let r ← n.stream v 0 0
  return r.1

/-! ### a writable document -/

/-- the value that `XBT_ToStringChunk` prints for a pointer into the file: the pointer is aligned by the type, bin_xml_types.cpp:805-813 (the file is mapped at the beginning of a page); a date has
four bytes -/
def Img.chunkValue (f : Img) (t : XBT) (p : Int) : Out Data :=
  let q := if xalign t = 4 then aaI p else if xalign t = 8 then aa8I p else p
  if t = UNIX_DATE then do let b ← f.rd q 4; return ⟨t, b⟩
  else if t = NULL then return ⟨t, []⟩
  else f.content t q

/-- an attribute of a writable document as `ForAllBinParams` gives it, bin_write_plugin.cpp:2866-2891; printing a null pointer as a name is undefined -/
def Pool.viewAttr (P : Pool) (junk : Int → CStr) (a : Int) : Out (BStr × SAttr) := do
  let id ← P.eId a
  let name ← P.nameOf false id
  match name with
  | none => .ub
  | some name => do
    let t ← P.typeOf a
    let d ← P.img.chunkValue t (a + 24)
    return (name, .bin d (junk a))

def Pool.viewAttrs (P : Pool) (junk : Int → CStr) : List Int → Out (List (BStr × SAttr))
  | [] => return []
  | a :: as => do
    let x ← P.viewAttr junk a
    let r ← P.viewAttrs junk as
    return x :: r

/-- the value of an element: `getNodeBinValue`, bin_write_plugin.cpp:2790-2808, and what is printed for its pointer -/
def Pool.viewValue (P : Pool) (junk : Int → CStr) (e : Int) : Out (XBT × Option (Data × CStr)) := do
  let v ← P.nodeBinValue e
  match v.2.2 with
  | none => return (v.1, none)
  | some _ => do
    let d ← P.img.chunkValue v.1 (e + 24)
    return (v.1, some (d, junk e))

mutual
/-- an element of a writable document as `s_On2Stream` gets it; `junk` is what the local buffers contain -/
def Pool.view (P : Pool) (junk : Int → CStr) : Nat → Int → Out SNode
  | 0, _ => .ub
  | fuel+1, e => do
    let name ← P.nodeName e
    match name with
    | none => .ub
    | some name => do
      let as ← P.visit e 20 fuel
      let as ← P.viewAttrs junk as
      let ks ← P.visit e 16 fuel
      let ks ← P.viewAll junk fuel ks
      let w ← P.viewValue junk e
      return .mk name as w.1 w.2 ks
def Pool.viewAll (P : Pool) (junk : Int → CStr) : Nat → List Int → Out (List SNode)
  | 0, _ => .ub
  | _+1, [] => return []
  | fuel+1, e :: es => do
    let k ← P.view junk fuel e
    let ks ← P.viewAll junk fuel es
    return k :: ks
end

/-- printing a writable document; without a root element (`getRoot`, bin_write_plugin.cpp:2277-2284) a null pointer is used by `getNodeBinValue` -/
def Pool.print (P : Pool) (gm : Gm) (flt : List UInt8 → CStr) (junk : Int → CStr) (fuel : Nat) : Out CStr :=
  if P.root = 0 then .ub
  else do
    let n ← P.view junk fuel P.root
    n.print ⟨gm, flt, fuel⟩

/-! ### a text source -/

mutual
/-- an element of a source of texts (an XML or JSON file): such sources do not have `ForAllBinParams`, and `getNodeBinValue` is the one of the base class, bin_xml_creator.cpp:93-98, which never
gives a value -/
def textView : Elem → SNode
  | .mk name _ params children => .mk name (params.map fun p => (p.1, .text (match p.2 with | .text s => some s | _ => Option.none))) UNKNOWN none (textViewAll children)
def textViewAll : List Elem → List SNode
  | [] => []
  | e :: es => textView e :: textViewAll es
end

end BX
