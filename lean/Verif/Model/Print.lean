import Verif.Model.MakeXbw
/-
Printing a source on the standard output. Models `Bin_src_plugin::print`, `s_PrintElement` and `s_PrintParam`, src/bin_xml_creator.cpp:113-148.
-/
namespace BX

/-- what a source gives for an element: its name (`getNodeName`), attributes (`ForAllParams`), value (`getNodeValue`) and children (`ForAllChildren`); `none` is a null pointer -/
inductive PNode where
  | mk (name : CStr) (attrs : List (CStr × Option CStr)) (value : Option CStr) (kids : List PNode)

/-- `TAB_SIZE`, include/binary_xml/bin_xml_creator.h:24, and `printf("%*s",deep*TAB_SIZE,"")` -/
def indent (deep : Nat) : CStr := List.replicate (deep * 4) ' '

/-- the calls of `s_PrintParam`, bin_xml_creator.cpp:147-150; printing a null pointer is undefined -/
def printParams : List (CStr × Option CStr) → Out CStr
  | [] => return []
  | a :: as =>
    match a.2 with
    | none => .ub
    | some v => do
      let r ← printParams as
      return ' ' :: a.1 ++ '=' :: '"' :: v ++ '"' :: r

mutual
/-- `s_PrintElement`, bin_xml_creator.cpp:121-145, with `print_deep` and `print_node_counter`: the text and the new counter -/
def PNode.print : PNode → Nat → Nat → Out (CStr × Nat)
  | .mk name attrs value kids, deep, counter => do
    let as ← printParams attrs
    let ks ← printNodes kids (deep + 1) counter
    let line := if counter < ks.2 then '\n' :: indent deep else []
    let v := (value.map (· ++ line)).getD []
    return ('\n' :: indent deep ++ '<' :: name ++ as ++ '>' :: ks.1 ++ line ++ v ++ '<' :: '/' :: name ++ ['>'], ks.2 + 1)
/-- the calls of it by `ForAllChildren` -/
def printNodes : List PNode → Nat → Nat → Out (CStr × Nat)
  | [], _, counter => return ([], counter)
  | k :: ks, deep, counter => do
    let a ← k.print deep counter
    let b ← printNodes ks deep a.2
    return (a.1 ++ b.1, b.2)
end

/-- `Bin_src_plugin::print`, bin_xml_creator.cpp:113-119 -/
def printSource (n : PNode) : Out CStr := do
  let r ← n.print 0 0
  return r.1 ++ ['\n']

mutual
/-- a source of texts (an XML or JSON file) -/
def Elem.pview : Elem → PNode
  | .mk name value params children => .mk (toC name) (params.map fun p => (toC p.1, p.2.asText)) value.asText (pviewAll children)
def pviewAll : List Elem → List PNode
  | [] => []
  | e :: es => e.pview :: pviewAll es
end

end BX
