import Verif.Model.Create
/-
A document read by libxml2 as the source of a conversion. Models src/bin_xml_plugin.cpp:63-134. The parser (`xmlReadFile`, lines 42-59) is not
part of the repository: the model starts from the tree it builds.
-/
namespace BX

/-- an `xmlAttr`: its name (without prefix) and the field `content` of the first of its nodes (`none`: it has no nodes; `some none`: a null pointer) -/
structure XAttr where
  name : BStr
  first : Option (Option CStr)
deriving DecidableEq, Repr

/-- an `xmlNode`, as far as the plugin looks at it: for an element its name (without prefix), the address of the namespace it is in (`ns`), the
address of the first namespace declared in it (`nsDef`) -- both may be null pointers, and so may the address be --, its attributes and its nodes; a
text; a CDATA section; other nodes (comments, processing instructions, references to entities) -/
inductive XNode where
  | elem (name : BStr) (ns nsDef : Option (Option CStr)) (props : List XAttr) (children : List XNode)
  | text (content : Option CStr)
  | cdata (content : CStr)
  | other

/-- `getNodeValue`, bin_xml_plugin.cpp:74-85, of an element with these nodes -/
def xmlValue : List XNode → SVal
  | .text (some s) :: _ => if skipSpaces s = [] then .none else .text (skipSpaces s)
  | _ => .none

/-- the attribute `xmlns`, bin_xml_plugin.cpp:117-124 -/
def xmlNs (ns nsDef : Option (Option CStr)) : List (BStr × SVal) :=
  match ns with
  | some href => [(b8 "xmlns", .text (href.getD []))]
  | none =>
    match nsDef with
    | some href => [(b8 "xmlns", .text (href.getD []))]
    | none => []

/-- the attributes, bin_xml_plugin.cpp:127-133: of one without nodes a null pointer is used -/
def xmlProps : List XAttr → Out (List (BStr × SVal))
  | [] => return []
  | a :: as =>
    match a.first with
    | none => .ub
    | some v => do
      let r ← xmlProps as
      return (a.name, match v with | some s => SVal.text s | none => SVal.none) :: r

/-- `ForAllParams`, bin_xml_plugin.cpp:111-134 -/
def xmlParams (ns nsDef : Option (Option CStr)) (props : List XAttr) : Out (List (BStr × SVal)) := do
  let r ← xmlProps props
  return xmlNs ns nsDef ++ r

mutual
/-- the source that the creator sees in an element: `getNodeName`, `getNodeValue`, `ForAllParams` and `ForAllChildren`, bin_xml_plugin.cpp:68-96, 111-134; `fail` for
a node that is no element (it is never asked for) -/
def xmlSource : XNode → Out Elem
  | .elem name ns nsDef props children => do
    let ps ← xmlParams ns nsDef props
    let ks ← xmlSources children
    return .mk name (xmlValue children) ps ks
  | _ => .fail
/-- the children, bin_xml_plugin.cpp:93-95: the nodes that are elements -/
def xmlSources : List XNode → Out (List Elem)
  | [] => return []
  | .elem name ns nsDef props children :: xs => do
    let e ← xmlSource (.elem name ns nsDef props children)
    let es ← xmlSources xs
    return e :: es
  | _ :: xs => xmlSources xs
end

mutual
/-- `ForAllChildrenRecursively`, bin_xml_plugin.cpp:98-109: the elements the function is called with and their depths, in order -/
def xmlVisits : XNode → Nat → List (XNode × Nat)
  | .elem name ns nsDef props children, deep => (.elem name ns nsDef props children, deep) :: xmlVisitsAll children (deep + 1)
  | x, deep => [(x, deep)]
/-- the loop, lines 104-108 -/
def xmlVisitsAll : List XNode → Nat → List (XNode × Nat)
  | [], _ => []
  | .elem name ns nsDef props children :: xs, deep => xmlVisits (.elem name ns nsDef props children) deep ++ xmlVisitsAll xs deep
  | _ :: xs, deep => xmlVisitsAll xs deep
end

end BX
