import Verif.Spec.Tree
import Verif.Model.XmlSource
/-
What a conversion of an XML document has to keep.
-/
namespace BX.Spec
open BX

/-- white space at both ends is removed -/
def trim (s : CStr) : CStr := ((s.dropWhile isSpace).reverse.dropWhile isSpace).reverse

/-- the text of one node: that of a text or of a CDATA section -/
def ownText : XNode → CStr
  | .text (some s) => s
  | .cdata s => s
  | _ => []

/-- the character data of an element: the texts of its nodes one after the other -/
def charData (xs : List XNode) : CStr := (xs.map ownText).flatten

def XNode.isElem : XNode → Bool
  | .elem _ _ _ _ _ => true
  | _ => false

/-- the value shows the character data: white space only is no value, otherwise it is the text up to white space at its ends -/
def ShowsText (s : CStr) (v : SVal) : Prop :=
  match v with
  | .none => trim s = []
  | .text t => trim s ≠ [] ∧ trim t = trim s
  | .bin _ _ => False

/-- the address of a namespace; a missing one is empty -/
def nsText (n : Option CStr) : CStr := n.getD []

/-- the attributes: the namespace of the element (or one it declares), then those that are written in it -/
def ShowsXmlAttrs (ns nsDef : Option (Option CStr)) (props : List XAttr) (ps : List (BStr × SVal)) : Prop :=
  ps = (match ns.orElse (fun _ => nsDef) with | some n => [(b8 "xmlns", SVal.text (nsText n))] | none => []) ++
    props.map (fun a => (a.name, match a.first with | some (some s) => SVal.text s | _ => SVal.none))

mutual
/-- the source element shows the XML element: name, character data, attributes, and the elements in it in their order -/
def ShowsXml : XNode → Elem → Prop
  | .elem name ns nsDef props children, .mk n v ps ks => n = name ∧ ShowsText (charData children) v ∧ ShowsXmlAttrs ns nsDef props ps ∧ ShowsXmls children ks
  | _, _ => False
def ShowsXmls : List XNode → List Elem → Prop
  | [], ks => ks = []
  | .elem name ns nsDef props children :: xs, ks => ∃ k ks', ks = k :: ks' ∧ ShowsXml (.elem name ns nsDef props children) k ∧ ShowsXmls xs ks'
  | _ :: xs, ks => ShowsXmls xs ks
end

/-- only the first node of the element has character data that is not white space, and it is a text -/
def PlainText : List XNode → Prop
  | .text _ :: xs => ∀ x ∈ xs, ∀ c ∈ ownText x, isSpace c = true
  | xs => ∀ x ∈ xs, ∀ c ∈ ownText x, isSpace c = true

mutual
/-- everywhere in the tree, and every attribute has a node -/
def PlainXml : XNode → Prop
  | .elem _ _ _ props children => (∀ a ∈ props, a.first ≠ none) ∧ PlainText children ∧ PlainXmls children
  | _ => True
def PlainXmls : List XNode → Prop
  | [] => True
  | x :: xs => PlainXml x ∧ PlainXmls xs
end

mutual
/-- the elements of a tree in document order, with their depths -/
def xmlElems (deep : Nat) : XNode → List (XNode × Nat)
  | .elem name ns nsDef props children => (.elem name ns nsDef props children, deep) :: xmlElemsAll (deep + 1) children
  | _ => []
def xmlElemsAll (deep : Nat) : List XNode → List (XNode × Nat)
  | [] => []
  | x :: xs => xmlElems deep x ++ xmlElemsAll deep xs
end

end BX.Spec
