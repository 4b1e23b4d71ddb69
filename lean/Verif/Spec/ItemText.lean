import Verif.Model.ItemText
import Verif.Props.Roundtrip
import Verif.Spec.Tree
/-
Texts of a document that are read unchanged from its file.
-/
namespace BX.Spec
open BX XBT

/-- the text of a value of a source; no value is an empty text -/
def _root_.BX.SVal.chars : SVal → CStr
  | .text s => s
  | _ => []

/-- `s` is the text that the library gives for some value of type `t`, one of those that are converted back (`TextSafe`) -/
def Canon (gm : Gm) (ftx : List UInt8 → CStr) (t : XBT) (s : CStr) : Prop := ∃ d, TextSafe gm t d ∧ chunkText gm ftx t d = .ok s

/-- an element has no value, a text that looks like nothing else, or a text in the form of the type it looks like -/
def NodeText (gm : Gm) (ftx : List UInt8 → CStr) : SVal → Prop
  | .none => True
  | .text s => detect s = STRING ∨ Canon gm ftx (detect s) s
  | .bin _ _ => False

/-- an attribute has no value, a text in the form of the common type `t` of all its values, or a text, if there is no common type of four bytes -/
def AttrText (gm : Gm) (ftx : List UInt8 → CStr) (t : XBT) : SVal → Prop
  | .none => True
  | .text v => size2 (detect2 v t) 0 ≠ 4 ∨ Canon gm ftx (detect2 v t) v
  | .bin _ _ => False

mutual
/-- all values of a document are such texts -/
def DocText (gm : Gm) (ftx : List UInt8 → CStr) (pt : BStr → XBT) : Elem → Prop
  | .mk _ value params children => NodeText gm ftx value ∧ (∀ p ∈ params, AttrText gm ftx (pt p.1) p.2) ∧ DocTextAll gm ftx pt children
def DocTextAll (gm : Gm) (ftx : List UInt8 → CStr) (pt : BStr → XBT) : List Elem → Prop
  | [] => True
  | e :: es => DocText gm ftx pt e ∧ DocTextAll gm ftx pt es
end

mutual
/-- the texts of the item at `x`, of its attributes and of the items below it are those of the element -/
def SameTexts (gm : Gm) (ftx : List UInt8 → CStr) (f : Img) : Elem → Int → Prop
  | .mk _ value params children, x => f.itemText gm ftx x = .ok value.chars ∧
    (∀ i (h : i < params.length), ∃ a, f.getParamByIndex x i = .ok (some a) ∧ f.attrText gm ftx x a = .ok params[i].2.chars) ∧
    f.childcount x = .ok (children.length : Int) ∧ SameTextsAll gm ftx f children x 0
/-- the same for the children from the `i`-th on -/
def SameTextsAll (gm : Gm) (ftx : List UInt8 → CStr) (f : Img) : List Elem → Int → Nat → Prop
  | [], _, _ => True
  | e :: es, x, i => (∃ y, f.getChildByIndex x i = .ok (some y) ∧ SameTexts gm ftx f e y) ∧ SameTextsAll gm ftx f es x (i + 1)
end

end BX.Spec
