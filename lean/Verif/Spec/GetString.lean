import Verif.Model.GetString
import Verif.Spec.ItemText
/-
Texts of a document given by `getString`.
-/
namespace BX.Spec
open BX XBT

/-- values with all bytes of their types -/
def WholeData (d : Data) : Prop := (is4 d.type = true ∨ d.type = UNIX_DATE → d.bytes.length = 4) ∧ (is8 d.type = true → d.bytes.length = 8) ∧ (d.type = GUID → d.bytes.length = 16) ∧ (d.type = SHA1 → d.bytes.length = 20)

/-- the buffers after any texts were asked for since the start of the program -/
inductive Asked (gm : Gm) (ftx : List UInt8 → CStr) : Texts → Prop
  | start : Asked gm ftx Texts.init
  | next {st st' : Texts} {d : Data} {s : Option CStr} (h : Asked gm ftx st) (hd : WholeData d) (hs : st.toStr gm ftx d = .ok (s, st')) : Asked gm ftx st'

/-- `call` gives the text `s` (`none`: a null pointer), whatever was asked before -/
def Gives (gm : Gm) (ftx : List UInt8 → CStr) (call : Texts → Out (Option CStr × Texts)) (s : Option CStr) : Prop := ∀ st, Asked gm ftx st → ∃ st', call st = .ok (s, st')

/-- what the C library promises: parts of dates are `int`s, and `%f` of a `float` is a short text -/
def LibOk (gm : Gm) (ftx : List UInt8 → CStr) : Prop := (∀ n, (gm n).1 < 10 ^ 10 ∧ (gm n).2.1 < 10 ^ 10 ∧ (gm n).2.2 < 10 ^ 10) ∧ ∀ b, (ftx b).length ≤ 60 ∧ '\x00' ∉ ftx b

/-- types whose texts `getString` gives correctly -/
def strTypes : List XBT := [INT32, INT32_DECI, INT32_CENTI, INT32_MILI, INT32_MICRO, INT32_NANO, UNIX_TIME, UNIX_DATE, SHA1]

/-- an element has no value, a text that looks like nothing else, a text in the form of the type it looks like, or a GUID in small letters -/
def NodeStr (gm : Gm) (ftx : List UInt8 → CStr) : SVal → Prop
  | .none => True
  | .text s => detect s = STRING ∨ (detect s ∈ strTypes ∧ Canon gm ftx (detect s) s) ∨ ∃ g, g.length = 16 ∧ s = guid2Str g
  | .bin _ _ => False

/-- an attribute has no value, a text in the form of the common type `t` of all its values, or a text, if there is no common type of four bytes -/
def AttrStr (gm : Gm) (ftx : List UInt8 → CStr) (t : XBT) : SVal → Prop
  | .none => True
  | .text v => v ≠ [] ∧ (size2 (detect2 v t) 0 ≠ 4 ∨ (detect2 v t ∈ strTypes ∧ Canon gm ftx (detect2 v t) v))
  | .bin _ _ => False

/-- the text of a value, or no text -/
def _root_.BX.SVal.str : SVal → Option CStr
  | .text s => some s
  | _ => none

mutual
/-- all values of a document are such texts -/
def DocStr (gm : Gm) (ftx : List UInt8 → CStr) (pt : BStr → XBT) : Elem → Prop
  | .mk _ value params children => NodeStr gm ftx value ∧ (∀ p ∈ params, AttrStr gm ftx (pt p.1) p.2) ∧ DocStrAll gm ftx pt children
def DocStrAll (gm : Gm) (ftx : List UInt8 → CStr) (pt : BStr → XBT) : List Elem → Prop
  | [] => True
  | e :: es => DocStr gm ftx pt e ∧ DocStrAll gm ftx pt es
end

mutual
/-- `getString` gives the texts of the element for the item at `x`, of its attributes and of the items below it -/
def SameStrings (gm : Gm) (ftx : List UInt8 → CStr) (f : Img) : Elem → Int → Prop
  | .mk _ value params children, x => Gives gm ftx (f.itemString gm ftx x) value.str ∧
    (∀ i (h : i < params.length), ∃ a, f.getParamByIndex x i = .ok (some a) ∧ Gives gm ftx (f.attrString gm ftx x a) params[i].2.str) ∧
    f.childcount x = .ok (children.length : Int) ∧ SameStringsAll gm ftx f children x 0
/-- the same for the children from the `i`-th on -/
def SameStringsAll (gm : Gm) (ftx : List UInt8 → CStr) (f : Img) : List Elem → Int → Nat → Prop
  | [], _, _ => True
  | e :: es, x, i => (∃ y, f.getChildByIndex x i = .ok (some y) ∧ SameStrings gm ftx f e y) ∧ SameStringsAll gm ftx f es x (i + 1)
end

end BX.Spec
