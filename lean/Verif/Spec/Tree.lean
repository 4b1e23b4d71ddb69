import Verif.Model.Create
import Verif.Spec.Symbols
/-
What it means that an element of a source document can be read at an address of a file: the relation between a source tree and
the answers of the reader. Nothing here knows how files are written.
-/
namespace BX
open XBT

/-- the type of an attribute in the creator's table as `XStoreParamsEvent` looks it up -/
def Ctx.ptype (c : Ctx) (name : BStr) : XBT :=
  if 0 ≤ c.params.find (some name) then c.params.type (c.params.find (some name)).toNat else UNKNOWN

end BX

namespace BX.Spec
open BX XBT

/-- a text as a C program can pass it: no NUL inside, every character one byte -/
def CText (s : CStr) : Prop := ∀ c ∈ s, 0 < c.toNat ∧ c.toNat < 256

/-- the data a text stands for when it is stored with type `t` (`none`: it cannot be converted) -/
def textData (flt : CStr → List UInt8) (s : CStr) (t : XBT) : Option Data :=
  match fromString flt s t 0 (s.length + 8) with
  | .ok w => some ⟨t, w.bytes⟩
  | _ => none

/-- the data of a binary value: its type and the bytes belonging to it -/
def binData (t : XBT) (src : List UInt8) : Data :=
  if t = NULL then ⟨t, []⟩
  else if t = STRING then ⟨t, cPrefix src ++ [0]⟩
  else if isVarsize t then ⟨t, src.take (4 + (rdI32 src).toNat)⟩
  else if is4 t ∨ t = UNIX_DATE then ⟨t, src.take 4⟩
  else if is8 t then ⟨t, src.take 8⟩
  else if t = SHA1 then ⟨t, src.take 20⟩
  else ⟨t, src.take 16⟩

/-- the data of an element's value; a text is stored with the type it looks like -/
def nodeData (flt : CStr → List UInt8) : SVal → Option Data
  | .none => some ⟨NULL, []⟩
  | .text s => textData flt s (detect s)
  | .bin t src => some (binData t src)

/-- the data of an attribute's value: `t` is the common type of all values of this attribute in the document. A text is stored
with the join of its own and this type if that type has four bytes and the text can be converted, as a string otherwise; an
empty text is no value. -/
def attrData (flt : CStr → List UInt8) (t : XBT) : SVal → Data
  | .none => ⟨NULL, []⟩
  | .text v =>
    if v = [] then ⟨NULL, []⟩
    else if size2 (detect2 v t) 0 = 4 then (textData flt v (detect2 v t)).getD ⟨STRING, cBytes v⟩
    else ⟨STRING, cBytes v⟩
  | .bin t src => binData t src

/-- element values that are stored faithfully (see `C28_..._false` for the others) -/
def NodeOk : SVal → Prop
  | .none => True
  | .text s => CText s ∧ detect s ≠ UNIX_TIME64_MSEC
  | .bin t src => t ≠ VARIANT ∧ t ≠ UNKNOWN ∧ t ≠ LAST ∧ t ≠ BLOB_STRING ∧ (isVarsize t → 0 ≤ rdI32 src)

/-- attribute values that are stored faithfully; `t` is the common type of the attribute's values in the document -/
def AttrOk (t : XBT) : SVal → Prop
  | .none => True
  | .text v => CText v ∧ (v ≠ [] → detect2 v t ≠ UNIX_DATE ∧ detect2 v t ≠ HEX)
  | .bin t src => t ≠ VARIANT ∧ t ≠ UNKNOWN ∧ t ≠ LAST ∧ t ≠ BLOB_STRING ∧ t ≠ STRING ∧ t ≠ UNIX_DATE ∧ (isVarsize t → 0 ≤ rdI32 src)

mutual
/-- all values of the tree are stored faithfully -/
def TreeOk (pt : BStr → XBT) : Elem → Prop
  | .mk _ value params children => NodeOk value ∧ (∀ p ∈ params, AttrOk (pt p.1) p.2) ∧ TreeOkAll pt children
def TreeOkAll (pt : BStr → XBT) : List Elem → Prop
  | [] => True
  | e :: es => TreeOk pt e ∧ TreeOkAll pt es
end

mutual
/-- all tag names of the tree satisfy `P`, all attribute names `Q` -/
def NamesIn (P Q : BStr → Prop) : Elem → Prop
  | .mk name _ params children => P name ∧ (∀ p ∈ params, Q p.1) ∧ NamesInAll P Q children
def NamesInAll (P Q : BStr → Prop) : List Elem → Prop
  | [] => True
  | e :: es => NamesIn P Q e ∧ NamesInAll P Q es
end

/-- the tag name has an id in the creator's table that the reader translates back -/
def TagOk (f : Img) (r : Rd) (c : Ctx) (name : BStr) : Prop :=
  (-32768 ≤ c.tags.find (some name) ∧ c.tags.find (some name) ≤ 32767) ∧ f.getSymbol r.tags (c.tags.find (some name)) = .ok name
/-- the same for attribute names -/
def ParOk (f : Img) (r : Rd) (c : Ctx) (name : BStr) : Prop :=
  (-32768 ≤ c.params.find (some name) ∧ c.params.find (some name) ≤ 32767) ∧ f.getSymbol r.params (c.params.find (some name)) = .ok name

/-- the `i`-th attribute of the item at `x` is `p` -/
def ReadsAttr (flt : CStr → List UInt8) (pt : BStr → XBT) (f : Img) (r : Rd) (x : Int) (i : Nat) (p : BStr × SVal) : Prop :=
  ∃ a id, f.getParamByIndex x i = .ok (some a) ∧ f.pName a = .ok id ∧ f.getSymbol r.params id = .ok p.1 ∧
    f.pGetData x a = .ok (attrData flt (pt p.1) p.2)

mutual
/-- the item at `x` reads as the element: its name (the append marker has its reserved id), its attributes in order, its value, its children in order. `pt` is the type
of an attribute. -/
def Reads (flt : CStr → List UInt8) (pt : BStr → XBT) (f : Img) (r : Rd) : Elem → Int → Prop
  | .mk name value params children, x =>
    (∃ id, f.name x = .ok id ∧ f.getSymbol r.tags id = .ok name ∧ (name = b8 "et-tecera" → id = -9)) ∧
    f.paramcount x = .ok (params.length : Int) ∧
    (∀ i (h : i < params.length), ReadsAttr flt pt f r x i params[i]) ∧
    (∃ d, nodeData flt value = some d ∧ f.rawValue x = .ok d) ∧
    f.childcount x = .ok (children.length : Int) ∧
    ReadsAll flt pt f r children x 0
/-- the children of the item at `x` from the `i`-th on read as the elements -/
def ReadsAll (flt : CStr → List UInt8) (pt : BStr → XBT) (f : Img) (r : Rd) : List Elem → Int → Nat → Prop
  | [], _, _ => True
  | e :: es, x, i => (∃ y, f.getChildByIndex x i = .ok (some y) ∧ Reads flt pt f r e y) ∧ ReadsAll flt pt f r es x (i + 1)
end

mutual
/-- the item at `x` occupies the bytes from `x` to `x + length`: it starts at a multiple of four, its children follow each other
after its own `own` bytes (header, tables, value, attribute values), each at the next multiple of four, and the item ends where
the last child (or, without children, its own part) ends -/
def Laid (f : Img) : Elem → Int → Prop
  | .mk _ _ params children, x =>
    x % 4 = 0 ∧ ∃ len own : Int, f.length x = .ok len ∧ 12 + 8 * (params.length : Int) + 4 * (children.length : Int) < own ∧
      x + len ≤ f.size ∧ LaidAll f children x 0 (x + own) (x + len)
/-- the children from the `i`-th on, the first of them after `lo`, end at `hi` -/
def LaidAll (f : Img) : List Elem → Int → Nat → Int → Int → Prop
  | [], _, _, lo, hi => lo = hi
  | e :: es, x, i, lo, hi => ∃ y len, f.getChildByIndex x i = .ok (some y) ∧ lo ≤ y ∧ y < lo + 4 ∧ f.length y = .ok len ∧ 12 < len ∧
      Laid f e y ∧ LaidAll f es x (i + 1) (y + len) hi
end

/-- the common type of all values of an attribute in the document, in document order (see C25; `et-tecera` is reserved) -/
def docAttrType (e : Elem) (name : BStr) : XBT :=
  if name = b8 "et-tecera" then UNKNOWN else (typeAfter ((paramOps e).filter fun op => op.name == name)).getD UNKNOWN

end BX.Spec
