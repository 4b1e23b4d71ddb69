import Verif.Spec.Copy
import Verif.Model.Keys
/-
Key attributes: when an element of a document is the one of an item of a file, and the elements that a path of items leads to.
-/
namespace BX.Spec
open BX XBT

/-- a text that is converted to a type -/
def asText (flt : CStr → List UInt8) (d : Data) (t : XBT) : Option Data := textData flt (toC (cPrefix d.bytes)) t

/-- two values are the same: the same type and bytes, or one is a text that becomes the other -/
def sameData (flt : CStr → List UInt8) (a b : Data) : Bool :=
  if a.type = b.type then a.bytes == b.bytes
  else if a.type = STRING then ((asText flt a b.type).map Data.bytes) == some b.bytes
  else if b.type = STRING then ((asText flt b a.type).map Data.bytes) == some a.bytes
  else false

/-- the behaviour of the comparison is defined: the conversion of a text is (it is not for numbers with too many digits) -/
def Comparable (flt : CStr → List UInt8) (a b : Data) : Prop :=
  a.type = b.type ∨ ((a.type = STRING → fromString flt (toC (cPrefix a.bytes)) b.type 0 (a.bytes.length + 64) ≠ .ub) ∧ (b.type = STRING → fromString flt (toC (cPrefix b.bytes)) a.type 0 (b.bytes.length + 64) ≠ .ub))

/-- the first of a name -/
def firstOf (n : Int) (as : List (Int × Data)) : Option Data := (as.find? fun a => a.1 = n).map Prod.snd

/-- those that are keys -/
def keysOf (isKey : Int → Bool) (as : List (Int × Data)) : List (Int × Data) := as.filter fun a => isKey a.1

/-- `bs` has every key of `as`, with the same value, and no other keys -/
def sameKeys (flt : CStr → List UInt8) (isKey : Int → Bool) (as bs : List (Int × Data)) : Bool :=
  ((keysOf isKey as).all fun a => ((firstOf a.1 bs).map (sameData flt a.2)).getD false) && (keysOf isKey bs).all fun b => as.any fun a => a.1 = b.1

/-- the attributes of an element of a document, as they are read -/
def Doc.attrsOf (D : Doc) (e : Nat) : List (Int × Data) := (D.forest.at' (.attrs e)).map fun a => (D.id a, ⟨D.type a, readable (D.type a) (D.val a)⟩)

/-- the item at `x` of a file shows these attributes -/
def ShowsAttrs (f : Img) (x : Int) (as : List (Int × Data)) : Prop :=
  f.paramcount x = .ok (as.length : Int) ∧ ∀ i (h : i < as.length), ∃ a, f.getParamByIndex x i = .ok (some a) ∧ f.pName a = .ok as[i].1 ∧ f.pGetData x a = .ok as[i].2

/-- the keys of `e` can be compared with those of `as`: they have values of their types, and conversions are defined -/
def Doc.Clear (flt : CStr → List UInt8) (isKey : Int → Bool) (D : Doc) (e : Nat) (as : List (Int × Data)) : Prop :=
  ∀ a ∈ D.forest.at' (.attrs e), isKey (D.id a) = true → GoodVal (D.type a) (D.val a) ∧ ∀ d, (D.id a, d) ∈ as → Comparable flt d ⟨D.type a, readable (D.type a) (D.val a)⟩

/-- the first child of `p` with the same keys -/
def Doc.childOf (flt : CStr → List UInt8) (isKey : Int → Bool) (D : Doc) (p : Nat) (as : List (Int × Data)) : Option Nat :=
  (D.forest.at' (.kids p)).find? fun c => sameKeys flt isKey as (D.attrsOf c)

/-- the path of items leads from `p` to `q` -/
def Doc.Leads (flt : CStr → List UInt8) (isKey : Int → Bool) (D : Doc) : Nat → List CTree → Nat → Prop
  | p, [], q => p = q
  | p, t :: ts, q => ∃ c, D.childOf flt isKey p t.attrs = some c ∧ D.Leads flt isKey c ts q

/-- what is compared on the way can be compared -/
def Doc.ClearPath (flt : CStr → List UInt8) (isKey : Int → Bool) (D : Doc) : Nat → List CTree → Prop
  | _, [] => True
  | p, t :: ts => (∀ c ∈ D.forest.at' (.kids p), D.Clear flt isKey c t.attrs) ∧ ∀ c, D.childOf flt isKey p t.attrs = some c → D.ClearPath flt isKey c ts

/-- the items of a file show these trees -/
def FileShowsAll (f : Img) : List Int → List CTree → Prop
  | [], [] => True
  | x :: xs, t :: ts => FileShows f x t ∧ FileShowsAll f xs ts
  | _, _ => False

/-- the elements that are made for the items of a path: each has the keys of its item and the next below it; the last is a copy of the whole
item (`whole`) or has its keys. None has a value. -/
def Doc.chain (flt : CStr → List UInt8) (isKey : Int → Bool) (whole : Bool) (D : Doc) : CTree → List CTree → Option CTree
  | t, [] => if whole then (D.takes flt t).map fun t' => .mk t.id ⟨NULL, []⟩ t'.attrs t'.kids else (D.takesAttrs flt (keysOf isKey t.attrs)).map fun as => .mk t.id ⟨NULL, []⟩ as []
  | t, u :: us => (D.takesAttrs flt (keysOf isKey t.attrs)).bind fun as => (D.chain flt isKey whole u us).map fun c => .mk t.id ⟨NULL, []⟩ as [c]

/-- names of keys are used once and there are at most 16 -/
def FewKeys (isKey : Int → Bool) (as : List (Int × Data)) : Prop := ((keysOf isKey as).map Prod.fst).Nodup ∧ (keysOf isKey as).length ≤ 16

/-- the element of a document that the first item of a path has to be: the root, or the first element in a root `<transaction>` (-10) -/
def Doc.startFor (D : Doc) (id : Int) : Option Nat :=
  if D.root = 0 then none else if D.id D.root = -10 ∧ id ≠ -10 then (D.forest.at' (.kids D.root)).head? else some D.root

/-- a path that begins with the item `t` begins at the element `r`: it has the same tag and the same keys -/
structure Doc.Begins (flt : CStr → List UInt8) (isKey : Int → Bool) (D : Doc) (t : CTree) (r : Nat) : Prop where
  start : D.startFor t.id = some r
  id : D.id r = t.id
  same : sameKeys flt isKey t.attrs (D.attrsOf r) = true
  clear : D.Clear flt isKey r t.attrs

/-- nothing of a document has changed but the new element `o` and what is below it -/
structure OnlyNew (o : Nat) (D D' : Doc) : Prop where
  new : ¬ D.forest.Elem o ∧ D'.forest.Elem o
  elem : ∀ e, D.forest.Elem e → D'.forest.Elem e ∧ D'.id e = D.id e ∧ D'.type e = D.type e ∧ D'.val e = D.val e ∧ D'.forest.at' (.kids e) = D.forest.at' (.kids e) ∧ D'.forest.at' (.attrs e) = D.forest.at' (.attrs e)
  syms : D'.syms = D.syms
  ready : D'.ready = D.ready

end BX.Spec
