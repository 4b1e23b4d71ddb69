import Verif.Spec.Attrs
import Verif.Spec.Tree
import Verif.Model.Copy
/-
Trees of elements as the reader of a file and the reader of a writable document show them, and what copying one into the other means.
-/
namespace BX.Spec
open BX XBT

/-- an element: its identification, value, attributes and children, in order -/
inductive CTree where
  | mk (id : Int) (value : Data) (attrs : List (Int × Data)) (kids : List CTree)

def CTree.id : CTree → Int | .mk i _ _ _ => i
def CTree.value : CTree → Data | .mk _ v _ _ => v
def CTree.attrs : CTree → List (Int × Data) | .mk _ _ a _ => a
def CTree.kids : CTree → List CTree | .mk _ _ _ k => k

mutual
/-- the item at `x` of a file shows this identification, these attributes and these children (and they their values) -/
def FileShows (f : Img) (x : Int) : CTree → Prop
  | .mk id _ as ks =>
    f.name x = .ok id ∧ f.paramcount x = .ok (as.length : Int) ∧
    (∀ i (h : i < as.length), ∃ a, f.getParamByIndex x i = .ok (some a) ∧ f.pName a = .ok as[i].1 ∧ f.pGetData x a = .ok as[i].2) ∧
    f.childcount x = .ok (ks.length : Int) ∧ FileShowsKids f x 0 ks
/-- the children of the item at `x` from the `i`-th on -/
def FileShowsKids (f : Img) (x : Int) (i : Nat) : List CTree → Prop
  | [] => True
  | k :: ks => (∃ y, f.getChildByIndex x i = .ok (some y) ∧ f.getData y = .ok k.value ∧ FileShows f y k) ∧ FileShowsKids f x (i + 1) ks
end

/-- the type and the bytes of the value of an element of a writable document, as `getData` describes them -/
def elemValue (P : Pool) (e : Int) : Out Data := do
  let r ← P.getData e
  match r.type with
  | none => .fail
  | some t =>
    if r.size < 0 then .fail
    else do
      let bs ← P.img.rd r.data r.size.toNat
      return ⟨t, bs⟩

mutual
/-- the element `e` of a writable document shows this identification, these attributes and these children (and they their values); `fuel`
bounds the number of steps of a loop -/
def DocShows (P : Pool) (fuel : Nat) (e : Int) : CTree → Prop
  | .mk id _ as ks =>
    P.eId e = .ok id ∧
    (∃ l, P.listAt e 20 fuel = .ok l ∧ l.length = as.length ∧ ∀ i (h : i < l.length) (h' : i < as.length), P.eId l[i] = .ok as[i].1 ∧ elemValue P l[i] = .ok as[i].2) ∧
    ∃ l, P.forwards e fuel 0 = .ok l ∧ DocShowsKids P fuel l ks
/-- the same for a list of elements, with their values -/
def DocShowsKids (P : Pool) (fuel : Nat) : List Int → List CTree → Prop
  | [], [] => True
  | e :: es, k :: ks => elemValue P e = .ok k.value ∧ DocShows P fuel e k ∧ DocShowsKids P fuel es ks
  | _, _ => False
end

/-- the type of a symbol as far as it can be asked for -/
def Doc.typeOf (D : Doc) (b : Bool) (id : Int) : Option XBT := if D.ready b = true ∧ D.syms b ≠ [] then some (D.symType b id) else none

/-- the value that a copied value becomes where the symbol has type `t`: itself, or a text is converted. (A date is not taken, it cannot be
read from a document, nor a block whose length is negative.) -/
def asType (flt : CStr → List UInt8) (t : XBT) (d : Data) : Option Data :=
  if d.type = t then (if isVarsize t = true ∧ d.bytes.length < 4 then none else some d)
  else if d.type = STRING ∧ t ≠ UNIX_DATE then textData flt (toC (cPrefix d.bytes)) t
  else none

/-- a copied attribute -/
def Doc.takesAttr (flt : CStr → List UInt8) (D : Doc) (a : Int × Data) : Option (Int × Data) :=
  (D.typeOf false a.1).bind fun t => (asType flt t a.2).map fun d => (a.1, d)

/-- a copied value of an element: an element without a value needs no type -/
def Doc.takesValue (flt : CStr → List UInt8) (D : Doc) (id : Int) (d : Data) : Option Data :=
  if d.type = NULL then some d else (D.typeOf true id).bind fun t => asType flt t d

/-- all attributes, if each can be copied -/
def Doc.takesAttrs (flt : CStr → List UInt8) (D : Doc) : List (Int × Data) → Option (List (Int × Data))
  | [] => some []
  | a :: as => (D.takesAttr flt a).bind fun a' => (D.takesAttrs flt as).map fun as' => a' :: as'

mutual
/-- the tree a copied tree becomes (`none`: an attribute or a value cannot be stored with the type of its symbol) -/
def Doc.takes (flt : CStr → List UInt8) (D : Doc) : CTree → Option CTree
  | .mk id v as ks => (D.takesAttrs flt as).bind fun as' => (D.takesKids flt ks).map fun ks' => .mk id v as' ks'
def Doc.takesKids (flt : CStr → List UInt8) (D : Doc) : List CTree → Option (List CTree)
  | [] => some []
  | k :: ks => (D.takesValue flt k.id k.value).bind fun v => (D.takes flt k).bind fun k' => (D.takesKids flt ks).map fun ks' => .mk k'.id v k'.attrs k'.kids :: ks'
end

/-- enough bytes for the attributes -/
def attrsRoom : List (Int × Data) → Nat
  | [] => 0
  | a :: as => a.2.bytes.length + 80 + attrsRoom as

mutual
/-- enough bytes for all below an element -/
def CTree.room : CTree → Nat
  | .mk _ _ as ks => attrsRoom as + kidsRoom ks
def kidsRoom : List CTree → Nat
  | [] => 0
  | k :: ks => k.value.bytes.length + 80 + k.room + kidsRoom ks
end

mutual
/-- no element below has attributes that need more than 16000 bytes together -/
def CTree.light : CTree → Prop
  | .mk _ _ _ ks => lightKids ks
def lightKids : List CTree → Prop
  | [] => True
  | k :: ks => attrsRoom k.attrs ≤ 16000 ∧ k.light ∧ lightKids ks
end

mutual
/-- a number of steps that is enough -/
def CTree.steps : CTree → Nat
  | .mk _ _ _ ks => 1 + kidsSteps ks
def kidsSteps : List CTree → Nat
  | [] => 1
  | k :: ks => 1 + k.steps + kidsSteps ks
end

/-- the same document except for what is below `p` and new elements -/
structure GrewBelow (p : Nat) (D D' : Doc) : Prop where
  kids : ∀ q, D.forest.Elem q → q ≠ p → D'.forest.at' (.kids q) = D.forest.at' (.kids q) ∧ D'.forest.at' (.attrs q) = D.forest.at' (.attrs q)
  loose : ∀ k, D'.forest.at' (.loose k) = D.forest.at' (.loose k)
  elem : ∀ e, D.forest.Elem e → D'.forest.Elem e ∧ D'.forest.tag e = D.forest.tag e ∧ D'.id e = D.id e ∧ D'.type e = D.type e ∧ D'.val e = D.val e
  root : D'.root = D.root
  syms : D'.syms = D.syms
  ready : D'.ready = D.ready

end BX.Spec
