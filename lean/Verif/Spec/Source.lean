import Verif.Spec.Attrs
import Verif.Spec.Tree
import Verif.Model.Source
/-
The tree of a writable document, without any memory.
-/
namespace BX.Spec
open BX XBT

/-- elements with their children -/
inductive ETree where
  | node (e : Nat) (kids : List ETree)

def ETree.top : ETree → Nat | .node e _ => e

/-- the elements of a list of trees that are on top -/
def tops (l : List ETree) : List Nat := l.map ETree.top

mutual
/-- the tree is what the document has from its top down -/
def Doc.Below (D : Doc) : ETree → Prop
  | .node e ks => D.forest.at' (.kids e) = tops ks ∧ D.BelowAll ks
def Doc.BelowAll (D : Doc) : List ETree → Prop
  | [] => True
  | k :: ks => D.Below k ∧ D.BelowAll ks
end

mutual
/-- an element, then the trees of its children from the first to the last; with their depths -/
def ETree.preorder (deep : Nat) : ETree → List (Int × Nat)
  | .node e ks => ((e : Int), deep) :: preorderAll (deep + 1) ks
def preorderAll (deep : Nat) : List ETree → List (Int × Nat)
  | [] => []
  | k :: ks => k.preorder deep ++ preorderAll deep ks
end

/-- the name that belongs to an identification: negative ones are built in -/
def Doc.nameOf (D : Doc) (b : Bool) (id : Int) : Option BStr :=
  if id < 0 then some (if b then xtnr2str id else xpnr2str id) else (D.syms b)[id.toNat]?.map Sym.name

/-- an attribute: its name and its value -/
def Doc.attrOf (D : Doc) (a : Nat) : BStr × SVal := ((D.nameOf false (D.id a)).getD [], .bin (D.type a) (D.val a))

mutual
/-- the names, values, attributes and children of a tree of the document -/
def Doc.elemOf (D : Doc) : ETree → Elem
  | .node e ks => .mk ((D.nameOf true (D.id e)).getD []) (.bin (D.type e) (D.val e)) ((D.forest.at' (.attrs e)).map D.attrOf) (D.elemsOf ks)
def Doc.elemsOf (D : Doc) : List ETree → List Elem
  | [] => []
  | k :: ks => D.elemOf k :: D.elemsOf ks
end

mutual
/-- `p` holds for all elements of the tree and `q` for all their attributes -/
def Doc.Every (D : Doc) (p q : Nat → Prop) : ETree → Prop
  | .node e ks => p e ∧ (∀ a ∈ D.forest.at' (.attrs e), q a) ∧ D.EveryAll p q ks
def Doc.EveryAll (D : Doc) (p q : Nat → Prop) : List ETree → Prop
  | [] => True
  | k :: ks => D.Every p q k ∧ D.EveryAll p q ks
end

mutual
/-- a number of steps that is enough for going through the tree -/
def Doc.steps (D : Doc) : ETree → Nat
  | .node e ks => (D.forest.at' (.attrs e)).length + ks.length + 2 + D.stepsAll ks
def Doc.stepsAll (D : Doc) : List ETree → Nat
  | [] => 1
  | k :: ks => D.steps k + 1 + D.stepsAll ks
end

/-- the identification belongs to a registered symbol whose type is known -/
def Doc.typed (D : Doc) (b : Bool) (id : Int) : Prop := 0 ≤ id ∧ ∃ s, (D.syms b)[id.toNat]? = some s ∧ s.type ≠ UNKNOWN

/-- elements that are stored faithfully in a file: tags whose symbol has a type, or the marker `et-tecera` (-9) for elements that are appended, with a value of its form -/
def Doc.storedElem (D : Doc) (e : Nat) : Prop := D.forest.tag e = true ∧ (D.typed true (D.id e) ∨ D.id e = -9 ∧ D.syms true ≠ []) ∧ GoodVal (D.type e) (D.val e) ∧ D.type e ≠ BLOB_STRING

/-- attributes that are stored faithfully in a file: their symbol has a type, they have a value of its form that is not a text -/
def Doc.storedAttr (D : Doc) (a : Nat) : Prop := D.typed false (D.id a) ∧ GoodVal (D.type a) (D.val a) ∧ D.type a ≠ BLOB_STRING ∧ D.type a ≠ STRING

/-- no element has more attributes than can be counted in 16 bits, and four more bytes can be read behind a digest in a file of `n` bytes -/
def Doc.Small (D : Doc) (n : Nat) : ETree → Prop :=
  D.Every (fun e => (D.forest.at' (.attrs e)).length ≤ 32767 ∧ (D.type e = SHA1 → e + 48 ≤ n)) (fun a => D.type a = SHA1 → a + 48 ≤ n)

end BX.Spec
