import Verif.Spec.Tree
import Verif.Model.Pack
/-
What a packed document promises. Nothing here knows how the packer works.
-/
namespace BX.Spec
open BX XBT

mutual
/-- no element value is of a type that the reader expects at a multiple of eight -/
def Narrow (flt : CStr → List UInt8) : Elem → Prop
  | .mk _ value _ children => (∀ d, nodeData flt value = some d → d.type ≠ INT64 ∧ d.type ≠ UINT64 ∧ d.type ≠ DOUBLE ∧ d.type ≠ UNIX_TIME64_MSEC ∧ d.type ≠ IPv6) ∧
      NarrowAll flt children
def NarrowAll (flt : CStr → List UInt8) : List Elem → Prop
  | [] => True
  | e :: es => Narrow flt e ∧ NarrowAll flt es
end

mutual
/-- `l` are the addresses of the items met when the tree is walked from the item at `x` in document order, following every
reference to a child -/
def Visits (f : Img) : Elem → Int → List Int → Prop
  | .mk _ _ _ children, x, l => ∃ l', l = x :: l' ∧ VisitsAll f children x 0 l'
/-- the same for the children of the item at `x` from the `i`-th on -/
def VisitsAll (f : Img) : List Elem → Int → Nat → List Int → Prop
  | [], _, _, l => l = []
  | e :: es, x, i, l => ∃ y l1 l2, f.getChildByIndex x i = .ok (some y) ∧ Visits f e y l1 ∧ VisitsAll f es x (i + 1) l2 ∧ l = l1 ++ l2
end

/-- every item met is either placed after all items met before it, or was met before: a reference to a shared item leads back -/
def Backwards (l : List Int) : Prop :=
  ∀ k (hk : k < l.length), (∀ j (hj : j < k), l[j] < l[k]) ∨ ∃ j, ∃ hj : j < k, l[j] = l[k]

/-- the items of a file: the one at its beginning and, with an item, its children -/
inductive Item (f : Img) : Int → Prop
  | root : Item f 0
  | child {x y : Int} {i : Nat} : Item f x → f.getChildByIndex x i = .ok (some y) → Item f y

/-- different items of the file with the same hash have the same bytes -/
def NoCollision (H : List UInt8 → List UInt8) (f : Img) : Prop :=
  ∀ x y bx b, Item f x → Item f y → f.nodeBytes x = .ok bx → f.nodeBytes y = .ok b → hash192 (H bx) = hash192 (H b) → bx = b

end BX.Spec
