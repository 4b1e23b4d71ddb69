import Verif.Model.Getters
import Verif.Spec.Text
import Verif.Spec.Copy
/-
Numbers in texts, histories of calls of the integer getters, and the order of visits of a tree.
-/
namespace BX.Spec
open BX XBT

/-- the text starts (after blanks) with a number: an optional minus sign and digits, which no digit follows -/
def StartsNum (w : CStr) (v : Int) : Prop :=
  ∃ (s : CStr) (neg : Bool) (ds rest : CStr), Spaces s ∧ Digits ds ∧ NoDigit rest ∧ w = s ++ (if neg then ['-'] else []) ++ ds ++ rest ∧
    v = if neg then -(digitsValue ds : Int) else digitsValue ds

/-- the value is an integer stored as a 32-bit number (a 64-bit number) -/
def Stores32 (d : Data) (v : Int) : Prop := d = ⟨INT32, le32 v⟩ ∧ isI32 v
def Stores64 (d : Data) (v : Int) : Prop := d = ⟨INT64, le64 v⟩ ∧ isI64 v

/-- the value is a text that starts with an integer -/
def Writes (d : Data) (v : Int) : Prop := ∃ w, d = ⟨STRING, w ++ [0]⟩ ∧ StartsNum (toC w) v

/-- any number of calls of getters, for any items and attributes of any files, lead from one state of the library's variables to another -/
inductive Calls : Statics → Statics → Prop
  | none (s : Statics) : Calls s s
  | attr {s s1 s2 : Statics} {f : Img} {x : Int} {p : Option Int} {r : Option IPtr} : Calls s s1 → f.pGetIntPtr s1 x p = .ok (s2, r) → Calls s s2
  | attr64 {s s1 s2 : Statics} {f : Img} {x : Int} {p : Option Int} {r : Option IPtr} : Calls s s1 → f.pGetInt64Ptr s1 x p = .ok (s2, r) → Calls s s2
  | item {s s1 s2 : Statics} {f : Img} {x : Int} {r : Option IPtr} : Calls s s1 → f.getIntPtr s1 x = .ok (s2, r) → Calls s s2
  | item64 {s s1 s2 : Statics} {f : Img} {x : Int} {r : Option IPtr} : Calls s s1 → f.getInt64Ptr s1 x = .ok (s2, r) → Calls s s2

/-- the tree of the items of a file below the item `x`: where the items are -/
inductive XTree where
  | mk (x : Int) (kids : List XTree)

def XTree.item : XTree → Int | .mk x _ => x
def XTree.kids : XTree → List XTree | .mk _ ks => ks

mutual
/-- the reader shows this tree of items: the number of children and each of them, by its index -/
def ItemTree (f : Img) : XTree → Prop
  | .mk x ks => f.childcount x = .ok (ks.length : Int) ∧ ItemTrees f x 0 ks
def ItemTrees (f : Img) (x : Int) (i : Nat) : List XTree → Prop
  | [] => True
  | k :: ks => f.getChildByIndex x i = .ok (some k.item) ∧ ItemTree f k ∧ ItemTrees f x (i + 1) ks
end

mutual
/-- the items below the root of a tree with their depths, each before the items below it -/
def XTree.pre : XTree → Nat → List (Int × Nat)
  | .mk _ ks, deep => itemsPre ks deep
def itemsPre : List XTree → Nat → List (Int × Nat)
  | [], _ => []
  | k :: ks, deep => (k.item, deep) :: k.pre (deep + 1) ++ itemsPre ks deep
end

mutual
/-- the same, each after the items below it -/
def XTree.post : XTree → Nat → List (Int × Nat)
  | .mk _ ks, deep => itemsPost ks deep
def itemsPost : List XTree → Nat → List (Int × Nat)
  | [], _ => []
  | k :: ks, deep => k.post (deep + 1) ++ (k.item, deep) :: itemsPost ks deep
end

mutual
/-- the same, each with the path of the items above it, from the top -/
def XTree.paths : XTree → List Int → List (Int × List Int)
  | .mk x ks, up => itemsPaths ks (up ++ [x])
def itemsPaths : List XTree → List Int → List (Int × List Int)
  | [], _ => []
  | k :: ks, up => k.paths up ++ (k.item, up) :: itemsPaths ks up
end

mutual
/-- the number of levels of a tree -/
def XTree.levels : XTree → Nat
  | .mk _ ks => itemsLevels ks + 1
def itemsLevels : List XTree → Nat
  | [] => 0
  | k :: ks => max k.levels (itemsLevels ks)
end
end BX.Spec
