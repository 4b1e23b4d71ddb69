/-
What sorting means; independent of the code.
-/
namespace BX.Spec
variable {α : Type}

/-- a comparator that orders its elements (different elements may be equal in rank) -/
structure Comparator (cmp : α → α → Int) : Prop where
  flip : ∀ x y, 0 < cmp x y ↔ cmp y x < 0
  trans : ∀ x y z, cmp x y ≤ 0 → cmp y z ≤ 0 → cmp x z ≤ 0

/-- no element is greater than a later one -/
def Sorted (cmp : α → α → Int) (l : List α) : Prop := l.Pairwise fun x y => cmp x y ≤ 0

/-- elements of equal rank stand in their original order -/
def Stable (cmp : α → α → Int) (before after : List α) : Prop :=
  ∀ x, after.filter (fun y => decide (cmp x y = 0)) = before.filter (fun y => decide (cmp x y = 0))

end BX.Spec
