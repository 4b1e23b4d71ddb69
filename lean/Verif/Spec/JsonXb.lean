import Verif.Spec.Json
import Verif.Spec.Tree
import Verif.Model.JsonXb
/-
The tree a JSON value stands for when it is kept in a binary document. Nothing here knows how it is written.
-/
namespace BX.Spec
open BX

/-- an element without a name reads as the reserved name `NULL` -/
def nameRead (n : Option BStr) : BStr := n.getD (b8 "NULL")

mutual
/-- the element of a value with a name (`inner`: the name of its elements if it is an array, see `JV.Shown`): strings and primitives have their text as value, the members of arrays and objects are
children in the order of the text; there are no attributes -/
def JV.elem : JV → (name inner : Option BStr) → Elem
  | .str s, name, _ => .mk (nameRead name) (.text (toC s)) [] []
  | .prim s, name, _ => .mk (nameRead name) (.text (toC s)) [] []
  | .arr _ es, name, inner => .mk (nameRead name) .none [] (es.elems inner)
  | .obj _ ms, name, _ => .mk (nameRead name) .none [] ms.elems
def JEs.elems : JEs → Option BStr → List Elem
  | .nil, _ => []
  | .cons _ v _ rest, inner => v.elem inner (some (b8 "__ARRAY_ITEM_NAME__")) :: rest.elems inner
def JMs.elems : JMs → List Elem
  | .nil => []
  | .cons _ k _ _ v _ rest => v.elem (some k) (some (singular k)) :: rest.elems
end

mutual
/-- the names of the elements of a value, without those that have none -/
def JV.names : JV → (name inner : Option BStr) → List BStr
  | .str _, name, _ => name.toList
  | .prim _, name, _ => name.toList
  | .arr _ es, name, inner => name.toList ++ es.names inner
  | .obj _ ms, name, _ => name.toList ++ ms.names
def JEs.names : JEs → Option BStr → List BStr
  | .nil, _ => []
  | .cons _ v _ rest, inner => v.names inner (some (b8 "__ARRAY_ITEM_NAME__")) ++ rest.names inner
def JMs.names : JMs → List BStr
  | .nil => []
  | .cons _ k _ _ v _ rest => v.names (some k) (some (singular k)) ++ rest.names
end

mutual
/-- the texts of the strings and primitives of a value -/
def JV.leaves : JV → List BStr
  | .str s => [s]
  | .prim s => [s]
  | .arr _ es => es.leaves
  | .obj _ ms => ms.leaves
def JEs.leaves : JEs → List BStr
  | .nil => []
  | .cons _ v _ rest => v.leaves ++ rest.leaves
def JMs.leaves : JMs → List BStr
  | .nil => []
  | .cons _ _ _ _ v _ rest => v.leaves ++ rest.leaves
end

/-- the text of a value can be stored with the type it looks like, and reads as stored (C28: a time in milliseconds does not) -/
def Storable (flt : CStr → List UInt8) (s : BStr) : Prop := detect (toC s) ≠ XBT.UNIX_TIME64_MSEC ∧ textData flt (toC s) (detect (toC s)) ≠ none

/-- at most `n` different names -/
def FewNames (n : Nat) (l : List BStr) : Prop := ∀ m : List BStr, m.Nodup → (∀ s ∈ m, s ∈ l) → m.length ≤ n

end BX.Spec
