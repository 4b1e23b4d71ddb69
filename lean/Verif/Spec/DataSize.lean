import Verif.Spec.Session
/-
The bytes that elements and attributes take.
-/
namespace BX.Spec

/-- the bytes that elements and attributes take in a file: 24 for the element itself, and its value rounded up to four bytes -/
def Doc.bytesOf (D : Doc) (l : List Nat) : Nat := (l.map fun e => 24 + (D.val e).length + (4 - (D.val e).length % 4) % 4).sum

end BX.Spec
