import Verif.Model.Base
/-
What escaped XML text means, and the order of byte strings; independent of the code.
-/
namespace BX.Spec

/-- Reading XML character data: the four entities stand for their character; a raw `<`, `>` or `"`, or an `&` that does not
begin one of the entities, is not allowed (`none`). -/
def readXml : List Char → Option (List Char)
  | [] => some []
  | '&' :: 'l' :: 't' :: ';' :: r => (readXml r).map ('<' :: ·)
  | '&' :: 'g' :: 't' :: ';' :: r => (readXml r).map ('>' :: ·)
  | '&' :: 'a' :: 'm' :: 'p' :: ';' :: r => (readXml r).map ('&' :: ·)
  | '&' :: 'q' :: 'u' :: 'o' :: 't' :: ';' :: r => (readXml r).map ('"' :: ·)
  | c :: r => if c = '&' ∨ c = '<' ∨ c = '>' ∨ c = '"' then none else (readXml r).map (c :: ·)

/-- lexicographic order of byte strings -/
def BytesLt : List UInt8 → List UInt8 → Prop
  | _, [] => False
  | [], _ :: _ => True
  | a :: as, b :: bs => a.toNat < b.toNat ∨ (a = b ∧ BytesLt as bs)

/-- the result `c` of a comparison function says how `a` and `b` are ordered -/
def Tells {α : Type} (lt : α → α → Prop) (c : Int) (a b : α) : Prop :=
  (c < 0 ↔ lt a b) ∧ (c = 0 ↔ a = b) ∧ (c > 0 ↔ lt b a)

end BX.Spec
