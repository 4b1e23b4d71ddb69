import Verif.Spec.Rings
/-
The calls of `join` on elements that are in a list, or in the same circle: what they mean for lists.
-/
namespace BX.Spec
open BX

/-- the calls of `a.join(b)` that `Step` leaves out -/
inductive OtherJoin : Forest → Nat → Nat → Forest → Prop
  /-- `a` is detached and `b` is in a list: the circle of `a`, beginning with `a`, is inserted in front of `b` -/
  | insert {F : Forest} {p a b k : Nat} : a ∈ F.at' (.loose k) → b ∈ F.at' (F.home p b) → F.tag a = F.tag b →
      OtherJoin F a b ((F.put (F.home p b) (spliced b (fromElem a (F.at' (.loose k))) (F.at' (F.home p b)))).put (.loose k) [])
  /-- an element joined to itself: nothing changes -/
  | self {F : Forest} {a : Nat} : F.Elem a → OtherJoin F a a F
  /-- two elements of one list: the elements from the one to the other are taken out and become a circle of their own, except that the
  part with the first element of the list remains in it -/
  | split {F : Forest} {q : Place} {x y z : List Nat} {a b c d k : Nat} : F.at' q = x ++ c :: y ++ d :: z → F.at' (.loose k) = [] → (a = c ∧ b = d ∨ a = d ∧ b = c) →
      OtherJoin F a b (if x = [] then (F.put q (c :: y)).put (.loose k) (d :: z) else (F.put q (x ++ d :: z)).put (.loose k) (c :: y))

/-- the histories of a pool in which these calls occur as well -/
inductive AnyHist (E : Env) (maxSize : Nat) : Pool → Forest → Prop
  | start : AnyHist E maxSize (Pool.empty maxSize) ⟨fun _ => [], fun _ => false⟩
  | made {P Q : Pool} {F : Forest} {id : Int} {t : XBT} {size off : Nat} {b : Bool} {bs : List UInt8} {o k : Nat} : AnyHist E maxSize P F →
      P.make E id t size (tagFlag b) off bs = .ok (Q, some o) → F.at' (.loose k) = [] →
      AnyHist E maxSize Q { F.put (.loose k) [o] with tag := fun e => if e = o then b else F.tag e }
  | refused {P Q : Pool} {F : Forest} {id : Int} {t : XBT} {size off : Nat} {b : Bool} {bs : List UInt8} : AnyHist E maxSize P F →
      P.make E id t size (tagFlag b) off bs = .ok (Q, none) → AnyHist E maxSize Q F
  | step {P Q : Pool} {F G : Forest} {op : ListOp} : AnyHist E maxSize P F → Step F op G → op.run P = .ok Q → AnyHist E maxSize Q G
  | joined {P Q : Pool} {F G : Forest} {a b : Nat} : AnyHist E maxSize P F → OtherJoin F a b G → P.join a b = .ok Q → AnyHist E maxSize Q G

end BX.Spec
