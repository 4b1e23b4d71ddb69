import Verif.Model.Pool
/-
Lists of elements, without any links: what the operations on elements mean.
-/
namespace BX.Spec
open BX

/-- where an element can be: among the children or the attributes of an element, or in a circle of elements not yet added (circles
have arbitrary names) -/
inductive Place where
  | kids (p : Nat)
  | attrs (p : Nat)
  | loose (k : Nat)
deriving DecidableEq

/-- the elements at each place, in order, and which elements are tags (the others are attributes) -/
structure Forest where
  at' : Place → List Nat
  tag : Nat → Bool

/-- changing the list at a place -/
def Forest.put (F : Forest) (q : Place) (l : List Nat) : Forest := { F with at' := fun r => if r = q then l else F.at' r }

/-- the list of `p` where `t` belongs -/
def Forest.home (F : Forest) (p t : Nat) : Place := if F.tag t then .kids p else .attrs p

/-- the elements of a circle, beginning with `t` -/
def fromElem (t : Nat) (l : List Nat) : List Nat := l.dropWhile (· ≠ t) ++ l.takeWhile (· ≠ t)

/-- a list in which `m` is inserted in front of `a`; in front of the first element means at the end, for the list is a circle -/
def spliced (a : Nat) (m l : List Nat) : List Nat := if l.head? = some a then l ++ m else l.takeWhile (· ≠ a) ++ m ++ l.dropWhile (· ≠ a)

/-- the calls on existing elements, and the two assignments (`cut` and `tie`) with which a text that does not fit is set, see `setStr` -/
inductive ListOp where
  | add (p t : Nat)
  | join (a b : Nat)
  | remove (p t : Nat)
  | replace (p old new : Nat)
  | cut (e : Nat)
  | tie (e a : Nat)
deriving DecidableEq

/-- an element of the document -/
def Forest.Elem (F : Forest) (e : Nat) : Prop := ∃ q, e ∈ F.at' q

/-- the meaning of the calls -/
inductive Step : Forest → ListOp → Forest → Prop
  /-- a circle of detached elements, beginning with `t`, is appended to the list of `p` -/
  | add {F : Forest} {p t k : Nat} : F.Elem p → t ∈ F.at' (.loose k) →
      Step F (.add p t) ((F.put (F.home p t) (F.at' (F.home p t) ++ fromElem t (F.at' (.loose k)))).put (.loose k) [])
  /-- two circles become one -/
  | join {F : Forest} {a b j k : Nat} : j ≠ k → a ∈ F.at' (.loose j) → b ∈ F.at' (.loose k) → F.tag a = F.tag b →
      Step F (.join a b) ((F.put (.loose j) (fromElem a (F.at' (.loose j)) ++ fromElem b (F.at' (.loose k)))).put (.loose k) [])
  /-- a circle of detached elements, beginning with `b`, is inserted in the list of `p` in front of its element `a` -/
  | splice {F : Forest} {p a b k : Nat} : a ∈ F.at' (F.home p a) → b ∈ F.at' (.loose k) → F.tag a = F.tag b →
      Step F (.join a b) ((F.put (F.home p a) (spliced a (fromElem b (F.at' (.loose k))) (F.at' (F.home p a)))).put (.loose k) [])
  /-- an element is taken out of the list of `p` and is detached -/
  | remove {F : Forest} {p t k : Nat} : t ∈ F.at' (F.home p t) → F.at' (.loose k) = [] →
      Step F (.remove p t) ((F.put (F.home p t) ((F.at' (F.home p t)).erase t)).put (.loose k) [t])
  /-- an element of the list of `p` that has at least two is replaced by a single detached one; the old one is detached -/
  | replace {F : Forest} {p old new k : Nat} : old ∈ F.at' (F.home p old) → 2 ≤ (F.at' (F.home p old)).length → F.at' (.loose k) = [new] → F.tag old = F.tag new →
      Step F (.replace p old new) ((F.put (F.home p old) ((F.at' (F.home p old)).map (fun x => if x = old then new else x))).put (.loose k) [old])
  /-- all attributes of an element are detached -/
  | cut {F : Forest} {e k : Nat} : F.Elem e → F.at' (.loose k) = [] → Step F (.cut e) ((F.put (.attrs e) []).put (.loose k) (F.at' (.attrs e)))
  /-- detached attributes are given to an element without attributes -/
  | tie {F : Forest} {e k : Nat} : F.Elem e → F.at' (.attrs e) = [] → (∀ a ∈ F.at' (.loose k), F.tag a = false) →
      Step F (.tie e ((F.at' (.loose k)).headD 0)) ((F.put (.attrs e) (F.at' (.loose k))).put (.loose k) [])

/-- the calls of the library; the assignments `e->first_attribute = 0` and `e->first_attribute = a`, bin_write_plugin.cpp:1053, 1060 -/
def ListOp.run (P : Pool) : ListOp → Out Pool
  | .add p t => P.add p (some t)
  | .join a b => P.join a b
  | .remove p t => P.remove p (some t)
  | .replace p old new => P.replace p old new
  | .cut e => P.wr (e + 20) (le32 0)
  | .tie e a => P.wr (e + 20) (le32 a)

/-- the flag of a tag -/
def tagFlag (b : Bool) : UInt8 := if b then 1 else 0

/-- the histories of a pool: elements of any type, size, name and value are made (or fail to be made) and the calls are applied to
them, in any order -/
inductive Hist (E : Env) (maxSize : Nat) : Pool → Forest → Prop
  | start : Hist E maxSize (Pool.empty maxSize) ⟨fun _ => [], fun _ => false⟩
  | made {P Q : Pool} {F : Forest} {id : Int} {t : XBT} {size off : Nat} {b : Bool} {bs : List UInt8} {o k : Nat} : Hist E maxSize P F →
      P.make E id t size (tagFlag b) off bs = .ok (Q, some o) → F.at' (.loose k) = [] →
      Hist E maxSize Q { F.put (.loose k) [o] with tag := fun e => if e = o then b else F.tag e }
  | refused {P Q : Pool} {F : Forest} {id : Int} {t : XBT} {size off : Nat} {b : Bool} {bs : List UInt8} : Hist E maxSize P F →
      P.make E id t size (tagFlag b) off bs = .ok (Q, none) → Hist E maxSize Q F
  | step {P Q : Pool} {F G : Forest} {op : ListOp} : Hist E maxSize P F → Step F op G → op.run P = .ok Q → Hist E maxSize Q G

end BX.Spec
