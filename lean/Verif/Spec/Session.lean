import Verif.Spec.Rings
import Verif.Spec.Dict
import Verif.Model.Session
import Verif.Model.Register
import Verif.Model.Crash
import Verif.Model.Retype
/-
What a writable document contains, without any memory, and the histories of calls that lead to it.
-/
namespace BX.Spec
open BX XBT

/-- the content of a writable document: its elements with their identification, type and stored value, its symbols (of tags and of
attributes) and whether their types and names can be asked for -/
structure Doc where
  forest : Forest
  id : Nat → Int
  type : Nat → XBT
  val : Nat → List UInt8
  root : Nat
  syms : Bool → List Sym
  ready : Bool → Bool

/-- no elements -/
def Forest.none : Forest := ⟨fun _ => [], fun _ => false⟩

/-- an empty document -/
def Doc.empty : Doc := ⟨Forest.none, fun _ => 0, fun _ => NULL, fun _ => [], 0, fun _ => [], fun _ => false⟩

/-- the length in front of the value of a type of variable size -/
def sizeField (t : XBT) (n : Int) : List UInt8 := if isVarsize t then le32 n else []

/-- a new detached element `o` -/
def Doc.plus (D : Doc) (k o : Nat) (b : Bool) (id : Int) (t : XBT) (v : List UInt8) : Doc :=
  { D with forest := { D.forest.put (.loose k) [o] with tag := fun e => if e = o then b else D.forest.tag e }, id := fun e => if e = o then id else D.id e,
           type := fun e => if e = o then t else D.type e, val := fun e => if e = o then v else D.val e }

/-- the beginning of the value of `e` is overwritten -/
def Doc.store (D : Doc) (e : Nat) (bs : List UInt8) : Doc := { D with val := fun x => if x = e then bs ++ (D.val e).drop bs.length else D.val x }

/-- the type of `e` is changed -/
def Doc.withType (D : Doc) (e : Nat) (t : XBT) : Doc := { D with type := fun x => if x = e then t else D.type x }

/-- the symbols of one kind are changed -/
def Doc.setSyms (D : Doc) (b : Bool) (l : List Sym) (r : Bool) : Doc :=
  { D with syms := fun c => if c = b then l else D.syms c, ready := fun c => if c = b then r else D.ready c }

/-- a symbol of that name is known -/
def Known (l : List Sym) (name : BStr) : Prop := ∃ s ∈ l, s.name = name

/-- the document without its elements -/
def Doc.cleared (D : Doc) : Doc := { Doc.empty with syms := D.syms, ready := fun _ => true }

/-- identifications have 16 bits -/
def Is16 (id : Int) : Prop := -32768 ≤ id ∧ id ≤ 32767

/-- the histories of a writable document: elements are made, linked and changed, symbols are registered and the document is cleared, closed
and opened again, in any order. Symbols have names that are not empty and do not contain ASCII NUL, and there are at most 128 of each kind. -/
inductive Sess (E : Env) (maxSize : Nat) : Pool → Doc → Prop
  | start : Sess E maxSize (Pool.empty maxSize) Doc.empty
  /-- a document is made in a file that existed before: its bytes stay behind the header -/
  | created {m : Mem} : Sess E maxSize { Pool.empty maxSize with mem := m } Doc.empty
  /-- the document is closed and its file opened again -/
  | reopened {P : Pool} {D : Doc} {n : Nat} {g : Plug} : Sess E maxSize P D → openFile E false n P.file = .ok (some g) → Sess E maxSize g.pool D
  /-- the process is killed while it makes an element for which there is room, and the file is opened again -/
  | killed {P C : Pool} {D : Doc} {id : Int} {t : XBT} {size off n : Nat} {b : Bool} {bs : List UInt8} {g : Plug} : Sess E maxSize P D → P.Room t (24 + (size2 t size).toNat) →
      P.KilledIn (P.makeStores id t size (tagFlag b) off bs) C → openFile E false n C.file = .ok (some g) → Sess E maxSize g.pool D
  /-- a call that makes an element with a value of its type -/
  | made {P Q : Pool} {D : Doc} {id : Int} {t : XBT} {size : Nat} {b : Bool} {bs : List UInt8} {o k : Nat} : Sess E maxSize P D → Is16 id →
      (sizeField t 0).length + bs.length = (size2 t size).toNat → P.make E id t size (tagFlag b) (sizeField t 0).length bs = .ok (Q, some o) → D.forest.at' (.loose k) = [] →
      Sess E maxSize Q (D.plus k o b id t (sizeField t (size2 t size - 4) ++ bs))
  | refused {P Q : Pool} {D : Doc} {id : Int} {t : XBT} {size off : Nat} {b : Bool} {bs : List UInt8} : Sess E maxSize P D →
      P.make E id t size (tagFlag b) off bs = .ok (Q, none) → Sess E maxSize Q D
  /-- a call that makes an element of given data -/
  | copied {P Q : Pool} {D : Doc} {id : Int} {t : XBT} {b : Bool} {bs : List UInt8} {o k : Nat} : Sess E maxSize P D → Is16 id →
      P.makeData id t (tagFlag b) bs = .ok (Q, some o) → D.forest.at' (.loose k) = [] → Sess E maxSize Q (D.plus k o b id t bs)
  | notCopied {P Q : Pool} {D : Doc} {id : Int} {t : XBT} {b : Bool} {bs : List UInt8} : Sess E maxSize P D →
      P.makeData id t (tagFlag b) bs = .ok (Q, none) → Sess E maxSize Q D
  /-- more space is asked for -/
  | space {P Q : Pool} {D : Doc} {n : Nat} {r : Bool} : Sess E maxSize P D → P.makeSpace E n = .ok (Q, r) → Sess E maxSize Q D
  /-- a call on existing elements -/
  | step {P Q : Pool} {D : Doc} {G : Forest} {op : ListOp} : Sess E maxSize P D → Step D.forest op G → op.run P = .ok Q → Sess E maxSize Q { D with forest := G }
  /-- a value is changed in place; it may grow to the next multiple of four bytes, which are always reserved -/
  | stored {P Q : Pool} {D : Doc} {e : Nat} {bs : List UInt8} : Sess E maxSize P D → D.forest.Elem e → bs.length ≤ aa (D.val e).length → P.wr (e + 24) bs = .ok Q →
      Sess E maxSize Q (D.store e bs)
  /-- an element gets another type of the same size -/
  | retyped {P Q : Pool} {D : Doc} {e : Nat} {t : XBT} : Sess E maxSize P D → D.forest.Elem e → P.retype e t = .ok (Q, true) → Sess E maxSize Q (D.withType e t)
  /-- an element is marked as written to another file -/
  | written {P Q : Pool} {D : Doc} {e : Nat} : Sess E maxSize P D → D.forest.Elem e → P.setWritten e = .ok Q → Sess E maxSize Q D
  | rooted {P Q : Pool} {D : Doc} {e : Nat} : Sess E maxSize P D → D.forest.Elem e → P.setRoot (some e) = .ok Q → Sess E maxSize Q { D with root := if D.root = 0 then e else D.root }
  /-- a symbol is registered, or fails to be -/
  | registered {P Q : Pool} {D : Doc} {b : Bool} {name : BStr} {t : XBT} {id : Int} : Sess E maxSize P D → name ≠ [] → (∀ x ∈ name, x ≠ 0) → ((D.syms b).length < 128 ∨ Known (D.syms b) name) →
      P.register b name t = .ok (Q, id) → 0 ≤ id → Sess E maxSize Q (D.setSyms b (registered (D.syms b) name t) (D.ready b && (position name (D.syms b)).isSome))
  | unregistered {P Q : Pool} {D : Doc} {b : Bool} {name : BStr} {t : XBT} {id : Int} : Sess E maxSize P D → name ≠ [] → (∀ x ∈ name, x ≠ 0) → ((D.syms b).length < 128 ∨ Known (D.syms b) name) →
      P.register b name t = .ok (Q, id) → id < 0 → Sess E maxSize Q (D.setSyms b (D.syms b) false)
  /-- the type of a symbol is changed -/
  | altered {P Q : Pool} {D : Doc} {b : Bool} {id : Int} {t : XBT} : Sess E maxSize P D → P.alter b id t = .ok (Q, true) →
      Sess E maxSize Q (D.setSyms b (retyped (D.syms b) id.toNat t) (D.ready b))
  /-- all symbols have been registered -/
  | allRegistered {P Q : Pool} {D : Doc} {r : Bool} : Sess E maxSize P D → P.allRegistered E = .ok (Q, r) → Sess E maxSize Q { D with ready := fun b => D.ready b || r }
  | cleared {P Q : Pool} {D : Doc} : Sess E maxSize P D → P.clear = .ok (Q, true) → Sess E maxSize Q D.cleared

end BX.Spec
