import Verif.Spec.Source
import Verif.Spec.Append
import Verif.Model.Log
/-
Batches of elements written to a file.
-/
namespace BX.Spec
open BX XBT

/-- the trees are those of the circle or list of `e`, from `e` on and around -/
structure Doc.Batch (D : Doc) (e : Nat) (Ts : List ETree) : Prop where
  round : ∃ q, e ∈ D.forest.at' q ∧ tops Ts = fromElem e (D.forest.at' q)
  below : D.BelowAll Ts
  stored : D.EveryAll D.storedElem D.storedAttr Ts

/-- `g` is the file `f` after calls of `Write` for batches with these elements, all of them. The calls are made in any states of histories of
documents with the symbols `syms`; they did not fill the buffer of the creator. -/
inductive Batches (E : Env) (maxSize : Nat) (c : Ctx) (syms : Bool → List Sym) : Img → List Elem → Img → Prop
  | none (f : Img) : Batches E maxSize c syms f [] f
  | write {P Q : Pool} {D : Doc} {e : Nat} {Ts : List ETree} {bufs : Nat → Mem} {deep fuel : Nat} {f g h : Img} {es : List Elem} : Sess E maxSize P D → (∀ b, D.ready b = true) → D.syms = syms →
      D.Batch e Ts → D.stepsAll Ts ≤ deep → P.write c bufs deep fuel f e = .ok (Q, g) → 16 + (g.size - f.size) ≤ c.limit → g.size + c.limit < 2147483648 →
      Batches E maxSize c syms g es h → Batches E maxSize c syms f (D.elemsOf Ts ++ es) h

end BX.Spec
