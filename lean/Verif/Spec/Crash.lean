import Verif.Spec.Session
/-
What a reader finds in a writable document.
-/
namespace BX.Spec
open BX XBT

/-- a reader of the pool finds the document `D`: its root, of each element the children and the attributes in their order, the identification, the type and the
value, and the names and types of its symbols. (The links backwards are not looked at. `fuel` bounds the steps of the loops, see `Pool.forwards`.) -/
structure Shows (P : Pool) (D : Doc) : Prop where
  root : P.root = D.root
  kids : ∀ p, D.forest.Elem p → ∀ fuel, (D.forest.at' (.kids p)).length < fuel → P.forwards p fuel 0 = .ok ((D.forest.at' (.kids p)).map Int.ofNat)
  attrs : ∀ p, D.forest.Elem p → ∀ fuel, (D.forest.at' (.attrs p)).length < fuel → P.listAt p 20 fuel = .ok ((D.forest.at' (.attrs p)).map Int.ofNat)
  id : ∀ p, D.forest.Elem p → P.eId p = .ok (D.id p)
  type : ∀ p, D.forest.Elem p → P.eType p = .ok (D.type p).code
  val : ∀ p, D.forest.Elem p → P.img.rd (p + 24) (D.val p).length = .ok (D.val p)
  names : ∀ b, D.ready b = true → ∀ i (h : i < (D.syms b).length), P.symName b i = .ok (some (D.syms b)[i].name) ∧ P.symType b i = .ok (some (D.syms b)[i].type)

/-- the file `f` can be opened again and shows one of the documents -/
def OpensAs (E : Env) (f : Img) (Ds : List Doc) : Prop := ∀ n, ∃ g, openFile E false n f = .ok (some g) ∧ ∃ D ∈ Ds, Shows g.pool D

/-- the stores of the calls on existing elements, see `ListOp.run` -/
def ListOp.stores (P : Pool) : ListOp → Out (List Store)
  | .add p t => P.addStores p t
  | .join a b => P.joinStores a b
  | .remove p t => P.removeStores p t
  | .replace p old new => P.replaceStores p old new
  | .cut e => .ok [.word (e + 20) 0]
  | .tie e a => .ok [.word (e + 20) a]

/-- the call removes or replaces the first of several elements of a list -/
def ListOp.first (F : Forest) : ListOp → Prop
  | .remove p t => (F.at' (F.home p t)).head? = some t ∧ 2 ≤ (F.at' (F.home p t)).length
  | .replace p old _ => (F.at' (F.home p old)).head? = some old ∧ 2 ≤ (F.at' (F.home p old)).length
  | _ => False

end BX.Spec
