import Verif.Spec.Tree
/-
Histories of appends and what iterating over children returns.
-/
namespace BX.Spec
open BX XBT

/-- calling `getNextChild` on the item at `x`, starting with the iterator `i`, until it returns null, returns these items -/
inductive Lists (f : Img) (x : Int) : Int → List Int → Prop
  | done (i i' : Int) : f.getNextChild x i = .ok (none, i') → Lists f x i []
  | next (i y i' : Int) (ys : List Int) : f.getNextChild x i = .ok (some y, i') → Lists f x i' ys → Lists f x i (y :: ys)

/-- the item at `x` has the children `ys` followed by the append marker -/
structure Marked (f : Img) (x : Int) (ys : List Int) : Prop where
  count : f.childcount x = .ok ((ys.length : Int) + 1)
  child : ∀ i (h : i < ys.length), f.getChildByIndex x i = .ok (some ys[i]) ∧ ∃ nm, f.name ys[i] = .ok nm ∧ nm ≠ -9
  marker : ∃ y, f.getChildByIndex x ys.length = .ok (some y) ∧ f.name y = .ok (-9)

/-- one call of `Append`: the creator (its tables and buffer size), the old contents of its buffer, the element -/
structure AppendOp where
  c : Ctx
  m0 : Mem
  e : Elem

/-- `g` is `f` after these appends: each of them succeeded without filling the buffer -/
inductive Grows : Img → List AppendOp → Img → Prop
  | nil (f : Img) : Grows f [] f
  | cons {f g h : Img} {op : AppendOp} {ops : List AppendOp} : append op.c op.m0 f op.e = .ok g → f.size % 16 + (g.size - f.size) < op.c.limit →
      f.size + op.c.limit < 2147483648 → Grows g ops h → Grows f (op :: ops) h

/-- the appended element has only values that are stored faithfully, and the creator uses the ids of the file's dictionary -/
structure Appendable (f : Img) (r : Rd) (op : AppendOp) : Prop where
  flt : ∀ s, (op.c.flt s).length = 4
  tree : TreeOk op.c.ptype op.e
  names : NamesIn (TagOk f r op.c) (ParOk f r op.c) op.e

/-- the items at `zs` read as the appended elements, in order -/
def ReadsOps (f : Img) (r : Rd) (ops : List AppendOp) (zs : List Int) : Prop :=
  zs.length = ops.length ∧ ∀ i (h : i < ops.length) (h' : i < zs.length), Reads ops[i].c.flt ops[i].c.ptype f r ops[i].e zs[i]

end BX.Spec
